import Verif.Proofs.Profile

/-! Simulations of one structure, described by different stacks (C83). -/

namespace Nannos

open Matrix Spec

section
variable {m : Type} [Fintype m] [DecidableEq m]

/-- Every tangential field is a combination of the modes. -/
theorem M_det_of {L : Modes m} (hphi : L.phi.det ≠ 0) (hq : ∀ i, L.q i ≠ 0) {W X : Matrix m m ℂ} (hW : W = X * L.Q)
    (hE : W * L.phi = L.phi * diagonal fun k => L.q k ^ 2) : L.M.det ≠ 0 := by
  intro h0
  obtain ⟨v, hv, hv0⟩ := Matrix.exists_mulVec_eq_zero_iff.mpr h0
  apply hv
  obtain ⟨x, y, rfl⟩ : ∃ x y, v = Sum.elim x y := ⟨v ∘ Sum.inl, v ∘ Sum.inr, by simp⟩
  unfold Modes.M at hv0
  rw [fromBlocks_mulVec] at hv0
  simp only [Sum.elim_comp_inl, Sum.elim_comp_inr, neg_mulVec] at hv0
  have e1 : L.amat *ᵥ x + -(L.amat *ᵥ y) = 0 := funext fun i => congrFun hv0 (.inl i)
  have e2 : L.phi *ᵥ x + L.phi *ᵥ y = 0 := funext fun i => congrFun hv0 (.inr i)
  have hy : y = -x := by
    have : x + y = 0 := mulVec_inj hphi (by rw [mulVec_add, e2, mulVec_zero])
    exact (neg_eq_of_add_eq_zero_right this).symm
  have hx : x = 0 := by
    have hA : L.amat *ᵥ x = 0 := by
      rw [hy, mulVec_neg, neg_neg] at e1
      funext i
      have := congrFun e1 i
      simp only [Pi.add_apply, Pi.zero_apply] at this ⊢
      linear_combination this / 2
    have hA2 : L.amat *ᵥ x = L.Q *ᵥ (L.phi *ᵥ fun j => x j / L.q j) := by
      rw [mulVec_mulVec]
      funext i
      simp only [mulVec, dotProduct, amat_apply, mul_apply]
      refine Finset.sum_congr rfl fun j _ => ?_
      ring
    have h3 : W *ᵥ (L.phi *ᵥ fun j => x j / L.q j) = 0 := by
      rw [hW, ← mulVec_mulVec, ← hA2, hA, mulVec_zero]
    rw [mulVec_mulVec, hE, ← mulVec_mulVec] at h3
    have h4 := mulVec_inj hphi (h3.trans (mulVec_zero _).symm)
    funext j
    have h5 := congrFun h4 j
    rw [mulVec_diagonal] at h5
    have := hq j
    simp only [Pi.zero_apply] at h5 ⊢
    field_simp at h5
    simpa [this] using h5
  rw [hy, hx]
  funext i
  rcases i <;> simp

end

variable {E E' : Ext} {c c' : Static} {mats mats' : ℕ → LayerSpec} {A : ℕ → LayerAttr c.nh} {A' : ℕ → LayerAttr c'.nh}

/-- All components multiplied by one factor. -/
noncomputable def scaleF {n : ℕ} (lam : ℂ) (F : FieldF n) : FieldF n :=
  ⟨lam • F.ex, lam • F.ey, lam • F.ez, lam • F.hx, lam • F.hy, lam • F.hz⟩

theorem FieldSpec.smul {L : LayerSpec} {a : LayerAttr c.nh} {M : Modes (Idx c.nh)} {x y : Idx c.nh → ℂ} {z : ℝ} {F}
    (h : FieldSpec c L a M x y z F) (lam : ℂ) : FieldSpec c L a M (lam • x) (lam • y) z (scaleF lam F) := by
  have t := tanField_smul M lam x y z
  have tE : ∀ k, tanE M (lam • x) (lam • y) z k = lam * tanE M x y z k := fun k => congrFun (congrArg Prod.fst t) k
  have tH : ∀ k, tanH M (lam • x) (lam • y) z k = lam * tanH M x y z k := fun k => congrFun (congrArg Prod.snd t) k
  refine ⟨fun i => ?_, fun i => ?_, fun i => ?_, fun i => ?_, fun i => ?_, ?_⟩
  · rw [tH, ← h.hx]; rfl
  · rw [tH, ← h.hy]; rfl
  · rw [tE]
    change lam * F.ex i = _
    rw [h.ex]; ring
  · rw [tE]
    change lam * F.ey i = _
    rw [h.ey]; ring
  · change lam * F.hz i = (c.kx i * (lam * F.ey i) - c.ky i * (lam * F.ex i)) / c.omega
    rw [h.hz]; ring
  · have hd : (fun i => (c.ky i * (scaleF lam F).hx i - c.kx i * (scaleF lam F).hy i) / (c.omega : ℂ)) =
        lam • fun i => (c.ky i * F.hx i - c.kx i * F.hy i) / (c.omega : ℂ) := by
      funext i
      change (c.ky i * (lam * F.hx i) - c.kx i * (lam * F.hy i)) / (c.omega : ℂ) = lam * _
      ring
    rw [hd]
    have e := h.ez
    revert e
    generalize (fun i => (c.ky i * F.hx i - c.kx i * F.hy i) / (c.omega : ℂ)) = d
    intro e
    change _ = Except.ok (lam • F.ez)
    unfold normalE at e ⊢
    split at e
    · rename_i hu
      rw [if_pos hu]
      split at e
      · cases e
      · rename_i h0
        rw [if_neg h0, ← Except.ok.inj e]
        congr 1
        funext i
        simp only [Pi.smul_apply, smul_eq_mul]
        ring
    · rename_i hu
      rw [if_neg hu]
      rw [bind_eq_ok] at e
      obtain ⟨p, hp, e⟩ := e
      rw [hp]
      change linSolveVec p.epsHat (lam • d) = _
      unfold linSolveVec at e ⊢
      split at e
      · cases e
      · rename_i h0
        rw [if_neg h0, ← Except.ok.inj e, mulVec_smul]

theorem poyntingFlux_some {M : Modes (Idx c.nh)} (h : ∀ k, (c.omega : ℂ) * M.q k ≠ 0) (a b : Idx c.nh → ℂ) :
    ∃ f, poyntingFlux c M a b = .ok f := by
  unfold poyntingFlux
  rw [if_neg (by push Not; exact h)]
  exact ⟨_, rfl⟩

theorem orderFlux_smul (M : Modes (Idx c.nh)) (lam : ℂ) (x : Idx c.nh → ℂ) (i : Fin c.nh) :
    orderFlux c M (lam • x) i = ‖lam‖ ^ 2 * orderFlux c M x i := by
  unfold orderFlux
  rw [mulVec_smul, mulVec_smul]
  simp only [Pi.smul_apply, smul_eq_mul, star_mul']
  rw [← Complex.re_ofReal_mul]
  congr 1
  have : star lam * lam = ((‖lam‖ ^ 2 : ℝ) : ℂ) := by
    rw [Complex.star_def, mul_comm, Complex.mul_conj, Complex.normSq_eq_norm_sq]
  rw [← this]
  ring

theorem modesD_z {n : ℕ} (L : LayerSpec) (a : LayerAttr n) : (modesD L a).z = thicknessOf L := by
  unfold Modes.z modesD thicknessOf
  dsimp only

/-- In the layers of a simulation which has returned something every field is a combination of modes. -/
theorem good_layers (hmu : ∀ r ∈ c.stack, (mats r).mu = 1) (hE : EigContract E) (hw : WellPlaced mats c.stack)
    (hf : ∀ r ∈ c.stack, LayerFix E c mats A r) (hs : Steps (stackModes c mats A)) (hom : c.omega ≠ 0) :
    GoodLayers (stackModes c mats A) := by
  intro L hL
  obtain ⟨k, hk⟩ := List.mem_iff_getElem?.mp hL
  have hq := hs.q hk
  have hkl := (List.getElem?_eq_some_iff.mp hk).1
  have h2 := hs.1
  have hlen := stackModes_length c mats A
  refine ⟨?_, hq⟩
  obtain ⟨r, hr⟩ : ∃ r, c.stack[k]? = some r := ⟨_, List.getElem?_eq_getElem (by omega)⟩
  obtain rfl : modesD (mats r) (A r) = L := by
    unfold stackModes at hk
    rw [List.getElem?_map, hr] at hk
    simpa using hk
  obtain ⟨P, e, m1, m2⟩ := solved_medium (stack := c.stack) hmu hE hw hf k r hr
  obtain ⟨ev, v1, v2⟩ := m2.eig
  have hW : waveMatrix c.omega c.kx c.ky P e⁻¹ * (modesD (mats r) (A r)).phi =
      (modesD (mats r) (A r)).phi * diagonal fun k => (modesD (mats r) (A r)).q k ^ 2 := by
    unfold modesD
    rw [v1]; exact v2
  have hQ : (modesD (mats r) (A r)).Q = (c.omega : ℂ) ^ 2 • 1 - kEps c.kx c.ky e⁻¹ := by
    unfold modesD
    rw [m2.Q]; rfl
  refine M_det_of ?_ hq (by rw [hQ]; exact waveMatrix_factor hom c.kx c.ky P e⁻¹) hW
  rcases Nat.lt_or_ge (k + 1) (stackModes c mats A).length with h1 | h1
  · obtain ⟨S, S', hst⟩ := hs.2 k _ _ hk (List.getElem?_eq_getElem h1)
    exact phi_det_left hst
  · obtain ⟨j, rfl⟩ : ∃ j, k = j + 1 := ⟨k - 1, by omega⟩
    obtain ⟨S, S', hst⟩ := hs.2 j _ _ (List.getElem?_eq_getElem (by omega)) hk
    refine phi_det_right hst hW ?_
    obtain ⟨ev', v1', v2'⟩ := solved_q (stack := c.stack) hw hf _ r hr
    have hq' : (modesD (mats r) (A r)).q = ev'.1 := by unfold modesD; rw [v1']; rfl
    rw [hq']
    exact fun i j hij => by rw [v2' i, v2' j, hij]

/-- What is required of the two simulations. -/
structure MediaAlike (σ : Fin c.nh → Fin c'.nh) (E E' : Ext) (mats mats' : ℕ → LayerSpec) (r0 rN : ℕ) (ins : List ℕ)
    (r0' rN' : ℕ) (ins' : List ℕ) : Prop where
  stack : c.stack = r0 :: (ins ++ [rN])
  stack' : c'.stack = r0' :: (ins' ++ [rN'])
  inj : Function.Injective σ
  mu : ∀ r ∈ c.stack, (mats r).mu = 1
  mu' : ∀ r ∈ c'.stack, (mats' r).mu = 1
  eigc : EigContract E
  eigc' : EigContract E'
  placed : WellPlaced mats c.stack
  placed' : WellPlaced mats' c'.stack
  omega : c'.omega = c.omega
  om0 : c.omega ≠ 0
  hkx : ∀ i, c'.kx (σ i) = c.kx i
  hky : ∀ i, c'.ky (σ i) = c.ky i
  nonneg : ∀ r ∈ ins, 0 ≤ thicknessOf (mats r)
  nonneg' : ∀ r ∈ ins', 0 ≤ thicknessOf (mats' r)
  top : materialOf (mats' r0') = materialOf (mats r0)
  bottom : materialOf (mats' rN') = materialOf (mats rN)
  inside : ∀ z, 0 ≤ z → foundAt (ins'.map fun r => (materialOf (mats' r), thicknessOf (mats' r))) z =
    foundAt (ins.map fun r => (materialOf (mats r), thicknessOf (mats r))) z
  med : ∀ r ∈ c.stack, ∀ r' ∈ c'.stack, materialOf (mats' r') = materialOf (mats r) → ∀ P e P' e',
    Medium E c mats r P e → Medium E' c' mats' r' P' e' → P' * embU σ = embU σ * P ∧ e' * embD σ = embD σ * e
  head : (mats r0).isUniform = true
  a0 : c'.a0 = embU σ *ᵥ c.a0
  flux : c'.incidentFlux = c.incidentFlux

theorem material_uniform {L L' : LayerSpec} (h : materialOf L' = materialOf L) : L'.isUniform = L.isUniform := by
  unfold LayerSpec.isUniform
  rw [show L'.epsilon = L.epsilon from congrArg Material.epsilon h]

variable {σ : Fin c.nh → Fin c'.nh} {r0 rN r0' rN' : ℕ} {ins ins' : List ℕ}

theorem MediaAlike.alike (h : MediaAlike σ E E' mats mats' r0 rN ins r0' rN' ins')
    (hf : ∀ r ∈ c.stack, LayerFix E c mats A r) (hf' : ∀ r ∈ c'.stack, LayerFix E' c' mats' A' r)
    (hs : Steps (stackModes c mats A)) (hs' : Steps (stackModes c' mats' A')) :
    StackAlike (embU σ) (modesD (mats r0) (A r0)) (modesD (mats rN) (A rN)) (ins.map fun r => modesD (mats r) (A r))
      (modesD (mats' r0') (A' r0')) (modesD (mats' rN') (A' rN')) (ins'.map fun r => modesD (mats' r) (A' r)) := by
  have g := good_layers h.mu h.eigc h.placed hf hs h.om0
  have g' := good_layers h.mu' h.eigc' h.placed' hf' hs' (by rw [h.omega]; exact h.om0)
  unfold stackModes at g g'
  rw [h.stack] at g
  rw [h.stack'] at g'
  have m0 : r0 ∈ c.stack := by rw [h.stack]; simp
  have m0' : r0' ∈ c'.stack := by rw [h.stack']; simp
  have mN : rN ∈ c.stack := by rw [h.stack]; simp
  have mN' : rN' ∈ c'.stack := by rw [h.stack']; simp
  have alike : ∀ r ∈ c.stack, ∀ r' ∈ c'.stack, materialOf (mats' r') = materialOf (mats r) →
      Alike (embU σ) (modesD (mats r) (A r)) (modesD (mats' r') (A' r')) := by
    intro r hr r' hr' hm
    obtain ⟨k, hk⟩ := List.mem_iff_getElem?.mp hr
    obtain ⟨k', hk'⟩ := List.mem_iff_getElem?.mp hr'
    obtain ⟨P, e, m1, m2⟩ := solved_medium (stack := c.stack) h.mu h.eigc h.placed hf k r hk
    obtain ⟨P', e', m1', m2'⟩ := solved_medium (stack := c'.stack) h.mu' h.eigc' h.placed' hf' k' r' hk'
    obtain ⟨hP, he⟩ := h.med r hr r' hr' hm P e P' e' m1 m1'
    obtain ⟨ev, v1, v2⟩ := m2.eig
    obtain ⟨ev', v1', v2'⟩ := m2'.eig
    obtain ⟨w1, w2⟩ := embU_wave (om := c.omega) h.inj h.hkx h.hky (embD_inv he m2'.det m2.det) hP
    refine ⟨?_, waveMatrix c.omega c.kx c.ky P e⁻¹, waveMatrix c.omega c'.kx c'.ky P' e'⁻¹, w1, ?_, ?_⟩
    · unfold modesD
      rw [m2.Q, m2'.Q, h.omega]
      exact w2
    · unfold modesD
      rw [v1]; exact v2
    · unfold modesD
      rw [v1', ← h.omega]; exact v2'
  have a0 := alike r0 m0 r0' m0' h.top
  refine ⟨fun L hL => g L ?_, fun L hL => g' L ?_, ?_, ?_, ?_, a0, alike rN mN rN' mN' h.bottom, ?_, ?_⟩
  · simp only [List.map_cons, List.map_append, List.map_nil, List.mem_cons]
    exact .inr hL
  · simp only [List.map_cons, List.map_append, List.map_nil, List.mem_cons]
    exact .inr hL
  · intro L hL
    obtain ⟨r, hr, rfl⟩ := List.mem_map.mp hL
    rw [modesD_z]
    exact h.nonneg r hr
  · intro L hL
    obtain ⟨r, hr, rfl⟩ := List.mem_map.mp hL
    rw [modesD_z]
    exact h.nonneg' r hr
  · have hc0 : (mats r0).iscopy = false := by
      by_contra hcon
      obtain ⟨⟨j, hj, -⟩, -⟩ := h.placed 0 r0 (by rw [h.stack]; rfl) (by simpa using hcon)
      omega
    have hc0' : (mats' r0').iscopy = false := by
      by_contra hcon
      obtain ⟨⟨j, hj, -⟩, -⟩ := h.placed' 0 r0' (by rw [h.stack']; rfl) (by simpa using hcon)
      omega
    obtain ⟨p1, q1⟩ := head_modes (hf r0 m0) hc0 h.head
    obtain ⟨p2, q2⟩ := head_modes (hf' r0' m0') hc0' (by rw [material_uniform h.top]; exact h.head)
    refine ⟨p1, p2, fun i i' hU => ?_⟩
    obtain ⟨j, hj⟩ := embU_ne hU
    have he : (mats' r0').epsilon = (mats r0).epsilon := congrArg Material.epsilon h.top
    rw [q1, q2]
    rcases hj with ⟨rfl, rfl⟩ | ⟨rfl, rfl⟩ <;>
      simp only [Sum.elim_inl, Sum.elim_inr] <;> rw [h.mu r0 m0, h.mu' r0' m0', he, h.omega, h.hkx, h.hky]
  · intro i j hij
    obtain ⟨k, hk⟩ := List.mem_iff_getElem?.mp mN
    obtain ⟨k', hk'⟩ := List.mem_iff_getElem?.mp mN'
    obtain ⟨ev, v1, v2⟩ := solved_q (stack := c.stack) h.placed hf _ rN hk
    obtain ⟨ev', v1', v2'⟩ := solved_q (stack := c'.stack) h.placed' hf' _ rN' hk'
    have hq : (modesD (mats rN) (A rN)).q = ev.1 := by unfold modesD; rw [v1]; rfl
    have hq' : (modesD (mats' rN') (A' rN')).q = ev'.1 := by unfold modesD; rw [v1']; rfl
    rw [hq, hq'] at hij ⊢
    rw [v2 i, v2' j, hij, material_uniform h.bottom]
  · intro z hz
    have e1 : slabsOf (ins.map fun r => modesD (mats r) (A r)) =
        (ins.map fun r => (r, thicknessOf (mats r))).map fun x => (modesD (mats x.1) (A x.1), x.2) := by
      unfold slabsOf
      rw [List.map_map, List.map_map]
      refine List.map_congr_left fun r _ => ?_
      simp [modesD_z]
    have e2 : slabsOf (ins'.map fun r => modesD (mats' r) (A' r)) =
        (ins'.map fun r => (r, thicknessOf (mats' r))).map fun x => (modesD (mats' x.1) (A' x.1), x.2) := by
      unfold slabsOf
      rw [List.map_map, List.map_map]
      refine List.map_congr_left fun r _ => ?_
      simp [modesD_z]
    have e3 : (ins.map fun r => (materialOf (mats r), thicknessOf (mats r))) =
        (ins.map fun r => (r, thicknessOf (mats r))).map fun x => (materialOf (mats x.1), x.2) := by
      rw [List.map_map]; rfl
    have e4 : (ins'.map fun r => (materialOf (mats' r), thicknessOf (mats' r))) =
        (ins'.map fun r => (r, thicknessOf (mats' r))).map fun x => (materialOf (mats' x.1), x.2) := by
      rw [List.map_map]; rfl
    have hin := h.inside z hz
    rw [e3, e4, foundAt_map (fun r => materialOf (mats r)), foundAt_map (fun r => materialOf (mats' r))] at hin
    rw [e1, e2, foundAt_map (fun r => modesD (mats r) (A r)), foundAt_map (fun r => modesD (mats' r) (A' r))]
    rcases h1 : foundAt (ins.map fun r => (r, thicknessOf (mats r))) z with _ | r <;>
      rcases h2 : foundAt (ins'.map fun r => (r, thicknessOf (mats' r))) z with _ | r'
    · exact .none
    · rw [h1, h2] at hin; simp at hin
    · rw [h1, h2] at hin; simp at hin
    · rw [h1, h2] at hin
      obtain ⟨d, hd⟩ := foundAt_mem h1
      obtain ⟨d', hd'⟩ := foundAt_mem h2
      obtain ⟨s, hs, hs2⟩ := List.mem_map.mp hd
      obtain ⟨s', hs', hs2'⟩ := List.mem_map.mp hd'
      obtain rfl : s = r := (Prod.mk.inj hs2).1
      obtain rfl : s' = r' := (Prod.mk.inj hs2').1
      exact .some (alike s (by rw [h.stack]; simp [hs]) s' (by rw [h.stack']; simp [hs']) (by simpa using hin))

theorem MediaAlike.modes (h : c.stack = r0 :: (ins ++ [rN])) : stackModes c mats A =
    modesD (mats r0) (A r0) :: ((ins.map fun r => modesD (mats r) (A r)) ++ [modesD (mats rN) (A rN)]) := by
  unfold stackModes
  rw [h]
  simp

/-- The factor which the incident wave acquires where the second superstrate is thicker. -/
def Delay (c : Static) (L0 : Modes (Idx c.nh)) (d : ℝ) (lam : ℂ) : Prop :=
  ∀ i, c.a0 i * Complex.exp (Complex.I * L0.q i * d) = lam * (c.a0 i * Complex.exp (Complex.I * L0.q i * L0.z))

/-- The efficiencies agree. -/
theorem MediaAlike.efficiencies (h : MediaAlike σ E E' mats mats' r0 rN ins r0' rN' ins')
    (hf : ∀ r ∈ c.stack, LayerFix E c mats A r) (hf' : ∀ r ∈ c'.stack, LayerFix E' c' mats' A' r)
    {lam : ℂ} (hl : Delay c (modesD (mats r0) (A r0)) (thicknessOf (mats' r0')) lam)
    (hback : ∀ b f g, poyntingFlux c (modesD (mats r0) (A r0)) c.a0 b = .ok f →
      poyntingFlux c (modesD (mats r0) (A r0)) c.a0 (lam • b) = .ok g → g.2 = f.2) (hn : ‖lam‖ = 1)
    {RT RT'} (hv : EffV c mats A (.ok ()) RT) (hv' : EffV c' mats' A' (.ok ()) RT') :
    (∀ i, RT'.1 (σ i) = RT.1 i ∧ RT'.2 (σ i) = RT.2 i) ∧
    ∀ i', (∀ i, i' ≠ σ i) → RT'.1 i' = 0 ∧ RT'.2 i' = 0 := by
  obtain ⟨-, S, s0, sN, M0, MN, f0, fN, hS, hr0, hrN, hM0, hMN, hf0, hfN, hne, rfl⟩ := hv
  obtain ⟨-, S', s0', sN', M0', MN', f0', fN', hS', hr0', hrN', hM0', hMN', hf0', hfN', hne', rfl⟩ := hv'
  have st := steps_of_valS hf hS
  have st' := steps_of_valS hf' hS'
  have ss := h.alike hf hf' st st'
  have hlen := stackModes_length c mats A
  have hlen' := stackModes_length c' mats' A'
  have l1 : c.stack.length = ins.length + 2 := by rw [h.stack]; simp
  have l1' : c'.stack.length = ins'.length + 2 := by rw [h.stack']; simp
  have full : ∀ {b : Static} {F : Ext} {m2 : ℕ → LayerSpec} {B : ℕ → LayerAttr b.nh} {T},
      (∀ r ∈ b.stack, LayerFix F b m2 B r) → valS b m2 B (.ok ()) none = .ok T →
      loopS (stackModes b m2 B) (0 : ℕ) (((stackModes b m2 B).length - 1 : ℕ) : ℤ) = .ok T := by
    intro b F m2 B T hfx hT
    have hst2 := (steps_of_valS hfx hT).1
    rw [valS_none, valS_solved hfx] at hT
    have hl := stackModes_length b m2 B
    have : ((b.stack.length : ℤ) - 1) = (((stackModes b m2 B).length - 1 : ℕ) : ℤ) := by omega
    rw [this] at hT
    exact ((freshS_ok (i := 0)).mp hT).2
  obtain ⟨amp, a1, a2, a3, a4⟩ := solution_ext c.a0 (full hf hS)
  obtain ⟨amp', b1, b2, b3, b4⟩ := solution_ext c'.a0 (full hf' hS')
  have a1' := a1
  rw [MediaAlike.modes h.stack] at a1'
  obtain ⟨hcons, ha0, hbN⟩ := a1'
  simp only [List.length_cons, List.length_append, List.length_map, List.length_nil, zero_add, Nat.add_sub_cancel] at hcons hbN
  have hhd := ss.first.head (lam := lam) (a := c.a0) ss.head.1 ss.head.2.1 ss.head.2.2 (by rw [modesD_z]; exact hl) (amp 0).2 0
  rw [add_zero, add_zero] at hhd
  obtain ⟨amp2, d1, d2, d5⟩ := ss.carryOver (amp := fun k => (lam • (amp k).1, lam • (amp k).2)) (by rw [List.length_map]; exact consistent_smul hcons lam)
    (by rw [List.length_map]; dsimp only; rw [hbN, smul_zero]) (ab0 := (embU σ *ᵥ c.a0, lam • (embU σ *ᵥ (amp 0).2)))
    (by dsimp only; rw [hhd, ha0])
  rw [← MediaAlike.modes h.stack'] at d1
  have d4 := b4 amp2 (by rw [h.a0]; exact d1)
  have k0 : c.stack[0]? = some s0 := (pyGet_nat c.stack 0 s0).mp hr0
  have k0' : c'.stack[0]? = some s0' := (pyGet_nat c'.stack 0 s0').mp hr0'
  have kN := SameMedia.pyGet_last hrN
  have kN' := SameMedia.pyGet_last hrN'
  obtain rfl : r0 = s0 := by rw [h.stack] at k0; simpa using k0
  obtain rfl : r0' = s0' := by rw [h.stack'] at k0'; simpa using k0'
  obtain rfl : rN = sN := by
    rw [l1, h.stack] at kN
    simpa using kN
  obtain rfl : rN' = sN' := by
    rw [l1', h.stack'] at kN'
    simpa using kN'
  have md : ∀ {b : Static} {F : Ext} {m2 : ℕ → LayerSpec} {B : ℕ → LayerAttr b.nh}
      (_ : ∀ r ∈ b.stack, LayerFix F b m2 B r) {r : ℕ} {M}, r ∈ b.stack → modesOf (m2 r) (B r) = .ok M →
      M = modesD (m2 r) (B r) := by
    intro b F m2 B hfx r M hr hM
    rw [(hfx r hr).form.modesD] at hM
    exact (Except.ok.inj hM).symm
  obtain rfl := md hf (List.mem_of_getElem? k0) hM0
  obtain rfl := md hf' (List.mem_of_getElem? k0') hM0'
  obtain rfl := md hf (List.mem_of_getElem? kN) hMN
  obtain rfl := md hf' (List.mem_of_getElem? kN') hMN'
  have eb : S'.s21 *ᵥ c'.a0 = embU σ *ᵥ (lam • (S.s21 *ᵥ c.a0)) := by
    rw [← a2, ← b2, ← d4 0 (by omega), d2, mulVec_smul]
  have hfwd := d5 0
  rw [List.length_map, List.length_map, d4 _ (by omega)] at hfwd
  have ea : amp (ins.length + 1) = (S.s11 *ᵥ c.a0, 0) := by
    rw [show ins.length + 1 = (stackModes c mats A).length - 1 by omega]
    exact Prod.ext a3 a1.2.2
  have eb' : amp' (ins'.length + 1) = (S'.s11 *ᵥ c'.a0, 0) := by
    rw [show ins'.length + 1 = (stackModes c' mats' A').length - 1 by omega]
    exact Prod.ext b3 b1.2.2
  rw [ea, eb'] at hfwd
  dsimp only at hfwd
  rw [smul_zero] at hfwd
  obtain ⟨g0, hg0⟩ := poyntingFlux_some (poyntingFlux_ok hf0) c.a0 (lam • (S.s21 *ᵥ c.a0))
  obtain ⟨gN, hgN⟩ := poyntingFlux_some (poyntingFlux_ok hfN) (lam • (S.s11 *ᵥ c.a0)) 0
  obtain ⟨k1, k2⟩ := efficiencies_core h.inj h.omega h.om0 h.a0 hg0 hgN hf0' hfN' ss.head ss.first.Q eb
    ⟨congrArg Prod.fst hfwd, congrArg Prod.snd hfwd⟩
  have e0 := hback _ _ _ hf0 hg0
  have eN : ∀ i, gN.1 i = fN.1 i := by
    intro i
    rw [flux_forward hgN, flux_forward hfN, orderFlux_smul, hn, one_pow, one_mul]
  dsimp only
  rw [h.flux]
  constructor
  · intro i
    rw [(k1 i).1, (k1 i).2, e0, eN]
    exact ⟨rfl, rfl⟩
  · intro i' hi
    rw [(k2 i' hi).1, (k2 i' hi).2]
    simp

/-- The fields agree at the same depth, in the same material. -/
theorem MediaAlike.fields (h : MediaAlike σ E E' mats mats' r0 rN ins r0' rN' ins')
    (hf : ∀ r ∈ c.stack, LayerFix E c mats A r) (hf' : ∀ r ∈ c'.stack, LayerFix E' c' mats' A' r)
    {lam : ℂ} (hl : Delay c (modesD (mats r0) (A r0)) (thicknessOf (mats' r0')) lam) {r r' : ℕ} {i i' : ℤ} {ab ab'}
    (hr : pyGet c.stack i = .ok r) (hr' : pyGet c'.stack i' = .ok r')
    (hv : AmpV c mats A (.ok ()) i ab) (hv' : AmpV c' mats' A' (.ok ()) i' ab')
    {M M'} (hM : modesOf (mats r) (A r) = .ok M) (hM' : modesOf (mats' r') (A' r') = .ok M') {z z' F F'}
    (hF : FieldSpec c (mats r) (A r) M ab.1 ab.2 z F)
    (hF' : FieldSpec c' (mats' r') (A' r') M' ab'.1 ab'.2 z' F') {k k' : ℕ} (hi : pyIdx c.stack.length i = some k)
    (hi' : pyIdx c'.stack.length i' = some k') (hin : InsideLayer mats c.stack k z) (hin' : InsideLayer mats' c'.stack k' z')
    (hd : depthOf mats c.stack k z - thicknessOf (mats r0) = depthOf mats' c'.stack k' z' - thicknessOf (mats' r0'))
    (hmat : materialOf (mats' r') = materialOf (mats r)) :
    FieldsWithin σ (scaleF lam F) F' := by
  have ss := h.alike hf hf' (steps_of_ampV hf hv) (steps_of_ampV hf' hv')
  obtain ⟨k1, u1, amp, v1, v2, v3⟩ := ampV_solution hf hv
  obtain ⟨k1', u1', amp', v1', v2', v3'⟩ := ampV_solution hf' hv'
  obtain rfl := Option.some.inj (hi.symm.trans u1)
  obtain rfl := Option.some.inj (hi'.symm.trans u1')
  have w1 := v1
  have w1' := v1'
  rw [MediaAlike.modes h.stack] at w1
  rw [MediaAlike.modes h.stack'] at w1'
  obtain ⟨hcons, ha0, hbN⟩ := w1
  obtain ⟨hcons', -, -⟩ := w1'
  simp only [List.length_cons, List.length_append, List.length_map, List.length_nil, zero_add, Nat.add_sub_cancel]
    at hcons hbN hcons'
  have hhd := ss.first.head (lam := lam) (a := c.a0) ss.head.1 ss.head.2.1 ss.head.2.2 (by rw [modesD_z]; exact hl) (amp 0).2
  have hhd0 := hhd 0
  rw [add_zero, add_zero] at hhd0
  have hcl := consistent_smul hcons lam
  obtain ⟨amp2, d1, d2, -⟩ := ss.carryOver (amp := fun k => (lam • (amp k).1, lam • (amp k).2)) (by rw [List.length_map]; exact hcl)
    (by rw [List.length_map]; dsimp only; rw [hbN, smul_zero]) (ab0 := (embU σ *ᵥ c.a0, lam • (embU σ *ᵥ (amp 0).2)))
    (by dsimp only; rw [hhd0, ha0])
  rw [← MediaAlike.modes h.stack'] at d1
  have l1 : c.stack.length = ins.length + 2 := by rw [h.stack]; simp
  have l1' : c'.stack.length = ins'.length + 2 := by rw [h.stack']; simp
  have d4 := v3' amp2 (by rw [h.a0]; exact d1) 0 (by omega)
  rw [d4] at d2
  have d3 : ∀ s, tanField (modesD (mats' r0') (A' r0')) (amp' 0).1 (amp' 0).2 ((modesD (mats' r0') (A' r0')).z + s) =
      push (embU σ) (tanField (modesD (mats r0) (A r0)) (lam • (amp 0).1) (lam • (amp 0).2)
        ((modesD (mats r0) (A r0)).z + s)) := by
    intro s
    rw [d2, ha0]
    exact hhd s
  have d30 := d3 0
  rw [add_zero, add_zero] at d30
  obtain ⟨g1, g2, g3⟩ := ss.fields (amp := fun k => (lam • (amp k).1, lam • (amp k).2)) (amp' := amp')
    (by rw [List.length_map]; exact hcl) (by rw [List.length_map]; exact hcons') d30
  have pos : ∀ {b : Static} {i : ℤ} {k r : ℕ}, pyGet b.stack i = .ok r → pyIdx b.stack.length i = some k →
      b.stack[k]? = some r := by
    intro b i k r hr u
    unfold pyGet at hr
    rw [u] at hr
    dsimp only at hr
    rcases hc : b.stack[k]? with _ | s
    · rw [hc] at hr; simp at hr
    · rw [hc] at hr; exact congrArg some (Except.ok.inj hr)
  have hk := pos hr hi
  have hk' := pos hr' hi'
  have hrm := List.mem_of_getElem? hk
  have hrm' := List.mem_of_getElem? hk'
  obtain rfl : M = modesD (mats r) (A r) := by
    rw [(hf r hrm).form.modesD] at hM
    exact (Except.ok.inj hM).symm
  obtain rfl : M' = modesD (mats' r') (A' r') := by
    rw [(hf' r' hrm').form.modesD] at hM'
    exact (Except.ok.inj hM').symm
  obtain ⟨P, e, m1, m2⟩ := solved_medium (stack := c.stack) h.mu h.eigc h.placed hf k r hk
  obtain ⟨P', e', m1', m2'⟩ := solved_medium (stack := c'.stack) h.mu' h.eigc' h.placed' hf' k' r' hk'
  obtain ⟨hP, he⟩ := h.med r hrm r' hrm' hmat P e P' e' m1 m1'
  have key : tanField (modesD (mats' r') (A' r')) ab'.1 ab'.2 z' =
      push (embU σ) (tanField (modesD (mats r) (A r)) (lam • ab.1) (lam • ab.2) z) := by
    obtain ⟨s, hs, i1, i2⟩ := hin
    obtain ⟨s', hs', i1', i2'⟩ := hin'
    obtain rfl := Option.some.inj (hk.symm.trans hs)
    obtain rfl := Option.some.inj (hk'.symm.trans hs')
    rw [← v2, ← v2']
    unfold depthOf at hd
    -- total thickness above a point of a lower layer
    have tot : ∀ {b : Static} {m2 : ℕ → LayerSpec} {B : ℕ → LayerAttr b.nh} {s0 sN : ℕ} {is : List ℕ} (j r : ℕ) (z : ℝ),
        b.stack = s0 :: (is ++ [sN]) → j ≤ is.length →
        ((b.stack.take (j + 1)).map fun r => thicknessOf (m2 r)).sum + z =
        thicknessOf (m2 s0) + total (above (is.map fun r => modesD (m2 r) (B r)) j (modesD (m2 r) (B r)) z) := by
      intro b m2 B s0 sN is j r z hb hj
      rw [hb, List.take_succ_cons, List.map_cons, List.sum_cons, List.take_append_of_le_length hj, add_assoc]
      congr 1
      unfold total above slabsOf
      rw [List.map_append, List.sum_append, ← List.map_take, List.map_map, List.map_map]
      simp only [List.map_cons, List.map_nil, List.sum_cons, List.sum_nil, add_zero]
      congr 2
    have lay : ∀ {b : Static} {m2 : ℕ → LayerSpec} {B : ℕ → LayerAttr b.nh} {s0 sN : ℕ} {is : List ℕ} (j r : ℕ),
        b.stack = s0 :: (is ++ [sN]) → b.stack[j + 1]? = some r →
        ((is.map fun r => modesD (m2 r) (B r)) ++ [modesD (m2 sN) (B sN)])[j]? = some (modesD (m2 r) (B r)) := by
      intro b m2 B s0 sN is j r hb hr
      rw [hb, List.getElem?_cons_succ] at hr
      rw [show ((is.map fun r => modesD (m2 r) (B r)) ++ [modesD (m2 sN) (B sN)]) =
        (is ++ [sN]).map fun r => modesD (m2 r) (B r) by simp, List.getElem?_map, hr]
      rfl
    have bound := (List.getElem?_eq_some_iff.mp hk).1
    have bound' := (List.getElem?_eq_some_iff.mp hk').1
    have fst : k = 0 → r = r0 := by
      rintro rfl
      rw [h.stack] at hk
      simpa using hk.symm
    have fst' : k' = 0 → r' = r0' := by
      rintro rfl
      rw [h.stack'] at hk'
      simpa using hk'.symm
    rcases k with _ | j <;> rcases k' with _ | j'
    · obtain rfl := fst rfl
      obtain rfl := fst' rfl
      simp only [List.take_zero, List.map_nil, List.sum_nil, zero_add] at hd
      have := d3 (z - thicknessOf (mats r))
      rw [modesD_z, modesD_z, show thicknessOf (mats' r') + (z - thicknessOf (mats r)) = z' by linarith,
        add_sub_cancel] at this
      exact this
    · obtain rfl := fst rfl
      have i1' : 0 ≤ z' := i1'.resolve_left (by omega)
      have i2 : z ≤ thicknessOf (mats r) := i2.resolve_left (by omega)
      have hL' := lay (m2 := mats') (B := A') j' r' h.stack' hk'
      have hn := total_nonneg (above_good ss.good' ss.nonneg' hL' i1').nonneg
      rw [tot (B := A') j' r' z' h.stack' (by omega)] at hd
      simp only [List.take_zero, List.map_nil, List.sum_nil, zero_add] at hd
      have e1 : total (above (ins'.map fun r => modesD (mats' r) (A' r)) j' (modesD (mats' r') (A' r')) z') = 0 := by
        apply le_antisymm _ hn
        linarith
      have e2 : z = (modesD (mats r) (A r)).z := by rw [modesD_z]; linarith
      rw [e2]
      exact g2 j' _ z' hL' i1' e1
    · obtain rfl := fst' rfl
      have i1 : 0 ≤ z := i1.resolve_left (by omega)
      have i2' : z' ≤ thicknessOf (mats' r') := i2'.resolve_left (by omega)
      have hL := lay (m2 := mats) (B := A) j r h.stack hk
      have hn := total_nonneg (above_good ss.good ss.nonneg hL i1).nonneg
      rw [tot (B := A) j r z h.stack (by omega)] at hd
      simp only [List.take_zero, List.map_nil, List.sum_nil, zero_add] at hd
      have e1 : total (above (ins.map fun r => modesD (mats r) (A r)) j (modesD (mats r) (A r)) z) = 0 := by
        apply le_antisymm _ hn
        linarith
      have e2 : z' = (modesD (mats' r') (A' r')).z := by rw [modesD_z]; linarith
      rw [e2]
      exact g1 j _ z hL i1 e1
    · have i1 : 0 ≤ z := i1.resolve_left (by omega)
      have i1' : 0 ≤ z' := i1'.resolve_left (by omega)
      rw [tot (B := A) j r z h.stack (by omega), tot (B := A') j' r' z' h.stack' (by omega)] at hd
      refine g3 j _ z j' _ z' (lay (m2 := mats) (B := A) j r h.stack hk) (lay (m2 := mats') (B := A') j' r' h.stack' hk')
        i1 i1' ?_ ?_ (by linarith)
      · intro hj
        rw [List.length_map] at hj
        rw [modesD_z]
        exact i2.resolve_left (by omega)
      · intro hj
        rw [List.length_map] at hj
        rw [modesD_z]
        exact i2'.resolve_left (by omega)
  exact fields_core (ab := (lam • ab.1, lam • ab.2)) h.inj h.omega h.hkx h.hky (hF.smul lam) hF' m2 m2' he
    (congrArg Prod.fst key) (congrArg Prod.snd key)

end Nannos
