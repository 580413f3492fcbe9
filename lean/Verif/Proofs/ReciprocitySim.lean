import Verif.Proofs.ReciprocityStack

/-! Reciprocity (C72, C73): solved simulations. -/

namespace Nannos

open Matrix Spec

variable {E : Ext} {c c' : Static} {mats : ℕ → LayerSpec}

/-- What a solved stack provides. -/
structure Stacked (E : Ext) (c : Static) (mats : ℕ → LayerSpec) (A : ℕ → LayerAttr c.nh) (SM : SMat (Idx c.nh)) (n : ℕ)
    (amp : ℕ → (Idx c.nh → ℂ) × (Idx c.nh → ℂ)) : Prop where
  fix : ∀ r ∈ c.stack, LayerFix E c mats A r
  len : c.stack.length = n + 2
  cons : Consistent (stackModes c mats A) 0 (n + 1) amp
  first : amp 0 = (c.a0, SM.s21 *ᵥ c.a0)
  last : amp (n + 1) = (SM.s11 *ᵥ c.a0, 0)
  modes : ∀ k r : ℕ, c.stack[k]? = some r → ∃ M, modesOf (mats r) (A r) = .ok M ∧ (stackModes c mats A)[k]? = some M ∧
    (∀ i, M.q i ≠ 0) ∧ M.thickness = (mats r).thickness

theorem stacked {A : ℕ → LayerAttr c.nh} (hfix : ∀ r ∈ c.stack, LayerFix E c mats A r) (hne : c.stack ≠ [])
    {SM} (hSM : valS c mats A (.ok ()) none = .ok SM) : ∃ n amp, Stacked E c mats A SM n amp := by
  have hlen := stackModes_length c mats A
  have hpos' : 0 < c.stack.length := List.length_pos_iff.mpr hne
  have hfull : 0 < c.stack.length - 1 ∧
      loopS (stackModes c mats A) (0 : ℕ) (((stackModes c mats A).length - 1 : ℕ) : ℤ) = .ok SM := by
    rw [valS_none, valS_solved hfix] at hSM
    have : ((c.stack.length : ℤ) - 1) = (((stackModes c mats A).length - 1 : ℕ) : ℤ) := by
      rw [hlen]; omega
    rw [this] at hSM
    have := (freshS_ok (i := 0)).mp hSM
    rw [hlen] at this ⊢
    exact this
  obtain ⟨hlt, hloop⟩ := hfull
  obtain ⟨amp, ⟨hcons, ha0, hbN⟩, hb0, haN, -⟩ := solution_ext c.a0 hloop
  have hqs := loopS_q hloop (by rw [hlen]; exact hlt)
  obtain ⟨n, hn⟩ : ∃ n, c.stack.length = n + 2 := ⟨c.stack.length - 2, by omega⟩
  have hn' : (stackModes c mats A).length - 1 = n + 1 := by omega
  rw [hn'] at hcons hbN haN
  refine ⟨n, amp, hfix, hn, hcons, Prod.ext ha0 hb0, Prod.ext haN hbN, fun k r hk => ?_⟩
  have hs := hfix r (List.mem_of_getElem? hk)
  have hM := hs.form.modesD
  have hL : (stackModes c mats A)[k]? = some (modesD (mats r) (A r)) := by
    unfold stackModes
    rw [List.getElem?_map, hk]
    rfl
  have hkl := (List.getElem?_eq_some_iff.mp hk).1
  exact ⟨_, hM, hL, hqs k _ (by omega) hL, rfl⟩

theorem not_copy_uniform {stack : List ℕ} (hw : WellPlaced mats stack) {k r : ℕ} (hk : stack[k]? = some r)
    (hu : (mats r).isUniform = true) : (mats r).iscopy = false := by
  by_contra hcon
  obtain ⟨-, hu', -⟩ := hw k r hk (by simpa using hcon)
  rw [hu] at hu'
  simp at hu'

/-- Everything two simulations with opposite wave vectors need. -/
structure OppositePair (E : Ext) (c c' : Static) (mats : ℕ → LayerSpec) (σ : Fin c.nh ≃ Fin c'.nh) : Prop where
  opp : Opposite c c' σ
  om : c.omega ≠ 0
  nd : c.harmonics.Nodup
  form : ∀ r ∈ c.stack, SymmetricFormulation c.formulation c.lattice.is1D (mats r)
  form1 : c.lattice.is1D = true → c.formulation = "original" ∨ c.formulation = "tangent"
  eig : EigContract E
  placed : WellPlaced mats c.stack
  placed' : WellPlaced mats c'.stack
  mu : ∀ r ∈ c.stack, (mats r).mu = 1
  recip : ∀ r ∈ c.stack, Reciprocal (mats r)
  mem : ∀ r, r ∈ c'.stack ↔ r ∈ c.stack

theorem OppositePair.layer {σ : Fin c.nh ≃ Fin c'.nh} (h : OppositePair E c c' mats σ) {A : ℕ → LayerAttr c.nh}
    {A' : ℕ → LayerAttr c'.nh} (hf : ∀ r ∈ c.stack, LayerFix E c mats A r)
    (hf' : ∀ r ∈ c'.stack, LayerFix E c' mats A' r) {r : ℕ} (hr : r ∈ c.stack)
    {M : Modes (Idx c.nh)} (hM : modesOf (mats r) (A r) = .ok M) (hq : ∀ k, M.q k ≠ 0)
    {M' : Modes (Idx c'.nh)} (hM' : modesOf (mats r) (A' r) = .ok M') (hq' : ∀ k, M'.q k ≠ 0)
    (x y : Idx c.nh → ℂ) (x' y' : Idx c'.nh → ℂ) {s : ℝ} (hs : s * s = 1) (t z : ℝ) :
    react s (twice σ) M M' x y x' y' 0 t = react s (twice σ) M M' x y x' y' z (t + s * z) := by
  obtain ⟨k, hk⟩ := List.getElem?_of_mem hr
  obtain ⟨k', hk'⟩ := List.getElem?_of_mem ((h.mem r).mpr hr)
  obtain ⟨P, e, m1, m2⟩ := solved_medium h.mu h.eig h.placed hf k r hk
  obtain ⟨P', e', m1', m2'⟩ := solved_medium (fun r hr => h.mu r ((h.mem r).mp hr)) h.eig h.placed' hf' k' r hk'
  obtain ⟨hP, he⟩ := medium_opposite h.opp h.nd h.form1 h.form h.placed h.mu m1 hr (h.recip r hr) P' e' m1'
  exact layer_react h.opp h.om m2 m2' hP he hM hq hM' hq' x y x' y' hs t z

/-- Two waves from the same side. -/
theorem OppositePair.same_side {σ : Fin c.nh ≃ Fin c'.nh} (h : OppositePair E c c' mats σ) (hst : c'.stack = c.stack)
    {A : ℕ → LayerAttr c.nh} {A' : ℕ → LayerAttr c'.nh} {SM SM' n n' amp amp'} (hs : Stacked E c mats A SM n amp)
    (hs' : Stacked E c' mats A' SM' n' amp') {r0 : ℕ} (hr0 : c.stack[0]? = some r0)
    (hu0 : (mats r0).isUniform = true) (huN : ∀ rN, c.stack[n + 1]? = some rN → (mats rN).isUniform = true)
    {M0 : Modes (Idx c.nh)} (hM0 : modesOf (mats r0) (A r0) = .ok M0) :
    ∃ g, UniformFlux c (mats r0).epsilon.value M0 g ∧ ∑ i, Complex.exp (Complex.I * g i * (M0.z : ℂ)) *
      (crossFlux c.omega (mats r0).epsilon.value (c.kx i) (c.ky i) (g i) (c.a0 (.inl i)) (c.a0 (.inr i))
          ((SM'.s21 *ᵥ c'.a0) (.inl (σ i))) ((SM'.s21 *ᵥ c'.a0) (.inr (σ i))) -
        crossFlux c.omega (mats r0).epsilon.value (c.kx i) (c.ky i) (g i) (c'.a0 (.inl (σ i))) (c'.a0 (.inr (σ i)))
          ((SM.s21 *ᵥ c.a0) (.inl i)) ((SM.s21 *ᵥ c.a0) (.inr i))) = 0 := by
  obtain rfl : n = n' := by
    have := hs.len
    have := hs'.len
    rw [hst] at this
    omega
  obtain ⟨rN, hrN⟩ : ∃ rN, c.stack[n + 1]? = some rN := ⟨_, List.getElem?_eq_getElem (by rw [hs.len]; omega)⟩
  have hr0' : c'.stack[0]? = some r0 := hst ▸ hr0
  have hrN' : c'.stack[n + 1]? = some rN := hst ▸ hrN
  obtain ⟨M, hM, hL0, hq0, ht0⟩ := hs.modes 0 r0 hr0
  obtain ⟨M0', hM0', hL0', hq0', ht0'⟩ := hs'.modes 0 r0 hr0'
  obtain ⟨MN, hMN, hLN, hqN, htN⟩ := hs.modes _ rN hrN
  obtain ⟨MN', hMN', hLN', hqN', htN'⟩ := hs'.modes _ rN hrN'
  rw [hM0] at hM
  cases hM
  have m0 := List.mem_of_getElem? hr0
  have mN := List.mem_of_getElem? hrN
  obtain ⟨-, g, hu⟩ := uniform_flux (hs.fix r0 m0) (not_copy_uniform h.placed hr0 hu0) hu0 (h.mu _ m0) hM0
  obtain ⟨-, g', hu'⟩ := uniform_flux (hs'.fix r0 (hst ▸ m0)) (not_copy_uniform h.placed hr0 hu0) hu0 (h.mu _ m0) hM0'
  have hun := huN rN hrN
  obtain ⟨-, gN, hv⟩ := uniform_flux (hs.fix rN mN) (not_copy_uniform h.placed hrN hun) hun (h.mu _ mN) hMN
  obtain ⟨-, gN', hv'⟩ := uniform_flux (hs'.fix rN (hst ▸ mN)) (not_copy_uniform h.placed hrN hun) hun (h.mu _ mN) hMN'
  have hlen := stackModes_length c mats A
  have hlen' := stackModes_length c' mats A'
  have hl := hs.len
  have hl' := hs'.len
  have key := stack_react (σ := twice σ) (amp := amp) (amp' := amp') hL0 hL0' n (by omega) (by omega) hs.cons hs'.cons (by
    intro k L L' hk0 hkn hL hL'
    obtain ⟨r, hr⟩ : ∃ r, c.stack[k]? = some r := ⟨_, List.getElem?_eq_getElem (by omega)⟩
    obtain ⟨M, g1, g2, g3, g4⟩ := hs.modes k r hr
    obtain ⟨M', g1', g2', g3', g4'⟩ := hs'.modes k r (hst ▸ hr)
    rw [hL] at g2
    rw [hL'] at g2'
    cases g2
    cases g2'
    have := h.layer hs.fix hs'.fix (List.mem_of_getElem? hr) g1 g3 g1' g3' (amp k).1 (amp k).2 (amp' k).1 (amp' k).2
      (s := 1) (by norm_num) 0 L.z
    have hz : L'.z = L.z := by unfold Modes.z; rw [g4, g4']
    rw [hz]
    simpa using this) MN MN' hLN hLN'
  rw [hs.first, hs'.first, hs.last, hs'.last] at key
  dsimp only at key
  have hz : M0'.z = M0.z := by unfold Modes.z; rw [ht0, ht0']
  rw [uniform_react_out h.opp h.om hv hv', uniform_react_first h.opp h.om hu hu' hz] at key
  refine ⟨g, hu, ?_⟩
  have h2 : (2 * (c.omega : ℂ)) ≠ 0 := mul_ne_zero two_ne_zero (by exact_mod_cast h.om)
  exact (mul_eq_zero.mp key).resolve_left h2

/-- The second stack is the first turned upside down. -/
theorem OppositePair.both_sides {σ : Fin c.nh ≃ Fin c'.nh} (h : OppositePair E c c' mats σ)
    (hst : c'.stack = c.stack.reverse)
    {A : ℕ → LayerAttr c.nh} {A' : ℕ → LayerAttr c'.nh} {SM SM' n n' amp amp'} (hs : Stacked E c mats A SM n amp)
    (hs' : Stacked E c' mats A' SM' n' amp') {r0 rN : ℕ} (hr0 : c.stack[0]? = some r0) (hrN : c'.stack[0]? = some rN)
    (hu0 : (mats r0).isUniform = true) (huN : (mats rN).isUniform = true)
    {M0 : Modes (Idx c.nh)} (hM0 : modesOf (mats r0) (A r0) = .ok M0)
    {MN : Modes (Idx c.nh)} (hMN : modesOf (mats rN) (A rN) = .ok MN) :
    ∃ g gN, UniformFlux c (mats r0).epsilon.value M0 g ∧ UniformFlux c (mats rN).epsilon.value MN gN ∧
    ∑ i, Complex.exp (Complex.I * g i * (M0.z : ℂ)) *
      crossFlux c.omega (mats r0).epsilon.value (c.kx i) (c.ky i) (g i) (c.a0 (.inl i)) (c.a0 (.inr i))
          ((SM'.s11 *ᵥ c'.a0) (.inl (σ i))) ((SM'.s11 *ᵥ c'.a0) (.inr (σ i))) =
    ∑ i, Complex.exp (Complex.I * gN i * (MN.z : ℂ)) *
        crossFlux c.omega (mats rN).epsilon.value (c.kx i) (c.ky i) (gN i) (c'.a0 (.inl (σ i))) (c'.a0 (.inr (σ i)))
          ((SM.s11 *ᵥ c.a0) (.inl i)) ((SM.s11 *ᵥ c.a0) (.inr i)) := by
  have hll : c'.stack.length = c.stack.length := by rw [hst, List.length_reverse]
  have hl := hs.len
  have hl' := hs'.len
  obtain rfl : n = n' := by omega
  have hrev : ∀ k, k < n + 2 → c'.stack[n + 1 - k]? = c.stack[k]? := by
    intro k hk
    rw [hst, List.getElem?_reverse (by omega)]
    congr 1
    omega
  have hr0' : c'.stack[n + 1]? = some r0 := by
    have := hrev 0 (by omega)
    rw [Nat.sub_zero] at this
    rw [this]; exact hr0
  have hrNc : c.stack[n + 1]? = some rN := by
    have := hrev (n + 1) (by omega)
    rw [Nat.sub_self] at this
    rw [← this]; exact hrN
  obtain ⟨M, hM, hL0, hq0, ht0⟩ := hs.modes 0 r0 hr0
  obtain ⟨M0', hM0', hL0', hq0', ht0'⟩ := hs'.modes _ r0 hr0'
  obtain ⟨M2, hM2, hLN, hqN, htN⟩ := hs.modes _ rN hrNc
  obtain ⟨MN', hMN', hLN', hqN', htN'⟩ := hs'.modes _ rN hrN
  rw [hM0] at hM
  cases hM
  rw [hMN] at hM2
  cases hM2
  have m0 := List.mem_of_getElem? hr0
  have mN := List.mem_of_getElem? hrNc
  obtain ⟨-, g, hu⟩ := uniform_flux (hs.fix r0 m0) (not_copy_uniform h.placed hr0 hu0) hu0 (h.mu _ m0) hM0
  obtain ⟨-, g', hu'⟩ := uniform_flux (hs'.fix r0 ((h.mem _).mpr m0)) (not_copy_uniform h.placed hr0 hu0) hu0 (h.mu _ m0) hM0'
  obtain ⟨-, gN, hv⟩ := uniform_flux (hs.fix rN mN) (not_copy_uniform h.placed hrNc huN) huN (h.mu _ mN) hMN
  obtain ⟨-, gN', hv'⟩ := uniform_flux (hs'.fix rN ((h.mem _).mpr mN)) (not_copy_uniform h.placed hrNc huN) huN (h.mu _ mN) hMN'
  have hlen := stackModes_length c mats A
  have hlen' := stackModes_length c' mats A'
  have key := stack_react_flip (σ := twice σ) (amp := amp) (amp' := amp') (N := n + 1) (by omega) (by omega) hL0 hL0' hs.cons hs'.cons (by
    intro k L L' hk0 hkn hL hL'
    obtain ⟨r, hr⟩ : ∃ r, c.stack[k]? = some r := ⟨_, List.getElem?_eq_getElem (by omega)⟩
    obtain ⟨M, g1, g2, g3, g4⟩ := hs.modes k r hr
    obtain ⟨M', g1', g2', g3', g4'⟩ := hs'.modes (n + 1 - k) r ((hrev k (by omega)).trans hr)
    rw [hL] at g2
    rw [hL'] at g2'
    cases g2
    cases g2'
    have := h.layer hs.fix hs'.fix (List.mem_of_getElem? hr) g1 g3 g1' g3' (amp k).1 (amp k).2 (amp' (n + 1 - k)).1
      (amp' (n + 1 - k)).2 (s := -1) (by norm_num) L'.z L.z
    have hz : L'.z = L.z := by unfold Modes.z; rw [g4, g4']
    rw [hz] at this ⊢
    simpa using this) n le_rfl MN MN' hLN (by rw [Nat.sub_self]; exact hLN')
  rw [Nat.sub_self, hs.first, hs'.first, hs.last, hs'.last] at key
  dsimp only at key
  rw [uniform_react_in_out h.opp h.om hu hu', uniform_react_out_in h.opp h.om hv hv'] at key
  have hz : MN'.z = MN.z := by unfold Modes.z; rw [htN, htN']
  rw [hz] at key
  have h2 : (2 * (c.omega : ℂ)) ≠ 0 := mul_ne_zero two_ne_zero (by exact_mod_cast h.om)
  exact ⟨g, gN, hu, hv, mul_left_cancel₀ h2 key⟩

end Nannos
