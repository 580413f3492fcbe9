import Verif.Proofs.EnergyEnds

/-! Energy balance of a solved stack (C32, C33). -/

namespace Nannos

open Matrix Spec

variable {E : Ext} {c : Static}
variable {mats : ℕ → LayerSpec} {A0 A1 : ℕ → LayerAttr c.nh} {res : Except PyErr Unit}

/-- What `diffraction_efficiencies` has computed. -/
def EffV (c : Static) (mats : ℕ → LayerSpec) (A1 : ℕ → LayerAttr c.nh) (res : Except PyErr Unit)
    (RT : (Fin c.nh → ℝ) × (Fin c.nh → ℝ)) : Prop :=
  res = .ok () ∧ ∃ S r0 rN M0 MN f0 fN, valS c mats A1 res none = .ok S ∧
      pyGet c.stack 0 = .ok r0 ∧ pyGet c.stack (-1) = .ok rN ∧
      modesOf (mats r0) (A1 r0) = .ok M0 ∧ modesOf (mats rN) (A1 rN) = .ok MN ∧
      poyntingFlux c M0 c.a0 (S.s21 *ᵥ c.a0) = .ok f0 ∧ poyntingFlux c MN (S.s11 *ᵥ c.a0) 0 = .ok fN ∧
      c.incidentFlux ≠ 0 ∧ RT = (fun i => -f0.2 i / c.incidentFlux, fun i => fN.1 i / c.incidentFlux)

section
variable (hs : SolveSpec E c mats A0 A1 res)
include hs

theorem yields_flux (i : ℤ) (an bn : Idx c.nh → ℂ) :
    Yields (Inv E c mats A0 A1 res) (getZPoyntingFlux E c i an bn)
      (fun f d => Inv2 E c mats A0 A1 res d ∧ res = .ok () ∧ ∃ r M, pyGet c.stack i = .ok r ∧
        modesOf (mats r) (A1 r) = .ok M ∧ poyntingFlux c M an bn = .ok f) := by
  unfold getZPoyntingFlux
  refine Yields.bind (yields_ensureSolved hs) fun _ => Yields.get_bind fun d hd => ?_
  obtain ⟨hd, hres⟩ := hd
  refine Yields.bind (Q := fun M d' => d' = d ∧ layerModes c d i = .ok M)
    (Yields.lift _ fun M d' h1 h2 => ⟨h2, h1⟩) fun M => ?_
  refine Yields.lift _ fun f d' h1 h2 => ?_
  obtain ⟨rfl, h2⟩ := h2
  refine ⟨hd, hres, ?_⟩
  unfold layerModes at h2
  rw [bind_eq_ok] at h2
  obtain ⟨r, hr, hM⟩ := h2
  rw [hd.1.mats_eq, hd.attrs_eq] at hM
  exact ⟨r, M, hr, hM, h1⟩

theorem yields_efficiencies : Yields (Inv E c mats A0 A1 res) (efficienciesByOrder E c)
    (fun RT _ => EffV c mats A1 res RT) := by
  unfold efficienciesByOrder
  refine Yields.bind (Q := fun _ d => Inv E c mats A0 A1 res d) ?_ fun _ => ?_
  · unfold ensureS
    refine Yields.get_bind fun d hd => ?_
    intro d0 a d' h0 h
    obtain rfl : d0 = d := h0
    rcases hS : d0.S with _ | T
    · rw [hS] at h
      refine (Yields.bind (Q := fun _ d => Inv E c mats A0 A1 res d)
        ((yields_getS hs none).mono (fun _ h => h) fun _ _ h => h.1.1)
        (fun _ => Yields.pure (Q := fun _ d => Inv E c mats A0 A1 res d) _ fun _ h => h)) d0 a d' hd h
    · rw [hS] at h
      exact Yields.pure (Q := fun _ d => Inv E c mats A0 A1 res d) _ (fun _ h => h) d0 a d' hd h
  refine Yields.bind (yields_solveExt hs (fun _ h => h) fun _ h => h.1) fun ab => ?_
  rintro d RT d' ⟨hd, S, hS, rfl⟩ h
  revert h
  dsimp only
  refine (Yields.bind (R := fun RT _ => EffV c mats A1 res RT)
    (yields_flux hs 0 c.a0 (S.s21 *ᵥ c.a0)) fun f0 => ?_) d RT d' hd
  rintro d1 RT1 d1' ⟨hd1, hres, r0, M0, hr0, hM0, hf0⟩ h
  revert h
  refine (Yields.bind (R := fun RT _ => EffV c mats A1 res RT)
    (yields_flux hs (-1) (S.s11 *ᵥ c.a0) 0) fun fN => ?_) d1 RT1 d1' hd1.1
  rintro d2 RT2 d2' ⟨-, -, rN, MN, hrN, hMN, hfN⟩ h
  revert h
  refine (Yields.bind (R := fun RT _ => EffV c mats A1 res RT)
    (P := fun _ => True) (Q := fun _ _ => c.incidentFlux ≠ 0)
    (Yields.lift _ fun a _ h _ => by rw [raiseIf_ok] at h; exact h) fun _ => ?_) d2 RT2 d2' trivial
  exact Yields.pure _ fun d hd => ⟨hres, S, r0, rN, M0, MN, f0, fN, hS, hr0, hrN, hM0, hMN, hf0, hfN, hd, rfl⟩

end

/-- No mode of a stack whose scattering matrix exists has zero propagation constant. -/
theorem loopS_q {m : Type} [Fintype m] [DecidableEq m] {layers : List (Modes m)} :
    ∀ {n : ℕ} {S : SMat m}, loopS layers (0 : ℕ) ((n : ℕ) : ℤ) = .ok S → 0 < n →
      ∀ k L, k ≤ n → layers[k]? = some L → ∀ i, L.q i ≠ 0 := by
  intro n
  induction n with
  | zero => intro S _ h; omega
  | succ n ih =>
    intro S h _ k L hk hL
    obtain ⟨S1, L1, L2, h1, h2, h3, h4⟩ := loopS_succ_ok (Nat.zero_le _) h
    obtain ⟨I, -, hI, -⟩ := stepS_ok h4
    obtain ⟨q1, q2, -⟩ := (buildI_ok _ _ _).mp hI
    rcases Nat.lt_or_ge k n with hlt | hge
    · exact ih h1 (by omega) k L hlt.le hL
    · rcases Nat.lt_or_ge k (n + 1) with hk1 | hk1
      · obtain rfl : k = n := by omega
        rw [hL] at h2
        cases h2
        exact q1
      · obtain rfl : k = n + 1 := by omega
        rw [hL] at h3
        cases h3
        exact q2

theorem power_match {nh : ℕ} {L L' : Modes (Idx nh)} {a b a' b'} (h : Match L L' a b a' b') :
    power L a b L.z = power L' a' b' 0 := by
  unfold power
  rw [h.1, h.2]

/-- The power lost between the bottom of the first layer and the top of layer `n + 1`. -/
theorem stack_loss {S : Set ℝ} {D : ℝ → Prop} (hS : LossCone S D) {layers : List (Modes (Idx c.nh))}
    {amp : ℕ → (Idx c.nh → ℂ) × (Idx c.nh → ℂ)} {L0 : Modes (Idx c.nh)} (hL0 : layers[0]? = some L0) :
    ∀ n, n + 1 < layers.length → Consistent layers 0 (n + 1) amp →
      (∀ k L, 0 < k → k ≤ n → layers[k]? = some L →
        power L (amp k).1 (amp k).2 0 - power L (amp k).1 (amp k).2 L.z ∈ S) →
      ∀ L', layers[n + 1]? = some L' →
        power L0 (amp 0).1 (amp 0).2 L0.z - power L' (amp (n + 1)).1 (amp (n + 1)).2 0 ∈ S := by
  intro n
  induction n with
  | zero =>
    intro _ hc _ L' hL'
    rw [power_match (hc 0 L0 L' le_rfl (by omega) hL0 hL'), sub_self]
    exact hS.zero
  | succ n ih =>
    intro hn hc hl L' hL'
    obtain ⟨L, hL⟩ : ∃ L, layers[n + 1]? = some L := ⟨_, List.getElem?_eq_getElem (by omega)⟩
    have h1 := ih (by omega) (consistent_mono (by omega) hc) (fun k L h0 hk => hl k L h0 (by omega)) L hL
    have h2 := hl (n + 1) L (by omega) le_rfl hL
    have h3 := power_match (hc (n + 1) L L' (by omega) (by omega) hL hL')
    have := hS.add h1 h2
    rw [h3] at this
    convert this using 1
    ring

/-! ### The incident wave -/

theorem zerothIndex_spec {H : List (ℤ × ℤ)} (h : ((0 : ℤ), (0 : ℤ)) ∈ H) :
    ∃ hlt : zerothIndex H < H.length, H.get ⟨zerothIndex H, hlt⟩ = (0, 0) := by
  rcases hf : H.findIdx? (· = (0, 0)) with _ | i
  · rw [List.findIdx?_eq_none_iff] at hf
    have := hf _ h
    simp at this
  · have e : zerothIndex H = i := by unfold zerothIndex; rw [hf]
    rw [List.findIdx?_eq_some_iff_getElem] at hf
    obtain ⟨h1, h2, -⟩ := hf
    subst e
    exact ⟨h1, by simpa using h2⟩

/-- Superstrate with a real positive permittivity. -/
structure GoodSup (c : Static) (exc : PlaneWave) (n : ℝ) : Prop where
  pos : 0 < n
  omega : 0 < c.omega
  kxr : ∀ i, star (c.kx i) = c.kx i
  kyr : ∀ i, star (c.ky i) = c.ky i
  flux : c.incidentFlux = Real.cos exc.theta / n
  a0_off : ∀ i : Fin c.nh, (i : ℕ) ≠ c.indexZerothOrder → c.a0 (.inl i) = 0 ∧ c.a0 (.inr i) = 0
  on : ∀ i : Fin c.nh, (i : ℕ) = c.indexZerothOrder →
    c.a0 (.inl i) = (exc.a0 0 : ℂ) ∧ c.a0 (.inr i) = (exc.a0 1 : ℂ) ∧
    c.kx i = ((exc.wavevector 0 * n : ℝ) : ℂ) ∧ c.ky i = ((exc.wavevector 1 * n : ℝ) : ℂ)
  idx : ∃ i : Fin c.nh, (i : ℕ) = c.indexZerothOrder
  omk : c.omega = 2 * Real.pi * (1 / exc.wavelength)

theorem good_sup_mu {lats stack exc nh form} (hi : InitSpec E lats mats stack exc nh form c)
    (hwl : 0 < exc.wavelength) {r0 : ℕ} (hr0 : stack.head? = some r0) {e : ℝ}
    (he : (mats r0).epsilon.value * (mats r0).mu = (e : ℂ)) (hpos : 0 < e)
    (h00 : ((0 : ℤ), (0 : ℤ)) ∈ c.harmonics) : GoodSup c exc (Real.sqrt e) := by
  obtain ⟨-, -, -, hfl, hk0⟩ := hi.sup r0 hr0
  rw [he, csqrt_ofReal hpos.le] at hfl hk0
  obtain ⟨r, -, hkx, hky⟩ := hi.recip
  obtain ⟨hlt, hget⟩ := zerothIndex_spec h00
  rw [← hi.idx] at hlt
  have hw := hi.omega_eq
  refine ⟨Real.sqrt_pos.mpr hpos, by rw [hw]; positivity, ?_, ?_, ?_, ?_, ?_, ⟨⟨_, hlt⟩, rfl⟩, hw⟩
  · intro i
    rw [hkx, hk0]
    simp [kxOf, k0para]
  · intro i
    rw [hky, hk0]
    simp [kyOf, k0para]
  · rw [hfl, ← Complex.ofReal_div, Complex.ofReal_re]
  · intro i hne
    obtain ⟨h1, h2⟩ := hi.a0 i
    exact ⟨by rw [h1, if_neg hne], by rw [h2, if_neg hne]⟩
  · intro i heq
    obtain ⟨h1, h2⟩ := hi.a0 i
    have hg : c.harmonics.get i = (0, 0) := by
      rw [← hget]
      congr 1
      exact Fin.ext (heq.trans hi.idx)
    refine ⟨by rw [h1, if_pos heq], by rw [h2, if_pos heq], ?_, ?_⟩
    · rw [hkx, hk0, hg]; simp [kxOf, k0para]
    · rw [hky, hk0, hg]; simp [kyOf, k0para]

theorem good_sup {lats stack exc nh form} (hi : InitSpec E lats mats stack exc nh form c)
    (hwl : 0 < exc.wavelength) {r0 : ℕ} (hr0 : stack.head? = some r0) (hmu : (mats r0).mu = 1) {e : ℝ}
    (he : (mats r0).epsilon.value = (e : ℂ)) (hpos : 0 < e) (h00 : ((0 : ℤ), (0 : ℤ)) ∈ c.harmonics) :
    GoodSup c exc (Real.sqrt e) :=
  good_sup_mu hi hwl hr0 (by rw [hmu, mul_one, he]) hpos h00

theorem incident_flux {exc : PlaneWave} {n : ℝ} (g : GoodSup c exc n) {wl ang}
    (hp : planeWave wl ang = .ok exc) (hcos : 0 < Real.cos exc.theta) (hwl : 0 < wl) {M : Modes (Idx c.nh)}
    {gz} (h : UniformFlux c ((n ^ 2 : ℝ) : ℂ) M gz) (hq : ∀ k, (c.omega : ℂ) * M.q k ≠ 0) :
    (∀ i, (gz i).im ≠ 0 → c.a0 (.inl i) = 0 ∧ c.a0 (.inr i) = 0) ∧
    ∑ i, orderFlux c M c.a0 i = c.incidentFlux := by
  obtain ⟨hl, hwe, -, -, -, hk, hkv, hamp, ha0⟩ := planeWave_ok hp
  have hom : c.omega = exc.wavenumber := by rw [g.omk, hk, hwe]
  have hn := g.pos
  have hw := g.omega
  have t := Real.sin_sq_add_cos_sq exc.theta
  have f := Real.sin_sq_add_cos_sq exc.phi
  have hcut : ∀ i : Fin c.nh, (i : ℕ) = c.indexZerothOrder →
      gz i = ((n * c.omega * Real.cos exc.theta : ℝ) : ℂ) := by
    intro i hi
    obtain ⟨-, -, h3, h4⟩ := g.on i hi
    rw [h.g_eq i, h3, h4]
    have : ((n ^ 2 : ℝ) : ℂ) * (c.omega : ℂ) ^ 2 - ((exc.wavevector 0 * n : ℝ) : ℂ) ^ 2 -
        ((exc.wavevector 1 * n : ℝ) : ℂ) ^ 2 = (((n * c.omega * Real.cos exc.theta) ^ 2 : ℝ) : ℂ) := by
      rw [hkv, hom]
      norm_cast
      simp
      linear_combination (-n ^ 2 * exc.wavenumber ^ 2 * Real.sin exc.theta ^ 2) * f - n ^ 2 * exc.wavenumber ^ 2 * t
    rw [this, csqrt_ofReal (by positivity), Real.sqrt_sq (by positivity)]
  refine ⟨fun i hi => ?_, ?_⟩
  · by_cases h0 : (i : ℕ) = c.indexZerothOrder
    · rw [hcut i h0] at hi
      exact absurd (Complex.ofReal_im _) hi
    · exact g.a0_off i h0
  · obtain ⟨i0, hi0⟩ := g.idx
    rw [Finset.sum_eq_single i0]
    · obtain ⟨h1, h2, h3, h4⟩ := g.on i0 hi0
      obtain ⟨A1, A2⟩ := uniform_mulVec h.phi h.q h.Q c.a0 i0
      unfold orderFlux
      rw [A1, A2, h.phi, one_mulVec, h1, h2, h3, h4, hcut i0 hi0, coefA_real, g.flux]
      obtain ⟨e1, e2⟩ := (C02_modal_amplitude_is_magnetic_amplitude wl hwl ang).2 exc hp hcos
      rw [order_form]
      obtain ⟨-, q0⟩ := ha0
      have n1 := congrFun q0 0
      have n2 := congrFun q0 1
      have hsq : Real.sqrt (exc.wavenumber ^ 2 - exc.wavevector 0 ^ 2 - exc.wavevector 1 ^ 2) =
          exc.wavenumber * Real.cos exc.theta := by
        rw [hom] at hw
        rw [show exc.wavenumber ^ 2 - exc.wavevector 0 ^ 2 - exc.wavevector 1 ^ 2 =
          (exc.wavenumber * Real.cos exc.theta) ^ 2 from ?_, Real.sqrt_sq (by positivity)]
        rw [hkv]
        simp
        linear_combination (-exc.wavenumber ^ 2 * Real.sin exc.theta ^ 2) * f - exc.wavenumber ^ 2 * t
      rw [hsq] at n1 n2
      rw [hom] at hw ⊢
      generalize exc.wavevector 0 = X at *
      generalize exc.wavevector 1 = Y at *
      generalize exc.wavenumber = w at *
      generalize Real.cos exc.theta = C at *
      generalize exc.amplitude = A at *
      generalize exc.a0 = x at *
      simp [mulVec, dotProduct, Fin.sum_univ_two] at n1 n2 e2
      have e3 : Complex.normSq (((Y * n : ℝ) : ℂ) * (x 0 : ℂ) - ((X * n : ℝ) : ℂ) * (x 1 : ℂ)) / n ^ 2 =
          (Y * x 0 - X * x 1) ^ 2 := by
        rw [← Complex.ofReal_mul, ← Complex.ofReal_mul, ← Complex.ofReal_sub, Complex.normSq_ofReal]
        field_simp
      rw [e3, Complex.normSq_ofReal, Complex.normSq_ofReal]
      have e4 : w ^ 2 * (x 0 * x 0 + x 1 * x 1) - (Y * x 0 - X * x 1) ^ 2 = w ^ 2 * C ^ 2 := by
        linear_combination x 0 * n1 + x 1 * n2 + w ^ 2 * C * e2
      rw [e4]
      field_simp
    · intro i _ hne
      obtain ⟨z1, z2⟩ := g.a0_off i (fun h0 => hne (Fin.ext (h0.trans hi0.symm)))
      obtain ⟨A1, A2⟩ := uniform_mulVec h.phi h.q h.Q c.a0 i
      unfold orderFlux
      rw [A1, A2, z1, z2]
      simp
    · intro h0; exact absurd (Finset.mem_univ _) h0

/-- The modes of a uniform isotropic layer that is not a copy. -/
theorem uniform_flux {r : ℕ} (hf : LayerFix E c mats A1 r) (hc : (mats r).iscopy = false)
    (hu : (mats r).isUniform = true) (hmu : (mats r).mu = 1) {M : Modes (Idx c.nh)}
    (hM : modesOf (mats r) (A1 r) = .ok M) :
    (mats r).epsilon.value ≠ 0 ∧ ∃ g, UniformFlux c (mats r).epsilon.value M g := by
  cases hf.form with
  | uniform Q ev _ hb he hQ ha =>
    obtain ⟨-, -, h3, h4⟩ := buildPure_uniform_ok hmu hb
    obtain ⟨-, h5, h6⟩ := solveUniform_ok he
    unfold modesOf at hM
    rw [ha, hQ] at hM
    obtain rfl : (⟨ev.1, ev.2, Q, (mats r).thickness⟩ : Modes (Idx c.nh)) = M := by simpa [attr] using hM
    refine ⟨h3, fun i => csqrt ((mats r).epsilon.value * (mats r).mu * (c.omega : ℂ) ^ 2 - c.kx i ^ 2 - c.ky i ^ 2),
      h5, h6, h4, fun i => ?_⟩
    rw [hmu, mul_one]
  | patterned M p Q ev _ hb he ha =>
    have := (buildPure_patterned_ok hmu hb).1
    rw [hu] at this
    simp at this
  | copyUniform M p Q ev hc' => rw [hc] at hc'; simp at hc'
  | copyPatterned M p Q ev hc' => rw [hc] at hc'; simp at hc'

/-- Energy balance of the efficiencies an object returns, after any history, from the signs of the permittivity operators. -/
theorem energy_balance_of {S : Set ℝ} {D : ℝ → Prop} (hS : LossCone S D) {lats stack exc nh form}
    (hinit : simInit E lats mats stack exc nh form = .ok c) (hE : EigContract E) (hw : WellPlaced mats stack)
    (hmu : ∀ r ∈ stack, (mats r).mu = 1) {wl ang} (hp : planeWave wl ang = .ok exc) (hwl : 0 < wl)
    (hcos : 0 < Real.cos exc.theta) (h00 : ((0 : ℤ), (0 : ℤ)) ∈ c.harmonics)
    {e : ℝ} (hpos : 0 < e)
    (hsup : ∀ r0, stack.head? = some r0 → (mats r0).epsilon.value = (e : ℂ))
    (hin : ∀ k r, 0 < k → k + 1 < stack.length → stack[k]? = some r →
      (∀ P ee, Medium E c mats r P ee → Form S P ∧ Form S ee) ∧ ∀ t, (mats r).thickness = some t → D t)
    (hist : List (Call c.nh)) (RT : (Fin c.nh → ℝ) × (Fin c.nh → ℝ))
    (h : (efficienciesByOrder E c (afterCalls E c hist (Dyn.fresh mats (unsolved c.nh)))).1 = .ok RT) :
    (∃ κ : ℝ, 0 < κ ∧ κ * (1 - ∑ i, RT.1 i - ∑ i, RT.2 i) ∈ S) ∧ (∀ i, 0 ≤ RT.1 i) ∧
    ∀ rN, stack.getLast? = some rN → (mats rN).isUniform = true → ∀ i, 0 ≤ RT.2 i := by
  have hi := simInit_ok hinit
  have hst : c.stack = stack := hi.stack_eq
  have hnd : c.stack.Nodup := hst ▸ hi.nodup
  obtain ⟨A1, res, hs, -⟩ := solveSpec_of_noStale (E := E) (mats := mats) hnd
    (noStale_unsolved (c := c) mats c.stack)
  have h0 : Inv E c mats (unsolved c.nh) A1 res (Dyn.fresh mats (unsolved c.nh)) := inv_fresh _ (.inl rfl)
  have h1 := h0.calls hs hist
  generalize afterCalls E c hist (Dyn.fresh mats (unsolved c.nh)) = d at h h1
  obtain ⟨hres, SM, r0, rN, M0, MN, f0, fN, hSM, hr0, hrN, hM0, hMN, hf0, hfN, hne, rfl⟩ :=
    yields_efficiencies hs d RT (efficienciesByOrder E c d).2 h1 (Prod.ext h rfl)
  have hfix := hs.fix hnd hres
  subst hres
  -- the stack
  have hlen := stackModes_length c mats A1
  have hpos' : 0 < c.stack.length := List.length_pos_iff.mpr (by
    rintro e; have := pyGet_mem hr0; rw [e] at this; simp at this)
  have hfull : 0 < c.stack.length - 1 ∧
      loopS (stackModes c mats A1) (0 : ℕ) (((stackModes c mats A1).length - 1 : ℕ) : ℤ) = .ok SM := by
    rw [valS_none, valS_solved hfix] at hSM
    have : ((c.stack.length : ℤ) - 1) = (((stackModes c mats A1).length - 1 : ℕ) : ℤ) := by
      rw [hlen]; omega
    rw [this] at hSM
    have := (freshS_ok (i := 0)).mp hSM
    rw [hlen] at this ⊢
    exact this
  obtain ⟨hlt, hloop⟩ := hfull
  obtain ⟨amp, ⟨hcons, ha0, hbN⟩, hb0, haN, -⟩ := solution_ext c.a0 hloop
  have hqs := loopS_q hloop (by rw [hlen]; exact hlt)
  have hr0' : c.stack[0]? = some r0 := (pyGet_nat c.stack 0 r0).mp hr0
  have hrN' : c.stack[c.stack.length - 1]? = some rN := by
    unfold pyGet at hrN
    have e3 : pyIdx c.stack.length (-1) = some (c.stack.length - 1) := by
      unfold pyIdx
      rw [if_neg (by omega), if_pos (by omega)]
      congr 1
      omega
    rw [e3] at hrN
    dsimp only at hrN
    rw [List.getElem?_eq_getElem (by omega)] at hrN
    rw [List.getElem?_eq_getElem (by omega)]
    exact congrArg some (Except.ok.inj hrN)
  have hmd : ∀ (k r : ℕ) (M), c.stack[k]? = some r → modesOf (mats r) (A1 r) = .ok M →
      (stackModes c mats A1)[k]? = some M := by
    intro k r M hk hM
    have hs := hfix r (List.mem_of_getElem? hk)
    rw [hs.form.modesD] at hM
    unfold stackModes
    rw [List.getElem?_map, hk, ← Except.ok.inj hM]
    rfl
  have hL0 := hmd 0 r0 M0 hr0' hM0
  have hLN := hmd _ rN MN hrN' hMN
  have hhead : stack.head? = some r0 := by rw [← hst, List.head?_eq_getElem?, hr0']
  have hm0 : r0 ∈ stack := hst ▸ pyGet_mem hr0
  have hg := good_sup hi (by rw [(planeWave_ok hp).2.1]; exact hwl) hhead (hmu r0 hm0) (hsup r0 hhead) hpos h00
  have hom := hg.omega
  have hc0 : (mats r0).iscopy = false := by
    by_contra hcon
    obtain ⟨⟨j, hj, -⟩, -⟩ := hw 0 r0 (hst ▸ hr0') (by simpa using hcon)
    omega
  obtain ⟨-, g, hu⟩ := uniform_flux (hfix r0 (pyGet_mem hr0)) hc0 (hi.sup r0 hhead).1 (hmu r0 hm0) hM0
  rw [hsup r0 hhead] at hu
  have hsq : ((Real.sqrt e ^ 2 : ℝ) : ℂ) = (e : ℂ) := by rw [Real.sq_sqrt hpos.le]
  have hq0 := poyntingFlux_ok hf0
  obtain ⟨hev, hinc⟩ := incident_flux hg hp hcos hwl (gz := g) (by rw [hsq]; exact hu) hq0
  have hR := flux_backward hu hg.kxr hg.kyr hf0 hev
  have hT := flux_forward hfN
  have pT := power_forward (c := c) hom.ne' (M := MN) (a := SM.s11 *ᵥ c.a0)
  have pB := power_bottom hom.ne' hu hg.kxr hg.kyr (b := SM.s21 *ᵥ c.a0) hq0 hev
  rw [hinc] at pB
  -- the inner layers
  have hmed := solved_medium (stack := c.stack) (by rw [hst]; exact hmu) hE (by rw [hst]; exact hw) hfix
  obtain ⟨n, hn⟩ : ∃ n, c.stack.length - 1 = n + 1 := ⟨c.stack.length - 2, by omega⟩
  have hloss := stack_loss hS (amp := amp) hL0 n (by rw [hlen]; omega)
    (by rw [hlen, hn] at hcons; exact hcons) (by
      intro k L hk0 hkn hL
      obtain ⟨r, hr⟩ : ∃ r, c.stack[k]? = some r := ⟨_, List.getElem?_eq_getElem (by omega)⟩
      obtain ⟨P, ee, m1, m2⟩ := hmed k r hr
      have hrm := List.mem_of_getElem? hr
      obtain ⟨i1, i2⟩ := hin k r hk0 (by rw [← hst]; omega) (hst ▸ hr)
      obtain ⟨FP, Fe⟩ := i1 P ee m1
      have hMk := (hfix r hrm).form.modesD
      have hLk := hmd k r _ hr hMk
      rw [hL] at hLk
      obtain rfl := Option.some.inj hLk
      refine power_loss hS hom.ne' hg.kxr hg.kyr m2 FP Fe hMk
        (hqs k _ (by rw [hlen]; omega) hL) (amp k).1 (amp k).2 ?_
      unfold Modes.z modesD
      dsimp only
      rcases ht : (mats r).thickness with _ | t
      · exact hS.zeroD
      · exact i2 t ht) MN (by rw [← hn]; exact hLN)
  rw [ha0, hb0, pB, ← hn, ← hlen, haN, hbN, pT] at hloss
  have hinc0 : 0 < c.incidentFlux := by rw [hg.flux]; exact div_pos hcos hg.pos
  refine ⟨⟨c.omega * c.incidentFlux, mul_pos hom hinc0, ?_⟩, ?_, ?_⟩
  · convert hloss using 1
    dsimp only
    rw [← Finset.sum_div, ← Finset.sum_div, Finset.sum_congr rfl fun i _ => hR i,
      Finset.sum_congr rfl fun i _ => hT i]
    field_simp
  · intro i
    dsimp only
    rw [hR i]
    exact div_nonneg (orderFlux_nonneg (by exact_mod_cast hpos.ne') hom hu hg.kxr hg.kyr hq0 _ i) hinc0.le
  · intro rN' hlast hun i
    have hrr : rN' = rN := by
      rw [← hst, List.getLast?_eq_getElem?, hrN'] at hlast
      exact (Option.some.inj hlast).symm
    subst hrr
    have hmN : rN' ∈ stack := hst ▸ pyGet_mem hrN
    have hcN : (mats rN').iscopy = false := by
      by_contra hcon
      obtain ⟨-, hu', -⟩ := hw _ rN' (hst ▸ hrN') (by simpa using hcon)
      rw [hun] at hu'
      simp at hu'
    obtain ⟨heN, gN, huN⟩ := uniform_flux (hfix rN' (pyGet_mem hrN)) hcN hun (hmu rN' hmN) hMN
    dsimp only
    rw [hT i]
    exact div_nonneg (orderFlux_nonneg heN hom huN hg.kxr hg.kyr (poyntingFlux_ok hfN) _ i) hinc0.le

/-- Energy balance of the efficiencies an object returns, after any history. -/
theorem energy_balance {S : Set ℝ} {D : ℝ → Prop} (hS : LossCone S D) {lats stack exc nh form}
    (hinit : simInit E lats mats stack exc nh form = .ok c) (hE : EigContract E) (hw : WellPlaced mats stack)
    (hmu : ∀ r ∈ stack, (mats r).mu = 1) {wl ang} (hp : planeWave wl ang = .ok exc) (hwl : 0 < wl)
    (hcos : 0 < Real.cos exc.theta) (h00 : ((0 : ℤ), (0 : ℤ)) ∈ c.harmonics)
    (hform : form = "original" ∨ c.lattice.is1D = true) {e : ℝ} (hpos : 0 < e)
    (hsup : ∀ r0, stack.head? = some r0 → (mats r0).epsilon.value = (e : ℂ))
    (hin : ∀ k r, 0 < k → k + 1 < stack.length → stack[k]? = some r →
      LossIn S (mats r) ∧ ∀ t, (mats r).thickness = some t → D t)
    (hist : List (Call c.nh)) (RT : (Fin c.nh → ℝ) × (Fin c.nh → ℝ))
    (h : (efficienciesByOrder E c (afterCalls E c hist (Dyn.fresh mats (unsolved c.nh)))).1 = .ok RT) :
    (∃ κ : ℝ, 0 < κ ∧ κ * (1 - ∑ i, RT.1 i - ∑ i, RT.2 i) ∈ S) ∧ (∀ i, 0 ≤ RT.1 i) ∧
    ∀ rN, stack.getLast? = some rN → (mats rN).isUniform = true → ∀ i, 0 ≤ RT.2 i := by
  have hi := simInit_ok hinit
  refine energy_balance_of hS hinit hE hw hmu hp hwl hcos h00 hpos hsup (fun k r h1 h2 h3 => ?_) hist RT h
  obtain ⟨i1, i2⟩ := hin k r h1 h2 h3
  refine ⟨fun P ee hm => medium_form hS (by rw [hi.form_eq]; exact hform) (fun h1d => ?_) hw hm (List.mem_of_getElem? h3) i1, i2⟩
  obtain ⟨r0, tl, e0⟩ := List.exists_cons_of_ne_nil hi.ne
  have hhead : stack.head? = some r0 := by rw [e0]; rfl
  rw [hi.form_eq]
  refine hi.form1 r0 hhead ?_
  rw [← hi.lat_eq r0 hhead]; exact h1d

end Nannos
