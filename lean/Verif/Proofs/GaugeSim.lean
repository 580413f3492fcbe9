import Verif.Proofs.Gauge

/-! Simulations whose layers have the same media return the same results (C19, C58). -/

namespace Nannos

open Matrix Spec

variable {E E' : Ext} {c : Static}
variable {mats mats' : ℕ → LayerSpec} {A A' : ℕ → LayerAttr c.nh}

theorem steps_of_valS (hf : ∀ r ∈ c.stack, LayerFix E c mats A r) {S}
    (h : valS c mats A (.ok ()) none = .ok S) : Steps (stackModes c mats A) := by
  have hlen := stackModes_length c mats A
  rw [valS_none, valS_solved hf] at h
  have hpos : 0 < c.stack.length := by
    by_contra h0
    unfold freshS at h
    rw [if_pos ((pyRange_eq_nil_iff _ _).mpr (by omega))] at h
    simp at h
  have e : ((c.stack.length : ℤ) - 1) = ((c.stack.length - 1 : ℕ) : ℤ) := by omega
  rw [e] at h
  obtain ⟨h1, h2⟩ := (freshS_ok (i := 0)).mp h
  refine ⟨by omega, fun k L L' hL hL' => loopS_steps (Nat.zero_le _) h2 k L L' (Nat.zero_le _) ?_ hL hL'⟩
  have := (List.getElem?_eq_some_iff.mp hL').1
  omega

theorem steps_of_ampV (hf : ∀ r ∈ c.stack, LayerFix E c mats A r) {i : ℤ} {ab}
    (h : AmpV c mats A (.ok ()) i ab) : Steps (stackModes c mats A) := by
  obtain ⟨⟨r, hr⟩, h⟩ := h
  have hlen := stackModes_length c mats A
  rcases h with ⟨-, S, hS, -⟩ | ⟨-, -, S, hS, -⟩ | ⟨h0, hn, hm, S, P, hS, hP, -⟩
  · exact steps_of_valS hf hS
  · exact steps_of_valS hf hS
  · rw [valS_solved hf] at hS hP
    have hpos : 0 < c.stack.length := List.length_pos_iff.mpr (by
      rintro e; have := pyGet_mem hr; rw [e] at this; simp at this)
    have hi : 0 < i := by
      by_contra hcon
      unfold freshS at hS
      rw [if_pos ((pyRange_eq_nil_iff _ _).mpr (by omega))] at hS
      simp at hS
    obtain ⟨k, rfl⟩ : ∃ k : ℕ, i = (k : ℤ) := ⟨i.toNat, by omega⟩
    have e : ((c.stack.length : ℤ) - 1) = ((c.stack.length - 1 : ℕ) : ℤ) := by omega
    rw [e] at hP
    obtain ⟨hk1, hS⟩ := (freshS_ok (i := 0)).mp hS
    obtain ⟨hk2, hP⟩ := freshS_ok.mp hP
    refine ⟨by omega, fun j L L' hL hL' => ?_⟩
    have := (List.getElem?_eq_some_iff.mp hL').1
    rcases Nat.lt_or_ge j k with hlt | hge
    · exact loopS_steps (Nat.zero_le _) hS j L L' (Nat.zero_le _) hlt hL hL'
    · exact loopS_steps (by omega) hP j L L' hge (by omega) hL hL'

/-- The propagation constants of a solved layer are a function of their squares. -/
theorem solved_q {stack : List ℕ} (hw : WellPlaced mats stack) (hf : ∀ r ∈ stack, LayerFix E c mats A r) :
    ∀ (k r : ℕ), stack[k]? = some r → ∃ ev, (A r).eig = some ev ∧
      ∀ i, ev.1 i = if (mats r).isUniform then csqrt (ev.1 i ^ 2) else modeSqrt (ev.1 i ^ 2) := by
  intro k
  induction k using Nat.strong_induction_on with
  | _ k ih =>
    intro r hr
    have hrm : r ∈ stack := List.mem_of_getElem? hr
    cases (hf r hrm).form with
    | uniform Q ev hc hb he hQ ha =>
      refine ⟨ev, ha, fun i => ?_⟩
      rw [if_pos (buildPure_uniform hb)]
      obtain ⟨-, -, e⟩ := solveUniform_ok he
      rw [e]
      rcases i with i | i <;> simp only [Sum.elim_inl, Sum.elim_inr, csqrt_sq]
    | patterned M p Q ev hc hb he ha =>
      refine ⟨ev, by rw [ha], fun i => ?_⟩
      rw [buildPure_patterned hb, if_neg (by simp)]
      unfold solveEigenproblem at he
      rw [bind_eq_ok] at he
      obtain ⟨⟨w, v⟩, -, h2⟩ := he
      simp only [except_pure_eq_ok, Except.ok.injEq] at h2
      subst h2
      simp only [modeSqrt_sq]
    | copyUniform M p Q ev hc hu hM hp hQ he ha =>
      exact absurd hu (by rw [(hw k r hr hc).2.1]; simp)
    | copyPatterned M p Q ev hc hu ho ha =>
      obtain ⟨⟨j, hj, hj'⟩, -, h3⟩ := hw k r hr hc
      obtain ⟨ev', h4, h5⟩ := ih j hj _ hj'
      have hu' : (mats (mats r).original).isUniform = false := by
        unfold LayerSpec.isUniform at hu ⊢
        rw [← h3]; exact hu
      refine ⟨ev', ?_, fun i => ?_⟩
      · rw [ha, ← ho]; exact h4
      · rw [h5 i, hu, hu']
        simp only [Bool.false_eq_true, if_false]
        rw [modeSqrt_sq]

/-- What is required of the two structures: the same media, thicknesses and superstrate; the last layers of
the same kind unless it does not matter. -/
structure SameMedia (E E' : Ext) (c : Static) (mats mats' : ℕ → LayerSpec) : Prop where
  mu : ∀ r ∈ c.stack, (mats r).mu = 1
  mu' : ∀ r ∈ c.stack, (mats' r).mu = 1
  eigc : EigContract E
  eigc' : EigContract E'
  placed : WellPlaced mats c.stack
  placed' : WellPlaced mats' c.stack
  thick : ∀ r ∈ c.stack, (mats r).thickness = (mats' r).thickness
  med : ∀ r ∈ c.stack, ∀ P e P' e', Medium E c mats r P e → Medium E' c mats' r P' e' → P = P' ∧ e = e'
  head : ∀ r, c.stack.head? = some r → mats r = mats' r ∧ (mats r).isUniform = true
  last : ∀ r, c.stack.getLast? = some r → (mats r).isUniform = (mats' r).isUniform ∨
    ((0 ≤ (mats r).epsilon.value.im ∧ (mats r).isUniform = true ∨
      0 ≤ (mats' r).epsilon.value.im ∧ (mats' r).isUniform = true) ∧ ∀ i, (c.kx i).im = 0 ∧ (c.ky i).im = 0)

theorem uniform_im {r : ℕ} (hf : LayerFix E c mats A r) (hc : (mats r).iscopy = false)
    (hu : (mats r).isUniform = true) (hmu : (mats r).mu = 1) (h0 : 0 ≤ (mats r).epsilon.value.im)
    (hk : ∀ i, (c.kx i).im = 0 ∧ (c.ky i).im = 0) {ev} (he : (A r).eig = some ev) (i : Idx c.nh) :
    csqrt (ev.1 i ^ 2) = modeSqrt (ev.1 i ^ 2) := by
  have key : 0 ≤ (csqrt (ev.1 i ^ 2)).im := by
    cases hf.form with
    | uniform Q ev' _ hb hev hQ ha =>
      rw [he] at ha
      obtain rfl := Option.some.inj ha
      obtain ⟨-, -, e⟩ := solveUniform_ok hev
      have hh : ∀ j, 0 ≤ (csqrt (csqrt ((mats r).epsilon.value * (mats r).mu * (c.omega : ℂ) ^ 2 -
          c.kx j ^ 2 - c.ky j ^ 2) ^ 2)).im := by
        intro j
        rw [csqrt_sq]
        apply csqrt_im_nonneg
        have h1 : ((c.omega : ℂ) ^ 2) = ((c.omega ^ 2 : ℝ) : ℂ) := by push_cast; rfl
        rw [hmu, mul_one, h1, Complex.sub_im, Complex.sub_im, Complex.im_mul_ofReal, pow_two (c.kx j),
          pow_two (c.ky j), Complex.mul_im, Complex.mul_im, (hk j).1, (hk j).2]
        have := mul_nonneg h0 (sq_nonneg c.omega)
        linarith
      rw [e]
      rcases i with i | i <;> exact hh i
    | patterned M p Q ev' _ hb =>
      rw [buildPure_patterned hb] at hu; simp at hu
    | copyUniform M p Q ev' hc' => rw [hc] at hc'; simp at hc'
    | copyPatterned M p Q ev' hc' => rw [hc] at hc'; simp at hc'
  unfold modeSqrt
  rw [if_neg (not_lt.mpr key)]

theorem SameMedia.sameStack (h : SameMedia E E' c mats mats') (hf : ∀ r ∈ c.stack, LayerFix E c mats A r)
    (hf' : ∀ r ∈ c.stack, LayerFix E' c mats' A' r) (hs : Steps (stackModes c mats A))
    (hs' : Steps (stackModes c mats' A')) : SameStack (stackModes c mats A) (stackModes c mats' A') := by
  have hlen := stackModes_length c mats A
  have hlen' := stackModes_length c mats' A'
  have hm := solved_medium (stack := c.stack) h.mu h.eigc h.placed hf
  have hm' := solved_medium (stack := c.stack) h.mu' h.eigc' h.placed' hf'
  have hget : ∀ (k : ℕ) L, (stackModes c mats A)[k]? = some L → ∃ r, c.stack[k]? = some r ∧
      L = modesD (mats r) (A r) := by
    intro k L hL
    unfold stackModes at hL
    rw [List.getElem?_map] at hL
    rcases hr : c.stack[k]? with _ | r
    · rw [hr] at hL; simp at hL
    · rw [hr] at hL; exact ⟨r, rfl, by simpa using hL.symm⟩
  have hget' : ∀ (k r : ℕ) L, c.stack[k]? = some r → (stackModes c mats' A')[k]? = some L →
      L = modesD (mats' r) (A' r) := by
    intro k r L hr hL
    unfold stackModes at hL
    rw [List.getElem?_map, hr] at hL
    simpa using hL.symm
  have hz : ∀ (L : LayerSpec) (a : LayerAttr c.nh), (modesD L a).z = L.thickness.getD 0 := by
    intro L a
    unfold Modes.z modesD
    dsimp only
  refine ⟨by omega, hs, hs', ?_, ?_, ?_⟩
  · -- the superstrate
    have h2 := hs.1
    obtain ⟨r, hr⟩ : ∃ r, c.stack[0]? = some r := ⟨_, List.getElem?_eq_getElem (by omega)⟩
    have hrm := List.mem_of_getElem? hr
    obtain ⟨e1, e2⟩ := h.head r (by rw [List.head?_eq_getElem?]; exact hr)
    have hc0 : (mats r).iscopy = false := by
      by_contra hcon
      obtain ⟨⟨j, hj, -⟩, -⟩ := h.placed 0 r hr (by simpa using hcon)
      omega
    unfold stackModes
    rw [List.getElem?_map, List.getElem?_map, hr]
    simp only [Option.map_some, Option.some.injEq]
    have key : ∀ {F : Ext} {m2 : ℕ → LayerSpec} {B : ℕ → LayerAttr c.nh}, LayerFix F c m2 B r →
        m2 r = mats r → modesD (m2 r) (B r) =
          ⟨Sum.elim (fun i => csqrt ((mats r).epsilon.value * (mats r).mu * (c.omega : ℂ) ^ 2 - c.kx i ^ 2 - c.ky i ^ 2))
            (fun i => csqrt ((mats r).epsilon.value * (mats r).mu * (c.omega : ℂ) ^ 2 - c.kx i ^ 2 - c.ky i ^ 2)),
            1, (c.omega : ℂ) ^ 2 • 1 - kEps c.kx c.ky ((1 / (mats r).epsilon.value) • 1), (mats r).thickness⟩ := by
      intro F m2 B hfx hmm
      cases hfx.form with
      | uniform Q ev hc hb he hQ ha =>
        obtain ⟨-, -, -, h4⟩ := buildPure_uniform_ok (by rw [hmm]; exact h.mu r hrm) hb
        obtain ⟨-, h5, h6⟩ := solveUniform_ok he
        unfold modesD
        rw [hQ, ha, h4, hmm]
        simp only [Option.getD_some]
        rw [h5, h6, hmm]
      | patterned M p Q ev hc hb =>
        have := buildPure_patterned hb
        rw [hmm, e2] at this
        simp at this
      | copyUniform M p Q ev hc => rw [hmm, hc0] at hc; simp at hc
      | copyPatterned M p Q ev hc => rw [hmm, hc0] at hc; simp at hc
    rw [key (hf r hrm) rfl, key (hf' r hrm) e1.symm]
  · -- the waves
    intro k L L' hL hL'
    obtain ⟨r, hr, rfl⟩ := hget k L hL
    obtain rfl := hget' k r L' hr hL'
    have hrm := List.mem_of_getElem? hr
    obtain ⟨P, e, m1, m2⟩ := hm k r hr
    obtain ⟨P', e', m1', m2'⟩ := hm' k r hr
    obtain ⟨rfl, rfl⟩ := h.med r hrm P e P' e' m1 m1'
    obtain ⟨ev, v1, v2⟩ := m2.eig
    obtain ⟨ev', v1', v2'⟩ := m2'.eig
    refine ⟨?_, ?_, waveMatrix c.omega c.kx c.ky P e⁻¹, ?_, ?_⟩
    · unfold modesD
      rw [m2.Q, m2'.Q]
    · rw [hz, hz, h.thick r hrm]
    · unfold modesD
      rw [v1]; exact v2
    · unfold modesD
      rw [v1']; exact v2'
  · -- the last layer
    intro L L' hL hL'
    obtain ⟨r, hr, rfl⟩ := hget _ L hL
    obtain rfl := hget' _ r L' hr hL'
    have hrm := List.mem_of_getElem? hr
    obtain ⟨ev, v1, v2⟩ := solved_q (stack := c.stack) h.placed hf _ r hr
    obtain ⟨ev', v1', v2'⟩ := solved_q (stack := c.stack) h.placed' hf' _ r hr
    have hq : (modesD (mats r) (A r)).q = ev.1 := by unfold modesD; rw [v1]; rfl
    have hq' : (modesD (mats' r) (A' r)).q = ev'.1 := by unfold modesD; rw [v1']; rfl
    rw [hq, hq']
    refine ⟨fun i j hij => by rw [v2 i, v2 j, hij], fun i j hij => ?_⟩
    have hlast : c.stack.getLast? = some r := by
      rw [List.getLast?_eq_getElem?, ← hlen]; exact hr
    have nc : ∀ {m2 : ℕ → LayerSpec}, WellPlaced m2 c.stack → (m2 r).isUniform = true →
        (m2 r).iscopy = false := by
      intro m2 hp hu
      by_contra hcon
      obtain ⟨-, hu', -⟩ := hp _ r hr (by simpa using hcon)
      rw [hu] at hu'
      simp at hu'
    rcases h.last r hlast with hu | ⟨hor, hk⟩
    · rw [v2 i, v2' j, hij, hu]
    · rcases hor with ⟨h0, hu⟩ | ⟨h0, hu⟩
      · have e1 := uniform_im (hf r hrm) (nc h.placed hu) hu (h.mu r hrm) h0 hk v1 i
        rw [v2 i, v2' j, if_pos hu]
        split_ifs
        · rw [hij]
        · rw [e1, hij]
      · have e1 := uniform_im (hf' r hrm) (nc h.placed' hu) hu (h.mu' r hrm) h0 hk v1' j
        rw [v2 i, v2' j, if_pos hu]
        split_ifs
        · rw [hij]
        · rw [e1, hij]

theorem SameMedia.pyGet_last {r : ℕ} (h : pyGet c.stack (-1) = .ok r) :
    c.stack[c.stack.length - 1]? = some r := by
  have hpos : 0 < c.stack.length := List.length_pos_iff.mpr (by
    rintro e; have := pyGet_mem h; rw [e] at this; simp at this)
  unfold pyGet at h
  have e3 : pyIdx c.stack.length (-1) = some (c.stack.length - 1) := by
    unfold pyIdx
    rw [if_neg (by omega), if_pos (by omega)]
    congr 1
    omega
  rw [e3] at h
  dsimp only at h
  rw [List.getElem?_eq_getElem (by omega)] at h
  rw [List.getElem?_eq_getElem (by omega)]
  exact congrArg some (Except.ok.inj h)

theorem orderFlux_tan (hom : c.omega ≠ 0) (M : Modes (Idx c.nh)) (a : Idx c.nh → ℂ) (i : Fin c.nh) :
    orderFlux c M a i = (star (tanE M a 0 0 (.inl i) / c.omega) * tanH M a 0 0 (.inl i) +
      star (tanE M a 0 0 (.inr i) / c.omega) * tanH M a 0 0 (.inr i)).re := by
  have h0 : (c.omega : ℂ) ≠ 0 := by exact_mod_cast hom
  unfold orderFlux
  rw [tanE_top, tanH_top, mulVec_zero, sub_zero, add_zero, amat_omega hom, smul_mulVec]
  simp only [Pi.smul_apply, smul_eq_mul, mul_div_cancel_left₀ _ h0]

variable {res res' : Except PyErr Unit}

/-- The efficiencies agree. -/
theorem SameMedia.efficiencies (h : SameMedia E E' c mats mats') (hom : c.omega ≠ 0)
    (hf : ∀ r ∈ c.stack, LayerFix E c mats A r) (hf' : ∀ r ∈ c.stack, LayerFix E' c mats' A' r)
    {RT RT'} (hv : EffV c mats A (.ok ()) RT) (hv' : EffV c mats' A' (.ok ()) RT') : RT = RT' := by
  obtain ⟨-, S, r0, rN, M0, MN, f0, fN, hS, hr0, hrN, hM0, hMN, hf0, hfN, hne, rfl⟩ := hv
  obtain ⟨-, S', r0', rN', M0', MN', f0', fN', hS', hr0', hrN', hM0', hMN', hf0', hfN', hne', rfl⟩ := hv'
  obtain rfl := Except.ok.inj (hr0.symm.trans hr0')
  obtain rfl := Except.ok.inj (hrN.symm.trans hrN')
  have st := steps_of_valS hf hS
  have st' := steps_of_valS hf' hS'
  have ss := h.sameStack hf hf' st st'
  have hlen := stackModes_length c mats A
  have hlen' := stackModes_length c mats' A'
  have h2 := st.1
  have full : ∀ {F : Ext} {m2 : ℕ → LayerSpec} {B : ℕ → LayerAttr c.nh} {T}, (∀ r ∈ c.stack, LayerFix F c m2 B r) →
      valS c m2 B (.ok ()) none = .ok T →
      loopS (stackModes c m2 B) (0 : ℕ) (((stackModes c m2 B).length - 1 : ℕ) : ℤ) = .ok T := by
    intro F m2 B T hfx hT
    rw [valS_none, valS_solved hfx] at hT
    have hl := stackModes_length c m2 B
    have : ((c.stack.length : ℤ) - 1) = (((stackModes c m2 B).length - 1 : ℕ) : ℤ) := by omega
    rw [this] at hT
    exact ((freshS_ok (i := 0)).mp hT).2
  obtain ⟨amp, a1, a2, a3, a4⟩ := solution_ext c.a0 (full hf hS)
  obtain ⟨amp', b1, b2, b3, b4⟩ := solution_ext c.a0 (full hf' hS')
  obtain ⟨amp2, d1, d2, d3⟩ := ss.transfer b1
  have d4 := a4 amp2 d1
  have hmd : ∀ {F : Ext} {m2 : ℕ → LayerSpec} {B : ℕ → LayerAttr c.nh} (_ : ∀ r ∈ c.stack, LayerFix F c m2 B r)
      (k r : ℕ) (M), c.stack[k]? = some r → modesOf (m2 r) (B r) = .ok M →
      (stackModes c m2 B)[k]? = some M := by
    intro F m2 B hfx k r M hk hM
    have hs := hfx r (List.mem_of_getElem? hk)
    rw [hs.form.modesD] at hM
    unfold stackModes
    rw [List.getElem?_map, hk, ← Except.ok.inj hM]
    rfl
  have k0 : c.stack[0]? = some r0 := (pyGet_nat c.stack 0 r0).mp hr0
  have kN := SameMedia.pyGet_last hrN
  have m0 := hmd hf 0 r0 M0 k0 hM0
  have m0' := hmd hf' 0 r0 M0' k0 hM0'
  have mN := hmd hf _ rN MN kN hMN
  have mN' := hmd hf' _ rN MN' kN hMN'
  -- reflection
  have e0 : M0 = M0' := by
    have := ss.head
    rw [m0, m0'] at this
    exact Option.some.inj this
  have eb : S.s21 *ᵥ c.a0 = S'.s21 *ᵥ c.a0 := by
    rw [← a2, ← b2, ← d4 0 (by omega), d2]
  rw [e0, eb, hf0'] at hf0
  obtain rfl := Except.ok.inj hf0
  -- transmission
  have hT : fN.1 = fN'.1 := by
    funext i
    have t := d3 _ MN MN' mN mN' 0
    rw [d4 _ (by omega)] at t
    rw [flux_forward hfN, flux_forward hfN', orderFlux_tan hom, orderFlux_tan hom]
    have ea : amp (c.stack.length - 1) = (S.s11 *ᵥ c.a0, 0) := by
      refine Prod.ext ?_ ?_
      · rw [← hlen]; exact a3
      · rw [← hlen]; exact a1.2.2
    have eb : amp' (c.stack.length - 1) = (S'.s11 *ᵥ c.a0, 0) := by
      refine Prod.ext ?_ ?_
      · rw [← hlen']; exact b3
      · rw [← hlen']; exact b1.2.2
    rw [ea, eb] at t
    dsimp only at t
    rw [t.1, t.2]
  rw [hT]

/-- The fields agree. -/
theorem SameMedia.fields (h : SameMedia E E' c mats mats')
    (hf : ∀ r ∈ c.stack, LayerFix E c mats A r) (hf' : ∀ r ∈ c.stack, LayerFix E' c mats' A' r)
    {r : ℕ} {i : ℤ} {ab ab'} (hr : pyGet c.stack i = .ok r) (hv : AmpV c mats A (.ok ()) i ab)
    (hv' : AmpV c mats' A' (.ok ()) i ab')
    {M M'} (hM : modesOf (mats r) (A r) = .ok M) (hM' : modesOf (mats' r) (A' r) = .ok M') {z F F'}
    (hF : FieldSpec c (mats r) (A r) M ab.1 ab.2 z F) (hF' : FieldSpec c (mats' r) (A' r) M' ab'.1 ab'.2 z F') :
    F = F' := by
  have ss := h.sameStack hf hf' (steps_of_ampV hf hv) (steps_of_ampV hf' hv')
  obtain ⟨k, u1, amp, v1, v2, v3⟩ := ampV_solution hf hv
  obtain ⟨k', u1', amp', v1', v2', v3'⟩ := ampV_solution hf' hv'
  obtain rfl := Option.some.inj (u1.symm.trans u1')
  obtain ⟨amp2, d1, d2, d3⟩ := ss.transfer v1'
  have hk : c.stack[k]? = some r := by
    unfold pyGet at hr
    rw [u1] at hr
    dsimp only at hr
    rcases hc : c.stack[k]? with _ | s
    · rw [hc] at hr; simp at hr
    · rw [hc] at hr; exact congrArg some (Except.ok.inj hr)
  have hkl := (List.getElem?_eq_some_iff.mp hk).1
  have hrm := List.mem_of_getElem? hk
  have hmd : ∀ {F : Ext} {m2 : ℕ → LayerSpec} {B : ℕ → LayerAttr c.nh} (_ : ∀ r ∈ c.stack, LayerFix F c m2 B r)
      (M), modesOf (m2 r) (B r) = .ok M → (stackModes c m2 B)[k]? = some M := by
    intro F m2 B hfx M hM
    rw [(hfx r hrm).form.modesD] at hM
    unfold stackModes
    rw [List.getElem?_map, hk, ← Except.ok.inj hM]
    rfl
  have t := d3 k M M' (hmd hf M hM) (hmd hf' M' hM') z
  rw [v3 amp2 d1 k hkl, v2, v2'] at t
  obtain ⟨P, e, m1, m2⟩ := solved_medium (stack := c.stack) h.mu h.eigc h.placed hf k r hk
  obtain ⟨P', e', m1', m2'⟩ := solved_medium (stack := c.stack) h.mu' h.eigc' h.placed' hf' k r hk
  obtain ⟨rfl, rfl⟩ := h.med r hrm P e P' e' m1 m1'
  have ehx : F.hx = F'.hx := funext fun j => by rw [hF.hx, hF'.hx, t.2]
  have ehy : F.hy = F'.hy := funext fun j => by rw [hF.hy, hF'.hy, t.2]
  have eex : F.ex = F'.ex := funext fun j => by rw [hF.ex, hF'.ex, t.1]
  have eey : F.ey = F'.ey := funext fun j => by rw [hF.ey, hF'.ey, t.1]
  have ehz : F.hz = F'.hz := funext fun j => by rw [hF.hz, hF'.hz, eex, eey]
  have eez : F.ez = F'.ez := by
    have n1 := m2.normal _ _ hF.ez
    have n2 := m2'.normal _ _ hF'.ez
    rw [← ehx, ← ehy, ← n1] at n2
    exact (mulVec_inj m2.det n2).symm
  rcases F with ⟨⟩
  rcases F' with ⟨⟩
  simp only at ehx ehy eex eey ehz eez
  subst ehx ehy eex eey ehz eez
  rfl

theorem ampV_length {i : ℤ} {ab} (h : AmpV c mats A (.ok ()) i ab) : 0 < c.stack.length := by
  obtain ⟨⟨r, hr⟩, -⟩ := h
  exact List.length_pos_iff.mpr (by
    rintro e; have := pyGet_mem hr; rw [e] at this; simp at this)

end Nannos
