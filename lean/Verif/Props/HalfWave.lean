import Verif.Props.SMatrixCalls
import Verif.Spec.HalfWave
import Verif.Proofs.Geometry

/-! **C116**: half-wave layers. -/

namespace Nannos

open Matrix Spec

section
variable {m : Type} [Fintype m] [DecidableEq m]

theorem tanE_smul (L : Modes m) (s : ℂ) (a b : m → ℂ) (z : ℝ) : tanE L (s • a) (s • b) z = s • tanE L a b z := by
  funext i
  unfold tanE
  simp only [Pi.smul_apply, smul_eq_mul, Finset.mul_sum]
  exact Finset.sum_congr rfl fun j _ => by ring

theorem tanH_smul (L : Modes m) (s : ℂ) (a b : m → ℂ) (z : ℝ) : tanH L (s • a) (s • b) z = s • tanH L a b z := by
  funext i
  unfold tanH
  simp only [Pi.smul_apply, smul_eq_mul, Finset.mul_sum]
  exact Finset.sum_congr rfl fun j _ => by ring

/-- Between the two faces of a layer in which every mode takes the sign `s`, the fields take that sign. -/
theorem half_wave_fields {Z : Modes m} {s : ℂ} (hs : s * s = 1) (hZ : ∀ j, Complex.exp (Complex.I * Z.q j * (Z.z : ℂ)) = s)
    (a b : m → ℂ) : tanE Z a b Z.z = s • tanE Z a b 0 ∧ tanH Z a b Z.z = s • tanH Z a b 0 := by
  constructor
  · funext i
    unfold tanE
    simp only [Pi.smul_apply, smul_eq_mul, Finset.mul_sum, sub_self, sub_zero, Complex.ofReal_zero, mul_zero, Complex.exp_zero, hZ]
    refine Finset.sum_congr rfl fun j _ => ?_
    linear_combination (∑ k, Z.Q i k * Z.phi k j) / Z.q j * b j * hs
  · funext i
    unfold tanH
    simp only [Pi.smul_apply, smul_eq_mul, Finset.mul_sum, sub_self, sub_zero, Complex.ofReal_zero, mul_zero, Complex.exp_zero, hZ]
    refine Finset.sum_congr rfl fun j _ => ?_
    linear_combination -(Z.phi i j * b j * hs)

theorem half_wave_collapse {pre post : List (Modes m)} {Z : Modes m} {s : ℂ} (hs : s * s = 1)
    (hZ : ∀ j, Complex.exp (Complex.I * Z.q j * (Z.z : ℂ)) = s)
    (hpre : pre ≠ []) (j : ℕ) (hj : pre.length ≤ j)
    (amp' : ℕ → (m → ℂ) × (m → ℂ)) (hc : Consistent (pre ++ Z :: post) 0 (j + 1) amp') :
    ∃ amp, Consistent (pre ++ post) 0 j amp ∧ amp 0 = amp' 0 ∧ amp j = (s • (amp' (j + 1)).1, s • (amp' (j + 1)).2) := by
  have hlen : 0 < pre.length := List.length_pos_iff.mpr hpre
  refine ⟨fun k => if k < pre.length then amp' k else (s • (amp' (k + 1)).1, s • (amp' (k + 1)).2), ?_, by simp [hlen], ?_⟩
  · intro k L L' k0 k1 k2 k3
    dsimp only
    by_cases h1 : k + 1 < pre.length
    · rw [if_pos (by omega), if_pos h1]
      exact hc k L L' k0 (by omega) (by rw [getElem?_insert_lt _ _ _ (by omega)]; exact k2)
        (by rw [getElem?_insert_lt _ _ _ h1]; exact k3)
    · rw [if_neg h1]
      by_cases h2 : k < pre.length
      · rw [if_pos h2]
        have hk : k + 1 = pre.length := by omega
        have m1 := hc k L Z k0 (by omega) (by rw [getElem?_insert_lt _ _ _ h2]; exact k2)
          (by rw [hk]; exact getElem?_insert_eq _ _ _)
        have m2 := hc (k + 1) Z L' (by omega) (by omega) (by rw [hk]; exact getElem?_insert_eq _ _ _)
          (by rw [getElem?_insert_gt _ _ _ (by omega)]; exact k3)
        obtain ⟨w1, w2⟩ := half_wave_fields hs hZ (amp' (k + 1)).1 (amp' (k + 1)).2
        refine ⟨?_, ?_⟩
        · rw [tanE_smul, ← m2.1, w1, smul_smul, hs, one_smul, m1.1]
        · rw [tanH_smul, ← m2.2, w2, smul_smul, hs, one_smul, m1.2]
      · rw [if_neg h2]
        have := hc (k + 1) L L' (by omega) (by omega)
          (by rw [getElem?_insert_gt _ _ _ (by omega)]; exact k2)
          (by rw [getElem?_insert_gt _ _ _ (by omega)]; exact k3)
        refine ⟨?_, ?_⟩
        · rw [tanE_smul, tanE_smul, this.1]
        · rw [tanH_smul, tanH_smul, this.2]
  · dsimp only
    rw [if_neg (by omega)]

/-- The scattering matrix with and without the layer. -/
theorem half_wave_smatrix (pre post : List (Modes m)) (Z : Modes m) {s : ℂ} (hs : s * s = 1)
    (hZ : ∀ j, Complex.exp (Complex.I * Z.q j * (Z.z : ℂ)) = s) (hpre : pre ≠ []) (hpost : post ≠ []) (S S' : SMat m)
    (hS : freshS (pre ++ post) (0 : ℕ) ((pre ++ post).length - 1 : ℕ) = .ok S)
    (hS' : freshS (pre ++ Z :: post) (0 : ℕ) ((pre ++ Z :: post).length - 1 : ℕ) = .ok S') :
    S' = ⟨s • S.s11, S.s12, S.s21, s • S.s22⟩ := by
  obtain ⟨h1, hS⟩ := (freshS_ok (S := S)).mp hS
  obtain ⟨h2, hS'⟩ := (freshS_ok (S := S')).mp hS'
  have e : (pre ++ Z :: post).length - 1 = ((pre ++ post).length - 1) + 1 := by
    simp only [List.length_append, List.length_cons] at *; omega
  have hp : 0 < post.length := List.length_pos_iff.mpr hpost
  rw [e] at hS'
  apply smat_ext_of_rel
  intro a b
  obtain ⟨amp', c', ha, hb⟩ := loopS_exists _ 0 _ (Nat.zero_le _) S' hS' a b
  obtain ⟨amp, c, e0, ej⟩ := half_wave_collapse hs hZ hpre _ (by simp only [List.length_append]; omega) amp' c'
  have r := loopS_rel _ 0 _ (Nat.zero_le _) S hS amp c
  have r' := loopS_rel _ 0 _ (Nat.zero_le _) S' hS' amp' c'
  rw [e0, ej] at r
  dsimp only at r
  refine ⟨(amp' ((pre ++ post).length - 1 + 1)).1, (amp' 0).2, ?_, ?_⟩
  · rw [← ha, ← hb]; exact r'
  · rw [← ha, ← hb]
    refine ⟨?_, ?_⟩
    · have := congrArg (s • ·) r.1
      rw [smul_smul, hs, one_smul] at this
      rw [this, smul_add, Matrix.mulVec_smul, smul_smul, hs, one_smul, Matrix.smul_mulVec]
    · rw [r.2, Matrix.mulVec_smul, Matrix.smul_mulVec]

end

section
variable {E : Ext} {lats : ℕ → Lattice} {mats : ℕ → LayerSpec} {exc : PlaneWave} {nh : ℤ} {form : String} {c : Static}

theorem half_wave_exp {g w s : ℂ} {t : ℝ} {p : ℕ} (ht : t ≠ 0) (hg : g ^ 2 = w) (hw : w = ((p * Real.pi / t : ℝ) : ℂ) ^ 2)
    (hs : s = (-1) ^ p) : Complex.exp (Complex.I * g * (t : ℂ)) = s := by
  have htc : (t : ℂ) ≠ 0 := by exact_mod_cast ht
  have h1 : Complex.exp (p * (Real.pi * Complex.I)) = (-1) ^ p := by rw [Complex.exp_nat_mul, Complex.exp_pi_mul_I]
  have h2 : Complex.exp (-(p * (Real.pi * Complex.I))) = (-1) ^ p := by
    rw [Complex.exp_neg, h1, ← inv_pow]
    norm_num
  rcases sq_eq_sq_iff_eq_or_eq_neg.mp (hg.trans hw) with h | h
  · rw [h, hs, ← h1]
    congr 1
    push_cast
    field_simp
  · rw [h, hs, ← h2]
    congr 1
    push_cast
    field_simp

/-- The flux of a wave of the opposite sign. -/
theorem poyntingFlux_sign {M : Modes (Idx c.nh)} {s : ℂ} (hs : star s * s = 1) (a : Idx c.nh → ℂ) :
    poyntingFlux c M (s • a) 0 = poyntingFlux c M a 0 := by
  have key : ∀ x y : ℂ, star (s * x) * (s * y) = star x * y := by
    intro x y
    rw [star_mul']
    linear_combination star x * y * hs
  unfold poyntingFlux
  split
  · rfl
  · simp only [Matrix.mulVec_smul, Matrix.mulVec_zero, Pi.smul_apply, smul_eq_mul, Pi.zero_apply, star_zero, zero_mul, sub_zero, mul_zero,
      key]

theorem pyGet_zero_some {α : Type} {l : List α} {x : α} (h : pyGet l 0 = .ok x) : l.head? = some x := by
  cases l with
  | nil => simp [pyGet, pyIdx] at h
  | cons a l =>
    rw [pyGet_zero (by simp)] at h
    simpa using h

theorem pyGet_last_some {α : Type} {l : List α} {x : α} (h : pyGet l (-1) = .ok x) : l.getLast? = some x := by
  have hl : 0 < l.length := by
    rcases l with _ | ⟨a, l⟩
    · simp [pyGet, pyIdx] at h
    · simp
  rw [pyGet_last hl] at h
  rw [List.getLast?_eq_getElem?, List.getElem?_eq_getElem (by omega), Except.ok.inj h]

theorem half_wave_core {pre post : List ℕ} {z : ℕ} {names : List String} (hpre : pre ≠ []) (hpost : post ≠ [])
    (hst : c.stack = pre ++ post) (hcp : ∀ r ∈ pre ++ z :: post, (mats r).iscopy = false)
    (hu : Homogeneous (mats z)) (hmu : (mats z).mu = 1) {t : ℝ} (ht : (mats z).thickness = some t) (ht0 : t ≠ 0) {s : ℂ}
    (hs : s * s = 1) (hh : HalfWaves c.omega c.kx c.ky (mats z).epsilon.value t s)
    {A1 A2 : ℕ → LayerAttr c.nh} (f1 : ∀ r ∈ c.stack, LayerFix E c mats A1 r)
    (f2 : ∀ r ∈ pre ++ z :: post, LayerFix E { c with stack := pre ++ z :: post, layerNames := names } mats A2 r) :
    (∀ r ∈ pre ++ post, modesD (mats r) (A2 r) = modesD (mats r) (A1 r)) ∧ ∀ S S' : SMat (Idx c.nh),
      freshS (stackModes c mats A1) (0 : ℕ) ((pre ++ post).length - 1 : ℕ) = .ok S →
      freshS (stackModes { c with stack := pre ++ z :: post, layerNames := names } mats A2) (0 : ℕ)
        ((pre ++ z :: post).length - 1 : ℕ) = .ok S' →
      S' = ⟨s • S.s11, S.s12, S.s21, s • S.s22⟩ := by
  have hmodes : ∀ r ∈ pre ++ post, modesD (mats r) (A2 r) = modesD (mats r) (A1 r) := by
    intro r hr
    have hr' : r ∈ pre ++ z :: post := by
      rw [List.mem_append] at hr ⊢
      rcases hr with h | h
      · exact .inl h
      · exact .inr (List.mem_cons_of_mem _ h)
    exact modesD_of_form (c := c) (hcp r hr') (f1 r (by rw [hst]; exact hr)).form ((layerFix_restack.mp (f2 r hr')).form)
  refine ⟨hmodes, fun S S' g1 g2 => ?_⟩
  have s1 : stackModes c mats A1 = pre.map (fun r => modesD (mats r) (A1 r)) ++ post.map (fun r => modesD (mats r) (A1 r)) := by
    unfold stackModes
    rw [hst, List.map_append]
  have s2 : stackModes { c with stack := pre ++ z :: post, layerNames := names } mats A2 =
      pre.map (fun r => modesD (mats r) (A1 r)) ++ modesD (mats z) (A2 z) :: post.map (fun r => modesD (mats r) (A1 r)) := by
    unfold stackModes
    dsimp only
    rw [List.map_append, List.map_cons]
    congr 1
    · exact List.map_congr_left fun r hr => hmodes r (List.mem_append_left _ hr)
    · congr 1
      exact List.map_congr_left fun r hr => hmodes r (List.mem_append_right _ hr)
  rw [s1] at g1
  rw [s2] at g2
  have hz : z ∈ pre ++ z :: post := by simp
  have hfz : LayerFix E c mats A2 z := layerFix_restack.mp (f2 z hz)
  obtain ⟨-, g, hg⟩ := uniform_flux hfz hu.1 hu.2.1 hmu hfz.form.modesD
  have hzz : (modesD (mats z) (A2 z)).z = t := by simp [Modes.z, modesD, ht]
  refine half_wave_smatrix (pre.map fun r => modesD (mats r) (A1 r))
    (post.map fun r => modesD (mats r) (A1 r)) (modesD (mats z) (A2 z)) hs ?_ (by simpa using hpre) (by simpa using hpost) S S' ?_ ?_
  · rw [hzz, hg.q]
    rintro (i | i)
    · obtain ⟨p, h1, h2⟩ := hh i
      exact half_wave_exp ht0 (by rw [Sum.elim_inl, hg.g_eq, csqrt_sq]) h1 h2
    · obtain ⟨p, h1, h2⟩ := hh i
      exact half_wave_exp ht0 (by rw [Sum.elim_inr, hg.g_eq, csqrt_sq]) h1 h2
  · simpa using g1
  · simpa using g2

/-- **C116**, scattering matrix.  A homogeneous layer across which the waves of all the orders make whole numbers of half waves, all even
or all odd, changes nothing in the matrix `get_S_matrix()` returns but the sign of the waves which go through. -/
theorem C116_get_S_matrix {pre post : List ℕ} {z : ℕ} {names : List String} (hpre : pre ≠ []) (hpost : post ≠ [])
    (hinit : simInit E lats mats (pre ++ post) exc nh form = .ok c)
    (hinit' : simInit E lats mats (pre ++ z :: post) exc nh form = .ok { c with stack := pre ++ z :: post, layerNames := names })
    (hcp : ∀ r ∈ pre ++ z :: post, (mats r).iscopy = false)
    (hu : Homogeneous (mats z)) (hmu : (mats z).mu = 1) {t : ℝ} (ht : (mats z).thickness = some t) (ht0 : t ≠ 0) {s : ℂ}
    (hs : s = 1 ∨ s = -1) (hh : HalfWaves c.omega c.kx c.ky (mats z).epsilon.value t s)
    (hist : List (Call c.nh)) (hist' : List (Call c.nh)) {S S' : SMat (Idx c.nh)}
    (hS : (getS E c none (afterCalls E c hist (Dyn.fresh mats (unsolved c.nh)))).1 = .ok S)
    (hS' : (getS E { c with stack := pre ++ z :: post, layerNames := names } none
      (afterCalls E { c with stack := pre ++ z :: post, layerNames := names } hist' (Dyn.fresh mats (unsolved c.nh)))).1 = .ok S') :
    S'.s11 = s • S.s11 ∧ S'.s12 = S.s12 ∧ S'.s21 = S.s21 ∧ S'.s22 = s • S.s22 := by
  have hi := simInit_ok hinit
  have hi' := simInit_ok hinit'
  rw [getS_none_eq hi.nodup, hi.stack_eq] at hS
  rw [getS_none_eq hi'.nodup] at hS'
  obtain ⟨A1, hA⟩ := getS_fresh hinit
  obtain ⟨A2, hA'⟩ := getS_fresh hinit'
  have e1 : (((pre ++ post).length : ℤ) - 1) = (((pre ++ post).length - 1 : ℕ) : ℤ) := by
    have := List.length_pos_iff.mpr hpre
    simp only [List.length_append]
    omega
  have e2 : (((pre ++ z :: post).length : ℤ) - 1) = (((pre ++ z :: post).length - 1 : ℕ) : ℤ) := by
    have := List.length_pos_iff.mpr hpre
    simp only [List.length_append]
    omega
  rw [e1] at hS
  obtain ⟨f1, g1, -⟩ := hA hist 0 _ S hS
  erw [e2] at hS'
  obtain ⟨f2, g2, -⟩ := hA' hist' 0 _ S' hS'
  have hss : s * s = 1 := by rcases hs with rfl | rfl <;> norm_num
  have := (half_wave_core (names := names) hpre hpost hi.stack_eq hcp hu hmu ht ht0 hss hh f1 f2).2 S S' g1 g2
  rw [this]
  exact ⟨rfl, rfl, rfl, rfl⟩

/-- **C116**, efficiencies: they are the same with the layer and without it. -/
theorem C116_half_wave_layer {pre post : List ℕ} {z : ℕ} {names : List String} (hpre : pre ≠ []) (hpost : post ≠ [])
    (hinit : simInit E lats mats (pre ++ post) exc nh form = .ok c)
    (hinit' : simInit E lats mats (pre ++ z :: post) exc nh form = .ok { c with stack := pre ++ z :: post, layerNames := names })
    (hcp : ∀ r ∈ pre ++ z :: post, (mats r).iscopy = false)
    (hu : Homogeneous (mats z)) (hmu : (mats z).mu = 1) {t : ℝ} (ht : (mats z).thickness = some t) (ht0 : t ≠ 0) {s : ℂ}
    (hs : s = 1 ∨ s = -1) (hh : HalfWaves c.omega c.kx c.ky (mats z).epsilon.value t s)
    (hist : List (Call c.nh)) (hist' : List (Call c.nh)) {R T R' T' : Fin c.nh → ℝ}
    (h : (efficienciesByOrder E c (afterCalls E c hist (Dyn.fresh mats (unsolved c.nh)))).1 = .ok (R, T))
    (h' : (efficienciesByOrder E { c with stack := pre ++ z :: post, layerNames := names }
      (afterCalls E { c with stack := pre ++ z :: post, layerNames := names } hist' (Dyn.fresh mats (unsolved c.nh)))).1 = .ok (R', T')) :
    R' = R ∧ T' = T := by
  have hi := simInit_ok hinit
  have hi' := simInit_ok hinit'
  obtain ⟨A1, res, sp, -⟩ := solveSpec_of_noStale (E := E) (mats := mats) hi.nodup (noStale_unsolved (c := c) mats c.stack)
  obtain ⟨A2, res', sp', -⟩ := solveSpec_of_noStale (E := E) (mats := mats) hi'.nodup
    (noStale_unsolved (c := { c with stack := pre ++ z :: post, layerNames := names }) mats _)
  have h0 : Inv E c mats (unsolved c.nh) A1 res (Dyn.fresh mats (unsolved c.nh)) := inv_fresh _ (.inl rfl)
  have h1 := h0.calls sp hist
  have h0' : Inv E { c with stack := pre ++ z :: post, layerNames := names } mats (unsolved c.nh) A2 res' (Dyn.fresh mats (unsolved c.nh)) :=
    inv_fresh _ (.inl rfl)
  have h1' := h0'.calls sp' hist'
  obtain ⟨hres, SM, r0, rN, M0, MN, f0, fN, hSM, hr0, hrN, hM0, hMN, hf0, hfN, hne, e1⟩ :=
    yields_efficiencies sp _ (R, T) _ h1 (Prod.ext h rfl)
  obtain ⟨hres', SM', r0', rN', M0', MN', f0', fN', hSM', hr0', hrN', hM0', hMN', hf0', hfN', hne', e1'⟩ :=
    yields_efficiencies sp' _ (R', T') _ h1' (Prod.ext h' rfl)
  have hfix := sp.fix hi.nodup hres
  have hfix' := sp'.fix hi'.nodup hres'
  subst hres hres'
  have hss : s * s = 1 := by rcases hs with rfl | rfl <;> norm_num
  have hst' : star s * s = 1 := by rcases hs with rfl | rfl <;> simp
  obtain ⟨hmodes, hcore⟩ := half_wave_core (names := names) hpre hpost hi.stack_eq hcp hu hmu ht ht0 hss hh hfix hfix'
  have l1 : ((c.stack.length : ℤ) - 1) = (((pre ++ post).length - 1 : ℕ) : ℤ) := by
    have := List.length_pos_iff.mpr hpre
    rw [hi.stack_eq]
    simp only [List.length_append]
    omega
  have l2 : (((pre ++ z :: post).length : ℤ) - 1) = (((pre ++ z :: post).length - 1 : ℕ) : ℤ) := by
    have := List.length_pos_iff.mpr hpre
    simp only [List.length_append]
    omega
  rw [valS_none, valS_solved hfix, l1] at hSM
  rw [valS_none, valS_solved hfix'] at hSM'
  erw [l2] at hSM'
  have hSS := hcore SM SM' hSM hSM'
  obtain ⟨a, pre', rfl⟩ := List.exists_cons_of_ne_nil hpre
  have q0 : r0' = r0 := by
    have z1 := pyGet_zero_some hr0
    have z2 := pyGet_zero_some hr0'
    rw [hi.stack_eq] at z1
    exact Option.some.inj (z2.symm.trans (by simpa using z1))
  have qN : rN' = rN := by
    have z1 := pyGet_last_some hrN
    have z2 := pyGet_last_some hrN'
    rw [hi.stack_eq, List.getLast?_append_of_ne_nil _ hpost] at z1
    have z3 : (a :: pre' ++ z :: post).getLast? = post.getLast? := by
      rw [show a :: pre' ++ z :: post = (a :: pre' ++ [z]) ++ post by simp, List.getLast?_append_of_ne_nil _ hpost]
    exact Option.some.inj (z2.symm.trans (z3.trans z1))
  subst q0 qN
  have m0 : r0' ∈ a :: pre' ++ post := hi.stack_eq ▸ pyGet_mem hr0
  have mN : rN' ∈ a :: pre' ++ post := hi.stack_eq ▸ pyGet_mem hrN
  have k0 : M0' = M0 := by
    rw [(hfix _ (pyGet_mem hr0)).form.modesD] at hM0
    rw [(hfix' _ (pyGet_mem hr0')).form.modesD] at hM0'
    rw [← Except.ok.inj hM0, ← Except.ok.inj hM0']
    exact hmodes _ m0
  have kN : MN' = MN := by
    rw [(hfix _ (pyGet_mem hrN)).form.modesD] at hMN
    rw [(hfix' _ (pyGet_mem hrN')).form.modesD] at hMN'
    rw [← Except.ok.inj hMN, ← Except.ok.inj hMN']
    exact hmodes _ mN
  subst k0 kN hSS
  have g0 : f0' = f0 := Except.ok.inj (hf0'.symm.trans hf0)
  have gN : fN' = fN := by
    have hfN2 : poyntingFlux c MN' ((s • SM.s11) *ᵥ c.a0) 0 = .ok fN' := hfN'
    rw [Matrix.smul_mulVec, poyntingFlux_sign hst'] at hfN2
    exact Except.ok.inj (hfN2.symm.trans hfN)
  subst g0 gN
  obtain ⟨rfl, rfl⟩ := Prod.mk.inj e1
  obtain ⟨rfl, rfl⟩ := Prod.mk.inj e1'
  exact ⟨rfl, rfl⟩

end

namespace Examples

/-- Stacks of `fiveMats` have efficiencies. -/
theorem five_eff (r0 r1 : ℕ) (tl : List ℕ) {exc : PlaneWave} {wl ps : ℝ} (hwl : 0 < wl) (hp : planeWave wl (0, 0, ps) = .ok exc)
    (hn : ((r0 :: r1 :: tl).map fun r => (fiveMats r).name).Nodup) :
    ∃ c, simInit exE (fun _ => exLat) fiveMats (r0 :: r1 :: tl) exc 1 "original" = .ok c ∧ c.harmonics = [(0, 0)] ∧
      ∃ RT, (efficienciesByOrder exE c (afterCalls exE c [] (Dyn.fresh fiveMats (unsolved c.nh)))).1 = .ok RT := by
  have ht : exc.theta = 0 := by rw [(planeWave_ok hp).2.2.1]; simp
  obtain ⟨c, hi, hH, hl⟩ := planar_init fiveMats r0 (r1 :: tl) exc hn (fun r _ => rfl) ⟨rfl, rfl, rfl⟩
    (by rw [fiveMats_eps]; exact mul_ne_zero (by exact_mod_cast (five_pos r0).ne') one_ne_zero)
  exact ⟨c, hi, hH, C80_planar_defined (e := ([1, 2, 4, 2, 2] : List ℝ).getD r0 3) hi (fun r _ => ⟨rfl, rfl, rfl⟩) hp hwl (by rw [ht]; simp)
    (by rw [hH]; simp) (five_pos r0) rfl
    (fiveMats_eps _) rfl exSort_spec (by rw [hl]; rfl) (by simp) (fun r _ => rfl)
    (fun r _ => by rw [fiveMats_eps]; exact_mod_cast (five_pos r).ne')
    (fun r _ => by rw [fiveMats_eps, ht]; simpa using (five_pos r).ne')
    (fun k r _ _ _ => ⟨by rw [fiveMats_eps]; simp, fun t h => by rw [← Option.some.inj h]; exact five_thick r⟩) []⟩

/-- C116: between permittivities 1 and 2, at wavelength 4, a layer of permittivity 4 and thickness 1 is one half wave thick. -/
example : ∃ (exc : PlaneWave) (c : Static) (names : List String) (S S' : SMat (Idx c.nh)) (R T R' T' : Fin c.nh → ℝ),
    planeWave 4 (0, 0, 30) = .ok exc ∧
    simInit exE (fun _ => exLat) fiveMats ([0] ++ [1]) exc 1 "original" = .ok c ∧
    simInit exE (fun _ => exLat) fiveMats ([0] ++ 2 :: [1]) exc 1 "original" =
      .ok { c with stack := [0] ++ 2 :: [1], layerNames := names } ∧
    (getS exE c none (Dyn.fresh fiveMats (unsolved c.nh))).1 = .ok S ∧
    (getS exE { c with stack := [0] ++ 2 :: [1], layerNames := names } none (Dyn.fresh fiveMats (unsolved c.nh))).1 = .ok S' ∧
    (efficienciesByOrder exE c (Dyn.fresh fiveMats (unsolved c.nh))).1 = .ok (R, T) ∧
    (efficienciesByOrder exE { c with stack := [0] ++ 2 :: [1], layerNames := names }
      (Dyn.fresh fiveMats (unsolved c.nh))).1 = .ok (R', T') ∧
    (S'.s11 = (-1 : ℂ) • S.s11 ∧ S'.s12 = S.s12 ∧ S'.s21 = S.s21 ∧ S'.s22 = (-1 : ℂ) • S.s22) ∧ R' = R ∧ T' = T := by
  have h4 : (0 : ℝ) < 4 := by norm_num
  obtain ⟨exc, hp, hsin, -⟩ := normal_incidence 4 30 h4
  obtain ⟨c, hi, hH, ⟨R, T⟩, hRT⟩ := five_eff 0 1 [] h4 hp (by simp [fiveMats, exLayer])
  obtain ⟨c', hi', -, hRT'⟩ := five_eff 0 2 [1] h4 hp (by simp [fiveMats, exLayer])
  obtain rfl := simInit_restack rfl hi hi' rfl (by rintro r r' ⟨⟩ ⟨⟩; exact ⟨rfl, rfl, rfl⟩)
  obtain ⟨⟨R', T'⟩, hRT'⟩ := hRT'
  obtain ⟨S, hS⟩ := getS_of_eff (simInit_ok hi).nodup hRT
  obtain ⟨S', hS'⟩ := getS_of_eff (simInit_ok hi').nodup hRT'
  have hh : HalfWaves c.omega c.kx c.ky (fiveMats 2).epsilon.value 1 (-1) := by
    intro i
    refine ⟨1, ?_, by norm_num⟩
    have hI := simInit_ok hi
    obtain ⟨r, -, kx, ky⟩ := hI.recip
    have h0 : c.harmonics.get i = (0, 0) := by
      have := List.get_mem c.harmonics i
      generalize c.harmonics.get i = x at this ⊢
      rw [hH] at this
      simpa using this
    have hk := (hI.sup 0 rfl).2.2.2.2
    have hwv : exc.wavevector 0 = 0 ∧ exc.wavevector 1 = 0 := by
      constructor <;> rw [(planeWave_ok hp).2.2.2.2.2.2.1] <;> simp [hsin]
    rw [kx i, ky i, h0, hI.omega_eq, (planeWave_ok hp).2.1, fiveMats_eps, hk]
    simp only [kxOf, kyOf, Nannos.k0para, hwv.1, hwv.2]
    simp
    push_cast
    ring
  exact ⟨exc, c, _, S, S', R, T, R', T', hp, hi, hi', hS, hS', hRT, hRT',
    C116_get_S_matrix (pre := [0]) (post := [1]) (z := 2) (by simp) (by simp) hi hi' (fun r _ => rfl) ⟨rfl, rfl, rfl⟩ rfl rfl one_ne_zero
      (.inr rfl) hh [] [] hS hS',
    C116_half_wave_layer (pre := [0]) (post := [1]) (z := 2) (by simp) (by simp) hi hi' (fun r _ => rfl) ⟨rfl, rfl, rfl⟩ rfl rfl one_ne_zero
      (.inr rfl) hh [] [] hRT hRT'⟩

end Examples

end Nannos
