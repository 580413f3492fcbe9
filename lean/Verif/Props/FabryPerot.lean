import Verif.Props.Planar

/-! **C120**: when a film between two equal media does not reflect. -/

namespace Nannos

open Matrix Spec

section
variable {E : Ext} {lats : ℕ → Lattice} {mats : ℕ → LayerSpec} {exc : PlaneWave} {nh : ℤ} {form : String} {c : Static} {r0 r1 r2 : ℕ}

/-- **C120**: a film of any non-magnetic material between two equal lossless media reflects nothing if and only if its thickness is a
whole number of half waves, or it is of the same material as the media around it, or the wave has its magnetic field parallel to the
film and comes at Brewster's angle. -/
theorem C120_film_without_reflection (hinit : simInit E lats mats [r0, r1, r2] exc nh form = .ok c)
    (hh : ∀ r ∈ [r0, r1, r2], Homogeneous (mats r)) (hmu : ∀ r ∈ [r0, r1, r2], (mats r).mu = 1)
    {wl : ℝ} {ang : ℝ × ℝ × ℝ} (hp : planeWave wl ang = .ok exc) (hwl : 0 < wl) (hcos : 0 < Real.cos exc.theta)
    (h00 : ((0 : ℤ), (0 : ℤ)) ∈ c.harmonics) {e : ℝ} (hpos : 0 < e) (he : (mats r0).epsilon.value = e) (he2 : (mats r2).epsilon.value = e)
    {e1 : ℂ} (he1 : (mats r1).epsilon.value = e1) (hne : e1 ≠ 0) (hgr : e1 ≠ ((e * Real.sin exc.theta ^ 2 : ℝ) : ℂ))
    {t : ℝ} (ht : (mats r1).thickness = some t)
    (hist : List (Call c.nh)) (RT : (Fin c.nh → ℝ) × (Fin c.nh → ℝ))
    (h : (efficienciesByOrder E c (afterCalls E c hist (Dyn.fresh mats (unsolved c.nh)))).1 = .ok RT) :
    ∑ i, RT.1 i = 0 ↔
      (∃ n : ℤ, ((2 * Real.pi / wl * t : ℝ) : ℂ) ^ 2 * (e1 - ((e * Real.sin exc.theta ^ 2 : ℝ) : ℂ)) = (n * Real.pi) ^ 2) ∨ e1 = e ∨
      (Real.sin exc.psi = 0 ∧ e1 * (Real.cos exc.theta : ℂ) ^ 2 = e * (Real.sin exc.theta : ℂ) ^ 2) := by
  have hm0 := hmu r0 (by simp)
  have hm1 := hmu r1 (by simp)
  have hm2 := hmu r2 (by simp)
  obtain ⟨w, k, hw, hk, s0, s1, s2, p0, p1, p2, es0, es1, es2, ep0, ep1, ep2, d1, d2, hR, -⟩ := C80_airy hinit hh hp hwl hcos h00 hpos
    (r0 := r0) rfl he hm0 (r1 := r1) (r2 := r2) rfl (fun r hr => by rw [hmu r hr]; exact one_ne_zero) hist RT h
  have hwp : 0 < w := by rw [hw]; positivity
  have hsqe := Real.sq_sqrt hpos.le
  have tr := Real.sin_sq_add_cos_sq exc.theta
  -- the normal wave numbers
  have hq0 : normalK w k (mats r0) ^ 2 = ((w ^ 2 * e * Real.cos exc.theta ^ 2 : ℝ) : ℂ) := by
    unfold normalK
    rw [csqrt_sq, he, hm0, hk]
    norm_cast
    rw [mul_one]
    linear_combination (-(w ^ 2 * Real.sin exc.theta ^ 2)) * hsqe - w ^ 2 * e * tr
  have hq20 : normalK w k (mats r2) = normalK w k (mats r0) := by
    unfold normalK; rw [he, he2, hm0, hm2]
  have hq1 : normalK w k (mats r1) ^ 2 = (w : ℂ) ^ 2 * (e1 - ((e * Real.sin exc.theta ^ 2 : ℝ) : ℂ)) := by
    unfold normalK
    rw [csqrt_sq, he1, hm1, hk, mul_one]
    simp only [Complex.ofReal_mul, Complex.ofReal_pow]
    have : ((Real.sqrt e : ℝ) : ℂ) ^ 2 = e := by exact_mod_cast hsqe
    linear_combination (-((w : ℂ) ^ 2 * (Real.sin exc.theta : ℂ) ^ 2)) * this
  have hwc : (w : ℂ) ≠ 0 := by exact_mod_cast hwp.ne'
  have hec : (e : ℂ) ≠ 0 := by exact_mod_cast hpos.ne'
  have n0 : normalK w k (mats r0) ≠ 0 := by
    intro h0
    rw [h0] at hq0
    have : (0 : ℝ) = w ^ 2 * e * Real.cos exc.theta ^ 2 := by exact_mod_cast (by simpa using hq0 : (0 : ℂ) = ((w ^ 2 * e * Real.cos exc.theta ^ 2 : ℝ) : ℂ))
    have h3 : 0 < w ^ 2 * e * Real.cos exc.theta ^ 2 := by positivity
    linarith
  have n1 : normalK w k (mats r1) ≠ 0 := by
    intro h0
    rw [h0, zero_pow two_ne_zero] at hq1
    rcases mul_eq_zero.mp hq1.symm with h3 | h3
    · exact hwc (by simpa using h3)
    · exact hgr (sub_eq_zero.mp h3)
  -- a whole number of half waves
  have hX : Complex.exp (2 * Complex.I * normalK w k (mats r1) * ((t : ℝ) : ℂ)) = 1 ↔
      ∃ n : ℤ, ((2 * Real.pi / wl * t : ℝ) : ℂ) ^ 2 * (e1 - ((e * Real.sin exc.theta ^ 2 : ℝ) : ℂ)) = (n * Real.pi) ^ 2 := by
    rw [Complex.exp_eq_one_iff]
    have hsq : ((2 * Real.pi / wl * t : ℝ) : ℂ) ^ 2 * (e1 - ((e * Real.sin exc.theta ^ 2 : ℝ) : ℂ)) = (normalK w k (mats r1) * t) ^ 2 := by
      rw [mul_pow, hq1, hw]
      push_cast
      ring
    rw [hsq]
    constructor
    · rintro ⟨n, hn⟩
      refine ⟨n, ?_⟩
      have : normalK w k (mats r1) * t = n * Real.pi := by
        have h2 : (2 * Complex.I) ≠ 0 := by simp
        exact mul_left_cancel₀ h2 (by linear_combination hn)
      rw [this]
    · rintro ⟨n, hn⟩
      rcases sq_eq_sq_iff_eq_or_eq_neg.mp hn with h3 | h3
      · exact ⟨n, by linear_combination 2 * Complex.I * h3⟩
      · refine ⟨-n, ?_⟩
        push_cast
        linear_combination 2 * Complex.I * h3
  have hval : ∀ F0 F1 F2 : Film, F2.Z = F0.Z →
      (F0.Z + F1.Z) * (F1.Z + F2.Z) + (F0.Z - F1.Z) * (F1.Z - F2.Z) * Complex.exp (2 * Complex.I * F1.q * F1.d) ≠ 0 →
      (Complex.normSq (airyR F0 F1 F2) = 0 ↔ Complex.exp (2 * Complex.I * F1.q * F1.d) = 1 ∨ F0.Z ^ 2 = F1.Z ^ 2) := by
    intro F0 F1 F2 hZ hD
    rw [Complex.normSq_eq_zero]
    unfold airyR
    rw [div_eq_zero_iff, or_iff_left hD, hZ,
      show (F0.Z - F1.Z) * (F1.Z + F0.Z) + (F0.Z + F1.Z) * (F1.Z - F0.Z) * Complex.exp (2 * Complex.I * F1.q * F1.d) =
        (1 - Complex.exp (2 * Complex.I * F1.q * F1.d)) * (F0.Z ^ 2 - F1.Z ^ 2) from by ring, mul_eq_zero, sub_eq_zero, sub_eq_zero, eq_comm (a := (1 : ℂ))]
  have hS := hval s0 s1 s2 (by rw [es0, es2]; simp only [filmS, hq20, hm0, hm2]) d1
  have hP := hval p0 p1 p2 (by rw [ep0, ep2]; simp only [filmP, hq20, he, he2]) d2
  have eX1 : Complex.exp (2 * Complex.I * s1.q * s1.d) = Complex.exp (2 * Complex.I * normalK w k (mats r1) * ((t : ℝ) : ℂ)) := by
    rw [es1]; simp only [filmS, ht, Option.getD_some]
  have eX2 : Complex.exp (2 * Complex.I * p1.q * p1.d) = Complex.exp (2 * Complex.I * normalK w k (mats r1) * ((t : ℝ) : ℂ)) := by
    rw [ep1]; simp only [filmP, ht, Option.getD_some]
  have trc : (Real.sin exc.theta : ℂ) ^ 2 + (Real.cos exc.theta : ℂ) ^ 2 = 1 := by exact_mod_cast tr
  have zS : s0.Z ^ 2 = s1.Z ^ 2 ↔ e1 = e := by
    rw [es0, es1]
    simp only [filmS, hm0, hm1, mul_one, div_pow]
    rw [div_eq_div_iff (pow_ne_zero 2 n0) (pow_ne_zero 2 n1), mul_right_inj' (pow_ne_zero 2 (pow_ne_zero 2 hwc)), hq0, hq1]
    simp only [Complex.ofReal_mul, Complex.ofReal_pow]
    constructor
    · intro h3
      have h4 : (w : ℂ) ^ 2 * (e1 - e) = 0 := by linear_combination h3 + (w : ℂ) ^ 2 * e * trc
      exact sub_eq_zero.mp ((mul_eq_zero.mp h4).resolve_left (pow_ne_zero 2 hwc))
    · rintro rfl
      linear_combination (-((w : ℂ) ^ 2 * e)) * trc
  have zP : p0.Z ^ 2 = p1.Z ^ 2 ↔ e1 = e ∨ e1 * (Real.cos exc.theta : ℂ) ^ 2 = e * (Real.sin exc.theta : ℂ) ^ 2 := by
    rw [ep0, ep1]
    simp only [filmP, he, he1, div_pow]
    rw [hq0, hq1, div_eq_div_iff (pow_ne_zero 2 hec) (pow_ne_zero 2 hne), ← sub_eq_zero]
    have : ((w ^ 2 * e * Real.cos exc.theta ^ 2 : ℝ) : ℂ) * e1 ^ 2 - (w : ℂ) ^ 2 * (e1 - ((e * Real.sin exc.theta ^ 2 : ℝ) : ℂ)) * (e : ℂ) ^ 2 =
        (w : ℂ) ^ 2 * e * ((e1 - e) * (e1 * (Real.cos exc.theta : ℂ) ^ 2 - e * (Real.sin exc.theta : ℂ) ^ 2)) := by
      simp only [Complex.ofReal_mul, Complex.ofReal_pow]
      linear_combination (w : ℂ) ^ 2 * e ^ 2 * e1 * trc
    rw [this, mul_eq_zero, or_iff_right (mul_ne_zero (pow_ne_zero 2 hwc) hec), mul_eq_zero, sub_eq_zero, sub_eq_zero]
  rw [eX1, hX, zS] at hS
  rw [eX2, hX, zP] at hP
  have pr := Real.sin_sq_add_cos_sq exc.psi
  rw [hR, add_eq_zero_iff_of_nonneg (mul_nonneg (sq_nonneg _) (Complex.normSq_nonneg _)) (mul_nonneg (sq_nonneg _) (Complex.normSq_nonneg _)),
    mul_eq_zero, mul_eq_zero, hS, hP, sq_eq_zero_iff, sq_eq_zero_iff]
  constructor
  · rintro ⟨a | a | a, b | b | b | b⟩
    · rw [a, b] at pr; norm_num at pr
    · exact .inl b
    · exact .inr (.inl b)
    · exact .inr (.inr ⟨a, b⟩)
    all_goals first | exact .inl a | exact .inr (.inl a)
  · rintro (a | a | ⟨a, b⟩)
    · exact ⟨.inr (.inl a), .inr (.inl a)⟩
    · exact ⟨.inr (.inr a), .inr (.inr (.inl a))⟩
    · exact ⟨.inl a, .inr (.inr (.inr b))⟩

end

namespace Examples

/-- C120: air, a film of index 2 half a wave thick, air: the film does not reflect; and the results are returned. -/
example : ∃ (exc : PlaneWave) (c : Static) (RT : (Fin c.nh → ℝ) × (Fin c.nh → ℝ)), planeWave 1 (0, 0, 0) = .ok exc ∧
    simInit exE (fun _ => exLat) (filmMats (fun r => if r = 1 then 4 else 1) 1 (fun _ => 1 / 4)) [0, 1, 2] exc 1 "original" = .ok c ∧
    (efficienciesByOrder exE c (Dyn.fresh (filmMats (fun r => if r = 1 then 4 else 1) 1 (fun _ => 1 / 4)) (unsolved c.nh))).1 = .ok RT ∧
    ∑ i, RT.1 i = 0 := by
  obtain ⟨exc, hp, hs, hc, -⟩ := normal_incidence 1 0 one_pos
  obtain ⟨c, hi, hH, hl⟩ := planar_init (filmMats (fun r => if r = 1 then 4 else 1) 1 (fun _ => 1 / 4)) 0 [1, 2] exc (by simp [filmMats, exLayer])
    (fun _ _ => rfl) (filmMats_hom _ _ _ _) (by rw [filmMats_eps, filmMats_mu]; norm_num)
  have hv : ∀ r, (filmMats (fun r => if r = 1 then 4 else 1) 1 (fun _ => 1 / 4) r).epsilon.value = if r = 1 then 4 else 1 := fun r => rfl
  obtain ⟨RT, h⟩ := C80_planar_defined (e := 1) hi (fun r _ => filmMats_hom _ _ _ r) hp one_pos (by rw [hc]; norm_num) (by rw [hH]; simp)
    one_pos (r0 := 0) rfl (by rw [hv]; norm_num) rfl exSort_spec (by rw [hl]; rfl) (by simp) (fun r _ => rfl)
    (fun r _ => by rw [hv]; split <;> norm_num) (fun r _ => by rw [hv, hs]; split <;> norm_num)
    (fun k r _ _ _ => ⟨by rw [hv]; split <;> norm_num, fun t ht => by
      rw [filmMats_d] at ht
      rw [← Option.some.inj ht]
      norm_num⟩) []
  refine ⟨exc, c, RT, hp, hi, h, ?_⟩
  refine (C120_film_without_reflection hi (fun r _ => filmMats_hom _ _ _ r) (fun r _ => rfl) hp one_pos (by rw [hc]; norm_num) (by rw [hH]; simp)
    (e := 1) one_pos (by rw [hv]; norm_num) (by rw [hv]; norm_num) (e1 := 4) (by rw [hv]; norm_num) (by norm_num) (by rw [hs]; norm_num) (t := 1 / 4) rfl [] RT h).mpr
    (.inl ⟨1, ?_⟩)
  rw [hs]
  push_cast
  ring

end Examples

end Nannos
