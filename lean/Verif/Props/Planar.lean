import Verif.Examples.Planar

/-! C80: stacks of homogeneous layers give the textbook results (continuity of the tangential fields of two polarisations that
do not mix, Fresnel, Airy, total internal reflection, Brewster's angle, antireflection layers). -/

namespace Nannos

open Matrix Spec

theorem unimodular (x d : ℝ) : Complex.normSq (Complex.exp (Complex.I * ((x : ℝ) : ℂ) * ((d : ℝ) : ℂ))) = 1 := by
  rw [Complex.normSq_eq_norm_sq, show Complex.I * ((x : ℝ) : ℂ) * ((d : ℝ) : ℂ) = ((x * d : ℝ) : ℂ) * Complex.I from by push_cast; ring,
    Complex.norm_exp_ofReal_mul_I]
  norm_num

theorem zerothIndex_idxOf {H : List (ℤ × ℤ)} (h : ((0 : ℤ), (0 : ℤ)) ∈ H) : zerothIndex H = H.idxOf (0, 0) := by
  rcases hf : H.findIdx? (· = (0, 0)) with _ | i
  · rw [List.findIdx?_eq_none_iff] at hf
    have := hf _ h
    simp at this
  · have e : zerothIndex H = i := by unfold zerothIndex; rw [hf]
    rw [e]
    rw [List.findIdx?_eq_some_iff_findIdx_eq] at hf
    rw [← hf.2]
    unfold List.idxOf
    congr 1
    funext x
    exact (beq_eq_decide _ _).symm

section
variable {E : Ext} {lats : ℕ → Lattice} {mats : ℕ → LayerSpec} {stack : List ℕ} {exc : PlaneWave} {nh : ℤ} {form : String} {c : Static}
  (hinit : simInit E lats mats stack exc nh form = .ok c)
  (hh : ∀ r ∈ stack, Homogeneous (mats r))
  {wl : ℝ} {ang : ℝ × ℝ × ℝ} (hp : planeWave wl ang = .ok exc) (hwl : 0 < wl) (hcos : 0 < Real.cos exc.theta)
  (h00 : ((0 : ℤ), (0 : ℤ)) ∈ c.harmonics)
  {e : ℝ} (hpos : 0 < e) {r0 : ℕ} (hr0 : stack.head? = some r0) (he : (mats r0).epsilon.value = e) (hm : (mats r0).mu = 1)
include hinit hh hp hwl hcos h00 hpos hr0 he hm

omit hh hcos in
theorem planar_omega : c.omega = 2 * Real.pi / wl := by
  have hem2 : ((mats r0).epsilon.value * (mats r0).mu) = (e : ℂ) := by rw [he, hm, mul_one]
  rw [(good_sup_mu (simInit_ok hinit) (by rw [(planeWave_ok hp).2.1]; exact hwl) hr0 hem2 hpos h00).omk, (planeWave_ok hp).2.1]
  ring

/-- C80: for a stack of homogeneous layers below a lossless medium, whatever was called before, the efficiencies returned are those
of two stacks of films, one for each polarisation: only the specular order carries power, and the amplitudes are the only ones for
which the tangential fields are continuous at every interface. -/
theorem C80_planar_stack {rN : ℕ} (hrN : stack.getLast? = some rN) (hist : List (Call c.nh)) (RT : (Fin c.nh → ℝ) × (Fin c.nh → ℝ))
    (h : (efficienciesByOrder E c (afterCalls E c hist (Dyn.fresh mats (unsolved c.nh)))).1 = .ok RT) :
    ∃ w k : ℝ, w = 2 * Real.pi / wl ∧ k = w * Real.sqrt e * Real.sin exc.theta ∧ ∃ as bs ap bp : ℕ → ℂ,
    FilmSolution (stack.map fun r => filmS w k (mats r)) as bs ∧
    FilmSolution (stack.map fun r => filmP w k (mats r)) ap bp ∧
    (∀ a b, FilmSolution (stack.map fun r => filmS w k (mats r)) a b → ∀ j, j < stack.length → a j = as j ∧ b j = bs j) ∧
    (∀ a b, FilmSolution (stack.map fun r => filmP w k (mats r)) a b → ∀ j, j < stack.length → a j = ap j ∧ b j = bp j) ∧
    ∀ i : Fin c.nh,
      RT.1 i = (if (i : ℕ) = c.harmonics.idxOf (0, 0) then
        Real.sin exc.psi ^ 2 * Complex.normSq (bs 0) + Real.cos exc.psi ^ 2 * Complex.normSq (bp 0) else 0) ∧
      RT.2 i = (if (i : ℕ) = c.harmonics.idxOf (0, 0) then
        Real.sin exc.psi ^ 2 * (Complex.normSq (as (stack.length - 1)) * ((filmS w k (mats rN)).Z / (filmS w k (mats r0)).Z).re) +
        Real.cos exc.psi ^ 2 * (Complex.normSq (ap (stack.length - 1)) * ((filmP w k (mats rN)).Z / (filmP w k (mats r0)).Z).re)
        else 0) := by
  have hw := planar_omega hinit hp hwl h00 hpos hr0 he hm
  obtain ⟨k, hk, -, -, as, bs, ap, bp, h1, h2, h3, h4, h5⟩ := planar_run hinit hh hp hwl hcos h00 hpos one_pos hr0 hrN he
    (by rw [hm, Complex.ofReal_one]) hist RT h
  rw [mul_one] at hk
  refine ⟨c.omega, k, hw, hk, as, bs, ap, bp, h1, h2, h3, h4, fun i => ?_⟩
  rw [← zerothIndex_idxOf h00, ← (simInit_ok hinit).idx]
  obtain ⟨a, b⟩ := h5 i
  rw [one_mul] at a b
  exact ⟨a, b⟩

/-- C80: the efficiencies of a stack of non-magnetic passive layers on any substrate are always returned, whatever was called
before, unless a permittivity is zero or the wave grazes a layer (`eps = e sin^2 theta`). -/
theorem C80_planar_defined (hA : ArgsortContract E.argsort) (hu : c.lattice.harmonicsArray = none) (htwo : 1 < stack.length)
    (hmu : ∀ r ∈ stack, (mats r).mu = 1) (hne : ∀ r ∈ stack, (mats r).epsilon.value ≠ 0)
    (hgraz : ∀ r ∈ stack, (mats r).epsilon.value ≠ ((e * Real.sin exc.theta ^ 2 : ℝ) : ℂ))
    (hpas : ∀ k r, 0 < k → k + 1 < stack.length → stack[k]? = some r → 0 ≤ (mats r).epsilon.value.im ∧
      ∀ t, (mats r).thickness = some t → 0 ≤ t) (hist : List (Call c.nh)) :
    ∃ RT, (efficienciesByOrder E c (afterCalls E c hist (Dyn.fresh mats (unsolved c.nh)))).1 = .ok RT := by
  refine passive_exists hinit hA hh hu hp hwl hcos h00 htwo hpos one_pos hr0 he (by rw [hm, Complex.ofReal_one]) hne (fun r hr => ?_) hmu
    hpas hist
  rw [hmu r hr, mul_one, mul_one]
  exact hgraz r hr

/-- C80: the fields retrieved in a stack of homogeneous layers, whatever was called before, are those of the same two stacks of
films, for an incoming wave of tangential magnetic amplitudes `-sin psi cos theta` and `-cos psi`: nothing outside the specular
order, and in it, along and across the plane of incidence, the fields of the films. -/
theorem C80_fields (hist : List (Call c.nh)) (id : LayerId) (zs : List ℝ) (hz : zs ≠ []) (Fs : List (FieldF c.nh))
    (h : (getFieldFourier E c id zs (afterCalls E c hist (Dyn.fresh mats (unsolved c.nh)))).1 = .ok Fs) :
    ∃ w k : ℝ, w = 2 * Real.pi / wl ∧ k = w * Real.sqrt e * Real.sin exc.theta ∧ ∃ as bs ap bp : ℕ → ℂ,
    FilmWaves (stack.map fun r => filmS w k (mats r)) as bs ∧ as 0 = -(Real.sin exc.psi * Real.cos exc.theta : ℝ) ∧
    FilmWaves (stack.map fun r => filmP w k (mats r)) ap bp ∧ ap 0 = -(Real.cos exc.psi : ℝ) ∧
    (∀ a b, FilmWaves (stack.map fun r => filmS w k (mats r)) a b → a 0 = as 0 →
      ∀ j, j < stack.length → a j = as j ∧ b j = bs j) ∧
    (∀ a b, FilmWaves (stack.map fun r => filmP w k (mats r)) a b → a 0 = ap 0 →
      ∀ j, j < stack.length → a j = ap j ∧ b j = bp j) ∧
    ∃ r n F, getLayer c id = .ok (r, n) ∧ ∃ j, pyIdx stack.length n = some j ∧ stack[j]? = some r ∧
    (∀ zs', (getFieldFourier E c id zs' (afterCalls E c hist (Dyn.fresh mats (unsolved c.nh)))).1 = .ok (zs'.map F)) ∧
    ∀ z (i : Fin c.nh), ((i : ℕ) ≠ c.harmonics.idxOf (0, 0) → (F z).ex i = 0 ∧ (F z).ey i = 0 ∧ (F z).ez i = 0 ∧
        (F z).hx i = 0 ∧ (F z).hy i = 0 ∧ (F z).hz i = 0) ∧
      ((i : ℕ) = c.harmonics.idxOf (0, 0) →
        (F z).hx i = Real.cos exc.phi * (filmS w k (mats r)).mag (as j) (bs j) z +
          Real.sin exc.phi * (filmP w k (mats r)).mag (ap j) (bp j) z ∧
        (F z).hy i = Real.sin exc.phi * (filmS w k (mats r)).mag (as j) (bs j) z -
          Real.cos exc.phi * (filmP w k (mats r)).mag (ap j) (bp j) z ∧
        w * (F z).ex i = Real.sin exc.phi * (filmS w k (mats r)).ele (as j) (bs j) z -
          Real.cos exc.phi * (filmP w k (mats r)).ele (ap j) (bp j) z ∧
        w * (F z).ey i = -(Real.cos exc.phi * (filmS w k (mats r)).ele (as j) (bs j) z +
          Real.sin exc.phi * (filmP w k (mats r)).ele (ap j) (bp j) z) ∧
        w ^ 2 * (F z).hz i = -(k * (filmS w k (mats r)).ele (as j) (bs j) z) ∧
        w * (mats r).epsilon.value * (F z).ez i = k * (filmP w k (mats r)).mag (ap j) (bp j) z) := by
  obtain ⟨w, k, h1, -, h2, -, as, bs, ap, bp, rest⟩ := planar_fields hinit hh hp hwl hcos h00 hpos one_pos hr0 he
    (by rw [hm, Complex.ofReal_one]) hist id zs hz Fs h
  rw [mul_one] at h2
  rw [← zerothIndex_idxOf h00, ← (simInit_ok hinit).idx]
  exact ⟨w, k, h1, h2, as, bs, ap, bp, rest⟩

/-- C80: Fresnel's formulas. `q0` and `q1` are the normal wave numbers above and below. -/
theorem C80_fresnel {r1 : ℕ} (hst : stack = [r0, r1]) (hm1 : (mats r1).mu = 1) (hist : List (Call c.nh))
    (RT : (Fin c.nh → ℝ) × (Fin c.nh → ℝ))
    (h : (efficienciesByOrder E c (afterCalls E c hist (Dyn.fresh mats (unsolved c.nh)))).1 = .ok RT) :
    ∃ (w q0 : ℝ) (q1 e1 : ℂ), w = 2 * Real.pi / wl ∧ q0 = w * Real.sqrt e * Real.cos exc.theta ∧ e1 = (mats r1).epsilon.value ∧
    q1 = csqrt (e1 * (w : ℂ) ^ 2 - ((w * Real.sqrt e * Real.sin exc.theta : ℝ) : ℂ) ^ 2) ∧
    e1 ≠ 0 ∧ q1 ≠ 0 ∧ q0 + q1 ≠ 0 ∧ e1 * q0 + e * q1 ≠ 0 ∧
    ∑ i, RT.1 i = Real.sin exc.psi ^ 2 * Complex.normSq ((q0 - q1) / (q0 + q1)) +
      Real.cos exc.psi ^ 2 * Complex.normSq ((e1 * q0 - e * q1) / (e1 * q0 + e * q1)) ∧
    ∑ i, RT.2 i = Real.sin exc.psi ^ 2 * (4 * q0 * q1.re / Complex.normSq (q0 + q1)) +
      Real.cos exc.psi ^ 2 * (Complex.normSq (2 * e1 * q0 / (e1 * q0 + e * q1)) * ((q1 / e1).re / (q0 / e))) := by
  have hw := planar_omega hinit hp hwl h00 hpos hr0 he hm
  have hwp : 0 < c.omega := by rw [hw]; positivity
  obtain ⟨h1, h2, as, bs, ap, bp, h3, h4, h5, h6⟩ := planar_total hinit hh hp hwl hcos h00 hpos one_pos hr0
    (rN := r1) (by rw [hst]; rfl) he (by rw [hm, Complex.ofReal_one]) hist RT h rfl
  simp only [mul_one, one_mul] at h1 h2 h3 h4 h5 h6
  have hq1e : normalK c.omega (c.omega * Real.sqrt e * Real.sin exc.theta) (mats r1) =
      csqrt ((mats r1).epsilon.value * (c.omega : ℂ) ^ 2 - ((c.omega * Real.sqrt e * Real.sin exc.theta : ℝ) : ℂ) ^ 2) := by
    unfold normalK; rw [hm1, mul_one]
  obtain ⟨hne1, hq1⟩ := h1 r1 (by rw [hst]; simp)
  have hq0p : 0 < c.omega * Real.sqrt e * Real.cos exc.theta := mul_pos (mul_pos hwp (Real.sqrt_pos.mpr hpos)) hcos
  generalize hk : c.omega * Real.sqrt e * Real.sin exc.theta = k at *
  rw [hst] at h3 h4 h6
  simp only [List.map_cons, List.map_nil, List.length_cons, List.length_nil, zero_add, Nat.reduceAdd, Nat.add_one_sub_one] at h3 h4 h6
  obtain ⟨a1, a2⟩ := film_two h3
  obtain ⟨b1, b2⟩ := film_two h4
  simp only [filmS, filmP, hm, hm1, he, h2, mul_one] at a1 a2 b1 b2 h5 h6
  have hf := unimodular (c.omega * Real.sqrt e * Real.cos exc.theta) ((mats r0).thickness.getD 0)
  generalize hq0 : c.omega * Real.sqrt e * Real.cos exc.theta = q0 at *
  generalize hq1' : normalK c.omega k (mats r1) = q1 at *
  generalize he1 : (mats r1).epsilon.value = e1 at *
  generalize Complex.exp (Complex.I * (q0 : ℂ) * (((mats r0).thickness.getD 0 : ℝ) : ℂ)) = f at *
  have hw0 : (c.omega : ℂ) ≠ 0 := by exact_mod_cast hwp.ne'
  have hq0c : (q0 : ℂ) ≠ 0 := by exact_mod_cast hq0p.ne'
  have hec : (e : ℂ) ≠ 0 := by exact_mod_cast hpos.ne'
  have hf0 : f ≠ 0 := by intro hc; rw [hc] at hf; simp at hf
  -- the two polarisations
  have s1 : (q0 + q1) * bs 0 = (q1 - q0) * f := by
    field_simp at a1
    linear_combination a1
  have s2 : (q0 + q1) * as 1 = 2 * q1 * f := by
    field_simp at a2
    linear_combination a2
  have p1 : (e1 * q0 + e * q1) * bp 0 = (e1 * q0 - e * q1) * f := by
    field_simp at b1
    linear_combination b1
  have p2 : (e1 * q0 + e * q1) * ap 1 = 2 * e1 * q0 * f := by
    field_simp at b2
    linear_combination b2
  have hs : (q0 : ℂ) + q1 ≠ 0 := by
    intro hc
    rw [hc, zero_mul] at s2
    exact mul_ne_zero (mul_ne_zero two_ne_zero hq1) hf0 s2.symm
  have hpp : e1 * (q0 : ℂ) + e * q1 ≠ 0 := by
    intro hc
    rw [hc, zero_mul] at p2
    exact mul_ne_zero (mul_ne_zero (mul_ne_zero two_ne_zero hne1) hq0c) hf0 p2.symm
  refine ⟨c.omega, q0, q1, e1, hw, hq0.symm, rfl, by rw [hk]; exact hq1e, hne1, hq1, hs, hpp, ?_, ?_⟩
  · rw [h5, show bs 0 = -((q0 - q1) / (q0 + q1)) * f from by field_simp; linear_combination s1,
      show bp 0 = (e1 * q0 - e * q1) / (e1 * q0 + e * q1) * f from by field_simp; linear_combination p1]
    simp only [Complex.normSq_mul, hf, mul_one, Complex.normSq_neg]
  · rw [h6, show as 1 = 2 * q1 / (q0 + q1) * f from by field_simp; linear_combination s2,
      show ap 1 = 2 * e1 * q0 / (e1 * q0 + e * q1) * f from by field_simp; linear_combination p2]
    simp only [Complex.normSq_mul, hf, mul_one]
    have t1 : ((c.omega : ℂ) ^ 2 / q1 / ((c.omega : ℂ) ^ 2 / q0)).re = q0 * (q1.re / Complex.normSq q1) := by
      rw [show (c.omega : ℂ) ^ 2 / q1 / ((c.omega : ℂ) ^ 2 / q0) = (q0 : ℂ) * q1⁻¹ from by field_simp, Complex.re_ofReal_mul,
        Complex.inv_re]
    have t2 : (q1 / e1 / ((q0 : ℂ) / e)).re = (q1 / e1).re / (q0 / e) := by
      rw [← Complex.ofReal_div, Complex.div_ofReal_re]
    have hn : Complex.normSq q1 ≠ 0 := by simpa using hq1
    have t3 : Complex.normSq (2 * q1 / (q0 + q1)) * (q0 * (q1.re / Complex.normSq q1)) = 4 * q0 * q1.re / Complex.normSq (q0 + q1) := by
      rw [Complex.normSq_div, Complex.normSq_mul, Complex.normSq_ofNat]
      field_simp
      norm_num
      ring
    rw [t1, t2, t3]

/-- C80: Airy's formulas, for one layer of any material between two others. -/
theorem C80_airy {r1 r2 : ℕ} (hst : stack = [r0, r1, r2]) (hmu : ∀ r ∈ stack, (mats r).mu ≠ 0) (hist : List (Call c.nh))
    (RT : (Fin c.nh → ℝ) × (Fin c.nh → ℝ))
    (h : (efficienciesByOrder E c (afterCalls E c hist (Dyn.fresh mats (unsolved c.nh)))).1 = .ok RT) :
    ∃ w k : ℝ, w = 2 * Real.pi / wl ∧ k = w * Real.sqrt e * Real.sin exc.theta ∧ ∃ s0 s1 s2 p0 p1 p2 : Film,
    s0 = filmS w k (mats r0) ∧ s1 = filmS w k (mats r1) ∧ s2 = filmS w k (mats r2) ∧
    p0 = filmP w k (mats r0) ∧ p1 = filmP w k (mats r1) ∧ p2 = filmP w k (mats r2) ∧
    ((s0.Z + s1.Z) * (s1.Z + s2.Z) + (s0.Z - s1.Z) * (s1.Z - s2.Z) * Complex.exp (2 * Complex.I * s1.q * s1.d) ≠ 0) ∧
    ((p0.Z + p1.Z) * (p1.Z + p2.Z) + (p0.Z - p1.Z) * (p1.Z - p2.Z) * Complex.exp (2 * Complex.I * p1.q * p1.d) ≠ 0) ∧
    ∑ i, RT.1 i = Real.sin exc.psi ^ 2 * Complex.normSq (airyR s0 s1 s2) + Real.cos exc.psi ^ 2 * Complex.normSq (airyR p0 p1 p2) ∧
    ∑ i, RT.2 i = Real.sin exc.psi ^ 2 * (Complex.normSq (airyT s0 s1 s2) * (s2.Z / s0.Z).re) +
      Real.cos exc.psi ^ 2 * (Complex.normSq (airyT p0 p1 p2) * (p2.Z / p0.Z).re) := by
  have hw := planar_omega hinit hp hwl h00 hpos hr0 he hm
  have hwp : 0 < c.omega := by rw [hw]; positivity
  have hw0 : (c.omega : ℂ) ≠ 0 := by exact_mod_cast hwp.ne'
  obtain ⟨h1, h2, as, bs, ap, bp, h3, h4, h5, h6⟩ := planar_total hinit hh hp hwl hcos h00 hpos one_pos hr0
    (rN := r2) (by rw [hst]; rfl) he (by rw [hm, Complex.ofReal_one]) hist RT h rfl
  simp only [mul_one, one_mul] at h1 h2 h3 h4 h5 h6
  refine ⟨c.omega, c.omega * Real.sqrt e * Real.sin exc.theta, hw, rfl, _, _, _, _, _, _, rfl, rfl, rfl, rfl, rfl, rfl, ?_⟩
  generalize c.omega * Real.sqrt e * Real.sin exc.theta = k at *
  have hmem : r0 ∈ stack ∧ r1 ∈ stack := by rw [hst]; simp
  have zs : ∀ r ∈ stack, (filmS c.omega k (mats r)).Z ≠ 0 ∧ (filmP c.omega k (mats r)).Z ≠ 0 := fun r hr =>
    ⟨div_ne_zero (mul_ne_zero (pow_ne_zero 2 hw0) (hmu r hr)) (h1 r hr).2, div_ne_zero (h1 r hr).2 (h1 r hr).1⟩
  rw [hst] at h3 h4 h6
  simp only [List.map_cons, List.map_nil, List.length_cons, List.length_nil, zero_add, Nat.reduceAdd, Nat.add_one_sub_one] at h3 h4 h6
  have hf := unimodular (c.omega * Real.sqrt e * Real.cos exc.theta) ((mats r0).thickness.getD 0)
  rw [← h2] at hf
  have key : ∀ (F0 F1 F2 : Film) (a b : ℕ → ℂ), F0.Z ≠ 0 → F1.Z ≠ 0 → Complex.normSq (Complex.exp (Complex.I * F0.q * F0.d)) = 1 →
      FilmSolution [F0, F1, F2] a b →
      (F0.Z + F1.Z) * (F1.Z + F2.Z) + (F0.Z - F1.Z) * (F1.Z - F2.Z) * Complex.exp (2 * Complex.I * F1.q * F1.d) ≠ 0 ∧
      Complex.normSq (b 0) = Complex.normSq (airyR F0 F1 F2) ∧ Complex.normSq (a 2) = Complex.normSq (airyT F0 F1 F2) := by
    intro F0 F1 F2 a b z0 z1 hf hs
    obtain ⟨e1, e2⟩ := film_three hs
    have hsq : Complex.exp (Complex.I * F1.q * F1.d) ^ 2 = Complex.exp (2 * Complex.I * F1.q * F1.d) := by
      rw [← Complex.exp_nat_mul]; congr 1; push_cast; ring
    have hf0 : Complex.exp (Complex.I * F0.q * F0.d) ≠ 0 := Complex.exp_ne_zero _
    have hf1 : Complex.exp (Complex.I * F1.q * F1.d) ≠ 0 := Complex.exp_ne_zero _
    rw [hsq] at e1 e2
    have hD : (F0.Z + F1.Z) * (F1.Z + F2.Z) + (F0.Z - F1.Z) * (F1.Z - F2.Z) * Complex.exp (2 * Complex.I * F1.q * F1.d) ≠ 0 := by
      intro hc
      rw [hc, zero_mul] at e2
      exact mul_ne_zero (mul_ne_zero (mul_ne_zero (mul_ne_zero (by norm_num) z0) z1) hf1) hf0 e2.symm
    refine ⟨hD, ?_, ?_⟩
    · rw [show b 0 = airyR F0 F1 F2 * Complex.exp (Complex.I * F0.q * F0.d) from by
        unfold airyR; rw [div_mul_eq_mul_div, eq_div_iff hD, ← e1]; ring, Complex.normSq_mul, hf, mul_one]
    · rw [show a 2 = airyT F0 F1 F2 * Complex.exp (Complex.I * F0.q * F0.d) from by
        unfold airyT; rw [div_mul_eq_mul_div, eq_div_iff hD, ← e2]; ring, Complex.normSq_mul, hf, mul_one]
  obtain ⟨x1, x2, x3⟩ := key _ _ _ _ _ (zs r0 hmem.1).1 (zs r1 hmem.2).1 hf h3
  obtain ⟨y1, y2, y3⟩ := key _ _ _ _ _ (zs r0 hmem.1).2 (zs r1 hmem.2).2 hf h4
  refine ⟨x1, y1, ?_, ?_⟩
  · rw [h5, x2, y2]
  · rw [h6, x3, y3]

/-- C80: total reflection. Below the critical angle of a lossless substrate (`e1 < e sin^2 theta`, metals included) everything is
reflected. -/
theorem C80_total_reflection (hA : ArgsortContract E.argsort) (hu : c.lattice.harmonicsArray = none) {r1 : ℕ} (hst : stack = [r0, r1])
    (hm1 : (mats r1).mu = 1) {e1 : ℝ} (he1 : (mats r1).epsilon.value = e1) (hne : e1 ≠ 0) (hlt : e1 < e * Real.sin exc.theta ^ 2)
    (hist : List (Call c.nh)) :
    ∃ RT, (efficienciesByOrder E c (afterCalls E c hist (Dyn.fresh mats (unsolved c.nh)))).1 = .ok RT ∧
      ∑ i, RT.1 i = 1 ∧ ∑ i, RT.2 i = 0 := by
  have hmem : ∀ r ∈ stack, r = r0 ∨ r = r1 := by rw [hst]; simp
  have t := Real.sin_sq_add_cos_sq exc.theta
  have p := Real.sin_sq_add_cos_sq exc.psi
  obtain ⟨RT, h⟩ := C80_planar_defined hinit hh hp hwl hcos h00 hpos hr0 he hm hA hu (by rw [hst]; simp)
    (fun r hr => by rcases hmem r hr with rfl | rfl <;> assumption)
    (fun r hr => by
      rcases hmem r hr with rfl | rfl
      · rw [he]; exact_mod_cast hpos.ne'
      · rw [he1]; exact_mod_cast hne)
    (fun r hr => by
      rcases hmem r hr with rfl | rfl
      · rw [he]
        norm_cast
        intro hc
        have : Real.cos exc.theta ^ 2 = 0 := by
          have : e * (1 - Real.sin exc.theta ^ 2) = 0 := by linarith
          have := (mul_eq_zero.mp this).resolve_left hpos.ne'
          linarith
        exact hcos.ne' (by simpa using this)
      · rw [he1]
        norm_cast
        exact hlt.ne)
    (fun k r h1 h2 => by rw [hst] at h2; simp at h2; omega) hist
  obtain ⟨w, q0, q1, e1', hw, hq0, rfl, hq1, hne1, hq1n, hs, hpp, hR, hT⟩ := C80_fresnel hinit hh hp hwl hcos h00 hpos hr0 he hm hst hm1 hist RT h
  refine ⟨RT, h, ?_, ?_⟩
  all_goals
    rw [he1] at hq1 hR hT hpp
    have hwp : 0 < w := by rw [hw]; positivity
    have hsqe := Real.sq_sqrt hpos.le
    have harg : (e1 : ℂ) * (w : ℂ) ^ 2 - ((w * Real.sqrt e * Real.sin exc.theta : ℝ) : ℂ) ^ 2 =
        ((-(w ^ 2 * (e * Real.sin exc.theta ^ 2 - e1)) : ℝ) : ℂ) := by
      norm_cast
      linear_combination (-(w ^ 2 * Real.sin exc.theta ^ 2)) * hsqe
    have hneg : 0 < w ^ 2 * (e * Real.sin exc.theta ^ 2 - e1) := by
      have : 0 < e * Real.sin exc.theta ^ 2 - e1 := by linarith
      positivity
    have hsq : q1 ^ 2 = ((-(w ^ 2 * (e * Real.sin exc.theta ^ 2 - e1)) : ℝ) : ℂ) := by rw [hq1, csqrt_sq, harg]
    have hre : q1.re = 0 := by
      have h1 := congrArg Complex.re hsq
      have h2 := congrArg Complex.im hsq
      rw [pow_two, Complex.mul_re, Complex.ofReal_re] at h1
      rw [pow_two, Complex.mul_im, Complex.ofReal_im] at h2
      by_contra hc
      have : q1.im = 0 := by
        have : q1.re * q1.im = 0 := by linarith
        exact (mul_eq_zero.mp this).resolve_left hc
      rw [this] at h1
      nlinarith [sq_nonneg q1.re]
  · rw [hR, Complex.normSq_div, Complex.normSq_div]
    have n1 : Complex.normSq (q0 - q1) = Complex.normSq (q0 + q1) := by
      simp only [Complex.normSq_apply, Complex.sub_re, Complex.add_re, Complex.sub_im, Complex.add_im, Complex.ofReal_re, Complex.ofReal_im, hre]
      ring
    have n2 : Complex.normSq (e1 * q0 - e * q1) = Complex.normSq (e1 * q0 + e * q1) := by
      simp only [Complex.normSq_apply, Complex.sub_re, Complex.add_re, Complex.sub_im, Complex.add_im, Complex.mul_re, Complex.mul_im,
        Complex.ofReal_re, Complex.ofReal_im, hre]
      ring
    rw [n1, n2, div_self (by simpa using hs), div_self (by simpa using hpp), mul_one, mul_one, p]
  · rw [hT, hre, Complex.div_ofReal_re, hre]
    simp

/-- C80: Brewster's angle. With the magnetic field parallel to the interface and `e sin^2 theta = e1 cos^2 theta` nothing is
reflected. -/
theorem C80_brewster {r1 : ℕ} (hst : stack = [r0, r1]) (hm1 : (mats r1).mu = 1) {e1 : ℝ} (he1 : (mats r1).epsilon.value = e1) (h1pos : 0 < e1)
    (hpsi : Real.sin exc.psi = 0) (hb : e * Real.sin exc.theta ^ 2 = e1 * Real.cos exc.theta ^ 2) (hist : List (Call c.nh))
    (RT : (Fin c.nh → ℝ) × (Fin c.nh → ℝ))
    (h : (efficienciesByOrder E c (afterCalls E c hist (Dyn.fresh mats (unsolved c.nh)))).1 = .ok RT) :
    ∑ i, RT.1 i = 0 ∧ ∑ i, RT.2 i = 1 := by
  obtain ⟨w, q0, q1, e1', hw, hq0, rfl, hq1, hne1, hq1n, hs, hpp, hR, hT⟩ := C80_fresnel hinit hh hp hwl hcos h00 hpos hr0 he hm hst hm1 hist RT h
  rw [he1] at hq1 hR hT hpp
  have t := Real.sin_sq_add_cos_sq exc.theta
  have hwp : 0 < w := by rw [hw]; positivity
  have hsqe := Real.sq_sqrt hpos.le
  have hcp : Real.cos exc.psi ^ 2 = 1 := by
    have p := Real.sin_sq_add_cos_sq exc.psi
    rw [hpsi] at p
    linarith
  have harg : (e1 : ℂ) * (w : ℂ) ^ 2 - ((w * Real.sqrt e * Real.sin exc.theta : ℝ) : ℂ) ^ 2 =
      (((e1 * q0 / e) ^ 2 : ℝ) : ℂ) := by
    rw [hq0]
    norm_cast
    have k1 : e * (e1 - e * Real.sin exc.theta ^ 2) = e1 ^ 2 * Real.cos exc.theta ^ 2 := by
      linear_combination (e1 - e) * hb - e * e1 * t
    rw [show (e1 * (w * Real.sqrt e * Real.cos exc.theta) / e) ^ 2 =
      w ^ 2 * Real.sqrt e ^ 2 / e ^ 2 * (e1 ^ 2 * Real.cos exc.theta ^ 2) from by ring, ← k1, hsqe, mul_pow, mul_pow, hsqe]
    field_simp
  have hq0p : 0 < q0 := by rw [hq0]; exact mul_pos (mul_pos hwp (Real.sqrt_pos.mpr hpos)) hcos
  have hq1e : q1 = ((e1 * q0 / e : ℝ) : ℂ) := by
    rw [hq1, harg, csqrt_ofReal (by positivity), Real.sqrt_sq (by positivity)]
  have hec : (e : ℂ) ≠ 0 := by exact_mod_cast hpos.ne'
  have h1c : (e1 : ℂ) ≠ 0 := by exact_mod_cast h1pos.ne'
  have hqc : (q0 : ℂ) ≠ 0 := by exact_mod_cast hq0p.ne'
  rw [hR, hT, hpsi, hcp, hq1e]
  have z1 : (e1 : ℂ) * q0 - e * ((e1 * q0 / e : ℝ) : ℂ) = 0 := by push_cast; field_simp; ring
  have z2 : (2 : ℂ) * e1 * q0 / (e1 * q0 + e * ((e1 * q0 / e : ℝ) : ℂ)) = 1 := by push_cast; field_simp; norm_num
  have z3 : (((e1 * q0 / e : ℝ) : ℂ) / e1).re = q0 / e := by
    rw [Complex.div_ofReal_re, Complex.ofReal_re]; field_simp
  rw [z1, z2, z3]
  constructor
  · simp
  · rw [div_self (by positivity)]; simp

/-- C80: a half-wave layer (`q t` a whole multiple of pi) drops out, at any angle and for any material. -/
theorem C80_half_wave {r1 r2 : ℕ} (hst : stack = [r0, r1, r2]) (hmu : ∀ r ∈ stack, (mats r).mu ≠ 0) {n : ℤ}
    (hhalf : csqrt ((mats r1).epsilon.value * (mats r1).mu * ((2 * Real.pi / wl : ℝ) : ℂ) ^ 2 -
      ((2 * Real.pi / wl * Real.sqrt e * Real.sin exc.theta : ℝ) : ℂ) ^ 2) * (((mats r1).thickness.getD 0 : ℝ) : ℂ) = n * Real.pi)
    {E' : Ext} {lats' : ℕ → Lattice} {nh' : ℤ} {form' : String} {c' : Static} (hinit' : simInit E' lats' mats [r0, r2] exc nh' form' = .ok c')
    (h00' : ((0 : ℤ), (0 : ℤ)) ∈ c'.harmonics) (hist : List (Call c.nh)) (hist' : List (Call c'.nh))
    (RT : (Fin c.nh → ℝ) × (Fin c.nh → ℝ)) (RT' : (Fin c'.nh → ℝ) × (Fin c'.nh → ℝ))
    (h : (efficienciesByOrder E c (afterCalls E c hist (Dyn.fresh mats (unsolved c.nh)))).1 = .ok RT)
    (h' : (efficienciesByOrder E' c' (afterCalls E' c' hist' (Dyn.fresh mats (unsolved c'.nh)))).1 = .ok RT') :
    ∑ i, RT.1 i = ∑ i, RT'.1 i ∧ ∑ i, RT.2 i = ∑ i, RT'.2 i := by
  have hw := planar_omega hinit hp hwl h00 hpos hr0 he hm
  have hw' := planar_omega hinit' hp hwl h00' hpos rfl he hm
  have hwp : 0 < 2 * Real.pi / wl := by positivity
  obtain ⟨w, k, rfl, hk, s0, s1, s2, p0, p1, p2, es0, es1, es2, ep0, ep1, ep2, d1, d2, hR, hT⟩ := C80_airy hinit hh hp hwl hcos h00 hpos hr0 he hm hst hmu hist RT h
  obtain ⟨g1, g2, as, bs, ap, bp, g3, g4, g5, g6⟩ := planar_total hinit' (fun r hr => hh r (by
      rw [hst]; simp only [List.mem_cons, List.not_mem_nil, or_false] at hr ⊢; tauto)) hp hwl hcos h00' hpos one_pos rfl
    (rN := r2) rfl he (by rw [hm, Complex.ofReal_one]) hist' RT' h' rfl
  simp only [mul_one, one_mul] at g1 g2 g3 g4 g5 g6
  rw [hw', ← hk] at g2 g3 g4 g6
  rw [← hk] at hhalf
  simp only [List.map_cons, List.map_nil, List.length_cons, List.length_nil, zero_add, Nat.reduceAdd, Nat.add_one_sub_one] at g3 g4 g6
  rw [← es0, ← es2] at g3 g6
  rw [← ep0, ← ep2] at g4 g6
  have hf := unimodular (2 * Real.pi / wl * Real.sqrt e * Real.cos exc.theta) ((mats r0).thickness.getD 0)
  rw [← g2] at hf
  have hph : Complex.normSq (Complex.exp (Complex.I * normalK (2 * Real.pi / wl) k (mats r1) * (((mats r1).thickness.getD 0 : ℝ) : ℂ))) = 1 ∧
      Complex.exp (2 * Complex.I * normalK (2 * Real.pi / wl) k (mats r1) * (((mats r1).thickness.getD 0 : ℝ) : ℂ)) = 1 := by
    unfold normalK
    constructor
    · rw [mul_assoc, hhalf, show Complex.I * ((n : ℂ) * (Real.pi : ℂ)) = ((n * Real.pi : ℝ) : ℂ) * Complex.I from by push_cast; ring,
        Complex.normSq_eq_norm_sq, Complex.norm_exp_ofReal_mul_I]
      norm_num
    · rw [mul_assoc, hhalf, show 2 * Complex.I * ((n : ℂ) * (Real.pi : ℂ)) = n * (2 * Real.pi * Complex.I) from by ring]
      exact Complex.exp_int_mul_two_pi_mul_I n
  have key : ∀ (F0 F1 F2 : Film) (a b : ℕ → ℂ), Complex.normSq (Complex.exp (Complex.I * F0.q * F0.d)) = 1 →
      Complex.normSq (Complex.exp (Complex.I * F1.q * F1.d)) = 1 → Complex.exp (2 * Complex.I * F1.q * F1.d) = 1 →
      (F0.Z + F1.Z) * (F1.Z + F2.Z) + (F0.Z - F1.Z) * (F1.Z - F2.Z) * Complex.exp (2 * Complex.I * F1.q * F1.d) ≠ 0 →
      FilmSolution [F0, F2] a b →
      Complex.normSq (airyR F0 F1 F2) = Complex.normSq (b 0) ∧ Complex.normSq (airyT F0 F1 F2) = Complex.normSq (a 1) := by
    intro F0 F1 F2 a b hf hf1 hf2 hD hs
    obtain ⟨e1, e2⟩ := film_two hs
    rw [hf2, mul_one, show (F0.Z + F1.Z) * (F1.Z + F2.Z) + (F0.Z - F1.Z) * (F1.Z - F2.Z) = 2 * F1.Z * (F0.Z + F2.Z) from by ring] at hD
    have hZ : F0.Z + F2.Z ≠ 0 := right_ne_zero_of_mul hD
    have hZ1 : F1.Z ≠ 0 := by rintro hc; rw [hc] at hD; simp at hD
    constructor
    · rw [show b 0 = airyR F0 F1 F2 * Complex.exp (Complex.I * F0.q * F0.d) from by
        unfold airyR
        rw [hf2, mul_one, mul_one, show (F0.Z + F1.Z) * (F1.Z + F2.Z) + (F0.Z - F1.Z) * (F1.Z - F2.Z) = 2 * F1.Z * (F0.Z + F2.Z) from by ring,
          div_mul_eq_mul_div, eq_div_iff hD]
        linear_combination 2 * F1.Z * e1, Complex.normSq_mul, hf, mul_one]
    · have := congrArg Complex.normSq (show airyT F0 F1 F2 * Complex.exp (Complex.I * F0.q * F0.d) = a 1 * Complex.exp (Complex.I * F1.q * F1.d) from by
        unfold airyT
        rw [hf2, mul_one, show (F0.Z + F1.Z) * (F1.Z + F2.Z) + (F0.Z - F1.Z) * (F1.Z - F2.Z) = 2 * F1.Z * (F0.Z + F2.Z) from by ring,
          div_mul_eq_mul_div, div_eq_iff hD]
        linear_combination -2 * F1.Z * Complex.exp (Complex.I * F1.q * F1.d) * e2)
      rw [Complex.normSq_mul, Complex.normSq_mul, hf, hf1, mul_one, mul_one] at this
      exact this
  obtain ⟨x1, x2⟩ := key s0 s1 s2 as bs (by rw [es0]; exact hf) (by rw [es1]; exact hph.1) (by rw [es1]; exact hph.2) d1 g3
  obtain ⟨y1, y2⟩ := key p0 p1 p2 ap bp (by rw [ep0]; exact hf) (by rw [ep1]; exact hph.1) (by rw [ep1]; exact hph.2) d2 g4
  rw [hR, hT, g5, g6, x1, x2, y1, y2]
  exact ⟨rfl, rfl⟩

/-- C80: a quarter-wave layer of permittivity `e1 = sqrt(e e2)` at normal incidence suppresses reflection. -/
theorem C80_quarter_wave (hA : ArgsortContract E.argsort) (hu : c.lattice.harmonicsArray = none) {r1 r2 : ℕ} (hst : stack = [r0, r1, r2])
    (hmu : ∀ r ∈ stack, (mats r).mu = 1) (hnorm : Real.sin exc.theta = 0) {e1 e2 t : ℝ} (he1 : (mats r1).epsilon.value = e1) (h1pos : 0 < e1)
    (he2 : (mats r2).epsilon.value = e2) (h2pos : 0 < e2) (hgeo : e1 ^ 2 = e * e2) (ht : (mats r1).thickness = some t) {n : ℕ}
    (hquarter : 4 * Real.sqrt e1 * t = (2 * n + 1) * wl) (hist : List (Call c.nh)) :
    ∃ RT, (efficienciesByOrder E c (afterCalls E c hist (Dyn.fresh mats (unsolved c.nh)))).1 = .ok RT ∧
      ∑ i, RT.1 i = 0 ∧ ∑ i, RT.2 i = 1 := by
  have hmem : ∀ r ∈ stack, r = r0 ∨ r = r1 ∨ r = r2 := by rw [hst]; simp
  have hs1 : 0 < Real.sqrt e1 := Real.sqrt_pos.mpr h1pos
  have ht0 : 0 ≤ t := by
    have : 0 ≤ (2 * n + 1) * wl := by positivity
    by_contra hc
    push Not at hc
    nlinarith
  have heps : ∀ r ∈ stack, ∃ x : ℝ, 0 < x ∧ (mats r).epsilon.value = x := by
    intro r hr
    rcases hmem r hr with rfl | rfl | rfl
    · exact ⟨e, hpos, he⟩
    · exact ⟨e1, h1pos, he1⟩
    · exact ⟨e2, h2pos, he2⟩
  obtain ⟨RT, h⟩ := C80_planar_defined hinit hh hp hwl hcos h00 hpos hr0 he hm hA hu (by rw [hst]; simp) hmu
    (fun r hr => by obtain ⟨x, hx, hx'⟩ := heps r hr; rw [hx']; exact_mod_cast hx.ne')
    (fun r hr => by obtain ⟨x, hx, hx'⟩ := heps r hr; rw [hx', hnorm]; norm_num; exact hx.ne')
    (fun k r h1 h2 h3 => by
      obtain ⟨x, hx, hx'⟩ := heps r (List.mem_of_getElem? h3)
      refine ⟨by rw [hx']; simp, fun t' ht' => ?_⟩
      rw [hst] at h2 h3
      simp only [List.length_cons, List.length_nil] at h2
      obtain rfl : k = 1 := by omega
      obtain rfl : r1 = r := by simpa using h3
      rw [ht] at ht'
      rw [← Option.some.inj ht']
      exact ht0) hist
  obtain ⟨w, k, hw, hk, s0, s1, s2, p0, p1, p2, es0, es1, es2, ep0, ep1, ep2, d1, d2, hR, hT⟩ := C80_airy hinit hh hp hwl hcos h00 hpos hr0 he hm hst
    (fun r hr => by rw [hmu r hr]; exact one_ne_zero) hist RT h
  have hk0 : k = 0 := by rw [hk, hnorm, mul_zero]
  have hwp : 0 < w := by rw [hw]; positivity
  have hwc : (w : ℂ) ≠ 0 := by exact_mod_cast hwp.ne'
  have hq : ∀ r ∈ stack, ∀ x : ℝ, 0 < x → (mats r).epsilon.value = x → normalK w k (mats r) = ((w * Real.sqrt x : ℝ) : ℂ) ∧
      (filmS w k (mats r)).Z = ((w / Real.sqrt x : ℝ) : ℂ) ∧ (filmP w k (mats r)).Z = ((w / Real.sqrt x : ℝ) : ℂ) := by
    intro r hr x hx hx'
    have hsx : 0 < Real.sqrt x := Real.sqrt_pos.mpr hx
    have h1 : normalK w k (mats r) = ((w * Real.sqrt x : ℝ) : ℂ) := by
      unfold normalK
      rw [hx', hmu r hr, hk0, show ((x : ℂ) * 1 * (w : ℂ) ^ 2 - ((0 : ℝ) : ℂ) ^ 2) = ((x * w ^ 2 : ℝ) : ℂ) from by push_cast; ring,
        csqrt_ofReal (by positivity), Real.sqrt_mul hx.le, Real.sqrt_sq hwp.le, mul_comm]
    refine ⟨h1, ?_, ?_⟩
    · simp only [filmS]
      rw [h1, hmu r hr, mul_one]
      norm_cast
      field_simp
    · simp only [filmP]
      rw [h1, hx']
      norm_cast
      nth_rewrite 2 [← Real.sq_sqrt hx.le]
      field_simp
  obtain ⟨-, a1, a2⟩ := hq r0 (by rw [hst]; simp) e hpos he
  obtain ⟨q1, b1, b2⟩ := hq r1 (by rw [hst]; simp) e1 h1pos he1
  obtain ⟨-, c1, c2⟩ := hq r2 (by rw [hst]; simp) e2 h2pos he2
  rw [← es0] at a1
  rw [← ep0] at a2
  rw [← es1] at b1
  rw [← ep1] at b2
  rw [← es2] at c1
  rw [← ep2] at c2
  have hx : w * Real.sqrt e1 * t = (2 * n + 1) * Real.pi / 2 := by
    rw [hw]
    field_simp
    linear_combination hquarter
  have ph : Complex.normSq (Complex.exp (Complex.I * normalK w k (mats r1) * (((mats r1).thickness.getD 0 : ℝ) : ℂ))) = 1 ∧
      Complex.exp (2 * Complex.I * normalK w k (mats r1) * (((mats r1).thickness.getD 0 : ℝ) : ℂ)) = -1 := by
    rw [q1]
    refine ⟨unimodular _ _, ?_⟩
    rw [ht, Option.getD_some, show 2 * Complex.I * ((w * Real.sqrt e1 : ℝ) : ℂ) * (t : ℂ) = 2 * Complex.I * ((w * Real.sqrt e1 * t : ℝ) : ℂ) from by
      push_cast; ring, hx, show 2 * Complex.I * (((2 * n + 1) * Real.pi / 2 : ℝ) : ℂ) = (n : ℂ) * (2 * Real.pi * Complex.I) + Real.pi * Complex.I from by
      push_cast; ring, Complex.exp_add, Complex.exp_pi_mul_I, Complex.exp_nat_mul_two_pi_mul_I]
    ring
  have key : ∀ F0 F1 F2 : Film, F0.Z = ((w / Real.sqrt e : ℝ) : ℂ) → F1.Z = ((w / Real.sqrt e1 : ℝ) : ℂ) → F2.Z = ((w / Real.sqrt e2 : ℝ) : ℂ) →
      Complex.normSq (Complex.exp (Complex.I * F1.q * F1.d)) = 1 → Complex.exp (2 * Complex.I * F1.q * F1.d) = -1 →
      Complex.normSq (airyR F0 F1 F2) = 0 ∧ Complex.normSq (airyT F0 F1 F2) * (F2.Z / F0.Z).re = 1 := by
    intro F0 F1 F2 z0 z1 z2 f1 f2
    have hse : 0 < Real.sqrt e := Real.sqrt_pos.mpr hpos
    have hs2 : 0 < Real.sqrt e2 := Real.sqrt_pos.mpr h2pos
    have hg : Real.sqrt e1 ^ 2 = Real.sqrt e * Real.sqrt e2 := by
      rw [← Real.sqrt_mul hpos.le, ← hgeo, Real.sq_sqrt h1pos.le, Real.sqrt_sq h1pos.le]
    have hZ : F1.Z ^ 2 = F0.Z * F2.Z := by
      rw [z0, z1, z2]
      norm_cast
      rw [div_pow, hg]
      field_simp
    have hF0 : F0.Z ≠ 0 := by rw [z0]; exact_mod_cast (div_pos hwp hse).ne'
    have hF1 : F1.Z ≠ 0 := by rw [z1]; exact_mod_cast (div_pos hwp hs1).ne'
    have hsum : F0.Z + F2.Z ≠ 0 := by
      rw [z0, z2]; exact_mod_cast (add_pos (div_pos hwp hse) (div_pos hwp hs2)).ne'
    constructor
    · rw [show airyR F0 F1 F2 = 0 from by
        unfold airyR
        rw [f2, show (F0.Z - F1.Z) * (F1.Z + F2.Z) + (F0.Z + F1.Z) * (F1.Z - F2.Z) * -1 = 0 from by linear_combination -2 * hZ, zero_div]]
      simp
    · have : airyT F0 F1 F2 = F0.Z / F1.Z * Complex.exp (Complex.I * F1.q * F1.d) := by
        unfold airyT
        rw [f2, show (F0.Z + F1.Z) * (F1.Z + F2.Z) + (F0.Z - F1.Z) * (F1.Z - F2.Z) * -1 = 4 * F1.Z ^ 2 from by linear_combination -2 * hZ]
        field_simp
      rw [this, Complex.normSq_mul, f1, mul_one, z0, z1, z2, ← Complex.ofReal_div, ← Complex.ofReal_div, Complex.normSq_ofReal, Complex.ofReal_re]
      field_simp
      rw [hg]
  obtain ⟨x1, x2⟩ := key s0 s1 s2 a1 b1 c1 (by rw [es1]; exact ph.1) (by rw [es1]; exact ph.2)
  obtain ⟨y1, y2⟩ := key p0 p1 p2 a2 b2 c2 (by rw [ep1]; exact ph.1) (by rw [ep1]; exact ph.2)
  have p := Real.sin_sq_add_cos_sq exc.psi
  refine ⟨RT, h, ?_, ?_⟩
  · rw [hR, x1, y1]; ring
  · rw [hT, x2, y2, mul_one, mul_one, p]

end

namespace Examples

/-- C80 (stack, existence, Fresnel, total reflection): from glass to air at 60 degrees, azimuth 30, polarisation 45. -/
example : ∃ (exc : PlaneWave) (c : Static), planeWave 1 (60, 30, 45) = .ok exc ∧
    simInit exE (fun _ => exLat) (filmMats (fun r => if r = 0 then 4 else 1) 1 0) [0, 1] exc 1 "original" = .ok c ∧
    ∃ RT, (efficienciesByOrder exE c (afterCalls exE c [] (Dyn.fresh (filmMats (fun r => if r = 0 then 4 else 1) 1 0) (unsolved c.nh)))).1 = .ok RT ∧
      ∑ i, RT.1 i = 1 ∧ ∑ i, RT.2 i = 0 := by
  obtain ⟨exc, hp, hs, hc, -⟩ := oblique_wave 1 30 45 one_pos
  obtain ⟨c, hi, hH, hl⟩ := planar_init (filmMats (fun r => if r = 0 then 4 else 1) 1 0) 0 [1] exc (by simp [filmMats, exLayer])
    (by simp [filmMats, exLayer]) (filmMats_hom _ _ _ _) (by rw [filmMats_eps, filmMats_mu]; simp)
  exact ⟨exc, c, hp, hi, C80_total_reflection hi (fun r _ => filmMats_hom _ _ _ r) hp one_pos (by rw [hc]; norm_num) (by rw [hH]; simp)
    (e := 4) (by norm_num) rfl (by rw [filmMats_eps]; norm_num) rfl exSort_spec (by rw [hl]; rfl) rfl rfl (e1 := 1)
    (by rw [filmMats_eps]; norm_num) one_ne_zero (by rw [hs]; norm_num) []⟩

/-- C80 (Brewster): permittivity 3 below vacuum at 60 degrees. -/
example : ∃ (exc : PlaneWave) (c : Static), planeWave 1 (60, 30, 0) = .ok exc ∧
    simInit exE (fun _ => exLat) (filmMats (fun r => if r = 0 then 1 else 3) 1 0) [0, 1] exc 1 "original" = .ok c ∧
    ∃ RT, (efficienciesByOrder exE c (afterCalls exE c [] (Dyn.fresh (filmMats (fun r => if r = 0 then 1 else 3) 1 0) (unsolved c.nh)))).1 = .ok RT ∧
      ∑ i, RT.1 i = 0 ∧ ∑ i, RT.2 i = 1 := by
  obtain ⟨exc, hp, hs, hc, hpsi⟩ := oblique_wave 1 30 0 one_pos
  obtain ⟨c, hi, hH, hl⟩ := planar_init (filmMats (fun r => if r = 0 then 1 else 3) 1 0) 0 [1] exc (by simp [filmMats, exLayer])
    (by simp [filmMats, exLayer]) (filmMats_hom _ _ _ _) (by rw [filmMats_eps, filmMats_mu]; simp)
  have hh : ∀ r ∈ [0, 1], Homogeneous (filmMats (fun r => if r = 0 then 1 else 3) 1 0 r) := fun r _ => filmMats_hom _ _ _ r
  have hcos : 0 < Real.cos exc.theta := by rw [hc]; norm_num
  have h00 : ((0 : ℤ), (0 : ℤ)) ∈ c.harmonics := by rw [hH]; simp
  have he : (filmMats (fun r => if r = 0 then 1 else 3) 1 0 0).epsilon.value = ((1 : ℝ) : ℂ) := by rw [filmMats_eps]; norm_num
  obtain ⟨RT, h⟩ := C80_planar_defined hi hh hp one_pos hcos h00 one_pos rfl he rfl exSort_spec (by rw [hl]; rfl) (by simp) (fun r _ => rfl)
    (fun r hr => by rw [filmMats_eps]; split_ifs <;> norm_num)
    (fun r hr => by rw [filmMats_eps, hs]; split_ifs <;> norm_num)
    (fun k r h1 h2 => by simp at h2; omega) []
  exact ⟨exc, c, hp, hi, RT, h, C80_brewster hi hh hp one_pos hcos h00 one_pos rfl he rfl rfl rfl (e1 := 3)
    (by rw [filmMats_eps]; norm_num) (by norm_num) (by rw [hpsi]; simp) (by rw [hs, hc]; norm_num) [] RT h⟩

/-- C80 (quarter wave, Airy): a layer of permittivity 2 on permittivity 4. -/
example : ∃ (exc : PlaneWave) (c : Static), planeWave 1 (0, 0, 30) = .ok exc ∧
    simInit exE (fun _ => exLat) (filmMats (fun r => 2 ^ r) 1 fun r => if r = 1 then 1 / (4 * Real.sqrt 2) else 0) [0, 1, 2] exc 1 "original" = .ok c ∧
    ∃ RT, (efficienciesByOrder exE c (afterCalls exE c [] (Dyn.fresh (filmMats (fun r => 2 ^ r) 1 fun r => if r = 1 then 1 / (4 * Real.sqrt 2) else 0) (unsolved c.nh)))).1 = .ok RT ∧
      ∑ i, RT.1 i = 0 ∧ ∑ i, RT.2 i = 1 := by
  obtain ⟨exc, hp, hs, hc, hpsi⟩ := normal_incidence 1 30 one_pos
  obtain ⟨c, hi, hH, hl⟩ := planar_init (filmMats (fun r => 2 ^ r) 1 fun r => if r = 1 then 1 / (4 * Real.sqrt 2) else 0) 0 [1, 2] exc (by simp [filmMats, exLayer])
    (by simp [filmMats, exLayer]) (filmMats_hom _ _ _ _) (by rw [filmMats_eps, filmMats_mu]; simp)
  refine ⟨exc, c, hp, hi, C80_quarter_wave hi (fun r _ => filmMats_hom _ _ _ r) hp one_pos (by rw [hc]; norm_num) (by rw [hH]; simp)
    (e := 1) one_pos rfl (by rw [filmMats_eps]; norm_num) rfl exSort_spec (by rw [hl]; rfl) rfl (fun r _ => rfl) hs (e1 := 2) (e2 := 4)
    (t := 1 / (4 * Real.sqrt 2)) (by rw [filmMats_eps]; norm_num) two_pos (by rw [filmMats_eps]; norm_num) (by norm_num) (by norm_num)
    (by rw [filmMats_d]; simp) (n := 0) ?_ []⟩
  field_simp
  norm_num

/-- C80 (half wave): the same layer twice as thick, and no layer. -/
example : ∃ (exc : PlaneWave) (c c' : Static) (mats : ℕ → LayerSpec), planeWave 1 (0, 0, 30) = .ok exc ∧
    simInit exE (fun _ => exLat) mats [0, 1, 2] exc 1 "original" = .ok c ∧ simInit exE (fun _ => exLat) mats [0, 2] exc 1 "original" = .ok c' ∧
    ∃ RT RT', (efficienciesByOrder exE c (afterCalls exE c [] (Dyn.fresh mats (unsolved c.nh)))).1 = .ok RT ∧
      (efficienciesByOrder exE c' (afterCalls exE c' [] (Dyn.fresh mats (unsolved c'.nh)))).1 = .ok RT' ∧
      ∑ i, RT.1 i = ∑ i, RT'.1 i ∧ ∑ i, RT.2 i = ∑ i, RT'.2 i := by
  obtain ⟨exc, hp, hs, hc, hpsi⟩ := normal_incidence 1 30 one_pos
  obtain ⟨mats, hm⟩ : ∃ mats, mats = filmMats (fun r => 2 ^ r) 1 fun r => if r = 1 then 1 / (2 * Real.sqrt 2) else 0 := ⟨_, rfl⟩
  have hh : ∀ r, Homogeneous (mats r) := by rw [hm]; exact fun r => filmMats_hom _ _ _ r
  have hmu : ∀ r, (mats r).mu = 1 := by rw [hm]; exact fun r => rfl
  have he : ∀ r, (mats r).epsilon.value = 2 ^ r := by rw [hm]; exact fun r => rfl
  have hd : ∀ r, (mats r).thickness = some (if r = 1 then 1 / (2 * Real.sqrt 2) else 0) := by rw [hm]; exact fun r => rfl
  obtain ⟨c, hi, hH, hl⟩ := planar_init mats 0 [1, 2] exc (by rw [hm]; simp [filmMats, exLayer])
    (by rw [hm]; simp [filmMats, exLayer]) (hh 0) (by rw [he, hmu]; simp)
  obtain ⟨c', hi', hH', hl'⟩ := planar_init mats 0 [2] exc (by rw [hm]; simp [filmMats, exLayer])
    (by rw [hm]; simp [filmMats, exLayer]) (hh 0) (by rw [he, hmu]; simp)
  have hcos : 0 < Real.cos exc.theta := by rw [hc]; norm_num
  have h00 : ((0 : ℤ), (0 : ℤ)) ∈ c.harmonics := by rw [hH]; simp
  have h00' : ((0 : ℤ), (0 : ℤ)) ∈ c'.harmonics := by rw [hH']; simp
  have he0 : (mats 0).epsilon.value = ((1 : ℝ) : ℂ) := by rw [he]; simp
  have him : ∀ r, 0 ≤ (mats r).epsilon.value.im := by
    intro r; rw [he, show (2 : ℂ) ^ r = ((2 ^ r : ℝ) : ℂ) from by push_cast; rfl, Complex.ofReal_im]
  have ht : ∀ r t, (mats r).thickness = some t → 0 ≤ t := by
    intro r t h
    rw [hd] at h
    rw [← Option.some.inj h]
    split_ifs <;> positivity
  have hne : ∀ r, (mats r).epsilon.value ≠ 0 := fun r => by rw [he]; exact pow_ne_zero _ two_ne_zero
  have hg : ∀ r, (mats r).epsilon.value ≠ ((1 * Real.sin exc.theta ^ 2 : ℝ) : ℂ) := fun r => by rw [hs]; simpa using hne r
  obtain ⟨RT, h⟩ := C80_planar_defined hi (fun r _ => hh r) hp one_pos hcos h00 one_pos rfl he0 (hmu 0) exSort_spec (by rw [hl]; rfl) (by simp)
    (fun r _ => hmu r) (fun r _ => hne r) (fun r _ => hg r) (fun k r _ _ _ => ⟨him r, ht r⟩) []
  obtain ⟨RT', h'⟩ := C80_planar_defined hi' (fun r _ => hh r) hp one_pos hcos h00' one_pos rfl he0 (hmu 0) exSort_spec (by rw [hl']; rfl) (by simp)
    (fun r _ => hmu r) (fun r _ => hne r) (fun r _ => hg r) (fun k r _ _ _ => ⟨him r, ht r⟩) []
  refine ⟨exc, c, c', mats, hp, hi, hi', RT, RT', h, h', C80_half_wave hi (fun r _ => hh r) hp one_pos hcos h00 one_pos rfl he0 (hmu 0) rfl
    (fun r _ => by rw [hmu]; exact one_ne_zero) (n := 1) ?_ hi' h00' [] [] RT RT' h h'⟩
  rw [he, hmu, hd, hs]
  rw [show ((2 : ℂ) ^ 1 * 1 * ((2 * Real.pi / 1 : ℝ) : ℂ) ^ 2 - ((2 * Real.pi / 1 * Real.sqrt 1 * 0 : ℝ) : ℂ) ^ 2) = ((2 * (2 * Real.pi) ^ 2 : ℝ) : ℂ) from by
    push_cast; ring, csqrt_ofReal (by positivity), Real.sqrt_mul (by norm_num), Real.sqrt_sq (by positivity)]
  simp only [if_true, Option.getD_some]
  norm_cast
  field_simp

/-- C80 (fields): in a substrate of permittivity 4 under air, 60 degrees, oblique plane of incidence and polarisation. -/
example : ∃ (exc : PlaneWave) (c : Static), planeWave 1 (60, 30, 45) = .ok exc ∧
    simInit exE (fun _ => exLat) (filmMats (fun r => 4 ^ r) 1 0) [0, 1] exc 1 "original" = .ok c ∧
    ∀ zs, ∃ Fs, (getFieldFourier exE c (.idx (1 : ℕ)) zs
      (afterCalls exE c [] (Dyn.fresh (filmMats (fun r => 4 ^ r) 1 0) (unsolved c.nh)))).1 = .ok Fs := by
  obtain ⟨exc, hp, hs, hc, hpsi⟩ := oblique_wave 1 30 45 one_pos
  obtain ⟨c, hi, hH, hl⟩ := planar_init (filmMats (fun r => 4 ^ r) 1 0) 0 [1] exc (by simp [filmMats, exLayer])
    (by simp [filmMats, exLayer]) (filmMats_hom _ _ _ _) (by rw [filmMats_eps, filmMats_mu]; simp)
  have hcos : 0 < Real.cos exc.theta := by rw [hc]; norm_num
  have h00 : ((0 : ℤ), (0 : ℤ)) ∈ c.harmonics := by rw [hH]; simp
  have he0 : (filmMats (fun r => 4 ^ r) 1 0 0).epsilon.value = ((1 : ℝ) : ℂ) := by rw [filmMats_eps]; simp
  obtain ⟨RT, h⟩ := C80_planar_defined hi (fun r _ => filmMats_hom _ _ _ r) hp one_pos hcos h00 one_pos rfl he0 rfl exSort_spec
    (by rw [hl]; rfl) (by simp) (fun r _ => rfl) (fun r _ => by rw [filmMats_eps]; exact pow_ne_zero _ (by norm_num))
    (fun r hr => by
      rw [filmMats_eps, hs]
      simp only [List.mem_cons, List.not_mem_nil, or_false] at hr
      rcases hr with rfl | rfl
      · norm_num [Complex.ext_iff]
      · norm_num [Complex.ext_iff])
    (fun k r h1 h2 => by simp at h2; omega) []
  have hom : c.omega ≠ 0 := by
    rw [planar_omega hi hp one_pos h00 one_pos rfl he0 rfl]; positivity
  exact ⟨exc, c, hp, hi, fun zs => planar_retrieves hi (fun r _ => filmMats_hom _ _ _ r) hom [] h (k := 1) (.inr rfl) rfl
    (filmMats_d _ _ _ _) [] zs⟩

end Examples

end Nannos
