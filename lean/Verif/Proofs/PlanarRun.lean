import Verif.Proofs.PlanarTotal
import Verif.Props.Lattice

/-! Stacks of homogeneous layers: the one harmonic, existence of the result, two and three layers. -/

namespace Nannos

open Matrix Spec

variable {E : Ext} {c : Static} {mats : ℕ → LayerSpec}

/-- A stack of uniform layers has one harmonic, unless the lattice has been given a list of harmonics. -/
theorem planar_harmonics {lats stack exc nh form} (hinit : simInit E lats mats stack exc nh form = .ok c)
    (hA : ArgsortContract E.argsort) (hh : ∀ r ∈ stack, Homogeneous (mats r)) (hu : c.lattice.harmonicsArray = none)
    (h00 : ((0 : ℤ), (0 : ℤ)) ∈ c.harmonics) : c.harmonics = [(0, 0)] := by
  obtain ⟨n, h⟩ := (simInit_ok hinit).harm
  have heff : effectiveNh nh (stack.all fun r => (mats r).isUniform) = 2 := by
    have : (stack.all fun r => (mats r).isUniform) = true := by
      rw [List.all_eq_true]; exact fun r hr => (hh r hr).2.1
    rw [this]
    unfold effectiveNh
    by_cases h1 : nh = 1 <;> simp [h1]
  rw [heff] at h
  obtain ⟨H', h1, hp, -, -⟩ := getHarmonics_ok hA h
  have hlen : H'.length ≤ 1 := by
    unfold Lattice.getHarmonics' at h1
    rw [hu] at h1
    dsimp only at h1
    rcases ht : c.lattice.truncation with _ | _ | _
    all_goals rw [ht] at h1
    · simp only [Except.ok.injEq] at h1
      have := oneDim_length 2
      rw [h1] at this
      norm_num at this
      omega
    · dsimp only at h1
      rw [bind_eq_ok] at h1
      obtain ⟨r, hr, h1⟩ := h1
      obtain ⟨-, -, full, i, -, -, -, -, m5, -, m7, -⟩ := circular_ok hA h1
      rw [m5, List.length_take]
      omega
    · dsimp only at h1
      rw [bind_eq_ok] at h1
      obtain ⟨r, hr, h1⟩ := h1
      obtain ⟨M, m0, m1, m2, m3, m4, m5, m6⟩ := parallelogramic_ok hA (by norm_num) h1
      have : M = 0 := by nlinarith
      subst this
      rw [m3] at m5
      norm_num at m5
      omega
  rw [← hp.length_eq] at hlen
  rcases hc : c.harmonics with _ | ⟨g, _ | ⟨g', t⟩⟩
  · rw [hc] at h00; simp at h00
  · rw [hc] at h00
    simp only [List.mem_singleton] at h00
    rw [← h00]
  · rw [hc] at hlen; simp at hlen

/-- The only order. -/
theorem GoodSup.only {exc : PlaneWave} {n : ℝ} (g : GoodSup c exc n) (hh : c.harmonics = [(0, 0)]) (i : Fin c.nh) :
    (i : ℕ) = c.indexZerothOrder := by
  obtain ⟨j, hj⟩ := g.idx
  have : c.nh = 1 := by unfold Static.nh; rw [hh]; rfl
  have := i.isLt
  have := j.isLt
  omega

/-- Wave numbers of the only order. -/
theorem GoodSup.k2 {exc : PlaneWave} {n : ℝ} (g : GoodSup c exc n) {wl ang} (hp : planeWave wl ang = .ok exc)
    (hh : c.harmonics = [(0, 0)]) (i : Fin c.nh) :
    c.kx i = ((c.omega * n * Real.sin exc.theta : ℝ) : ℂ) * (Real.cos exc.phi : ℂ) ∧
    c.ky i = ((c.omega * n * Real.sin exc.theta : ℝ) : ℂ) * (Real.sin exc.phi : ℂ) := by
  obtain ⟨-, -, gx, gy⟩ := g.on i (g.only hh i)
  obtain ⟨-, hwe, -, -, -, hk, hkv, -⟩ := planeWave_ok hp
  have hok : exc.wavenumber = c.omega := by rw [hk, g.omk, hwe]
  constructor
  · rw [gx, hkv, hok]; push_cast; ring
  · rw [gy, hkv, hok]; push_cast; ring

section
variable {lats stack exc nh form} (hinit : simInit E lats mats stack exc nh form = .ok c)
  (hA : ArgsortContract E.argsort) (hh : ∀ r ∈ stack, Homogeneous (mats r)) (hu : c.lattice.harmonicsArray = none)
  {wl ang} (hp : planeWave wl ang = .ok exc) (hwl : 0 < wl) (hcos : 0 < Real.cos exc.theta)
  (h00 : ((0 : ℤ), (0 : ℤ)) ∈ c.harmonics) (htwo : 1 < stack.length) {e m : ℝ} (hpos : 0 < e) (hmpos : 0 < m)
  {r0 : ℕ} (hr0 : stack.head? = some r0) (he : (mats r0).epsilon.value = e) (hm : (mats r0).mu = m)
  (hne : ∀ r ∈ stack, (mats r).epsilon.value ≠ 0)
  (hgraz : ∀ r ∈ stack, (mats r).epsilon.value * (mats r).mu ≠ ((e * m * Real.sin exc.theta ^ 2 : ℝ) : ℂ))
include hinit hA hh hu hp hwl hcos h00 htwo hpos hmpos hr0 he hm hne hgraz

theorem planar_exists (hmu : ∀ r ∈ stack, (mats r).mu ≠ 0)
    (hno : ∀ A1 : ℕ → LayerAttr c.nh, (∀ r ∈ stack, LayerFix E c mats A1 r) →
      (∀ (k : ℕ) L, (stackModes c mats A1)[k]? = some L → ∀ i, L.q i ≠ 0) →
      ∀ k, 0 < k → k < stack.length → NoSource (stackModes c mats A1) k)
    (hist : List (Call c.nh)) :
    ∃ RT, (efficienciesByOrder E c (afterCalls E c hist (Dyn.fresh mats (unsolved c.nh)))).1 = .ok RT := by
  have hi := simInit_ok hinit
  have hem : 0 < e * m := mul_pos hpos hmpos
  have hem2 : ((mats r0).epsilon.value * (mats r0).mu) = ((e * m : ℝ) : ℂ) := by rw [he, hm]; push_cast; rfl
  have hg := good_sup_mu hi (by rw [(planeWave_ok hp).2.1]; exact hwl) hr0 hem2 hem h00
  have hone := planar_harmonics hinit hA hh hu h00
  refine planar_succeeds hinit hh hne hmu htwo hg.omega.ne' ?_ ?_ hno hist
  · rw [hg.flux]; exact (div_pos hcos hg.pos).ne'
  · intro r hr i heq
    obtain ⟨h1, h2⟩ := hg.k2 hp hone i
    rw [h1, h2] at heq
    refine hgraz r hr ?_
    have hw : (c.omega : ℂ) ^ 2 ≠ 0 := by simpa using hg.omega.ne'
    have f : (Real.cos exc.phi : ℂ) ^ 2 + (Real.sin exc.phi : ℂ) ^ 2 = 1 := by
      have := Real.sin_sq_add_cos_sq exc.phi
      exact_mod_cast (by linarith : Real.cos exc.phi ^ 2 + Real.sin exc.phi ^ 2 = 1)
    have hs : (Real.sqrt (e * m) : ℂ) ^ 2 = ((e * m : ℝ) : ℂ) := by exact_mod_cast Real.sq_sqrt hem.le
    apply mul_right_cancel₀ hw
    rw [heq]
    push_cast at hs f ⊢
    linear_combination (c.omega : ℂ) ^ 2 * Complex.sin exc.theta ^ 2 * ((Real.sqrt (e * m) : ℝ) : ℂ) ^ 2 * f +
      (c.omega : ℂ) ^ 2 * Complex.sin exc.theta ^ 2 * hs

/-- The efficiencies of a passive stack of homogeneous layers are always returned. -/
theorem passive_exists (hmu : ∀ r ∈ stack, (mats r).mu = 1)
    (hpas : ∀ k r, 0 < k → k + 1 < stack.length → stack[k]? = some r → 0 ≤ (mats r).epsilon.value.im ∧
      ∀ t, (mats r).thickness = some t → 0 ≤ t) (hist : List (Call c.nh)) :
    ∃ RT, (efficienciesByOrder E c (afterCalls E c hist (Dyn.fresh mats (unsolved c.nh)))).1 = .ok RT := by
  have hi := simInit_ok hinit
  have hem : 0 < e * m := mul_pos hpos hmpos
  have hem2 : ((mats r0).epsilon.value * (mats r0).mu) = ((e * m : ℝ) : ℂ) := by rw [he, hm]; push_cast; rfl
  have hg := good_sup_mu hi (by rw [(planeWave_ok hp).2.1]; exact hwl) hr0 hem2 hem h00
  have hone := planar_harmonics hinit hA hh hu h00
  have hst := hi.stack_eq
  have hm1 : m = 1 := by
    have := hmu r0 (List.mem_of_head? hr0)
    rw [hm] at this
    exact_mod_cast this
  subst hm1
  rw [mul_one] at hg
  refine planar_exists hinit hA hh hu hp hwl hcos h00 htwo hpos one_pos hr0 he hm hne hgraz
    (fun r hr => by rw [hmu r hr]; exact one_ne_zero) (fun A1 hfix hqs => ?_) hist
  subst hst
  refine passive_noSource hfix hh hmu hqs hg.omega hg.kxr hg.kyr (by rw [← List.head?_eq_getElem?]; exact hr0) hpos he
    (fun i => ?_) hpas
  obtain ⟨h1, h2⟩ := hg.k2 hp hone i
  rw [h1, h2, ← Complex.ofReal_mul, ← Complex.ofReal_mul, Complex.ofReal_re, Complex.ofReal_re]
  have f := Real.sin_sq_add_cos_sq exc.phi
  have t := Real.sin_sq_add_cos_sq exc.theta
  have hs := Real.sq_sqrt hpos.le
  have hw := hg.omega
  have : e * c.omega ^ 2 - ((c.omega * Real.sqrt e * Real.sin exc.theta * Real.cos exc.phi) ^ 2 +
      (c.omega * Real.sqrt e * Real.sin exc.theta * Real.sin exc.phi) ^ 2) = e * c.omega ^ 2 * Real.cos exc.theta ^ 2 := by
    linear_combination (-(c.omega ^ 2 * Real.sin exc.theta ^ 2)) * hs -
      c.omega ^ 2 * Real.sqrt e ^ 2 * Real.sin exc.theta ^ 2 * f - e * c.omega ^ 2 * t
  have h3 : 0 < e * c.omega ^ 2 * Real.cos exc.theta ^ 2 := by positivity
  linarith

/-- Two layers with any permeabilities: the only condition is that the impedances do not add up to zero. -/
theorem two_exists {r1 : ℕ} (hst : stack = [r0, r1]) (hmu1 : (mats r1).mu ≠ 0)
    (hs : (filmS c.omega (c.omega * Real.sqrt (e * m) * Real.sin exc.theta) (mats r0)).Z +
      (filmS c.omega (c.omega * Real.sqrt (e * m) * Real.sin exc.theta) (mats r1)).Z ≠ 0)
    (hpp : (filmP c.omega (c.omega * Real.sqrt (e * m) * Real.sin exc.theta) (mats r0)).Z +
      (filmP c.omega (c.omega * Real.sqrt (e * m) * Real.sin exc.theta) (mats r1)).Z ≠ 0) (hist : List (Call c.nh)) :
    ∃ RT, (efficienciesByOrder E c (afterCalls E c hist (Dyn.fresh mats (unsolved c.nh)))).1 = .ok RT := by
  have hi := simInit_ok hinit
  have hem : 0 < e * m := mul_pos hpos hmpos
  have hem2 : ((mats r0).epsilon.value * (mats r0).mu) = ((e * m : ℝ) : ℂ) := by rw [he, hm]; push_cast; rfl
  have hg := good_sup_mu hi (by rw [(planeWave_ok hp).2.1]; exact hwl) hr0 hem2 hem h00
  have hone := planar_harmonics hinit hA hh hu h00
  have hcs := hi.stack_eq
  have hmc : (m : ℂ) ≠ 0 := by exact_mod_cast hmpos.ne'
  refine planar_exists hinit hA hh hu hp hwl hcos h00 htwo hpos hmpos hr0 he hm hne hgraz (fun r hr => ?_)
    (fun A1 hfix hqs k h0 hk => ?_) hist
  · rw [hst] at hr
    simp only [List.mem_cons, List.not_mem_nil, or_false] at hr
    rcases hr with rfl | rfl
    · rw [hm]; exact hmc
    · exact hmu1
  have hk1 : k = 1 := by rw [hst] at hk; simp at hk; omega
  subst hk1
  intro amp hc ha hb
  have hs0 : c.stack[0]? = some r0 := by rw [hcs, hst]; rfl
  have hs1 : c.stack[1]? = some r1 := by rw [hcs, hst]; rfl
  have hL0 : (stackModes c mats A1)[0]? = some (modesD (mats r0) (A1 r0)) := by
    unfold stackModes; rw [List.getElem?_map, hs0]; rfl
  have hL1 : (stackModes c mats A1)[1]? = some (modesD (mats r1) (A1 r1)) := by
    unfold stackModes; rw [List.getElem?_map, hs1]; rfl
  have p0 := planar_stack (by rw [hcs]; exact hfix) (by rw [hcs]; exact hh) hs0 hL0
  have p1 := planar_stack (by rw [hcs]; exact hfix) (by rw [hcs]; exact hh) hs1 hL1
  obtain ⟨mE, mH⟩ := hc 0 _ _ le_rfl (by norm_num) hL0 hL1
  rw [tanE_bottom, tanE_top] at mE
  rw [tanH_bottom, tanH_top, p0.phi, p1.phi, one_mulVec, one_mulVec] at mH
  simp only [zero_add] at hb mE mH
  rw [ha, hb, mulVec_zero, mulVec_zero, zero_sub, sub_zero] at mE
  rw [ha, hb, mulVec_zero, mulVec_zero, zero_add, add_zero] at mH
  have huv : (Real.cos exc.phi : ℂ) ^ 2 + (Real.sin exc.phi : ℂ) ^ 2 = 1 := by
    have := Real.sin_sq_add_cos_sq exc.phi
    exact_mod_cast (by linarith : Real.cos exc.phi ^ 2 + Real.sin exc.phi ^ 2 = 1)
  have key : ∀ i, (amp 1).1 (.inl i) = 0 ∧ (amp 1).1 (.inr i) = 0 := by
    intro i
    obtain ⟨hx, hy⟩ := hg.k2 hp hone i
    have c0 := (p0.pure_s huv (hqs 0 _ hL0 _) hx hy).2.amat
    have c1 := (p1.pure_s huv (hqs 1 _ hL1 _) hx hy).2.amat
    have d0 := (p0.pure_p huv (hqs 0 _ hL0 _) hx hy).2.amat
    have d1 := (p1.pure_p huv (hqs 1 _ hL1 _) hx hy).2.amat
    rw [mH, mulVec_neg] at mE
    have e1 := congrArg (atOrder i (Real.cos exc.phi : ℂ) (Real.sin exc.phi : ℂ) ⬝ᵥ ·) mE
    have e2 := congrArg (atOrder i (Real.sin exc.phi : ℂ) (-(Real.cos exc.phi : ℂ)) ⬝ᵥ ·) mE
    simp only [dotProduct_neg] at e1 e2
    rw [c0, c1] at e1
    rw [d0, d1] at e2
    have f1 := (mul_eq_zero.mp (show (_ + _) * (atOrder i (Real.cos exc.phi : ℂ) (Real.sin exc.phi : ℂ) ⬝ᵥ (amp 1).1) = (0 : ℂ) by
      linear_combination -e1)).resolve_left hs
    have f2 := (mul_eq_zero.mp (show (_ + _) * (atOrder i (Real.sin exc.phi : ℂ) (-(Real.cos exc.phi : ℂ)) ⬝ᵥ (amp 1).1) = (0 : ℂ) by
      linear_combination -e2)).resolve_left hpp
    rw [atOrder_dot] at f1 f2
    constructor
    · linear_combination (Real.cos exc.phi : ℂ) * f1 + (Real.sin exc.phi : ℂ) * f2 - (amp 1).1 (.inl i) * huv
    · linear_combination (Real.sin exc.phi : ℂ) * f1 - (Real.cos exc.phi : ℂ) * f2 - (amp 1).1 (.inr i) * huv
  funext a
  rcases a with i | i
  · exact (key i).1
  · exact (key i).2

end

/-! ### Two and three films -/

/-- One interface. -/
theorem film_two {F0 F1 : Film} {a b : ℕ → ℂ} (h : FilmSolution [F0, F1] a b) :
    (F0.Z + F1.Z) * b 0 = (F0.Z - F1.Z) * Complex.exp (Complex.I * F0.q * F0.d) ∧
    (F0.Z + F1.Z) * a 1 = 2 * F0.Z * Complex.exp (Complex.I * F0.q * F0.d) := by
  have h1 := h.electric 0 F0 F1 rfl rfl
  have h2 := h.magnetic 0 F0 F1 rfl rfl
  have h3 := h.above
  have h4 : b 1 = 0 := h.below
  simp only [zero_add, h3, h4] at h1 h2
  constructor
  · linear_combination F1.Z * h2 - h1
  · linear_combination -F0.Z * h2 - h1

/-- Two interfaces. -/
theorem film_three {F0 F1 F2 : Film} {a b : ℕ → ℂ} (h : FilmSolution [F0, F1, F2] a b) :
    ((F0.Z + F1.Z) * (F1.Z + F2.Z) + (F0.Z - F1.Z) * (F1.Z - F2.Z) * Complex.exp (Complex.I * F1.q * F1.d) ^ 2) * b 0 =
      ((F0.Z - F1.Z) * (F1.Z + F2.Z) + (F0.Z + F1.Z) * (F1.Z - F2.Z) * Complex.exp (Complex.I * F1.q * F1.d) ^ 2) *
        Complex.exp (Complex.I * F0.q * F0.d) ∧
    ((F0.Z + F1.Z) * (F1.Z + F2.Z) + (F0.Z - F1.Z) * (F1.Z - F2.Z) * Complex.exp (Complex.I * F1.q * F1.d) ^ 2) * a 2 =
      4 * F0.Z * F1.Z * Complex.exp (Complex.I * F1.q * F1.d) * Complex.exp (Complex.I * F0.q * F0.d) := by
  have h1 := h.electric 0 F0 F1 rfl rfl
  have h2 := h.magnetic 0 F0 F1 rfl rfl
  have h5 := h.electric 1 F1 F2 rfl rfl
  have h6 := h.magnetic 1 F1 F2 rfl rfl
  have h3 := h.above
  have h4 : b 2 = 0 := h.below
  simp only [zero_add, one_add_one_eq_two, h3, h4] at h1 h2 h5 h6
  generalize Complex.exp (Complex.I * F0.q * F0.d) = f0 at *
  generalize Complex.exp (Complex.I * F1.q * F1.d) = f1 at *
  generalize F0.Z = x at *
  generalize F1.Z = y at *
  generalize F2.Z = z at *
  have g1 : 2 * y * (a 1 * f1) = (y + z) * a 2 := by linear_combination h5 + y * h6
  have g2 : (y + z) * b 1 = (y - z) * (a 1 * f1) := by linear_combination z * h6 - h5
  have g3 : 2 * x * f0 = (x + y) * a 1 + (x - y) * b 1 * f1 := by linear_combination h1 + x * h2
  have g5 : (x + y) * b 0 = (x - y) * f0 + 2 * y * b 1 * f1 := by linear_combination y * h2 - h1
  have e5 : a 1 * ((x + y) * (y + z) + (x - y) * (y - z) * f1 ^ 2) = 2 * x * (y + z) * f0 := by
    linear_combination -(y + z) * g3 - (x - y) * f1 * g2
  have g7 : b 0 = a 1 + b 1 * f1 - f0 := by linear_combination h2
  have e6 : b 1 * ((x + y) * (y + z) + (x - y) * (y - z) * f1 ^ 2) = 2 * x * (y - z) * f0 * f1 := by
    linear_combination (x + y) * g2 - (y - z) * f1 * g3
  have e7 : a 2 = (a 1 * f1 + b 1) := by linear_combination -h6
  constructor
  · rw [g7]
    linear_combination e5 + f1 * e6
  · rw [e7]
    linear_combination f1 * e5 + e6

theorem sum_zeroth {n : ℕ} {i0 : Fin n} {j : ℕ} (h : (i0 : ℕ) = j) (x : ℝ) :
    ∑ i : Fin n, (if (i : ℕ) = j then x else 0) = x := by
  rw [Finset.sum_eq_single i0]
  · rw [if_pos h]
  · intro b _ hb
    rw [if_neg (fun hc => hb (Fin.ext (hc.trans h.symm)))]
  · intro hc
    exact absurd (Finset.mem_univ _) hc

/-- `planar_run` for the total efficiencies. -/
theorem planar_total {lats stack exc nh form} (hinit : simInit E lats mats stack exc nh form = .ok c)
    (hh : ∀ r ∈ stack, Homogeneous (mats r)) {wl ang} (hp : planeWave wl ang = .ok exc) (hwl : 0 < wl)
    (hcos : 0 < Real.cos exc.theta) (h00 : ((0 : ℤ), (0 : ℤ)) ∈ c.harmonics) {e m : ℝ} (hpos : 0 < e) (hmpos : 0 < m)
    {r0 rN : ℕ} (hr0 : stack.head? = some r0) (hrN : stack.getLast? = some rN)
    (he : (mats r0).epsilon.value = e) (hm : (mats r0).mu = m)
    (hist : List (Call c.nh)) (RT : (Fin c.nh → ℝ) × (Fin c.nh → ℝ))
    (h : (efficienciesByOrder E c (afterCalls E c hist (Dyn.fresh mats (unsolved c.nh)))).1 = .ok RT) {k : ℝ}
    (hk : k = c.omega * Real.sqrt (e * m) * Real.sin exc.theta) :
    (∀ r ∈ stack, (mats r).epsilon.value ≠ 0 ∧ normalK c.omega k (mats r) ≠ 0) ∧
    normalK c.omega k (mats r0) = ((c.omega * Real.sqrt (e * m) * Real.cos exc.theta : ℝ) : ℂ) ∧
    ∃ as bs ap bp : ℕ → ℂ,
    FilmSolution (stack.map fun r => filmS c.omega k (mats r)) as bs ∧
    FilmSolution (stack.map fun r => filmP c.omega k (mats r)) ap bp ∧
    ∑ i, RT.1 i = m * (Real.sin exc.psi ^ 2 * Complex.normSq (bs 0) + Real.cos exc.psi ^ 2 * Complex.normSq (bp 0)) ∧
    ∑ i, RT.2 i = m * (Real.sin exc.psi ^ 2 * (Complex.normSq (as (stack.length - 1)) *
            ((filmS c.omega k (mats rN)).Z / (filmS c.omega k (mats r0)).Z).re) +
          Real.cos exc.psi ^ 2 * (Complex.normSq (ap (stack.length - 1)) *
            ((filmP c.omega k (mats rN)).Z / (filmP c.omega k (mats r0)).Z).re)) := by
  obtain ⟨k', hk', h1, h2, as, bs, ap, bp, h3, h4, -, -, h5⟩ := planar_run hinit hh hp hwl hcos h00 hpos hmpos hr0 hrN he hm hist RT h
  obtain rfl : k' = k := by rw [hk, hk']
  have hem2 : ((mats r0).epsilon.value * (mats r0).mu) = ((e * m : ℝ) : ℂ) := by rw [he, hm]; push_cast; rfl
  have hg := good_sup_mu (simInit_ok hinit) (by rw [(planeWave_ok hp).2.1]; exact hwl) hr0 hem2 (mul_pos hpos hmpos) h00
  obtain ⟨i0, hi0⟩ := hg.idx
  refine ⟨h1, h2, as, bs, ap, bp, h3, h4, ?_, ?_⟩
  · rw [Finset.sum_congr rfl (fun i _ => (h5 i).1), sum_zeroth hi0]
  · rw [Finset.sum_congr rfl (fun i _ => (h5 i).2), sum_zeroth hi0]

end Nannos
