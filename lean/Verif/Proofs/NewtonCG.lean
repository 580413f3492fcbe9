import Verif.Model.NewtonCG
import Verif.Proofs.Opt
import Mathlib.Analysis.Calculus.Deriv.Add
import Mathlib.Analysis.Calculus.Deriv.Mul
import Mathlib.Analysis.Calculus.Deriv.Pow

/-! One Newton step on a quadratic function whose gradient points at the minimum. -/

namespace Nannos

open Spec

variable {n : ℕ}

theorem dotU_comm (x y : Unknowns n) : dotU x y = dotU y x := by
  unfold dotU
  exact Finset.sum_congr rfl fun c _ => Finset.sum_congr rfl fun k _ => mul_comm _ _

theorem dotU_add (x y z : Unknowns n) : dotU x (y + z) = dotU x y + dotU x z := by
  unfold dotU
  simp only [Pi.add_apply, mul_add, Finset.sum_add_distrib]

theorem dotU_smul (x y : Unknowns n) (s : ℝ) : dotU x (s • y) = s * dotU x y := by
  unfold dotU
  simp only [Pi.smul_apply, smul_eq_mul, Finset.mul_sum]
  exact Finset.sum_congr rfl fun c _ => Finset.sum_congr rfl fun k _ => by ring

theorem add_dotU (x y z : Unknowns n) : dotU (y + z) x = dotU y x + dotU z x := by
  rw [dotU_comm, dotU_add, dotU_comm, dotU_comm x]

theorem smul_dotU (x y : Unknowns n) (s : ℝ) : dotU (s • y) x = s * dotU y x := by
  rw [dotU_comm, dotU_smul, dotU_comm]

theorem dotU_unit (x : Unknowns n) (c : Fin 4) (k : Fin n) : dotU x (unitU c k) = x c k := by
  unfold dotU unitU
  rw [Finset.sum_eq_single c, Finset.sum_eq_single k]
  · simp
  · intro k' _ h; simp [h]
  · simp
  · intro c' _ h; simp [h]
  · simp

theorem dotU_self_pos {x : Unknowns n} (h : x ≠ 0) : 0 < dotU x x := by
  have : ∃ c k, x c k ≠ 0 := by
    by_contra hc
    push Not at hc
    exact h (funext fun c => funext fun k => hc c k)
  obtain ⟨c, k, hck⟩ := this
  unfold dotU
  refine Finset.sum_pos' (fun c _ => Finset.sum_nonneg fun k _ => mul_self_nonneg _) ⟨c, Finset.mem_univ _, ?_⟩
  exact Finset.sum_pos' (fun k _ => mul_self_nonneg _) ⟨k, Finset.mem_univ _, mul_self_pos.mpr hck⟩

theorem normOne_pos {x : Unknowns n} (h : x ≠ 0) : 0 < normOne x := by
  have : ∃ c k, x c k ≠ 0 := by
    by_contra hc
    push Not at hc
    exact h (funext fun c => funext fun k => hc c k)
  obtain ⟨c, k, hck⟩ := this
  unfold normOne
  refine Finset.sum_pos' (fun c _ => Finset.sum_nonneg fun k _ => abs_nonneg _) ⟨c, Finset.mem_univ _, ?_⟩
  exact Finset.sum_pos' (fun k _ => abs_nonneg _) ⟨k, Finset.mem_univ _, abs_pos.mpr hck⟩

theorem normOne_zero : normOne (0 : Unknowns n) = 0 := by simp [normOne]

theorem normOne_nonneg (x : Unknowns n) : 0 ≤ normOne x :=
  Finset.sum_nonneg fun _ _ => Finset.sum_nonneg fun _ _ => abs_nonneg _

/-- `f` is a polynomial of degree two. -/
structure Quad (f : Unknowns n → ℝ) (b : Unknowns n) (A : Unknowns n →ₗ[ℝ] Unknowns n) : Prop where
  sym : ∀ x y, dotU x (A y) = dotU y (A x)
  eq : ∀ x, f x = f 0 + dotU b x + dotU x (A x) / 2

section
variable {f : Unknowns n → ℝ} {b : Unknowns n} {A : Unknowns n →ₗ[ℝ] Unknowns n}

theorem Quad.along (h : Quad f b A) (x e : Unknowns n) (t : ℝ) :
    f (x + t • e) = f x + t * (dotU (b + A x) e) + t ^ 2 * (dotU e (A e) / 2) := by
  rw [h.eq (x + t • e), h.eq x, map_add, map_smul]
  simp only [dotU_add, add_dotU, dotU_smul, smul_dotU]
  rw [h.sym x e, dotU_comm (A x) e]
  ring

theorem Quad.gradAt (h : Quad f b A) (x : Unknowns n) : gradAt f x = b + A x := by
  funext c k
  unfold Nannos.gradAt
  have : (fun t : ℝ => f (x + t • unitU c k)) = fun t : ℝ => f x + t * (dotU (b + A x) (unitU c k)) + t ^ 2 * (dotU (unitU c k) (A (unitU c k)) / 2) :=
    funext fun t => h.along x _ t
  rw [this, dotU_unit]
  have hd : HasDerivAt (fun t : ℝ => f x + t * (b + A x) c k + t ^ 2 * (dotU (unitU c k) (A (unitU c k)) / 2))
      (1 * (b + A x) c k + (2 * (0 : ℝ) ^ 1) * (dotU (unitU c k) (A (unitU c k)) / 2)) 0 := by
    refine HasDerivAt.add (HasDerivAt.const_add _ ((hasDerivAt_id (0 : ℝ)).mul_const _)) (HasDerivAt.mul_const ?_ _)
    simpa using hasDerivAt_pow 2 (0 : ℝ)
  rw [hd.deriv]
  simp

theorem Quad.hesspAt (h : Quad f b A) (x p : Unknowns n) : hesspAt f x p = A p := by
  funext c k
  unfold Nannos.hesspAt
  have : (fun t : ℝ => Nannos.gradAt f (x + t • p) c k) = fun t : ℝ => (b + A x) c k + t * A p c k := by
    funext t
    rw [h.gradAt, map_add, map_smul]
    simp only [Pi.add_apply, Pi.smul_apply, smul_eq_mul]
    ring
  rw [this]
  have hd : HasDerivAt (fun t : ℝ => (b + A x) c k + t * A p c k) (1 * A p c k) 0 :=
    HasDerivAt.const_add _ ((hasDerivAt_id (0 : ℝ)).mul_const _)
  rw [hd.deriv, one_mul]

/-- At a minimum the gradient vanishes. -/
theorem Quad.critical (h : Quad f b A) {z : Unknowns n} (hz : ∀ y, f z ≤ f y) : A z = -b := by
  rw [eq_neg_iff_add_eq_zero, add_comm]
  by_contra hne
  have hp := dotU_self_pos hne
  set G := b + A z with hG
  set q := dotU G (A G) / 2 with hq
  have key : ∀ t : ℝ, 0 ≤ t * dotU G G + t ^ 2 * q := fun t => by
    have := hz (z + t • G)
    rw [h.along, ← hG, ← hq] at this
    linarith
  have h1 := key (-(dotU G G) / (2 * (|q| + 1)))
  have hpos : 0 < |q| + 1 := by positivity
  have hqle : q ≤ |q| + 1 := le_trans (le_abs_self q) (by linarith)
  have h2 : (-(dotU G G) / (2 * (|q| + 1))) ^ 2 * q ≤ (dotU G G) ^ 2 / (4 * (|q| + 1)) := by
    calc (-(dotU G G) / (2 * (|q| + 1))) ^ 2 * q ≤ (-(dotU G G) / (2 * (|q| + 1))) ^ 2 * (|q| + 1) :=
          mul_le_mul_of_nonneg_left hqle (sq_nonneg _)
      _ = (dotU G G) ^ 2 / (4 * (|q| + 1)) := by field_simp; ring
  have h3 : -(dotU G G) / (2 * (|q| + 1)) * dotU G G = -2 * ((dotU G G) ^ 2 / (4 * (|q| + 1))) := by
    field_simp; ring
  have h4 : 0 < (dotU G G) ^ 2 / (4 * (|q| + 1)) := by positivity
  linarith

/-- One iteration from zero: the minimum, when the gradient points at it and the curvature is above scipy's threshold;
otherwise the search stays at zero. -/
theorem newtonCG_quad (h : Quad f b A) {z : Unknowns n} (hz : ∀ y, f z ≤ f y) {μ : ℝ} (hμ : 0 < μ) (hb : b = -(μ • z)) :
    newtonCG n f = .ok (open Classical in if μ ^ 3 * dotU z z ≤ 3 * (1 / 2 ^ 52) then 0 else z) := by
  have hAz : A z = μ • z := by rw [h.critical hz, hb, neg_neg]
  have hg : Nannos.gradAt f 0 = -(μ • z) := by rw [h.gradAt, map_zero, add_zero, hb]
  by_cases h0 : z = 0
  · subst h0
    have : μ ^ 3 * dotU (0 : Unknowns n) 0 = 0 := by simp [dotU]
    rw [if_pos (by rw [this]; positivity)]
    unfold newtonCG
    rw [hg]
    simp only [smul_zero, neg_zero, normOne_zero, mul_zero]
    rcases Nat.eq_zero_or_pos (20 * (4 * n)) with h0 | h0
    · rw [h0]; simp [cgLoop]
    · obtain ⟨m, hm⟩ := Nat.exists_eq_succ_of_ne_zero h0.ne'
      rw [hm]
      unfold cgLoop
      simp [normOne_zero]
  · have hn : 0 < n := by
      rcases Nat.eq_zero_or_pos n with rfl | hn
      · exact absurd (funext fun c => funext fun k => k.elim0) h0
      · exact hn
    have hzz := dotU_self_pos h0
    have hμz : -(μ • z) ≠ 0 := by simp [hμ.ne', h0]
    obtain ⟨m, hm⟩ : ∃ m, 20 * (4 * n) = m + 2 := ⟨20 * (4 * n) - 2, by omega⟩
    have hpos := normOne_pos hμz
    have hterm : ¬ normOne (-(μ • z)) ≤ min 0.5 (Real.sqrt (normOne (-(μ • z)))) * normOne (-(μ • z)) := by
      have : min 0.5 (Real.sqrt (normOne (-(μ • z)))) ≤ 0.5 := min_le_left _ _
      nlinarith
    have hcurv : dotU (- -(μ • z)) (A (- -(μ • z))) = μ ^ 3 * dotU z z := by
      rw [neg_neg, map_smul, hAz, dotU_smul, dotU_smul, smul_dotU]; ring
    have hcpos : 0 < μ ^ 3 * dotU z z := by positivity
    have hA : Nannos.hesspAt f 0 = A := funext fun p => h.hesspAt 0 p
    unfold newtonCG
    rw [hg, hm, hA]
    dsimp only
    unfold cgLoop
    rw [if_neg hterm]
    dsimp only
    rw [hcurv]
    by_cases ht : μ ^ 3 * dotU z z ≤ 3 * (1 / 2 ^ 52)
    · rw [if_pos ⟨hcpos.le, ht⟩, if_pos ht]
      simp
    · rw [if_neg (fun hc => ht hc.2), if_neg (not_lt.mpr hcpos.le), if_neg ht]
      have hdri : dotU (-(μ • z)) (-(μ • z)) = μ ^ 2 * dotU z z := by
        rw [← neg_smul, dotU_smul, smul_dotU]; ring
      rw [hdri, neg_neg]
      have halpha : μ ^ 2 * dotU z z / (μ ^ 3 * dotU z z) = μ⁻¹ := by field_simp
      rw [halpha]
      have hx1 : (0 : Unknowns n) + μ⁻¹ • μ • z = z := by rw [zero_add, smul_smul, inv_mul_cancel₀ hμ.ne', one_smul]
      have hr1 : -(μ • z) + μ⁻¹ • A (μ • z) = 0 := by
        rw [map_smul, hAz, smul_smul μ⁻¹, inv_mul_cancel₀ hμ.ne', one_smul, neg_add_cancel]
      rw [hx1, hr1]
      unfold cgLoop
      have hterm' : normOne (0 : Unknowns n) ≤ min 0.5 (Real.sqrt (normOne (-(μ • z)))) * normOne (-(μ • z)) := by
        rw [normOne_zero]
        exact mul_nonneg (le_min (by norm_num) (Real.sqrt_nonneg _)) (normOne_nonneg _)
      rw [if_pos hterm']
      dsimp only
      rw [if_neg h0, if_pos]
      have e1 : dotU (-(μ • z)) z = -(μ * dotU z z) := by rw [← neg_smul, smul_dotU]; ring
      have e2 : Nannos.gradAt f z = 0 := by rw [h.gradAt, h.critical hz, add_neg_cancel]
      have e3 : dotU (0 : Unknowns n) z = 0 := by simp [dotU]
      have hmz : 0 < μ * dotU z z := by positivity
      rw [e1, e2, e3]
      refine ⟨?_, by simp; positivity⟩
      rw [h.eq z, hAz, dotU_smul, hb, e1]
      nlinarith
end

/-! ### What the generator minimises -/

section
variable {Nx Ny Mx My : ℕ}

/-- Linear map with given coefficients. -/
theorem Quad.of_squares {P : Type*} [Fintype P] (ℓ : P → Unknowns n) (d : P → ℝ) (c e : ℝ) {f : Unknowns n → ℝ}
    (hf : ∀ x, f x = (∑ p, (dotU (ℓ p) x - d p) ^ 2 + e) / c) :
    ∃ A : Unknowns n →ₗ[ℝ] Unknowns n, Quad f (-((2 / c) • ∑ p, d p • ℓ p)) A := by
  have sum_dot : ∀ (v : P → Unknowns n) (x : Unknowns n), dotU (∑ p, v p) x = ∑ p, dotU (v p) x := by
    intro v x
    classical
    have : ∀ s : Finset P, dotU (∑ p ∈ s, v p) x = ∑ p ∈ s, dotU (v p) x := fun s => by
      induction s using Finset.induction_on with
      | empty => simp [dotU]
      | insert a s ha ih => rw [Finset.sum_insert ha, Finset.sum_insert ha, add_dotU, ih]
    exact this _
  let A : Unknowns n →ₗ[ℝ] Unknowns n :=
    { toFun := fun x => (2 / c) • ∑ p, dotU (ℓ p) x • ℓ p
      map_add' := fun x y => by
        rw [← smul_add, ← Finset.sum_add_distrib]
        congr 1
        exact Finset.sum_congr rfl fun p _ => by rw [dotU_add, add_smul]
      map_smul' := fun s x => by
        simp only [RingHom.id_apply]
        rw [smul_comm s, Finset.smul_sum (r := s)]
        congr 1
        exact Finset.sum_congr rfl fun p _ => by rw [dotU_smul, smul_smul] }
  have hA : ∀ x y, dotU x (A y) = 2 / c * ∑ p, dotU (ℓ p) y * dotU (ℓ p) x := fun x y => by
    change dotU x ((2 / c) • ∑ p, dotU (ℓ p) y • ℓ p) = _
    rw [dotU_smul, dotU_comm, sum_dot]
    congr 1
    exact Finset.sum_congr rfl fun p _ => by rw [smul_dotU]
  refine ⟨A, ⟨fun x y => ?_, fun x => ?_⟩⟩
  · rw [hA, hA]
    congr 1
    exact Finset.sum_congr rfl fun p _ => mul_comm _ _
  · rw [hf, hf, hA, ← neg_smul, smul_dotU, sum_dot]
    have e0 : ∀ p, dotU (ℓ p) (0 : Unknowns n) = 0 := fun p => by simp [dotU]
    simp only [e0, smul_dotU, zero_sub, neg_sq]
    have : ∑ p, (dotU (ℓ p) x - d p) ^ 2 = ∑ p, d p ^ 2 - 2 * ∑ p, d p * dotU (ℓ p) x + ∑ p, dotU (ℓ p) x * dotU (ℓ p) x := by
      rw [Finset.mul_sum, ← Finset.sum_sub_distrib, ← Finset.sum_add_distrib]
      exact Finset.sum_congr rfl fun p _ => by ring
    rw [this]
    ring

/-- The wave of an order at a pixel. -/
noncomputable def wave (Mx My : ℕ) (g : ℤ × ℤ) (i : Fin Mx) (j : Fin My) : ℂ := chi Mx g.1 (i : ℕ) * chi My g.2 (j : ℕ)

/-- Coefficients of the two fits at the pixels. -/
noncomputable def fitRow (H : List (ℤ × ℤ)) (s : ℝ) (Mx My : ℕ) : (Fin Mx × Fin My) ⊕ (Fin Mx × Fin My) → Unknowns H.length
  | .inl p => ![fun k => s * (wave Mx My (H.get k) p.1 p.2).re, fun k => -(s * (wave Mx My (H.get k) p.1 p.2).im), 0, 0]
  | .inr p => ![0, 0, fun k => s * (wave Mx My (H.get k) p.1 p.2).re, fun k => -(s * (wave Mx My (H.get k) p.1 p.2).im)]

/-- The data at the pixels. -/
noncomputable def fitData (d : Grid Mx My × Grid Mx My) : (Fin Mx × Fin My) ⊕ (Fin Mx × Fin My) → ℝ
  | .inl p => (d.1 p.1 p.2).re
  | .inr p => (d.2 p.1 p.2).re

theorem fitted_row [NeZero Mx] [NeZero My] {H : List (ℤ × ℤ)} (h : BalancedOrders H Mx My) (x : Unknowns H.length) (i : Fin Mx) (j : Fin My) :
    ((fitted H Nx Ny x).1 i j).re = dotU (fitRow H ((Nx : ℝ) * Ny / ((Mx : ℝ) * My)) Mx My (.inl (i, j))) x ∧
    ((fitted H Nx Ny x).2 i j).re = dotU (fitRow H ((Nx : ℝ) * Ny / ((Mx : ℝ) * My)) Mx My (.inr (i, j))) x := by
  have key : ∀ a b : Fin H.length → ℝ, (getAmps H Nx Ny (fun k => (a k : ℂ) + Complex.I * b k) i j : ℂ).re =
      ∑ k, ((Nx : ℝ) * Ny / ((Mx : ℝ) * My)) * (wave Mx My (H.get k) i j).re * a k +
      ∑ k, -(((Nx : ℝ) * Ny / ((Mx : ℝ) * My)) * (wave Mx My (H.get k) i j).im) * b k := by
    intro a b
    rw [getAmps_series h, series_eq, ← Finset.sum_add_distrib]
    have : (Nx : ℂ) * Ny / ((Mx : ℂ) * My) = (((Nx : ℝ) * Ny / ((Mx : ℝ) * My) : ℝ) : ℂ) := by push_cast; rfl
    rw [this, Complex.re_ofReal_mul, Complex.re_sum, Finset.mul_sum]
    refine Finset.sum_congr rfl fun k _ => ?_
    unfold wave
    rw [Complex.mul_re]
    simp only [Complex.add_re, Complex.ofReal_re, Complex.mul_re, Complex.I_re, Complex.I_im, Complex.ofReal_im, Complex.add_im,
      Complex.mul_im]
    ring
  unfold fitted dotU fitRow
  dsimp only
  rw [key, key]
  constructor <;> simp [Fin.sum_univ_four]

theorem minifun_squares [NeZero Mx] [NeZero My] {H : List (ℤ × ℤ)} (h : BalancedOrders H Mx My) {d : Grid Mx My × Grid Mx My}
    (hd : ∀ x y, (d.1 x y).im = 0 ∧ (d.2 x y).im = 0) (x : Unknowns H.length) :
    minifun H Nx Ny d x = (∑ p, (dotU (fitRow H ((Nx : ℝ) * Ny / ((Mx : ℝ) * My)) Mx My p) x - fitData d p) ^ 2 + 0) /
      (2 * (Mx : ℝ) * My) := by
  have real : ∀ (b : ℝ) (c : ℂ), c.im = 0 → ‖(b : ℂ) - c‖ ^ 2 = (b - c.re) ^ 2 := by
    intro b c hc
    rw [Complex.sq_norm, Complex.normSq_apply, Complex.sub_re, Complex.sub_im, hc, Complex.ofReal_re, Complex.ofReal_im]
    ring
  unfold minifun
  congr 1
  rw [add_zero, Fintype.sum_sum_type, Fintype.sum_prod_type, Fintype.sum_prod_type, ← Finset.sum_add_distrib]
  refine Finset.sum_congr rfl fun i _ => ?_
  rw [← Finset.sum_add_distrib]
  refine Finset.sum_congr rfl fun j _ => ?_
  rw [(fitted_row h x i j).1, (fitted_row h x i j).2, real _ _ (hd i j).1, real _ _ (hd i j).2]
  rfl

theorem fit_gradient [NeZero Mx] [NeZero My] (hx : 0 < Nx) (hy : 0 < Ny) (H : List (ℤ × ℤ)) {d : Grid Mx My × Grid Mx My}
    (hd : ∀ x y, (d.1 x y).im = 0 ∧ (d.2 x y).im = 0) :
    (2 / (2 * (Mx : ℝ) * My)) • ∑ p, fitData d p • fitRow H ((Nx : ℝ) * Ny / ((Mx : ℝ) * My)) Mx My p =
      (((Nx : ℝ) * Ny / ((Mx : ℝ) * My)) ^ 2) • bestFit H Nx Ny d := by
  have m1 : (Mx : ℝ) ≠ 0 := by exact_mod_cast NeZero.ne Mx
  have m2 : (My : ℝ) ≠ 0 := by exact_mod_cast NeZero.ne My
  have n1 : (Nx : ℝ) ≠ 0 := by exact_mod_cast hx.ne'
  have n2 : (Ny : ℝ) ≠ 0 := by exact_mod_cast hy.ne'
  have amp : ∀ (f : Grid Mx My) (_ : ∀ x y, (f x y).im = 0) (k : Fin H.length),
      ((Mx : ℂ) * My / ((Nx : ℂ) * Ny)) * coeff f (H.get k).1 (H.get k).2 =
      ((((Mx : ℝ) * My / ((Nx : ℝ) * Ny)) / ((Mx : ℝ) * My) : ℝ) : ℂ) * ∑ i, ∑ j, ((f i j).re : ℂ) * (starRingEnd ℂ) (wave Mx My (H.get k) i j) := by
    intro f hf k
    rw [coeff_eq, mul_div_assoc', mul_div_right_comm]
    push_cast
    congr 1
    refine Finset.sum_congr rfl fun i _ => Finset.sum_congr rfl fun j _ => ?_
    unfold wave
    rw [map_mul, chi_conj, chi_conj]
    congr 1
    exact Complex.ext (by simp) (by simp [hf])
  have hre : ∀ (f : Grid Mx My) (_ : ∀ x y, (f x y).im = 0) (k : Fin H.length),
      (((Mx : ℂ) * My / ((Nx : ℂ) * Ny)) * coeff f (H.get k).1 (H.get k).2).re =
        (((Mx : ℝ) * My / ((Nx : ℝ) * Ny)) / ((Mx : ℝ) * My)) * ∑ p : Fin Mx × Fin My, (f p.1 p.2).re * (wave Mx My (H.get k) p.1 p.2).re := by
    intro f hf k
    rw [amp f hf, Complex.re_ofReal_mul, Fintype.sum_prod_type, Complex.re_sum]
    simp only [Complex.re_sum, Complex.re_ofReal_mul, Complex.conj_re]
  have him : ∀ (f : Grid Mx My) (_ : ∀ x y, (f x y).im = 0) (k : Fin H.length),
      (((Mx : ℂ) * My / ((Nx : ℂ) * Ny)) * coeff f (H.get k).1 (H.get k).2).im =
        (((Mx : ℝ) * My / ((Nx : ℝ) * Ny)) / ((Mx : ℝ) * My)) * ∑ p : Fin Mx × Fin My, (f p.1 p.2).re * -(wave Mx My (H.get k) p.1 p.2).im := by
    intro f hf k
    rw [amp f hf, Complex.im_ofReal_mul, Fintype.sum_prod_type, Complex.im_sum]
    simp only [Complex.im_sum, Complex.im_ofReal_mul, Complex.conj_im]
  have pull : ∀ (s : ℝ) (F G : Fin Mx × Fin My → ℝ), ∑ p, F p * (s * G p) = s * ∑ p, F p * G p := fun s F G => by
    rw [Finset.mul_sum]; exact Finset.sum_congr rfl fun p _ => by ring
  have pull' : ∀ (s : ℝ) (F G : Fin Mx × Fin My → ℝ), ∑ p, F p * -(s * G p) = s * ∑ p, F p * -G p := fun s F G => by
    rw [Finset.mul_sum]; exact Finset.sum_congr rfl fun p _ => by ring
  funext c k
  simp only [Fintype.sum_sum_type, Pi.smul_apply, Pi.add_apply, Finset.sum_apply, smul_eq_mul]
  unfold bestFit unknownsOf fitRow fitData
  fin_cases c
  · simp only [Fin.zero_eta, Matrix.cons_val_zero, Pi.zero_apply, mul_zero, Finset.sum_const_zero, add_zero]
    rw [hre d.1 fun x y => (hd x y).1]
    rw [pull]
    generalize (∑ p : Fin Mx × Fin My, (d.1 p.1 p.2).re * (wave Mx My (H.get k) p.1 p.2).re) = T
    field_simp
  · simp only [Fin.mk_one, Matrix.cons_val_one, Matrix.cons_val_zero, Pi.zero_apply, mul_zero, Finset.sum_const_zero, add_zero]
    rw [him d.1 fun x y => (hd x y).1]
    rw [pull']
    generalize (∑ p : Fin Mx × Fin My, (d.1 p.1 p.2).re * -(wave Mx My (H.get k) p.1 p.2).im) = T
    field_simp
  · simp only [Fin.reduceFinMk, Matrix.cons_val, Pi.zero_apply, mul_zero, Finset.sum_const_zero, zero_add]
    rw [hre d.2 fun x y => (hd x y).2]
    rw [pull]
    generalize (∑ p : Fin Mx × Fin My, (d.2 p.1 p.2).re * (wave Mx My (H.get k) p.1 p.2).re) = T
    field_simp
  · simp only [Fin.reduceFinMk, Matrix.cons_val, Pi.zero_apply, mul_zero, Finset.sum_const_zero, zero_add]
    rw [him d.2 fun x y => (hd x y).2]
    rw [pull']
    generalize (∑ p : Fin Mx × Fin My, (d.2 p.1 p.2).re * -(wave Mx My (H.get k) p.1 p.2).im) = T
    field_simp

/-- Length of the amplitudes of the best fit. -/
theorem bestFit_length (H : List (ℤ × ℤ)) (d : Grid Mx My × Grid Mx My) :
    dotU (bestFit H Nx Ny d) (bestFit H Nx Ny d) = ((Mx : ℝ) * My / ((Nx : ℝ) * Ny)) ^ 2 *
      ∑ k : Fin H.length, (‖coeff d.1 (H.get k).1 (H.get k).2‖ ^ 2 + ‖coeff d.2 (H.get k).1 (H.get k).2‖ ^ 2) := by
  have key : ∀ c : ℂ, ((((Mx : ℂ) * My / ((Nx : ℂ) * Ny)) * c).re * (((Mx : ℂ) * My / ((Nx : ℂ) * Ny)) * c).re) +
      ((((Mx : ℂ) * My / ((Nx : ℂ) * Ny)) * c).im * (((Mx : ℂ) * My / ((Nx : ℂ) * Ny)) * c).im) =
      ((Mx : ℝ) * My / ((Nx : ℝ) * Ny)) ^ 2 * ‖c‖ ^ 2 := by
    intro c
    rw [← Complex.normSq_apply, Complex.normSq_mul, Complex.sq_norm]
    congr 1
    have : (Mx : ℂ) * My / ((Nx : ℂ) * Ny) = (((Mx : ℝ) * My / ((Nx : ℝ) * Ny) : ℝ) : ℂ) := by push_cast; rfl
    rw [this, Complex.normSq_ofReal, sq]
  unfold dotU bestFit unknownsOf
  rw [Fin.sum_univ_four, Finset.mul_sum]
  simp only [Matrix.cons_val_zero, Matrix.cons_val_one, Matrix.cons_val]
  rw [← Finset.sum_add_distrib, ← Finset.sum_add_distrib, ← Finset.sum_add_distrib]
  refine Finset.sum_congr rfl fun k _ => ?_
  rw [mul_add, ← key, ← key]
  ring

/-- The search asked by the generator: the best fit, or zero below scipy's threshold. -/
theorem newtonCG_fit [NeZero Mx] [NeZero My] {H : List (ℤ × ℤ)} (h : BalancedOrders H Mx My) (hx : 0 < Nx) (hy : 0 < Ny)
    {d : Grid Mx My × Grid Mx My} (hd : ∀ x y, (d.1 x y).im = 0 ∧ (d.2 x y).im = 0) :
    newtonCG H.length (minifun H Nx Ny d) = .ok (open Classical in
      if ((Nx : ℝ) * Ny / ((Mx : ℝ) * My)) ^ 4 * carried H d ≤ 3 * (1 / 2 ^ 52) then 0 else bestFit H Nx Ny d) := by
  have m1 : (0 : ℝ) < Mx := by exact_mod_cast Nat.pos_of_ne_zero (NeZero.ne Mx)
  have m2 : (0 : ℝ) < My := by exact_mod_cast Nat.pos_of_ne_zero (NeZero.ne My)
  have n1 : (0 : ℝ) < Nx := by exact_mod_cast hx
  have n2 : (0 : ℝ) < Ny := by exact_mod_cast hy
  obtain ⟨A, hA⟩ := Quad.of_squares _ _ _ 0 (minifun_squares (Nx := Nx) (Ny := Ny) h hd)
  have := newtonCG_quad hA (bestFit_minimises h hx hy hd).2 (μ := ((Nx : ℝ) * Ny / ((Mx : ℝ) * My)) ^ 2) (by positivity)
    (by rw [fit_gradient hx hy H hd])
  rw [this, bestFit_length]
  have e : (((Nx : ℝ) * Ny / ((Mx : ℝ) * My)) ^ 2) ^ 3 * (((Mx : ℝ) * My / ((Nx : ℝ) * Ny)) ^ 2 *
      ∑ k : Fin H.length, (‖coeff d.1 (H.get k).1 (H.get k).2‖ ^ 2 + ‖coeff d.2 (H.get k).1 (H.get k).2‖ ^ 2)) =
      ((Nx : ℝ) * Ny / ((Mx : ℝ) * My)) ^ 4 * carried H d := by
    unfold carried
    rw [← mul_assoc]
    congr 1
    field_simp
  rw [e]
end

end Nannos
