import Verif.Model.Tangent
import Mathlib.Tactic.LinearCombination
import Mathlib.Analysis.SpecialFunctions.Complex.Arg

/-! C52: normalised tangent vectors and Jones vectors. -/

namespace Nannos

/-- Length of a vector with two complex components. -/
noncomputable def Spec.length2 (v : ℂ × ℂ) : ℝ := Real.sqrt (‖v.1‖ ^ 2 + ‖v.2‖ ^ 2)

open Spec

/-- The regularisation of `norm`: the floating-point epsilon. -/
noncomputable def Spec.macheps : ℝ := 1 / 2 ^ 52

theorem macheps_pos : 0 < macheps := by unfold macheps; positivity

theorem length2_nonneg (v : ℂ × ℂ) : 0 ≤ length2 v := Real.sqrt_nonneg _

theorem normPt_eq (a b : ℂ) : normPt a b = length2 (a, b) + macheps := by
  unfold normPt length2 macheps
  rw [Complex.normSq_eq_norm_sq, Complex.normSq_eq_norm_sq, add_comm]

theorem normPt_pos (a b : ℂ) : 0 < normPt a b := by
  rw [normPt_eq]
  have := length2_nonneg (a, b)
  have := macheps_pos
  linarith

theorem length2_smul (k : ℂ) (v : ℂ × ℂ) : length2 (k * v.1, k * v.2) = ‖k‖ * length2 v := by
  unfold length2
  dsimp only
  rw [norm_mul, norm_mul, mul_pow, mul_pow, ← mul_add, Real.sqrt_mul (sq_nonneg _), Real.sqrt_sq (norm_nonneg _)]

/-- **C52**, tangent vectors.  Where the regularised length of the vector is at most `1e-6` the normalised vector is `(1, 0)`;
elsewhere it is the vector divided by its regularised length: a positive multiple of it, shorter than one by less than
`3e-10`. -/
theorem C52_normalised_vectors (t : Field2) (x : Fin t.Nx) (y : Fin t.Ny) :
    ∃ n : Field2, n = normalizeField t ∧ ∃ h : n.Nx = t.Nx ∧ n.Ny = t.Ny,
      let v := (t.t0 x y, t.t1 x y)
      let w := (n.t0 (x.cast h.1.symm) (y.cast h.2.symm), n.t1 (x.cast h.1.symm) (y.cast h.2.symm))
      (length2 v + macheps ≤ 1 / 10 ^ 6 → w = (1, 0)) ∧
      (1 / 10 ^ 6 < length2 v + macheps → (∃ k : ℝ, 0 < k ∧ w = (k * v.1, k * v.2)) ∧
        length2 w = length2 v / (length2 v + macheps) ∧ 1 - 3 / 10 ^ 10 < length2 w) ∧
      length2 w ≤ 1 := by
  refine ⟨_, rfl, ⟨rfl, rfl⟩, ?_⟩
  dsimp only [normalizeField, Fin.cast_eq_self]
  set a := t.t0 x y
  set b := t.t1 x y
  have hp := normPt_pos a b
  have hl := length2_nonneg (a, b)
  have hm := macheps_pos
  have main : 1 / 10 ^ 6 < length2 (a, b) + macheps →
      (∃ k : ℝ, 0 < k ∧ normalizeVecPt a b (normPt a b) = (k * a, k * b)) ∧
        length2 (normalizeVecPt a b (normPt a b)) = length2 (a, b) / (length2 (a, b) + macheps) ∧
        1 - 3 / 10 ^ 10 < length2 (normalizeVecPt a b (normPt a b)) := by
    intro h
    have h' : ¬ normPt a b ≤ 1 / 10 ^ 6 := by rw [normPt_eq]; exact not_le.2 h
    have e : normalizeVecPt a b (normPt a b) = (((1 / normPt a b : ℝ) : ℂ) * a, ((1 / normPt a b : ℝ) : ℂ) * b) := by
      unfold normalizeVecPt normalizePt
      rw [if_neg h', if_neg h']
      push_cast
      congr 1 <;> ring
    have e2 : length2 (normalizeVecPt a b (normPt a b)) = length2 (a, b) / (length2 (a, b) + macheps) := by
      rw [e, length2_smul _ (a, b), Complex.norm_real, Real.norm_of_nonneg (by positivity), normPt_eq]
      ring
    refine ⟨⟨_, by positivity, e⟩, e2, ?_⟩
    rw [e2, lt_div_iff₀ (by linarith)]
    have : macheps = 1 / 2 ^ 52 := rfl
    norm_num at this h ⊢
    nlinarith
  refine ⟨fun h => ?_, main, ?_⟩
  · unfold normalizeVecPt normalizePt
    rw [normPt_eq, if_pos h, if_pos h]
    simp
  · by_cases h : 1 / 10 ^ 6 < length2 (a, b) + macheps
    · have := (main h).2.1
      change length2 (normalizeVecPt a b (normPt a b)) ≤ 1
      rw [this, div_le_one (by linarith)]
      linarith
    · unfold normalizeVecPt normalizePt
      rw [normPt_eq, if_pos (not_lt.1 h), if_pos (not_lt.1 h)]
      unfold length2
      simp

/-- A vector of length 5 (above the threshold) and the zero vector. -/
example : length2 (normalizeVecPt 3 4 (normPt 3 4)) = 5 / (5 + macheps) ∧ normalizeVecPt 0 0 (normPt 0 0) = (1, 0) := by
  have l : length2 ((3 : ℂ), (4 : ℂ)) = 5 := by
    unfold length2
    norm_num
    rw [show (25 : ℝ) = 5 ^ 2 by norm_num, Real.sqrt_sq (by norm_num)]
  have l0 : length2 ((0 : ℂ), (0 : ℂ)) = 0 := by unfold length2; simp
  constructor
  · obtain ⟨n, rfl, h, -, h2, -⟩ := C52_normalised_vectors ⟨1, 1, fun _ _ => 3, fun _ _ => 4⟩ 0 0
    have := (h2 (by dsimp only; rw [l]; unfold macheps; norm_num)).2.1
    dsimp only at this
    rw [l] at this
    exact this
  · obtain ⟨n, rfl, h, h1, -⟩ := C52_normalised_vectors ⟨1, 1, fun _ _ => 0, fun _ _ => 0⟩ 0 0
    exact h1 (by dsimp only; rw [l0]; unfold macheps; norm_num)

theorem jonesPt_normSq (t0 t1 : ℝ) :
    ‖(jonesPt t0 t1).1‖ ^ 2 + ‖(jonesPt t0 t1).2‖ ^ 2 = (t0 ^ 2 + t1 ^ 2) / normPt t0 t1 ^ 2 := by
  unfold jonesPt
  dsimp only
  set n := normPt (t0 : ℂ) t1
  set phi := Real.pi / 8 * (1 + Real.cos (Real.pi * n))
  have he : ‖Complex.exp (-(Complex.I * (Complex.arg (t0 + t1 * Complex.I) : ℂ)))‖ = 1 := by
    rw [Complex.norm_exp]
    simp
  have hn : (0 : ℝ) < n := normPt_pos _ _
  rw [norm_mul, norm_mul, norm_div, he, Complex.norm_real, Real.norm_of_nonneg hn.le, mul_pow, mul_pow,
    ← Complex.normSq_eq_norm_sq, ← Complex.normSq_eq_norm_sq, Complex.normSq_apply, Complex.normSq_apply]
  simp only [Complex.sub_re, Complex.sub_im, Complex.mul_re, Complex.mul_im, Complex.I_re, Complex.I_im, Complex.ofReal_re,
    Complex.ofReal_im, Complex.neg_re, Complex.neg_im]
  have := Real.sin_sq_add_cos_sq phi
  field_simp
  linear_combination (t0 ^ 2 + t1 ^ 2) * this

/-- **C52**, Jones vectors.  For every real vector `t`: the Jones vector has the length of `t` divided by the regularised length
of `t`, hence less than one, and vanishes exactly where `t` does; opposite vectors have the same Jones vector. -/
theorem C52_jones_vectors (t0 t1 : ℝ) :
    length2 (jonesPt t0 t1) = length2 (t0, t1) / (length2 (t0, t1) + macheps) ∧
    length2 (jonesPt t0 t1) < 1 ∧ (jonesPt t0 t1 = 0 ↔ t0 = 0 ∧ t1 = 0) ∧ jonesPt (-t0) (-t1) = jonesPt t0 t1 := by
  have hp := normPt_pos (t0 : ℂ) t1
  have hl := length2_nonneg ((t0 : ℂ), (t1 : ℂ))
  have hm := macheps_pos
  have e1 : length2 (jonesPt t0 t1) = length2 (t0, t1) / (length2 (t0, t1) + macheps) := by
    rw [← normPt_eq]
    unfold length2
    rw [jonesPt_normSq, Real.sqrt_div (by positivity), Real.sqrt_sq hp.le]
    simp only [Complex.norm_real, Real.norm_eq_abs, sq_abs]
  have hz : length2 ((t0 : ℂ), (t1 : ℂ)) = 0 ↔ t0 = 0 ∧ t1 = 0 := by
    unfold length2
    rw [Real.sqrt_eq_zero (by positivity)]
    dsimp only
    rw [Complex.norm_real, Complex.norm_real, Real.norm_eq_abs, Real.norm_eq_abs, sq_abs, sq_abs]
    constructor
    · intro h
      exact ⟨by nlinarith [sq_nonneg t0, sq_nonneg t1], by nlinarith [sq_nonneg t0, sq_nonneg t1]⟩
    · rintro ⟨rfl, rfl⟩; simp
  refine ⟨e1, ?_, ?_, ?_⟩
  · rw [e1, div_lt_one (by linarith)]
    linarith
  · constructor
    · intro h
      rw [h] at e1
      have h0 : length2 (0 : ℂ × ℂ) = 0 := by unfold length2; simp
      rw [h0, eq_comm, div_eq_zero_iff] at e1
      rcases e1 with e | e
      · exact hz.1 e
      · linarith
    · rintro ⟨rfl, rfl⟩
      unfold jonesPt
      simp
  · by_cases h0 : t0 = 0 ∧ t1 = 0
    · obtain ⟨rfl, rfl⟩ := h0
      simp
    have hne : (t0 : ℂ) + t1 * Complex.I ≠ 0 := by
      intro h
      apply h0
      have := congrArg Complex.re h
      have h2 := congrArg Complex.im h
      simp at this h2
      exact ⟨this, h2⟩
    have hn : normPt ((-t0 : ℝ) : ℂ) ((-t1 : ℝ) : ℂ) = normPt (t0 : ℂ) t1 := by
      unfold normPt
      simp [Complex.normSq_neg]
    have hx : Complex.exp (-(Complex.I * (Complex.arg (((-t0 : ℝ) : ℂ) + ((-t1 : ℝ) : ℂ) * Complex.I) : ℂ))) =
        -Complex.exp (-(Complex.I * (Complex.arg ((t0 : ℂ) + t1 * Complex.I) : ℂ))) := by
      have hneg : (((-t0 : ℝ) : ℂ) + ((-t1 : ℝ) : ℂ) * Complex.I) = -((t0 : ℂ) + t1 * Complex.I) := by push_cast; ring
      rw [hneg]
      set w := (t0 : ℂ) + t1 * Complex.I
      have key : ∀ z : ℂ, z ≠ 0 → Complex.exp (-(Complex.I * (Complex.arg z : ℂ))) = ‖z‖ / z := by
        intro z hz
        have := Complex.norm_mul_exp_arg_mul_I z
        rw [Complex.exp_neg, mul_comm Complex.I, eq_div_iff hz]
        rw [inv_mul_eq_iff_eq_mul₀ (Complex.exp_ne_zero _), mul_comm]
        exact this.symm
      rw [key _ hne, key _ (neg_ne_zero.2 hne), norm_neg, div_neg]
    unfold jonesPt
    dsimp only
    rw [hn, hx]
    push_cast
    ext <;> dsimp only <;> ring_nf

/-- **C52**, fields: `get_jones_field` of a real field is the Jones vector at every pixel; a complex field raises
`TypeError`. -/
theorem C52_jones_field (t : Field2) :
    ((∀ x y, (t.t0 x y).im = 0 ∧ (t.t1 x y).im = 0) → jonesField t =
      .ok ⟨t.Nx, t.Ny, fun x y => (jonesPt (t.t0 x y).re (t.t1 x y).re).1, fun x y => (jonesPt (t.t0 x y).re (t.t1 x y).re).2⟩) ∧
    ((∃ x y, (t.t0 x y).im ≠ 0 ∨ (t.t1 x y).im ≠ 0) → jonesField t = .error .typeError) := by
  unfold jonesField
  constructor
  · intro h
    rw [if_neg]
    rintro ⟨x, y, h'⟩
    rcases h' with h' | h'
    · exact h' (h x y).1
    · exact h' (h x y).2
  · intro h
    rw [if_pos h]

/-- **C52**, ellipse: the component of the Jones vector across `t` is in quadrature with the component along `t` and smaller by
the tangent of the angle `pi/8 (1 + cos (pi n))`, where `n` is the regularised length of `t`: the polarisation is linear along
`t` for `n = 1` and circular, with the same handedness for all directions, for `n -> 0`. -/
theorem C52_jones_ellipse (t0 t1 : ℝ) :
    t0 * (jonesPt t0 t1).2 - t1 * (jonesPt t0 t1).1 =
      -Complex.I * Real.tan (Real.pi / 8 * (1 + Real.cos (Real.pi * (length2 (t0, t1) + macheps)))) *
        (t0 * (jonesPt t0 t1).1 + t1 * (jonesPt t0 t1).2) := by
  rw [← normPt_eq]
  unfold jonesPt
  dsimp only
  set phi := Real.pi / 8 * (1 + Real.cos (Real.pi * normPt (t0 : ℂ) t1)) with hphi
  have hc : Real.cos phi ≠ 0 := by
    refine (Real.cos_pos_of_mem_Ioo ⟨?_, ?_⟩).ne'
    · have := Real.neg_one_le_cos (Real.pi * normPt (t0 : ℂ) t1)
      nlinarith [Real.pi_pos]
    · have := Real.cos_le_one (Real.pi * normPt (t0 : ℂ) t1)
      nlinarith [Real.pi_pos]
  have ht : (Real.tan phi : ℂ) * Real.cos phi = Real.sin phi := by
    rw [← Complex.ofReal_mul, Real.tan_mul_cos hc]
  generalize Complex.exp (-(Complex.I * _)) / (normPt (t0 : ℂ) t1 : ℂ) = w
  rw [← ht]
  ring

/-- The Jones vector where `t` is a unit vector up to the regularisation is linearly polarised along `t`: its two components
have the ratio of those of `t` when the regularised length is one. -/
theorem C52_linear_polarisation (t0 t1 : ℝ) (h : normPt (t0 : ℂ) t1 = 1) :
    (jonesPt t0 t1).1 * t1 = (jonesPt t0 t1).2 * t0 := by
  unfold jonesPt
  dsimp only
  rw [h]
  simp only [mul_one, Real.cos_pi]
  norm_num
  ring

end Nannos
