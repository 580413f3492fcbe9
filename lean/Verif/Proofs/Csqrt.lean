import Verif.Model.Layer
import Mathlib.Analysis.SpecialFunctions.Complex.Arg

/-! The square roots of the code. -/

namespace Nannos

theorem csqrt_zero : csqrt 0 = 0 := by
  unfold csqrt
  rw [Complex.zero_cpow]
  norm_num

theorem csqrt_sq (z : ℂ) : csqrt z ^ 2 = z := by
  unfold csqrt
  rw [← Complex.cpow_nat_mul]
  norm_num

theorem csqrt_mul_self (z : ℂ) : csqrt z * csqrt z = z := by
  rw [← sq, csqrt_sq]

theorem csqrt_eq_zero {z : ℂ} : csqrt z = 0 ↔ z = 0 := by
  constructor
  · intro h; rw [← csqrt_sq z, h]; simp
  · rintro rfl; exact csqrt_zero

theorem csqrt_eq {z : ℂ} (hz : z ≠ 0) : csqrt z = Complex.exp (Complex.log z / 2) := by
  unfold csqrt
  rw [Complex.cpow_def_of_ne_zero hz]
  congr 1
  ring

theorem log_half_im (z : ℂ) : (Complex.log z / 2).im = Complex.arg z / 2 := by
  have : Complex.log z / 2 = Complex.log z / ((2 : ℝ) : ℂ) := by norm_num
  rw [this, Complex.div_ofReal_im, Complex.log_im]

theorem csqrt_re_nonneg (z : ℂ) : 0 ≤ (csqrt z).re := by
  by_cases hz : z = 0
  · rw [hz, csqrt_zero]; simp
  rw [csqrt_eq hz, Complex.exp_re, log_half_im]
  refine mul_nonneg (Real.exp_pos _).le (Real.cos_nonneg_of_mem_Icc ⟨?_, ?_⟩)
  · have := Complex.neg_pi_lt_arg z; linarith
  · have := Complex.arg_le_pi z; linarith

theorem csqrt_im_nonneg {z : ℂ} (h : 0 ≤ z.im) : 0 ≤ (csqrt z).im := by
  by_cases hz : z = 0
  · rw [hz, csqrt_zero]; simp
  rw [csqrt_eq hz, Complex.exp_im, log_half_im]
  refine mul_nonneg (Real.exp_pos _).le (Real.sin_nonneg_of_nonneg_of_le_pi ?_ ?_)
  · have := Complex.arg_nonneg_iff.mpr h; linarith
  · have := Complex.arg_le_pi z; have := Real.pi_pos; linarith

theorem csqrt_im_neg {z : ℂ} (h : z.im < 0) : (csqrt z).im < 0 := by
  have hz : z ≠ 0 := by rintro rfl; simp at h
  rw [csqrt_eq hz, Complex.exp_im, log_half_im]
  refine mul_neg_of_pos_of_neg (Real.exp_pos _) (Real.sin_neg_of_neg_of_neg_pi_lt ?_ ?_)
  · have := Complex.arg_neg_iff.mpr h; linarith
  · have := Complex.neg_pi_lt_arg z; have := Real.pi_pos; linarith

theorem csqrt_ofReal {x : ℝ} (h : 0 ≤ x) : csqrt x = (Real.sqrt x : ℂ) := by
  unfold csqrt
  rw [Real.sqrt_eq_rpow, Complex.ofReal_cpow h]
  norm_num

theorem csqrt_neg_ofReal {x : ℝ} (h : x < 0) : csqrt x = Complex.I * (Real.sqrt (-x) : ℂ) := by
  have h1 : (csqrt x) ^ 2 = (Complex.I * (Real.sqrt (-x) : ℂ)) ^ 2 := by
    rw [csqrt_sq, mul_pow, Complex.I_sq, ← Complex.ofReal_pow, Real.sq_sqrt (by linarith)]
    push_cast; ring
  rcases sq_eq_sq_iff_eq_or_eq_neg.mp h1 with h2 | h2
  · exact h2
  · have h3 := csqrt_im_nonneg (z := (x : ℂ)) (by simp)
    rw [h2] at h3
    simp at h3
    have := Real.sqrt_pos.mpr (by linarith : 0 < -x)
    linarith

theorem modeSqrt_sq (w : ℂ) : modeSqrt w ^ 2 = w := by
  unfold modeSqrt
  split
  · rw [neg_sq, csqrt_sq]
  · exact csqrt_sq w

theorem modeSqrt_im_nonneg (w : ℂ) : 0 ≤ (modeSqrt w).im := by
  unfold modeSqrt
  split
  · rename_i h
    rw [Complex.neg_im]; linarith
  · rename_i h
    exact not_lt.mp h

theorem modeSqrt_eq_csqrt {w : ℂ} (h : 0 ≤ w.im) : modeSqrt w = csqrt w := by
  unfold modeSqrt
  rw [if_neg (not_lt.mpr (csqrt_im_nonneg h))]

theorem norm_exp_le_one {q : ℂ} (h : 0 ≤ q.im) {z : ℝ} (hz : 0 ≤ z) :
    ‖Complex.exp (Complex.I * q * z)‖ ≤ 1 := by
  rw [Complex.norm_exp]
  simp
  exact mul_nonneg h hz

end Nannos
