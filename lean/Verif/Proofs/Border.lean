import Verif.Proofs.GeneratorsMoved
import Verif.Props.Generators

/-! The generator `'fft'` on three pixels, two of one material and one of another. -/

namespace Nannos.Border

open Spec

/-- Three pixels; the one with number `k` is of the second material. -/
noncomputable def row (k : Fin 3) : Grid 3 1 := fun x _ => if x = k then 2 else 1

/-! ### The filter -/

noncomputable def z : ℝ := Real.exp (-(81 / 1024))

theorem z_lower : (943 / 1024 : ℝ) ≤ z := by
  have := Real.add_one_le_exp (-(81 / 1024) : ℝ)
  unfold z
  linarith

theorem z_upper : z ≤ 925 / 1000 := by
  have h := Real.quadratic_le_exp_of_nonneg (x := (81 / 1024 : ℝ)) (by norm_num)
  unfold z
  rw [Real.exp_neg]
  rw [inv_le_comm₀ (Real.exp_pos _) (by norm_num)]
  refine le_trans ?_ h
  norm_num

theorem bell_z (i : Fin 9) : bell 9 4 9 i = z ^ ((((i : ℕ) : ℤ) - 4).natAbs ^ 2) := by
  unfold bell z
  rw [← Real.exp_nat_mul]
  congr 1
  unfold linspaceSym
  fin_cases i <;> norm_num

noncomputable def wt (p : Fin 9) : ℝ := weight 9 4 9 p

theorem wt_eq (p : Fin 9) (k : ℕ) (h : ((((p - half 9 : Fin 9) : ℕ) : ℤ) - 4).natAbs ^ 2 = k) :
    wt p = z ^ k / trapz (bell 9 4 9) := by
  unfold wt weight
  rw [bell_z, h]

/-- The weights at distances zero, one and two modulo three. -/
theorem weights : ∃ A D : ℝ, 0 < D ∧ wt 0 + wt 3 + wt 6 = A ∧ wt 1 + wt 4 + wt 7 = A ∧ wt 2 + wt 5 + wt 8 = A + D := by
  have hT := trapz_pos (by norm_num) (bell 9 4 9) (bell_pos 9 4 9)
  have h0 := wt_eq 0 1 (by decide)
  have h1 := wt_eq 1 4 (by decide)
  have h2 := wt_eq 2 9 (by decide)
  have h3 := wt_eq 3 16 (by decide)
  have h4 := wt_eq 4 16 (by decide)
  have h5 := wt_eq 5 9 (by decide)
  have h6 := wt_eq 6 4 (by decide)
  have h7 := wt_eq 7 1 (by decide)
  have h8 := wt_eq 8 0 (by decide)
  set T := trapz (bell 9 4 9) with hTd
  refine ⟨(z + z ^ 16 + z ^ 4) / T, (1 + 2 * z ^ 9 - z - z ^ 4 - z ^ 16) / T, div_pos ?_ hT, ?_, ?_, ?_⟩
  · have a := z_lower
    have b := z_upper
    have c9 : (943 / 1024 : ℝ) ^ 9 ≤ z ^ 9 := pow_le_pow_left₀ (by norm_num) a 9
    have c4 : z ^ 4 ≤ (925 / 1000 : ℝ) ^ 4 := pow_le_pow_left₀ (by linarith) b 4
    have c16 : z ^ 16 ≤ (925 / 1000 : ℝ) ^ 16 := pow_le_pow_left₀ (by linarith) b 16
    norm_num at c9 c4 c16
    linarith
  · rw [h0, h3, h6]; ring
  · rw [h1, h4, h7]; ring
  · rw [h2, h5, h8]; ring

theorem smooth_row (k : Fin 3) : ∃ C D : ℝ, 0 < D ∧ ∀ (i : Fin 9) (j : Fin 3),
    haveI : NeZero (3 * 3) := ⟨by norm_num⟩
    haveI : NeZero (3 * 1) := ⟨by norm_num⟩
    smooth (tile3 (row k)) i j = ((C + if (i + 1 : ℕ) % 3 = k then D else 0 : ℝ) : ℂ) := by
  obtain ⟨A, D, hD, w0, w1, w2⟩ := weights
  set S : ℝ := ∑ b : Fin 3, weight 3 4 3 b with hS
  have hSp : 0 < S := Finset.sum_pos (fun b _ => div_pos (bell_pos _ _ _ _) (trapz_pos (by norm_num) _ (bell_pos _ _ _)))
    ⟨0, Finset.mem_univ _⟩
  refine ⟨S * (4 * A + D), S * D, mul_pos hSp hD, fun i j => ?_⟩
  unfold smooth
  congr 1
  have e : ∀ (a : Fin 9) (b : Fin 3), ((tile3 (row k) (i - a) (j - b)).re : ℝ) =
      if ((i - a : Fin 9) : ℕ) % 3 = k then 2 else 1 := by
    intro a b
    unfold tile3 row
    simp only [Fin.ext_iff]
    split_ifs <;> simp
  have e' : ∑ a : Fin 9, ∑ b : Fin 3, weight (window 9 3 none).1 4 9 a * weight (window 9 3 none).2 4 3 b *
      (tile3 (row k) (i - a) (j - b)).re = S * ∑ a : Fin 9, wt a * (if ((i - a : Fin 9) : ℕ) % 3 = k then 2 else 1) := by
    rw [Finset.mul_sum]
    refine Finset.sum_congr rfl fun a _ => ?_
    rw [hS, Finset.sum_mul]
    refine Finset.sum_congr rfl fun b _ => ?_
    rw [e]
    have : (window 9 3 none) = ((9 : ℝ), (3 : ℝ)) := by simp [window]
    rw [this]
    unfold wt
    ring
  refine e'.trans ?_
  rw [show S * (4 * A + D) + (if (i + 1 : ℕ) % 3 = k then S * D else 0) =
    S * (4 * A + D + if (i + 1 : ℕ) % 3 = k then D else 0) by split_ifs <;> ring]
  congr 1
  have e9 : ∀ f : Fin 9 → ℝ, ∑ a, f a = f 0 + f 1 + f 2 + f 3 + f 4 + f 5 + f 6 + f 7 + f 8 := by
    intro f
    rw [Fin.sum_univ_castSucc, Fin.sum_univ_eight]
    rfl
  rw [e9]
  clear e e'
  have q1 : wt 0 = A - wt 3 - wt 6 := by linarith
  have q2 : wt 1 = A - wt 4 - wt 7 := by linarith
  have q3 : wt 2 = A + D - wt 5 - wt 8 := by linarith
  rw [q1, q2, q3]
  fin_cases i <;> fin_cases k <;> simp (decide := true) only [if_true, if_false] <;> ring

/-! ### The smoothing -/

/-- The kernel of the smoothing on nine positions. -/
noncomputable def ker (d : ℤ) : ℝ :=
  6 * (Real.cos (2 * Real.pi * d / 9) + Real.cos (2 * (2 * Real.pi * d / 9)) / 2 + Real.cos (3 * (2 * Real.pi * d / 9)) / 3 +
    Real.cos (4 * (2 * Real.pi * d / 9)) / 4)

theorem ker_neg (d : ℤ) : ker (-d) = ker d := by
  unfold ker
  have : 2 * Real.pi * ((-d : ℤ) : ℝ) / 9 = -(2 * Real.pi * d / 9) := by push_cast; ring
  rw [this]
  simp only [mul_neg, Real.cos_neg]

theorem ker_nine (d : ℤ) : ker (d + 9) = ker d := by
  unfold ker
  have h : 2 * Real.pi * ((d + 9 : ℤ) : ℝ) / 9 = 2 * Real.pi * d / 9 + 2 * Real.pi := by push_cast; ring
  have h2 : ∀ x : ℝ, Real.cos (2 * (x + 2 * Real.pi)) = Real.cos (2 * x) := fun x => by
    rw [show 2 * (x + 2 * Real.pi) = 2 * x + (2 : ℕ) * (2 * Real.pi) by push_cast; ring, Real.cos_add_nat_mul_two_pi]
  have h3 : ∀ x : ℝ, Real.cos (3 * (x + 2 * Real.pi)) = Real.cos (3 * x) := fun x => by
    rw [show 3 * (x + 2 * Real.pi) = 3 * x + (3 : ℕ) * (2 * Real.pi) by push_cast; ring, Real.cos_add_nat_mul_two_pi]
  have h4 : ∀ x : ℝ, Real.cos (4 * (x + 2 * Real.pi)) = Real.cos (4 * x) := fun x => by
    rw [show 4 * (x + 2 * Real.pi) = 4 * x + (4 : ℕ) * (2 * Real.pi) by push_cast; ring, Real.cos_add_nat_mul_two_pi]
  rw [h, h2, h3, h4, Real.cos_add_two_pi]

theorem ker_lt : ker 4 < ker 3 := by
  set c := Real.cos (Real.pi / 9) with hc
  have hc0 : 0 ≤ c := Real.cos_nonneg_of_mem_Icc ⟨by linarith [Real.pi_pos], by linarith [Real.pi_pos]⟩
  have hc1 : c ≤ 1 := Real.cos_le_one _
  have h80 : Real.cos (4 * (Real.pi / 9)) < 1 / 2 := by
    rw [← Real.cos_pi_div_three]
    apply Real.cos_lt_cos_of_nonneg_of_le_pi <;> linarith [Real.pi_pos]
  have h40 : Real.cos (2 * (Real.pi / 9)) = 2 * c ^ 2 - 1 := Real.cos_two_mul _
  have p1 : Real.cos (2 * Real.pi * (3 : ℤ) / 9) = -(1 / 2) := by
    rw [show 2 * Real.pi * ((3 : ℤ) : ℝ) / 9 = Real.pi - Real.pi / 3 by push_cast; ring, Real.cos_pi_sub, Real.cos_pi_div_three]
  have p2 : Real.cos (2 * (2 * Real.pi * (3 : ℤ) / 9)) = -(1 / 2) := by
    rw [show 2 * (2 * Real.pi * ((3 : ℤ) : ℝ) / 9) = Real.pi / 3 + Real.pi by push_cast; ring, Real.cos_add_pi, Real.cos_pi_div_three]
  have p3 : Real.cos (3 * (2 * Real.pi * (3 : ℤ) / 9)) = 1 := by
    rw [show 3 * (2 * Real.pi * ((3 : ℤ) : ℝ) / 9) = 2 * Real.pi by push_cast; ring, Real.cos_two_pi]
  have p4 : Real.cos (4 * (2 * Real.pi * (3 : ℤ) / 9)) = -(1 / 2) := by
    rw [show 4 * (2 * Real.pi * ((3 : ℤ) : ℝ) / 9) = Real.pi - Real.pi / 3 + 2 * Real.pi by push_cast; ring, Real.cos_add_two_pi,
      Real.cos_pi_sub, Real.cos_pi_div_three]
  have q1 : Real.cos (2 * Real.pi * (4 : ℤ) / 9) = -c := by
    rw [show 2 * Real.pi * ((4 : ℤ) : ℝ) / 9 = Real.pi - Real.pi / 9 by push_cast; ring, Real.cos_pi_sub]
  have q2 : Real.cos (2 * (2 * Real.pi * (4 : ℤ) / 9)) = 2 * c ^ 2 - 1 := by
    rw [Real.cos_two_mul, q1]; ring
  have q3 : Real.cos (3 * (2 * Real.pi * (4 : ℤ) / 9)) = -(1 / 2) := by
    rw [show 3 * (2 * Real.pi * ((4 : ℤ) : ℝ) / 9) = Real.pi - Real.pi / 3 + 2 * Real.pi by push_cast; ring, Real.cos_add_two_pi,
      Real.cos_pi_sub, Real.cos_pi_div_three]
  have q4 : Real.cos (4 * (2 * Real.pi * (4 : ℤ) / 9)) = Real.cos (4 * (Real.pi / 9)) := by
    rw [show 4 * (2 * Real.pi * ((4 : ℤ) : ℝ) / 9) = -(4 * (Real.pi / 9)) + (2 : ℕ) * (2 * Real.pi) by push_cast; ring,
      Real.cos_add_nat_mul_two_pi, Real.cos_neg]
  unfold ker
  rw [p1, p2, p3, p4, q1, q2, q3, q4]
  nlinarith

theorem chi_pair (p d : ℤ) : chi 9 p d + chi 9 (9 - p) d = ((2 * Real.cos (p * (2 * Real.pi * d / 9)) : ℝ) : ℂ) := by
  have h : chi 9 (9 - p) d = chi 9 (-p) d := chi_period (by simp) d
  rw [h]
  have e1 : chi 9 p d = Complex.exp (((p * (2 * Real.pi * d / 9) : ℝ) : ℂ) * Complex.I) := by
    unfold chi
    congr 1
    push_cast
    ring
  have e2 : chi 9 (-p) d = Complex.exp (-((p * (2 * Real.pi * d / 9) : ℝ) : ℂ) * Complex.I) := by
    unfold chi
    congr 1
    push_cast
    ring
  rw [e1, e2]
  push_cast
  rw [Complex.two_cos]
  
theorem spread_row {N : Grid (3 * 3) (3 * 1)} {n : Fin 9 → ℂ} (h : ∀ i j, N i j = n i) (i : Fin 9) (j : Fin 3) :
    spread (1 / 2) N i j = ∑ x : Fin 9, n x * (ker ((i : ℕ) - (x : ℕ)) : ℂ) := by
  haveI : NeZero (3 * 3) := ⟨by norm_num⟩
  haveI : NeZero (3 * 1) := ⟨by norm_num⟩
  have hco : ∀ (p : Fin 9) (q : Fin 3), fourierTransform N p q =
      if q = 0 then 1 / 9 * ∑ x : Fin 9, n x * chi 9 (-((p : ℕ) : ℤ)) (x : ℕ) else 0 := by
    intro p q
    rw [fourierTransform_eq, coeff_eq]
    have e1 : ∀ x : Fin 9, ∑ y : Fin 3, N x y * (chi 9 (-((p : ℕ) : ℤ)) (x : ℕ) * chi 3 (-((q : ℕ) : ℤ)) (y : ℕ)) =
        n x * chi 9 (-((p : ℕ) : ℤ)) (x : ℕ) * ∑ y : Fin 3, chi 3 (-((q : ℕ) : ℤ)) (y : ℕ) := by
      intro x
      rw [Finset.mul_sum]
      refine Finset.sum_congr rfl fun y _ => ?_
      rw [h]
      ring
    change (∑ x : Fin 9, ∑ y : Fin 3, N x y * (chi 9 (-((p : ℕ) : ℤ)) (x : ℕ) * chi 3 (-((q : ℕ) : ℤ)) (y : ℕ))) /
      (((9 : ℕ) : ℂ) * ((3 : ℕ) : ℂ)) = _
    rw [Finset.sum_congr rfl fun x _ => e1 x, ← Finset.sum_mul, chi_sum]
    by_cases hq : q = 0
    · subst hq
      rw [if_pos rfl, if_pos (by simp)]
      push_cast
      ring
    · rw [if_neg hq, if_neg (by
        have : (q : ℕ) ≠ 0 := fun h => hq (Fin.ext h)
        have := q.isLt
        omega)]
      simp
  have hG : ∀ p : Fin 9, (ftFilt (fftfreq (3 * 3) p ^ 2 + fftfreq (3 * 1) 0 ^ 2) (1 / 2) * (3 : ℕ) * (1 : ℕ) : ℝ) =
      ![0, 27, 27 / 2, 9, 27 / 4, 27 / 4, 9, 27 / 2, 27] p := by
    intro p
    have h0 : fftfreq (3 * 1) 0 = 0 := by unfold fftfreq; simp
    have hf : ∀ x : ℝ, 0 < x → ftFilt (x ^ 2 + 0 ^ 2) (1 / 2) = 1 / x := by
      intro x hx
      unfold ftFilt
      rw [if_neg (by positivity), zero_pow two_ne_zero, add_zero, ← Real.sqrt_eq_rpow, Real.sqrt_sq hx.le]
    have hf' : ∀ x : ℝ, x < 0 → ftFilt (x ^ 2 + 0 ^ 2) (1 / 2) = 1 / -x := by
      intro x hx
      rw [← hf (-x) (by linarith), neg_sq]
    rw [h0]
    fin_cases p
    · simp [fftfreq, ftFilt]
    · have : fftfreq (3 * 3) 1 = 1 / 9 := by unfold fftfreq; norm_num
      change ftFilt (fftfreq (3 * 3) 1 ^ 2 + 0 ^ 2) (1 / 2) * _ * _ = 27
      rw [this, hf _ (by norm_num)]; norm_num
    · have : fftfreq (3 * 3) 2 = 2 / 9 := by unfold fftfreq; norm_num
      change ftFilt (fftfreq (3 * 3) 2 ^ 2 + 0 ^ 2) (1 / 2) * _ * _ = 27 / 2
      rw [this, hf _ (by norm_num)]; norm_num
    · have : fftfreq (3 * 3) 3 = 3 / 9 := by unfold fftfreq; norm_num
      change ftFilt (fftfreq (3 * 3) 3 ^ 2 + 0 ^ 2) (1 / 2) * _ * _ = 9
      rw [this, hf _ (by norm_num)]; norm_num
    · have : fftfreq (3 * 3) 4 = 4 / 9 := by unfold fftfreq; norm_num
      change ftFilt (fftfreq (3 * 3) 4 ^ 2 + 0 ^ 2) (1 / 2) * _ * _ = 27 / 4
      rw [this, hf _ (by norm_num)]; norm_num
    · have : fftfreq (3 * 3) 5 = -(4 / 9) := by unfold fftfreq; norm_num
      change ftFilt (fftfreq (3 * 3) 5 ^ 2 + 0 ^ 2) (1 / 2) * _ * _ = 27 / 4
      rw [this, hf' _ (by norm_num)]; norm_num
    · have : fftfreq (3 * 3) 6 = -(3 / 9) := by unfold fftfreq; norm_num
      change ftFilt (fftfreq (3 * 3) 6 ^ 2 + 0 ^ 2) (1 / 2) * _ * _ = 9
      rw [this, hf' _ (by norm_num)]; norm_num
    · have : fftfreq (3 * 3) 7 = -(2 / 9) := by unfold fftfreq; norm_num
      change ftFilt (fftfreq (3 * 3) 7 ^ 2 + 0 ^ 2) (1 / 2) * _ * _ = 27 / 2
      rw [this, hf' _ (by norm_num)]; norm_num
    · have : fftfreq (3 * 3) 8 = -(1 / 9) := by unfold fftfreq; norm_num
      change ftFilt (fftfreq (3 * 3) 8 ^ 2 + 0 ^ 2) (1 / 2) * _ * _ = 27
      rw [this, hf' _ (by norm_num)]; norm_num
  unfold spread
  rw [inverse_eq]
  have e2 : ∀ p : Fin 9, ∑ q : Fin 3, fourierTransform N p q *
      ((ftFilt (fftfreq (3 * 3) p ^ 2 + fftfreq (3 * 1) q ^ 2) (1 / 2) * (3 : ℕ) * (1 : ℕ) : ℝ) : ℂ) *
        (chi 9 (p : ℕ) (i : ℕ) * chi 3 (q : ℕ) (j : ℕ)) =
      ∑ x : Fin 9, n x * (1 / 9 * ((![0, 27, 27 / 2, 9, 27 / 4, 27 / 4, 9, 27 / 2, 27] p : ℝ) : ℂ) *
        chi 9 (p : ℕ) ((i : ℕ) - (x : ℕ))) := by
    intro p
    rw [Finset.sum_eq_single 0 (fun q _ hq => by rw [hco, if_neg hq]; simp) (by simp), hco, if_pos rfl, hG,
      Finset.mul_sum, Finset.sum_mul, Finset.sum_mul]
    refine Finset.sum_congr rfl fun x _ => ?_
    rw [sub_eq_add_neg, chi_add]
    have : chi 9 (-((p : ℕ) : ℤ)) ((x : ℕ) : ℤ) = chi 9 ((p : ℕ) : ℤ) (-((x : ℕ) : ℤ)) := by
      unfold chi; congr 2; push_cast; ring
    rw [this]
    simp only [Fin.val_zero, Nat.cast_zero, chi_zero]
    ring
  refine (Finset.sum_congr rfl fun p _ => e2 p).trans ?_
  rw [Finset.sum_comm]
  refine Finset.sum_congr rfl fun x _ => ?_
  rw [← Finset.mul_sum]
  congr 1
  have e9 : ∀ f : Fin 9 → ℂ, ∑ a, f a = f 0 + f 1 + f 2 + f 3 + f 4 + f 5 + f 6 + f 7 + f 8 := by
    intro f
    rw [Fin.sum_univ_castSucc, Fin.sum_univ_eight]
    rfl
  rw [e9]
  set d : ℤ := (i : ℕ) - (x : ℕ)
  have k1 := chi_pair 1 d
  have k2 := chi_pair 2 d
  have k3 := chi_pair 3 d
  have k4 := chi_pair 4 d
  norm_num at k1 k2 k3 k4
  unfold ker
  simp [Fin.val_zero]
  push_cast
  linear_combination 3 * k1 + 3 / 2 * k2 + k3 + 3 / 4 * k4

end Nannos.Border
