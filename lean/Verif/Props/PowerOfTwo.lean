import Verif.Model.Helpers
import Verif.Spec.PowerOfTwo

/-! **C115**: `next_power_of_2`. -/

namespace Nannos

theorem nextPower_of_half_lt {x : ℝ} (hx : 1 / 2 < x) : ∃ k : ℕ, ⌈Real.logb 2 x⌉ = k := by
  have h0 : 0 < x := by linarith
  have : -1 < ⌈Real.logb 2 x⌉ := by
    rw [Int.lt_ceil]
    push_cast
    rw [Real.lt_logb_iff_rpow_lt (by norm_num) h0, Real.rpow_neg_one]
    linarith
  exact ⟨⌈Real.logb 2 x⌉.toNat, by omega⟩

theorem pyTrunc_pow (k : ℕ) : pyTrunc ((2 : ℝ) ^ (k : ℤ)) = 2 ^ k := by
  unfold pyTrunc
  rw [if_pos (by positivity), zpow_natCast]
  have : ((2 : ℝ) ^ k) = (((2 : ℤ) ^ k : ℤ) : ℝ) := by push_cast; rfl
  rw [this, Int.floor_intCast]

/-- **C115**. For zero and for every number above one half, and so for every natural number, the result is the smallest power of two
not less than it. -/
theorem C115_next_power_of_2 (x : ℝ) (hx : x = 0 ∨ 1 / 2 < x) : ∃ p, nextPowerOf2 x = .ok p ∧ Spec.NextPower x p := by
  rcases hx with rfl | hx
  · refine ⟨1, by simp [nextPowerOf2], ⟨0, by norm_num⟩, by norm_num, fun k _ => ?_⟩
    exact one_le_pow₀ (by norm_num)
  · have h0 : 0 < x := by linarith
    obtain ⟨k, hk⟩ := nextPower_of_half_lt hx
    refine ⟨2 ^ k, ?_, ⟨k, rfl⟩, ?_, fun j hj => ?_⟩
    · unfold nextPowerOf2
      rw [if_neg h0.ne', if_neg (by linarith), hk, pyTrunc_pow]
    · have := Int.le_ceil (Real.logb 2 x)
      rw [hk, Real.logb_le_iff_le_rpow (by norm_num) h0] at this
      push_cast at this ⊢
      rwa [Real.rpow_natCast] at this
    · have h1 : Real.logb 2 x ≤ j := by
        rw [Real.logb_le_iff_le_rpow (by norm_num) h0, Real.rpow_natCast]
        exact hj
      have h2 : ⌈Real.logb 2 x⌉ ≤ (j : ℤ) := Int.ceil_le.mpr (by exact_mod_cast h1)
      rw [hk] at h2
      exact pow_le_pow_right₀ (by norm_num) (by exact_mod_cast h2)

/-- **C115**: natural numbers. -/
theorem C115_natural_numbers (m : ℕ) : ∃ p, nextPowerOf2 m = .ok p ∧ Spec.NextPower m p := by
  refine C115_next_power_of_2 m ?_
  rcases Nat.eq_zero_or_pos m with rfl | h
  · exact .inl (by simp)
  · right
    have : (1 : ℝ) ≤ m := by exact_mod_cast h
    linarith

/-- **C115** fails up to one half: the power is a fraction, which is cut to zero. -/
theorem C115_small_numbers (x : ℝ) (h0 : 0 < x) (hx : x ≤ 1 / 2) : nextPowerOf2 x = .ok 0 ∧ ∀ p, Spec.NextPower x p → p ≠ 0 := by
  constructor
  · unfold nextPowerOf2
    rw [if_neg h0.ne', if_neg (by linarith)]
    have h1 : ⌈Real.logb 2 x⌉ ≤ -1 := by
      rw [Int.ceil_le]
      push_cast
      rw [Real.logb_le_iff_le_rpow (by norm_num) h0, Real.rpow_neg_one]
      linarith
    have h2 : (2 : ℝ) ^ ⌈Real.logb 2 x⌉ ≤ 2 ^ (-1 : ℤ) := zpow_le_zpow_right₀ (by norm_num) h1
    have h3 : (0 : ℝ) < 2 ^ ⌈Real.logb 2 x⌉ := by positivity
    unfold pyTrunc
    rw [if_pos h3.le]
    congr 1
    rw [Int.floor_eq_zero_iff]
    refine ⟨h3.le, lt_of_le_of_lt h2 (by norm_num)⟩
  · rintro p ⟨⟨k, rfl⟩, -⟩
    positivity

/-- **C115**: negative numbers are refused. -/
theorem C115_negative_numbers (x : ℝ) (hx : x < 0) : nextPowerOf2 x = .error .valueError := by
  unfold nextPowerOf2
  rw [if_neg hx.ne, if_pos hx]

/-- C115 for 100: the result is 128. -/
example : nextPowerOf2 100 = .ok 128 := by
  obtain ⟨p, h1, ⟨k, rfl⟩, h2, h3⟩ := C115_natural_numbers 100
  have h4 := h3 7 (by norm_num)
  have h5 : (2 : ℤ) ^ 6 < 2 ^ k := by
    have : (100 : ℝ) ≤ ((2 ^ k : ℤ) : ℝ) := by exact_mod_cast h2
    have : (100 : ℤ) ≤ 2 ^ k := by exact_mod_cast this
    linarith
  have h6 : 6 < k := (pow_lt_pow_iff_right₀ (by norm_num : (1 : ℤ) < 2)).mp h5
  have h7 : k ≤ 7 := (pow_le_pow_iff_right₀ (by norm_num : (1 : ℤ) < 2)).mp h4
  obtain rfl : k = 7 := by omega
  exact_mod_cast h1

end Nannos
