import Mathlib.Data.Real.Basic

/-! Specification of C115. -/

namespace Nannos

/-- The smallest power of two, among 1, 2, 4, ..., which is not less than `x`. -/
def Spec.NextPower (x : ℝ) (p : ℤ) : Prop :=
  (∃ k : ℕ, p = 2 ^ k) ∧ x ≤ p ∧ ∀ k : ℕ, x ≤ 2 ^ k → p ≤ 2 ^ k

end Nannos
