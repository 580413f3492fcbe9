import Mathlib.Analysis.SpecialFunctions.Complex.Log

/-! Specification of C116. -/

namespace Nannos.Spec

/-- Across a layer of permittivity `eps` and thickness `t`, the wave of order `i`, of tangential wave vector `(kx i, ky i)`, makes a
whole number `p` of half waves: the component of its wave vector across the layer is `p pi / t`.  The number `s` is 1 if `p` is
even for every order, and -1 if it is odd for every order. -/
def HalfWaves {n : ℕ} (omega : ℝ) (kx ky : Fin n → ℂ) (eps : ℂ) (t : ℝ) (s : ℂ) : Prop :=
  ∀ i, ∃ p : ℕ, eps * (omega : ℂ) ^ 2 - kx i ^ 2 - ky i ^ 2 = ((p * Real.pi / t : ℝ) : ℂ) ^ 2 ∧ s = (-1) ^ p

end Nannos.Spec
