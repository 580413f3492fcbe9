import Mathlib.Data.Complex.Basic

/-! Specification of C118. -/

namespace Nannos.Spec

/-- In a medium of permittivity `eps` no wave of tangential wave vector `(kx i, ky i)` propagates without loss: the square of the
component of its wave vector across the layer is not a positive number or zero.  Its imaginary part is not negative (no gain). -/
def Opaque {n : ℕ} (omega : ℝ) (kx ky : Fin n → ℂ) (eps : ℂ) : Prop :=
  ∀ i, 0 ≤ (eps * (omega : ℂ) ^ 2 - kx i ^ 2 - ky i ^ 2).im ∧
    ¬ ((eps * (omega : ℂ) ^ 2 - kx i ^ 2 - ky i ^ 2).im = 0 ∧ 0 ≤ (eps * (omega : ℂ) ^ 2 - kx i ^ 2 - ky i ^ 2).re)

end Nannos.Spec
