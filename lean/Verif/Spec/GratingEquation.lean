import Mathlib.Analysis.SpecialFunctions.Trigonometric.Basic

/-! The grating equation (C110). -/

namespace Nannos.Spec

/-- A wave of wavelength `wl` comes from a medium of index `n` in the direction `(theta, phi)`.  The vector `k` along the
layers belongs to the diffraction order `g` of a lattice with the given basis vectors: along each of them, it differs from
that of the incident wave by a whole number of turns per period. -/
def GratingEquation (basis : Fin 2 → Fin 2 → ℝ) (wl n theta phi : ℝ) (g : ℤ × ℤ) (k : ℝ × ℝ) : Prop :=
  k.1 * basis 0 0 + k.2 * basis 0 1 =
    n * (2 * Real.pi / wl) * Real.sin theta * (Real.cos phi * basis 0 0 + Real.sin phi * basis 0 1) + 2 * Real.pi * g.1 ∧
  k.1 * basis 1 0 + k.2 * basis 1 1 =
    n * (2 * Real.pi / wl) * Real.sin theta * (Real.cos phi * basis 1 0 + Real.sin phi * basis 1 1) + 2 * Real.pi * g.2

/-- A wave with the vector `k` along the layers does not propagate in a medium of real permittivity `e`. -/
def Evanescent (wl e : ℝ) (k : ℝ × ℝ) : Prop := e * (2 * Real.pi / wl) ^ 2 ≤ k.1 ^ 2 + k.2 ^ 2

end Nannos.Spec
