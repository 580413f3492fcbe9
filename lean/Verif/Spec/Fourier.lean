import Mathlib.Analysis.SpecialFunctions.Trigonometric.Basic

/-! Fourier coefficients and Fourier series of a grid, independent of FFT tables and indexing. -/

namespace Nannos.Spec

variable {Nx Ny : ℕ}

/-- Fourier coefficient `(a, b)` of a grid, for any integers `a`, `b`. -/
noncomputable def coeff (u : Fin Nx → Fin Ny → ℂ) (a b : ℤ) : ℂ :=
  (∑ x : Fin Nx, ∑ y : Fin Ny, u x y *
    Complex.exp (-(2 * Real.pi * Complex.I * (a * x / Nx + b * y / Ny)))) / ((Nx : ℂ) * Ny)

/-- Mean value of a grid. -/
noncomputable def mean (u : Fin Nx → Fin Ny → ℂ) : ℂ := (∑ x, ∑ y, u x y) / ((Nx : ℂ) * Ny)

/-- Fourier series with coefficients `u` on the harmonics `H`, at pixel `(x, y)`. -/
noncomputable def series {nh : ℕ} (H : Fin nh → ℤ × ℤ) (u : Fin nh → ℂ) (Nx Ny : ℕ)
    (x : Fin Nx) (y : Fin Ny) : ℂ :=
  ∑ i, u i * Complex.exp (2 * Real.pi * Complex.I * ((H i).1 * x / Nx + (H i).2 * y / Ny))

end Nannos.Spec
