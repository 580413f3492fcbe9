import Mathlib.Analysis.SpecialFunctions.Trigonometric.Basic

/-! Fields in real space (C112), from the wave vectors of the diffraction orders. -/

namespace Nannos.Spec

/-- Position of the pixel `(x, y)` of a grid laid over the unit cell with the given basis vectors. -/
noncomputable def pixelPosition (basis : Fin 2 → Fin 2 → ℝ) (Nx Ny : ℕ) (x : Fin Nx) (y : Fin Ny) : ℝ × ℝ :=
  ((x : ℝ) / Nx * basis 0 0 + (y : ℝ) / Ny * basis 1 0, (x : ℝ) / Nx * basis 0 1 + (y : ℝ) / Ny * basis 1 1)

/-- Value at `P` of the sum of the waves with amplitudes `u` and wave vectors `k` along the layers. -/
noncomputable def waveSum {nh : ℕ} (k : Fin nh → ℝ × ℝ) (u : Fin nh → ℂ) (P : ℝ × ℝ) : ℂ :=
  ∑ i, u i * Complex.exp (Complex.I * (((k i).1 * P.1 + (k i).2 * P.2 : ℝ) : ℂ))

/-- Phase, along the layers, of a wave of wavelength `wl` in a medium of index `n` with the direction `(theta, phi)`. -/
noncomputable def incidentPhase (wl n theta phi : ℝ) (P : ℝ × ℝ) : ℂ :=
  Complex.exp (Complex.I * ((n * (2 * Real.pi / wl) * Real.sin theta * (Real.cos phi * P.1 + Real.sin phi * P.2) : ℝ) : ℂ))

/-- Mean over the pixels of the component of `Re(conj(E) x H)` across the layers. -/
noncomputable def gridPower {Nx Ny : ℕ} (ex ey hx hy : Fin Nx → Fin Ny → ℂ) : ℝ :=
  (∑ x, ∑ y, (star (ex x y) * hy x y - star (ey x y) * hx x y).re) / (Nx * Ny)

/-- The pixels tell the orders apart: no two of them coincide on the grid. -/
def Resolved {nh : ℕ} (H : Fin nh → ℤ × ℤ) (Nx Ny : ℕ) : Prop :=
  ∀ i j, (Nx : ℤ) ∣ (H i).1 - (H j).1 → (Ny : ℤ) ∣ (H i).2 - (H j).2 → i = j

end Nannos.Spec
