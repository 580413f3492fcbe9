import Verif.Model.Sim

/-! Specification of a stack of homogeneous layers: one plane wave up and one down in each, two polarisations that do
not mix. Nothing here refers to scattering matrices, modes or Fourier orders. -/

namespace Nannos.Spec

open Nannos

/-- One polarisation in one layer: normal wave number, ratio of the tangential electric to the tangential magnetic field of
the wave going down (up to a factor common to all layers), thickness. -/
structure Film where
  q : ℂ
  Z : ℂ
  d : ℝ

/-- Tangential magnetic amplitudes, `a k` of the wave going down at the top of layer `k` and `b k` of the wave going up at
its bottom, for waves that come from above only: both tangential fields are continuous. -/
structure FilmWaves (films : List Film) (a b : ℕ → ℂ) : Prop where
  electric : ∀ k L L', films[k]? = some L → films[k + 1]? = some L' →
    L.Z * (a k * Complex.exp (Complex.I * L.q * L.d) - b k) =
      L'.Z * (a (k + 1) - b (k + 1) * Complex.exp (Complex.I * L'.q * L'.d))
  magnetic : ∀ k L L', films[k]? = some L → films[k + 1]? = some L' →
    a k * Complex.exp (Complex.I * L.q * L.d) + b k =
      a (k + 1) + b (k + 1) * Complex.exp (Complex.I * L'.q * L'.d)
  below : b (films.length - 1) = 0

/-- The same for a wave of amplitude 1. -/
structure FilmSolution (films : List Film) (a b : ℕ → ℂ) : Prop extends FilmWaves films a b where
  above : a 0 = 1

/-- Tangential magnetic field at the depth `z` of a layer. -/
noncomputable def Film.mag (F : Film) (a b : ℂ) (z : ℝ) : ℂ :=
  a * Complex.exp (Complex.I * F.q * z) + b * Complex.exp (Complex.I * F.q * ((F.d - z : ℝ) : ℂ))

/-- Tangential electric field (up to the common factor) at the depth `z` of a layer. -/
noncomputable def Film.ele (F : Film) (a b : ℂ) (z : ℝ) : ℂ :=
  F.Z * (a * Complex.exp (Complex.I * F.q * z) - b * Complex.exp (Complex.I * F.q * ((F.d - z : ℝ) : ℂ)))

/-- A homogeneous isotropic layer, not a copy. -/
def Homogeneous (L : LayerSpec) : Prop :=
  L.iscopy = false ∧ L.isUniform = true ∧ L.isAnisotropic = false

/-- The normal wave number: the principal square root of `eps mu omega^2 - k^2`. -/
noncomputable def normalK (omega : ℝ) (k : ℝ) (L : LayerSpec) : ℂ :=
  csqrt (L.epsilon.value * L.mu * (omega : ℂ) ^ 2 - (k : ℂ) ^ 2)

/-- Electric field parallel to the interfaces. `k` is the tangential wave number. -/
noncomputable def filmS (omega k : ℝ) (L : LayerSpec) : Film :=
  ⟨normalK omega k L, (omega : ℂ) ^ 2 * L.mu / normalK omega k L, L.thickness.getD 0⟩

/-- Magnetic field parallel to the interfaces. -/
noncomputable def filmP (omega k : ℝ) (L : LayerSpec) : Film :=
  ⟨normalK omega k L, normalK omega k L / L.epsilon.value, L.thickness.getD 0⟩

/-- Amplitude reflected by one layer between two others, all multiple reflections included (Airy's formula). -/
noncomputable def airyR (F0 F1 F2 : Film) : ℂ :=
  ((F0.Z - F1.Z) * (F1.Z + F2.Z) + (F0.Z + F1.Z) * (F1.Z - F2.Z) * Complex.exp (2 * Complex.I * F1.q * F1.d)) /
    ((F0.Z + F1.Z) * (F1.Z + F2.Z) + (F0.Z - F1.Z) * (F1.Z - F2.Z) * Complex.exp (2 * Complex.I * F1.q * F1.d))

/-- Magnetic amplitude transmitted by one layer between two others. -/
noncomputable def airyT (F0 F1 F2 : Film) : ℂ :=
  4 * F0.Z * F1.Z * Complex.exp (Complex.I * F1.q * F1.d) /
    ((F0.Z + F1.Z) * (F1.Z + F2.Z) + (F0.Z - F1.Z) * (F1.Z - F2.Z) * Complex.exp (2 * Complex.I * F1.q * F1.d))

end Nannos.Spec
