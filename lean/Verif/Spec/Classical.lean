import Verif.Spec.Calls

/-! Textbook quantities of a diffraction order, in terms of the returned fields (C90). -/

namespace Nannos.Spec

open Nannos

/-- Real part of the normal wave vector of the order `i` in a medium of real permittivity `e`: zero if the order is
evanescent there. -/
noncomputable def normalWavenumber (c : Static) (wl e : ℝ) (i : Fin c.nh) : ℝ :=
  Real.sqrt (e * (2 * Real.pi / wl) ^ 2 - (c.kx i).re ^ 2 - (c.ky i).re ^ 2)

/-- Squared modulus of the electric field in one order. -/
noncomputable def intensity {nh : ℕ} (F : FieldF nh) (i : Fin nh) : ℝ :=
  Complex.normSq (F.ex i) + Complex.normSq (F.ey i) + Complex.normSq (F.ez i)

/-- Component `j` of the electric field of the incident wave, at depth `z` of a superstrate of index `n`, in the order `g`:
the unit vector of polarisation divided by `n`, with the phase of a wave going down, and nothing in the other orders. -/
noncomputable def incidentE (exc : PlaneWave) (n z : ℝ) (g : ℤ × ℤ) (j : Fin 3) : ℂ :=
  if g = (0, 0) then ((exc.amplitude j / n : ℝ) : ℂ) *
    Complex.exp (Complex.I * ((n * (2 * Real.pi / exc.wavelength) * Real.cos exc.theta * z : ℝ) : ℂ))
  else 0

/-- Squared modulus of what is left of the electric field after subtracting the incident wave. -/
noncomputable def reflectedIntensity (c : Static) (exc : PlaneWave) (n z : ℝ) (F : FieldF c.nh) (i : Fin c.nh) : ℝ :=
  Complex.normSq (F.ex i - incidentE exc n z (c.harmonics.get i) 0) +
  Complex.normSq (F.ey i - incidentE exc n z (c.harmonics.get i) 1) +
  Complex.normSq (F.ez i - incidentE exc n z (c.harmonics.get i) 2)

end Nannos.Spec
