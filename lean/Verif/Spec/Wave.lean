import Mathlib.Analysis.SpecialFunctions.Trigonometric.Basic

/-! Directions and polarisations of plane waves, from their angles in degrees. -/

namespace Nannos.Spec

open Real

/-- Degrees to radians. -/
noncomputable def rad (x : ℝ) : ℝ := x * (π / 180)

/-- The unit vector along the wave with angles `θ` (from the third axis), `φ` (azimuth) and `ψ`. -/
noncomputable def travel (a : ℝ × ℝ × ℝ) : Fin 3 → ℝ :=
  ![sin (rad a.1) * cos (rad a.2.1), sin (rad a.1) * sin (rad a.2.1), cos (rad a.1)]

/-- Its polarisation vector: the unit vectors of increasing `θ` and `φ`, with weights `cos ψ` and `sin ψ`. -/
noncomputable def polarisation (a : ℝ × ℝ × ℝ) : Fin 3 → ℝ :=
  cos (rad a.2.2) • ![cos (rad a.1) * cos (rad a.2.1), cos (rad a.1) * sin (rad a.2.1), -sin (rad a.1)] +
    sin (rad a.2.2) • ![-sin (rad a.2.1), cos (rad a.2.1), 0]

/-- The angles describe one wave. -/
def SamePlaneWave (a b : ℝ × ℝ × ℝ) : Prop := travel a = travel b ∧ polarisation a = polarisation b

end Nannos.Spec
