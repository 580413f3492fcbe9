import Mathlib.Analysis.SpecialFunctions.Pow.Real
import Mathlib.Analysis.SpecialFunctions.Trigonometric.Basic
import Mathlib.Data.Matrix.Basic

/-! Vocabulary for the truncation properties: the candidate box and the metric of the circular
truncation, written from the rows `r0`, `r1` of the reciprocal matrix. -/

namespace Nannos.Spec

/-- Truncation metric of order `(i, j)`: `|r0|² (i² + j²) + 2 i j (r0 · r1)`. -/
def metric (r0 r1 : Fin 2 → ℝ) (g : ℤ × ℤ) : ℝ :=
  (r0 0 ^ 2 + r0 1 ^ 2) * ((g.1 : ℝ) ^ 2 + (g.2 : ℝ) ^ 2)
    + 2 * g.1 * g.2 * (r0 0 * r1 0 + r0 1 * r1 1)

/-- Tolerance within which two metrics count as equal. -/
noncomputable def tolerance (r0 r1 : Fin 2 → ℝ) : ℝ :=
  max (r0 0 ^ 2 + r0 1 ^ 2) (r1 0 ^ 2 + r1 1 ^ 2) / 10 ^ 10

/-- Half-width of the candidate box in direction `r`: `1 + ⌊R / (|r| sin γ)⌋` with
`R = sqrt(nh |r0 × r1| / π) + |r0| + |r1|` and `γ` the angle between `r0` and `r1`. -/
noncomputable def extent (nh : ℤ) (r0 r1 r : Fin 2 → ℝ) : ℤ :=
  1 + ⌊(Real.sqrt (nh * |r0 0 * r1 1 - r0 1 * r1 0| / Real.pi) + Real.sqrt (r0 0 ^ 2 + r0 1 ^ 2)
      + Real.sqrt (r1 0 ^ 2 + r1 1 ^ 2)) /
    (Real.sqrt (r 0 ^ 2 + r 1 ^ 2) * (|r0 0 * r1 1 - r0 1 * r1 0| /
      (Real.sqrt (r0 0 ^ 2 + r0 1 ^ 2) * Real.sqrt (r1 0 ^ 2 + r1 1 ^ 2))))⌋

/-- The candidate box. -/
def InBox (nh : ℤ) (r0 r1 : Fin 2 → ℝ) (g : ℤ × ℤ) : Prop :=
  |g.1| ≤ extent nh r0 r1 r0 ∧ |g.2| ≤ extent nh r0 r1 r1

end Nannos.Spec
