import Mathlib.Analysis.SpecialFunctions.Trigonometric.Basic

/-! What it means for three consecutive samples not to need another point between them. -/

namespace Nannos.Spec

/-- The bend of the graph at `x0` is at most `maxBend` degrees once the abscissae of the three points are scaled to
an interval of length one and the ordinates to another (for a flat graph there is nothing to scale), and neither
of the two intervals is more than three times as long as the other. -/
def Smooth (maxBend xp x0 xn yp y0 yn : ℝ) : Prop :=
  let w := xn - xp
  let h := max yp (max y0 yn) - min yp (min y0 yn)
  let u := ((x0 - xp) / w, (y0 - yp) / h)
  let v := ((xn - x0) / w, (yn - y0) / h)
  (h = 0 ∨ u.1 * v.1 + u.2 * v.2 ≥
    Real.cos (maxBend * Real.pi / 180) * (√(u.1 ^ 2 + u.2 ^ 2) * √(v.1 ^ 2 + v.2 ^ 2))) ∧
  xn - x0 ≤ 3 * (x0 - xp) ∧ x0 - xp ≤ 3 * (xn - x0)

end Nannos.Spec
