import Verif.Model.Geometry
import Mathlib.Topology.MetricSpace.Basic
import Mathlib.Analysis.SpecialFunctions.Trigonometric.Basic

/-! What the functions of shapely mean: every geometry denotes a set of points of the plane. -/

namespace Nannos.Spec

/-- The points of a rectangle, sides included. -/
def rectPts (r : Rect) : Set (ℝ × ℝ) := { q | r.left ≤ q.1 ∧ q.1 ≤ r.right ∧ r.bottom ≤ q.2 ∧ q.2 ≤ r.top }

/-- The rotation by an angle in degrees about a point, counter-clockwise. -/
noncomputable def turn (deg : ℝ) (c q : ℝ × ℝ) : ℝ × ℝ :=
  let t := deg * Real.pi / 180
  (c.1 + (q.1 - c.1) * Real.cos t - (q.2 - c.2) * Real.sin t, c.2 + (q.1 - c.1) * Real.sin t + (q.2 - c.2) * Real.cos t)

/-- The documented behaviour of shapely.  `contains(Point)` is false on the boundary and `contains(rect)` allows
common boundaries; `buffer` is a polygon inscribed in the circle, which contains the concentric disc of radius `ρ`
times as large. -/
structure ShapelyContract {G : Type} (S : Shapely G) (ρ : ℝ) (pts : G → Set (ℝ × ℝ)) : Prop where
  intersects_false : ∀ g r, S.intersects g r = false → ∀ q ∈ rectPts r, q ∉ pts g
  contains_rect : ∀ g r, S.containsRect g r = true → ∀ q ∈ rectPts r, q ∈ pts g
  contains_pt_true : ∀ g q, S.containsPt g q = true → q ∈ pts g
  contains_pt_false : ∀ g q, S.containsPt g q = false → q ∉ interior (pts g)
  affine : ∀ g a b d e xo yo, pts (S.affine g a b d e xo yo) =
    (fun q : ℝ × ℝ => (a * q.1 + b * q.2 + xo, d * q.1 + e * q.2 + yo)) '' pts g
  polygon_rect : ∀ l r b t : ℝ, l < r → b < t →
    pts (S.polygon [(l, b), (r, b), (r, t), (l, t)]) = rectPts ⟨l, r, b, t⟩
  disc_sub : ∀ c R, 0 < R → ∀ q ∈ pts (S.disc c R), (q.1 - c.1) ^ 2 + (q.2 - c.2) ^ 2 ≤ R ^ 2
  disc_sup : ∀ c R, 0 < R → ∀ q : ℝ × ℝ, (q.1 - c.1) ^ 2 + (q.2 - c.2) ^ 2 ≤ (ρ * R) ^ 2 → q ∈ pts (S.disc c R)
  scale : ∀ g fx fy c, pts (S.scale g fx fy c) =
    (fun q : ℝ × ℝ => (c.1 + fx * (q.1 - c.1), c.2 + fy * (q.2 - c.2))) '' pts g
  rotate : ∀ g deg c, pts (S.rotate g deg c) = turn deg c '' pts g

end Nannos.Spec
