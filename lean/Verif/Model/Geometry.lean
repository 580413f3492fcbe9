import Verif.Model.Lattice

/-!
Model of `nannos/geometry.py` and of the shape methods of `nannos/lattice.py`.

shapely is not part of the code: its objects are an abstract type and its functions the fields of `Shapely`; what
they mean is in `Verif.Spec.Geometry`.
-/

namespace Nannos

open Matrix

/-- An axis-parallel rectangle (`nannos/geometry.py:24-31`). -/
structure Rect where
  left : ℝ
  right : ℝ
  bottom : ℝ
  top : ℝ

/-- The functions of shapely that nannos calls (`nannos/geometry.py:24-105`). -/
structure Shapely (G : Type) where
  /-- `shp.intersects(rect)` -/
  intersects : G → Rect → Bool
  /-- `shp.contains(rect)` -/
  containsRect : G → Rect → Bool
  /-- `shp.contains(Point(x, y))` -/
  containsPt : G → ℝ × ℝ → Bool
  /-- `affine_transform(shp, [a, b, d, e, xoff, yoff])` -/
  affine : G → ℝ → ℝ → ℝ → ℝ → ℝ → ℝ → G
  /-- `Polygon(vertices)` -/
  polygon : List (ℝ × ℝ) → G
  /-- `Point(x, y).buffer(radius)` -/
  disc : ℝ × ℝ → ℝ → G
  /-- `scale(shp, xfact, yfact, 1, origin)` -/
  scale : G → ℝ → ℝ → ℝ × ℝ → G
  /-- `rotate(shp, degrees, origin)` -/
  rotate : G → ℝ → ℝ × ℝ → G

/-- A boolean array of shape `(rows, cols)` (`nannos/geometry.py:34-40`). -/
structure Mask where
  rows : ℕ
  cols : ℕ
  get : ℕ → ℕ → Bool

/-- `set_index_2d(mat, val)` with a boolean `val` (`nannos/geometry.py:34-40`). -/
def Mask.fill (m : Mask) (v : Bool) : Mask := ⟨m.rows, m.cols, fun _ _ => v⟩

/-- `m[r0:r1, c0:c1]`, for bounds inside the array (`nannos/geometry.py:43-105`). -/
def Mask.slice (m : Mask) (r0 r1 c0 c1 : ℕ) : Mask := ⟨r1 - r0, c1 - c0, fun j i => m.get (j + r0) (i + c0)⟩

/-- `set_index_2d(m, val, (r0, r1), (c0, c1))` with an array `val` (`nannos/geometry.py:34-40`); arrays of another
shape raise `ValueError` (broadcasting of a single row or column is not modelled).  In numpy `val` is the slice
itself, already overwritten in place. -/
def Mask.put (m v : Mask) (r0 r1 c0 c1 : ℕ) : Except PyErr Mask :=
  if v.rows = r1 - r0 ∧ v.cols = c1 - c0 then
    .ok ⟨m.rows, m.cols, fun j i => if r0 ≤ j ∧ j < r1 ∧ c0 ≤ i ∧ i < c1 then v.get (j - r0) (i - c0) else m.get j i⟩
  else .error .valueError

/-- `_bbox_to_rect(_grid_bbox(x, y))` (`nannos/geometry.py:24-31`). -/
def gridRect (x y : List ℝ) : Except PyErr Rect := do
  let left ← pyGet x 0
  let right ← pyGet x (-1)
  let bottom ← pyGet y 0
  let top ← pyGet y (-1)
  pure ⟨left, right, bottom, top⟩

/-- `shape_mask(shp, x, y, m)` (`nannos/geometry.py:43-105`); the first argument is the recursion depth
available. -/
def shapeMask {G : Type} (S : Shapely G) : ℕ → G → List ℝ → List ℝ → Option Mask → Except PyErr Mask
  | 0, _, _, _, _ => .error .recursionError
  | n + 1, shp, x, y, m => do
    let rect ← gridRect x y
    let m := m.getD ⟨y.length, x.length, fun _ _ => false⟩
    if S.intersects shp rect = false then pure (m.fill false)
    else if S.containsRect shp rect then pure (m.fill true)
    else if m.rows = 1 ∧ m.cols = 1 then do
      let x0 ← pyGet x 0
      let y0 ← pyGet y 0
      pure (m.fill (S.containsPt shp (x0, y0)))
    else if m.rows = 1 then do
      let k := m.cols / 2
      let v ← shapeMask S n shp (x.take k) y (some (m.slice 0 m.rows 0 k))
      let m ← m.put v 0 m.rows 0 k
      let v ← shapeMask S n shp (x.drop k) y (some (m.slice 0 m.rows k m.cols))
      m.put v 0 m.rows k m.cols
    else if m.cols = 1 then do
      let k := m.rows / 2
      let v ← shapeMask S n shp x (y.take k) (some (m.slice 0 k 0 m.cols))
      let m ← m.put v 0 k 0 m.cols
      let v ← shapeMask S n shp x (y.drop k) (some (m.slice k m.rows 0 m.cols))
      m.put v k m.rows 0 m.cols
    else do
      let k := m.rows / 2
      let l := m.cols / 2
      let v ← shapeMask S n shp (x.take l) (y.take k) (some (m.slice 0 k 0 l))
      let m ← m.put v 0 k 0 l
      let v ← shapeMask S n shp (x.drop l) (y.take k) (some (m.slice 0 k l m.cols))
      let m ← m.put v 0 k l m.cols
      let v ← shapeMask S n shp (x.take l) (y.drop k) (some (m.slice k m.rows 0 l))
      let m ← m.put v k m.rows 0 l
      let v ← shapeMask S n shp (x.drop l) (y.drop k) (some (m.slice k m.rows l m.cols))
      m.put v k m.rows l m.cols

/-- `bk.linspace(0, 1, n)` (`nannos/geometry.py:109-110`). -/
noncomputable def linspace01 (n : ℕ) : List ℝ := (List.range n).map fun k : ℕ => (k : ℝ) / ((n - 1 : ℕ) : ℝ)

/-- `.T` (`nannos/geometry.py:108-117`). -/
def Mask.transpose (m : Mask) : Mask := ⟨m.cols, m.rows, fun i j => m.get j i⟩

/-- `geometry_mask(geom, lattice, Nx, Ny)` (`nannos/geometry.py:108-117`). -/
noncomputable def geometryMask {G : Type} (S : Shapely G) (depth : ℕ) (geom : G) (lat : Lattice) (Nx Ny : ℕ) :
    Except PyErr Mask := do
  raiseIf (Nx = 0 ∨ Ny = 0) .indexError
  let invM ← inv2 lat.matrix
  let geom := S.affine geom (invM 0 0) (invM 0 1) (invM 1 0) (invM 1 1) 0 0
  let m ← shapeMask S depth geom (linspace01 Nx) (linspace01 Ny) none
  pure m.transpose

/-- `Lattice.unit_grid` (`nannos/lattice.py:147-161`), one entry. -/
noncomputable def Lattice.unitGrid (lat : Lattice) (c : Fin 2) (i j : ℕ) : ℝ :=
  ![(i : ℝ) / ((lat.discretization.1 - 1 : ℕ) : ℝ), (j : ℝ) / ((lat.discretization.2 - 1 : ℕ) : ℝ)] c

/-- `Lattice.grid` (`nannos/lattice.py:163-192`), one entry: `tensordot(matrix, grid, axes=(1, 0))`. -/
noncomputable def Lattice.grid (lat : Lattice) (c : Fin 2) (i j : ℕ) : ℝ :=
  ∑ k, lat.matrix c k * lat.unitGrid k i j

/-- `Lattice.geometry_mask(geom)` (`nannos/lattice.py:227-241`). -/
noncomputable def Lattice.geometryMask {G : Type} (S : Shapely G) (depth : ℕ) (lat : Lattice) (geom : G) : Except PyErr Mask :=
  Nannos.geometryMask S depth geom lat lat.discretization.1 lat.discretization.2

/-- `no1d` (`nannos/lattice.py:137-145`). -/
def no1d {α : Type} (lat : Lattice) (f : Except PyErr α) : Except PyErr α :=
  if lat.is1D then .error .valueError else f

/-- `Lattice.polygon(vertices)` (`nannos/lattice.py:243-245`, `nannos/geometry.py:120-122`). -/
noncomputable def Lattice.polygonMask {G : Type} (S : Shapely G) (depth : ℕ) (lat : Lattice) (vertices : List (ℝ × ℝ)) :
    Except PyErr Mask :=
  no1d lat (lat.geometryMask S depth (S.polygon vertices))

/-- `Lattice.circle(center, radius)` (`nannos/lattice.py:247-249`, `nannos/geometry.py:125-127`). -/
noncomputable def Lattice.circleMask {G : Type} (S : Shapely G) (depth : ℕ) (lat : Lattice) (center : ℝ × ℝ) (radius : ℝ) :
    Except PyErr Mask :=
  no1d lat (lat.geometryMask S depth (S.disc center radius))

/-- `Lattice.ellipse(center, radii, rotate)` (`nannos/lattice.py:251-253`, `nannos/geometry.py:130-137`). -/
noncomputable def Lattice.ellipseMask {G : Type} (S : Shapely G) (depth : ℕ) (lat : Lattice) (center : ℝ × ℝ)
    (radii : ℝ × ℝ) (rotate : ℝ) : Except PyErr Mask :=
  open Classical in
  no1d lat (do
    let circ := S.disc center radii.1
    raiseIf (radii.1 = 0) .zeroDivision
    let ell := S.scale circ 1 (radii.2 / radii.1) center
    let ell := if rotate ≠ 0 then S.rotate ell rotate center else ell
    lat.geometryMask S depth ell)

/-- `rectangle` (`nannos/geometry.py:140-151`). -/
noncomputable def rectShape {G : Type} (S : Shapely G) (center widths : ℝ × ℝ) (rotate : ℝ) : G :=
  open Classical in
  let rect := S.polygon [(center.1 - widths.1 / 2, center.2 - widths.2 / 2), (center.1 + widths.1 / 2, center.2 - widths.2 / 2),
    (center.1 + widths.1 / 2, center.2 + widths.2 / 2), (center.1 - widths.1 / 2, center.2 + widths.2 / 2)]
  if rotate ≠ 0 then S.rotate rect rotate center else rect

/-- `Lattice.rectangle(center, widths, rotate)` (`nannos/lattice.py:259-261`). -/
noncomputable def Lattice.rectangleMask {G : Type} (S : Shapely G) (depth : ℕ) (lat : Lattice) (center widths : ℝ × ℝ)
    (rotate : ℝ) : Except PyErr Mask :=
  no1d lat (lat.geometryMask S depth (rectShape S center widths rotate))

/-- `Lattice.square(center, width, rotate)` (`nannos/lattice.py:255-257`, `nannos/geometry.py:154-155`). -/
noncomputable def Lattice.squareMask {G : Type} (S : Shapely G) (depth : ℕ) (lat : Lattice) (center : ℝ × ℝ) (width : ℝ)
    (rotate : ℝ) : Except PyErr Mask :=
  no1d lat (lat.geometryMask S depth (rectShape S center (width, width) rotate))

open Classical in
/-- `Lattice.stripe(center, width)` (`nannos/lattice.py:263-264`). -/
noncomputable def Lattice.stripe (lat : Lattice) (center width : ℝ) : Mask :=
  ⟨lat.discretization.1, lat.discretization.2, fun i j => decide (|lat.grid 0 i j - center| ≤ width / 2)⟩

end Nannos
