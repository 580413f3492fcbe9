import Verif.Model.Layer
import Verif.Model.Lattice
import Mathlib.Data.Finset.Sort
import Mathlib.Data.Real.Archimedean

/-! Model of `nannos/plot.py`: what is handed to the plotting libraries. -/

namespace Nannos

/-- A box of a mesh with the value attached to it. `lo` is the corner and `size` the lengths of the edges, before the
transformation of the mesh (`nannos/plot.py:120-134,164-170`). -/
structure PlotCell where
  lo : Fin 3 → ℝ
  size : Fin 3 → ℝ
  value : ℝ

/-- A mesh handed to `add_mesh`: boxes, the matrix of `transform` (its upper left block; the rest is that of the identity),
and the indices used to look up `layer_colors`, `layer_metallic` and `layer_roughness` (`nannos/plot.py:135-143,172-187`). -/
structure PlotMesh where
  cells : List PlotCell
  matrix : Matrix (Fin 3) (Fin 3) ℝ
  style : ℕ × Option ℕ

/-- `pyvista.ImageData` with one array attached to its cells: a regular grid of `dims - 1` boxes, numbered with the first
index running fastest. An array of another length is rejected (`nannos/plot.py:120-134,164-170`). -/
noncomputable def imageCells (dims : ℕ × ℕ × ℕ) (origin spacing : Fin 3 → ℝ) (data : List ℝ) :
    Except PyErr (List PlotCell) :=
  let n0 := dims.1 - 1
  let n1 := dims.2.1 - 1
  let n2 := dims.2.2 - 1
  if data.length = n0 * n1 * n2 then
    .ok (data.zipIdx.map fun vk =>
      ⟨fun a => origin a + ![((vk.2 % n0 : ℕ) : ℝ), ((vk.2 / n0 % n1 : ℕ) : ℝ), ((vk.2 / (n0 * n1) : ℕ) : ℝ)] a * spacing a,
        spacing, vk.1⟩)
  else .error .valueError

/-- `bk.unique` (`nannos/plot.py:171`): the distinct values, increasing. -/
noncomputable def uniqueValues (l : List ℝ) : List ℝ :=
  open Classical in l.toFinset.sort (· ≤ ·)

/-- `grid.threshold([v - 1e-7 * abs(v), v + 1e-7 * abs(v)])` (`nannos/plot.py:174-176`). -/
noncomputable def threshold (cells : List PlotCell) (v : ℝ) : List PlotCell :=
  open Classical in cells.filter fun b => v - 1e-7 * |v| ≤ b.value ∧ b.value ≤ v + 1e-7 * |v|

/-- The matrix of `transform` (`nannos/plot.py:105-112`). -/
def plotMatrix (basis : Fin 2 → Fin 2 → ℝ) : Matrix (Fin 3) (Fin 3) ℝ :=
  !![basis 0 0, basis 1 0, 0; basis 0 1, basis 1 1, 0; 0, 0, 1]

/-- Body of the loop over layers of `plot_structure` (`nannos/plot.py:120-196`) for a layer at height `z`, of thickness
`thickness` (after the replacement of zero), in the period `(jx, jy)`. -/
noncomputable def plotOne (basis : Fin 2 → Fin 2 → ℝ) (jx jy ilayer : ℕ) (L : LayerSpec) (z thickness : ℝ) :
    Except PyErr (List PlotMesh) :=
  open Classical in
  if L.isUniform then
    if L.isAnisotropic then .error .typeError
    else if L.epsilon.value.re ≠ 1 then do
      let cells ← imageCells (2, 2, 2) ![jx, jy, z] ![1, 1, thickness] [L.epsilon.value.re]
      pure [⟨cells, plotMatrix basis, (ilayer, none)⟩]
    else pure []
  else match L.epsilon.shape with
    | [Nx, Ny] => do
      -- `values = epsgrid.T[:, :, None]`, flattened with the last index running fastest
      let values := (List.range Ny).flatMap fun a => (List.range Nx).map fun b => (L.epsilon.data [b, a]).re
      let grid ← imageCells (Ny + 1, Nx + 1, 2) ![jx, jy, z] ![1 / Nx, 1 / Ny, thickness] values
      pure (((uniqueValues values).zipIdx.filter fun vk => vk.1 ≠ 1).map fun vk =>
        ⟨threshold grid vk.1, plotMatrix basis, (ilayer, some vk.2)⟩)
    | _ => .error .valueError

/-- The loop over layers of `plot_structure` (`nannos/plot.py:117-198`), starting at the height `z` with layer number
`ilayer`. -/
noncomputable def plotLayers (basis : Fin 2 → Fin 2 → ℝ) (jx jy : ℕ) (nullThickness dz : ℝ) :
    List (LayerSpec × ℝ) → ℕ → ℝ → Except PyErr (List PlotMesh)
  | [], _, _ => .ok []
  | (L, t) :: rest, ilayer, z => open Classical in do
    let thickness := if t = 0 then nullThickness else t
    let here ← plotOne basis jx jy ilayer L z thickness
    let below ← plotLayers basis jx jy nullThickness dz rest (ilayer + 1) (z + thickness + dz)
    pure (here ++ below)

/-- `layer.thickness` as an operand of `bk.max` (`nannos/plot.py:102`), which rejects `None`. -/
def thicknessValue (L : LayerSpec) : Except PyErr ℝ := match L.thickness with
  | some t => .ok t
  | none => .error .typeError

/-- `null_thickness or bk.max(ts)` (`nannos/plot.py:102`). -/
noncomputable def chooseNull (nullThickness : Option ℝ) (ts : List ℝ) : Except PyErr ℝ :=
  open Classical in
  let largest : Except PyErr ℝ := match ts.max? with
    | some m => .ok m
    | none => .error .valueError
  match nullThickness with
  | some t => if t ≠ 0 then .ok t else largest
  | none => largest

/-- `plot_structure(sim, nper=nper, dz=dz, null_thickness=null_thickness)` (`nannos/plot.py:87-203`): the meshes handed to
the plotter, in order. `basis` is `sim.lattice.basis_vectors` and `layers` are `sim.layers`. Simplifications: the thicknesses
are read even if `null_thickness` is given; camera, colours and other keyword arguments are not modelled. -/
noncomputable def plotStructure (basis : Fin 2 → Fin 2 → ℝ) (layers : List LayerSpec) (nper : ℕ × ℕ) (dz : ℝ)
    (nullThickness : Option ℝ) : Except PyErr (List PlotMesh) := do
  let ts ← layers.mapM thicknessValue
  let nt ← chooseNull nullThickness ts
  let all ← ((List.range nper.1).flatMap fun jx => (List.range nper.2).map fun jy => (jx, jy)).mapM fun j =>
    plotLayers basis j.1 j.2 nt dz (layers.zip ts) 0 0
  pure all.flatten

/-- What `plot_layer` draws: the displacement of each copy of the picture, and the limits of the axes. -/
structure LayerPicture where
  offsets : List (ℝ × ℝ)
  xlim : ℝ × ℝ
  ylim : ℝ × ℝ

/-- `nper` argument of `plot_layer`: an integer, a pair, or a sequence of another length (`nannos/plot.py:47-52`). -/
inductive PerArg where
  | int (n : ℕ)
  | pair (n m : ℕ)
  | other

/-- `plot_layer` (`nannos/plot.py:35-84`): positions of the copies and limits. The copies themselves are drawn by
matplotlib. -/
noncomputable def plotLayer (basis : Fin 2 → Fin 2 → ℝ) (nper : PerArg) : Except PyErr LayerPicture := do
  let (nx, ny) ← match nper with
    | .int n => (.ok (n, n) : Except PyErr (ℕ × ℕ))
    | .pair n m => .ok (n, m)
    | .other => .error .valueError
  let norm := fun v : Fin 2 → ℝ => Real.sqrt (v 0 ^ 2 + v 1 ^ 2)
  let delta := 0.1 * max (norm (basis 0)) (norm (basis 1))
  pure { offsets := (List.range nx).flatMap fun i : ℕ => (List.range ny).map fun j : ℕ =>
           ((i : ℝ) * basis 0 0 + (j : ℝ) * basis 1 0, (i : ℝ) * basis 0 1 + (j : ℝ) * basis 1 1)
         xlim := (-delta, nx * basis 0 0 + ny * basis 1 0 + delta)
         ylim := (-delta, nx * basis 0 1 + ny * basis 1 1 + delta) }

/-- `plot_unit_cell` (`nannos/plot.py:24-33`): the four segments drawn. -/
def plotUnitCell (bv : Fin 2 → Fin 2 → ℝ) : List ((ℝ × ℝ) × (ℝ × ℝ)) :=
  let point1 := (0, 0)
  let point2 := (bv 0 0, bv 0 1)
  let point3 := (bv 0 0 + bv 1 0, bv 0 1 + bv 1 1)
  let point4 := (bv 1 0, bv 1 1)
  [(point1, point2), (point2, point3), (point1, point4), (point4, point3)]

end Nannos
