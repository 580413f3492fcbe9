import Verif.Model.Plot

/-! What a three-dimensional picture shows (C91). -/

namespace Nannos.Spec

open Nannos Matrix

/-- The picture has a box of value `w` at the point `P` (boxes contain their lower faces, not their upper ones). -/
def Painted (p : List PlotMesh) (P : Fin 3 → ℝ) (w : ℝ) : Prop :=
  ∃ m ∈ p, ∃ b ∈ m.cells, b.value = w ∧ ∃ X : Fin 3 → ℝ, (∀ a, b.lo a ≤ X a ∧ X a < b.lo a + b.size a) ∧ P = m.matrix *ᵥ X

/-- The point of lattice coordinates `x`, `y` at height `z`. -/
def latticePoint (basis : Fin 2 → Fin 2 → ℝ) (x y z : ℝ) : Fin 3 → ℝ :=
  ![x * basis 0 0 + y * basis 1 0, x * basis 0 1 + y * basis 1 1, z]

/-- The thickness given to empty layers: the one asked for if it is not zero, or the largest one of the stack. -/
noncomputable def nullThick (o : Option ℝ) (ts : List ℝ) : ℝ :=
  open Classical in
  match o with
  | some t => if t ≠ 0 then t else ts.max?.getD 0
  | none => ts.max?.getD 0

/-- Thickness with which a layer is drawn: empty layers are given the thickness `nt`. -/
noncomputable def drawnThickness (nt : ℝ) (L : LayerSpec) : ℝ :=
  open Classical in if L.thickness.getD 0 = 0 then nt else L.thickness.getD 0

/-- Height at which layer number `k` is drawn: the sum of the thicknesses above it, and of the gaps `dz`. -/
noncomputable def drawnHeight (nt dz : ℝ) (layers : List LayerSpec) (k : ℕ) : ℝ :=
  ((layers.take k).map fun L => drawnThickness nt L + dz).sum

/-- Real part of the permittivity of a layer at a point of lattice coordinates `x`, `y`: pixel `(i, j)` of an array of
shape `(Nx, Ny)` covers `i / Nx ≤ x < (i + 1) / Nx` and `j / Ny ≤ y < (j + 1) / Ny`, periodically. -/
noncomputable def permittivityAt (L : LayerSpec) (x y : ℝ) : ℝ :=
  match L.epsilon.shape with
  | [Nx, Ny] => (L.epsilon.data [⌊Nx * Int.fract x⌋₊, ⌊Ny * Int.fract y⌋₊]).re
  | _ => L.epsilon.value.re

/-- A layer which can be drawn: homogeneous and isotropic, or an array of pixels. -/
def Drawable (L : LayerSpec) : Prop :=
  (∃ t, L.thickness = some t ∧ 0 ≤ t) ∧
  ((L.isUniform = true ∧ L.isAnisotropic = false) ∨ (L.isUniform = false ∧ ∃ Nx Ny, L.epsilon.shape = [Nx, Ny] ∧ 0 < Nx ∧ 0 < Ny))

end Nannos.Spec
