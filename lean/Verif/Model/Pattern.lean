import Verif.Model.Geometry
import Verif.Model.Layer

/-! Patterns made from the arrays and the masks of a lattice. -/

namespace Nannos

/-- `Lattice.ones()` (`nannos/lattice.py:194-203`). -/
def Lattice.ones (l : Lattice) : NdArr := ⟨[l.discretization.1, l.discretization.2], fun _ => 1⟩

/-- `Lattice.zeros()` (`nannos/lattice.py:205-214`). -/
def Lattice.zeros (l : Lattice) : NdArr := ⟨[l.discretization.1, l.discretization.2], fun _ => 0⟩

/-- `Lattice.constant(value)` (`nannos/lattice.py:216-225`), for a number. -/
noncomputable def Lattice.constant (l : Lattice) (value : ℂ) : NdArr := ⟨l.ones.shape, fun idx => l.ones.data idx * value⟩

/-- The statement `a[mask] = value` of a user, for a boolean array and a number: `IndexError` unless the shapes agree. The masks
are those of `nannos/lattice.py:227-264`. -/
def NdArr.assign (a : NdArr) (m : Mask) (value : ℂ) : Except PyErr NdArr :=
  if a.shape = [m.rows, m.cols] then
    .ok ⟨a.shape, fun idx => match idx with
      | [i, j] => if m.get i j then value else a.data idx
      | _ => a.data idx⟩
  else .error .indexError

/-- The assignments `a[m1] = v1; a[m2] = v2; ...` one after the other. -/
def NdArr.assignAll (a : NdArr) : List (Mask × ℂ) → Except PyErr NdArr
  | [] => .ok a
  | (m, v) :: rest => do
    let b ← a.assign m v
    b.assignAll rest

/-- `Lattice.Layer(name, thickness, epsilon, mu, lattice, tangent_field, tangent_field_type)` (`nannos/lattice.py:266-284`) of the
lattice object `this`; `self` is the identity of the new layer. The argument `lattice` is not used. -/
noncomputable def Lattice.layer (this self : ℕ) (name : String) (thickness : Option ℝ) (epsilon mu : NdArr)
    (_lattice : Option ℕ) (tangentField : Option Field2) (tangentFieldType : String) : Except PyErr LayerSpec :=
  mkLayer self name thickness epsilon mu this tangentField tangentFieldType

end Nannos
