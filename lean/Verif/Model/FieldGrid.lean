import Verif.Model.Sim

/-! Model of the fields on a grid of `nannos/simulation.py`. -/

namespace Nannos

/-- `get_ifft_amplitudes(amplitudes, shape)` (`nannos/simulation.py:345-365`): one transform for every row (depth) of the
two-dimensional array `amplitudes`. -/
noncomputable def getIfftAmplitudes {nh : ℕ} (H : Fin nh → ℤ × ℤ) (amplitudes : List (Fin nh → ℂ)) (Nx Ny : ℕ) :
    Except PyErr (List (Grid Nx Ny)) :=
  if ∃ i, pyFin Nx (H i).1 = none ∨ pyFin Ny (H i).2 = none then .error .indexError
  else if nh = 0 then .error .valueError
  else .ok (amplitudes.map fun u => inverseFourierTransform fun p q => ∑ i, u i *
    (if pyFin Nx (H i).1 = some p ∧ pyFin Ny (H i).2 = some q then 1 else 0))

/-- A stack of three components, or one component (`nannos/simulation.py:395-428`). -/
inductive Part (A : Type) where
  | all (x y z : A)
  | one (u : A)

/-- A pair of fields, or one field (`nannos/simulation.py:395-428`). -/
inductive Selected (A : Type) where
  | both (E H : Part A)
  | single (f : Part A)

/-- What `get_field_grid` returns, on a grid of `Nx` by `Ny` points: every array is the list of its values at the
depths asked for (`nannos/simulation.py:367-429`). -/
structure GridOut where
  Nx : ℕ
  Ny : ℕ
  out : Selected (List (Grid Nx Ny))

/-- Selection in `get_field_grid` (`nannos/simulation.py:386-423`) with `_get_field` and the two arrays of Fourier components;
a name outside the lists leaves `out` unbound. -/
noncomputable def selectFields {A F : Type} (getField : F → ℕ → Except PyErr A) (fe fh : F) (field component : String) :
    Except PyErr (Selected A) :=
  if component = "all" then
    if field = "all" then do
      let ex ← getField fe 0
      let ey ← getField fe 1
      let ez ← getField fe 2
      let hx ← getField fh 0
      let hy ← getField fh 1
      let hz ← getField fh 2
      pure (.both (.all ex ey ez) (.all hx hy hz))
    else if field = "H" then do
      let hx ← getField fh 0
      let hy ← getField fh 1
      let hz ← getField fh 2
      pure (.single (.all hx hy hz))
    else if field = "E" then do
      let ex ← getField fe 0
      let ey ← getField fe 1
      let ez ← getField fe 2
      pure (.single (.all ex ey ez))
    else .error .unboundLocal
  else if component = "x" then
    if field = "all" then do
      let e ← getField fe 0
      let h ← getField fh 0
      pure (.both (.one e) (.one h))
    else if field = "H" then do
      let h ← getField fh 0
      pure (.single (.one h))
    else if field = "E" then do
      let e ← getField fe 0
      pure (.single (.one e))
    else .error .unboundLocal
  else if component = "y" then
    if field = "all" then do
      let e ← getField fe 1
      let h ← getField fh 1
      pure (.both (.one e) (.one h))
    else if field = "H" then do
      let h ← getField fh 1
      pure (.single (.one h))
    else if field = "E" then do
      let e ← getField fe 1
      pure (.single (.one e))
    else .error .unboundLocal
  else if component = "z" then
    if field = "all" then do
      let e ← getField fe 2
      let h ← getField fh 2
      pure (.both (.one e) (.one h))
    else if field = "H" then do
      let h ← getField fh 2
      pure (.single (.one h))
    else if field = "E" then do
      let e ← getField fe 2
      pure (.single (.one e))
    else .error .unboundLocal
  else .error .unboundLocal

/-- `fields_fourier[:, 0]`, of shape `(nz, 3, nh)` (`nannos/simulation.py:382-383`). -/
def eParts {nh : ℕ} (ff : List (FieldF nh)) : List (Fin 3 → Fin nh → ℂ) := ff.map fun f => ![f.ex, f.ey, f.ez]

/-- `fields_fourier[:, 1]`, see `eParts` (`nannos/simulation.py:382-383`). -/
def hParts {nh : ℕ} (ff : List (FieldF nh)) : List (Fin 3 → Fin nh → ℂ) := ff.map fun f => ![f.hx, f.hy, f.hz]

/-- `f[:, i, :]`; the index is a literal smaller than three (`nannos/simulation.py:395-428`). -/
def partAt {nh : ℕ} (f : List (Fin 3 → Fin nh → ℂ)) (i : ℕ) : List (Fin nh → ℂ) :=
  f.map fun g => if h : i < 3 then g ⟨i, h⟩ else 0

variable (E : Ext) (c : Static)

/-- `get_field_grid(layer_index, z, shape, field, component)` (`nannos/simulation.py:367-429`).  Without `shape` the shape of
the permittivity array is used; the array `zeros(shape + (nz,))` of a number has too few axes for a harmonic.
Permittivity arrays with one or more than two axes are not modelled. -/
noncomputable def getFieldGrid (id : LayerId) (zs : List ℝ) (shape : Option (ℕ × ℕ)) (field component : String) :
    PyM (Dyn c.nh) GridOut := do
  PyM.lift (raiseIf (field ∉ ["all", "E", "H"]) .valueError)
  PyM.lift (raiseIf (component ∉ ["all", "x", "y", "z"]) .valueError)
  let (r, i) ← PyM.lift (getLayer c id)
  let d ← PyM.get
  let shp := match shape with
    | some (a, b) => [a, b]
    | none => (d.mats r).epsilon.shape
  let ff ← getFieldFourier E c (.idx i) zs
  match shp with
  | [Nx, Ny] => PyM.lift (do
      let out ← selectFields (fun f i => getIfftAmplitudes c.harmonics.get (partAt f i) Nx Ny) (eParts ff) (hParts ff) field component
      pure ⟨Nx, Ny, out⟩)
  | [] => PyM.lift (.error .indexError)
  | _ => PyM.lift (.error .unmodelled)

/-- `get_Efield_grid` (`nannos/simulation.py:430-434`). -/
noncomputable def getEfieldGrid (id : LayerId) (zs : List ℝ) (shape : Option (ℕ × ℕ)) (component : String) : PyM (Dyn c.nh) GridOut :=
  getFieldGrid E c id zs shape "E" component

/-- `get_Hfield_grid` (`nannos/simulation.py:436-440`). -/
noncomputable def getHfieldGrid (id : LayerId) (zs : List ℝ) (shape : Option (ℕ × ℕ)) (component : String) : PyM (Dyn c.nh) GridOut :=
  getFieldGrid E c id zs shape "H" component

end Nannos
