import Verif.Model.Sim

/-!
Model of the dictionary of orders of a `Simulation`: its construction (`nannos/simulation.py:87-96`),
`get_order_index`, `get_order` (`nannos/simulation.py:559-575`) and the `return_dict` branch of
`diffraction_efficiencies` (`nannos/simulation.py:482-491`).  Inner dictionaries are objects with an
identity, since the code copies the outer dictionary only.
-/

namespace Nannos

/-- `d.get(k)`: a Python `dict` as the list of its items in insertion order (`nannos/simulation.py:88-96`). -/
def dget {κ α : Type} [DecidableEq κ] : List (κ × α) → κ → Option α
  | [], _ => none
  | (k', v) :: r, k => if k' = k then some v else dget r k

/-- `d[k] = v` (`nannos/simulation.py:88-96`). -/
def dset {κ α : Type} [DecidableEq κ] : List (κ × α) → κ → α → List (κ × α)
  | [], k, v => [(k, v)]
  | (k', v') :: r, k, v => if k' = k then (k', v) :: r else (k', v') :: dset r k v

/-- What an inner dictionary holds: a position in the harmonics table, or an entry of an array
(`nannos/simulation.py:483-491`). -/
inductive Cell (V : Type) where
  | index (j : ℕ)
  | val (v : V)

/-- `self.harmidx_dict`: `outer` maps the first integer of an order to an inner dictionary, designated by its
identity; `heap` gives the contents of the inner dictionaries and `next` is the next free identity
(`nannos/simulation.py:88-96`). -/
structure OrderDicts (V : Type) where
  outer : List (ℤ × ℕ)
  heap : ℕ → List (ℤ × Cell V)
  next : ℕ

variable {V : Type}

/-- `heap[r][k] = v` (`nannos/simulation.py:88-96`). -/
def OrderDicts.setInner (s : OrderDicts V) (r : ℕ) (k : ℤ) (v : Cell V) : OrderDicts V :=
  { s with heap := fun r' => if r' = r then dset (s.heap r) k v else s.heap r' }

/-- One turn of the loop `nannos/simulation.py:89-95`. -/
def OrderDicts.insert (s : OrderDicts V) (g : (ℤ × ℤ) × ℕ) : OrderDicts V :=
  match dget s.outer g.1.1 with
  | some r => s.setInner r g.1.2 (.index g.2)
  | none => ⟨dset s.outer g.1.1 s.next,
      fun r' => if r' = s.next then [(g.1.2, .index g.2)] else s.heap r', s.next + 1⟩

/-- The dictionary built by the constructor (`nannos/simulation.py:88-96`). -/
def OrderDicts.build (V : Type) (H : List (ℤ × ℤ)) : OrderDicts V :=
  H.zipIdx.foldl OrderDicts.insert ⟨[], fun _ => [], 0⟩

/-- `d[i][j]` for a dictionary of dictionaries `d` (`nannos/simulation.py:488,572`). -/
def OrderDicts.read (s : OrderDicts V) (d : List (ℤ × ℕ)) (i j : ℤ) : Except PyErr (Cell V) :=
  match dget d i with
  | none => .error .keyError
  | some r => match dget (s.heap r) j with
    | none => .error .keyError
    | some v => .ok v

/-- `d[i][j] = v` (`nannos/simulation.py:483-491`). -/
def OrderDicts.write (s : OrderDicts V) (d : List (ℤ × ℕ)) (i j : ℤ) (v : Cell V) : Except PyErr (OrderDicts V) :=
  match dget d i with
  | none => .error .keyError
  | some r => .ok (s.setInner r j v)

/-- `A[idx]`; numpy raises `IndexError` when `idx` is a float or an array of floats
(`nannos/simulation.py:483-491`). -/
def cellGet {α : Type} (A : List α) : Cell V → Except PyErr α
  | .index j => pyGet A j
  | .val _ => .error .indexError

/-- Argument of `get_order_index`: an `int`, a sequence of integers, or an object without a length
(`nannos/simulation.py:559-572`). -/
inductive OrderArg where
  | int (n : ℤ)
  | seq (l : List ℤ)
  | other

/-- `Simulation.get_order_index(order)` (`nannos/simulation.py:559-572`). -/
def getOrderIndex (is1D : Bool) (s : OrderDicts V) (order : OrderArg) : Except PyErr (Cell V) := do
  let l ← match order with
    | .seq l => .ok l
    | .int n => if is1D then .ok [n, 0] else .error .valueError
    | .other => .error .valueError
  let i ← pyGet l 0
  -- `self.harmidx_dict[order[0]]` is looked up before `order[1]` is
  match dget s.outer i with
  | none => .error .keyError
  | some _ => do
    let j ← pyGet l 1
    s.read s.outer i j

/-- `Simulation.get_order(A, order)` (`nannos/simulation.py:574-575`). -/
def getOrder {α : Type} (is1D : Bool) (s : OrderDicts V) (A : List α) (order : OrderArg) : Except PyErr α := do
  let idx ← getOrderIndex is1D s order
  cellGet A idx

/-- One turn of the loop `nannos/simulation.py:485-490`; `Rdict` and `Tdict` are copies of the outer
dictionary. -/
def dictBody (Rdict Tdict : List (ℤ × ℕ)) (R T : List V) (s : OrderDicts V) (g : ℤ × ℤ) :
    Except PyErr (OrderDicts V) := do
  let idx ← s.read s.outer g.1 g.2
  let r ← cellGet R idx
  let s ← s.write Rdict g.1 g.2 (.val r)
  let t ← cellGet T idx
  s.write Tdict g.1 g.2 (.val t)

/-- The loop `nannos/simulation.py:485-490`.  It stops at the first exception, keeping what it has
written. -/
def dictLoop (Rdict Tdict : List (ℤ × ℕ)) (R T : List V) : List (ℤ × ℤ) → PyM (OrderDicts V) Unit
  | [], s => (.ok (), s)
  | g :: H, s => match dictBody Rdict Tdict R T s g with
    | .ok s' => dictLoop Rdict Tdict R T H s'
    | .error e => (.error e, s)

/-- The `return_dict` branch (`nannos/simulation.py:482-491`): the two outer dictionaries returned, and the
inner dictionaries afterwards.  (If an exception is raised between the two writes of one turn the first is
kept; the model drops it, nothing is returned then.) -/
def efficiencyDicts (H : List (ℤ × ℤ)) (R T : List V) : PyM (OrderDicts V) (List (ℤ × ℕ) × List (ℤ × ℕ)) := fun s =>
  match dictLoop s.outer s.outer R T H s with
  | (.ok (), s') => (.ok (s.outer, s.outer), s')
  | (.error e, s') => (.error e, s')

/-- `diffraction_efficiencies(orders=True, return_dict=True)` (`nannos/simulation.py:441-492`): the object is
the pair of the simulation state and of its dictionary of orders. -/
noncomputable def diffractionDicts (E : Ext) (c : Static) :
    PyM (Dyn c.nh × OrderDicts ℝ) (List (ℤ × ℕ) × List (ℤ × ℕ)) := fun s =>
  match efficienciesByOrder E c s.1 with
  | (.error e, d) => (.error e, (d, s.2))
  | (.ok (R, T), d) => match efficiencyDicts c.harmonics (List.ofFn R) (List.ofFn T) s.2 with
    | (x, s') => (x, (d, s'))

/-- `diffraction_efficiencies(orders=True, complex=True, return_dict=True)`: here `R` and `T` are arrays of
three rows, one per component (`nannos/simulation.py:441-492`). -/
noncomputable def complexDicts (E : Ext) (c : Static) :
    PyM (Dyn c.nh × OrderDicts (Fin c.nh → ℂ)) (List (ℤ × ℕ) × List (ℤ × ℕ)) := fun s =>
  match complexEfficiencies E c s.1 with
  | (.error e, d) => (.error e, (d, s.2))
  | (.ok A, d) => match efficiencyDicts c.harmonics (List.ofFn A.r) (List.ofFn A.t) s.2 with
    | (x, s') => (x, (d, s'))

end Nannos
