/-
Python run-time conventions used by every model file.
-/

namespace Nannos

/-- Python exceptions raised (or, for `nonfinite`, silently produced as `inf`/`nan`) by nannos.
`nonfinite` stands for a floating point division by zero in numpy: numpy does not raise but the
returned arrays contain `inf`/`nan`.  The model makes this an explicit outcome, so no theorem about a
successful (`.ok`) result relies on Lean's convention `x / 0 = 0` (`nannos/simulation.py:54-64,270-271`). -/
inductive PyErr where
  | valueError
  | keyError
  | indexError
  | attributeError
  | typeError
  | assertionError
  | linAlgError
  | unboundLocal
  | notImplemented
  | nonfinite
  | stopFun
  | zeroDivision
  | recursionError
  /-- Not an exception: the call leaves the part of the behaviour the model covers. -/
  | unmodelled
  deriving DecidableEq, Repr

/-- Position designated by the (possibly negative) Python index `i` in a sequence of length `n`;
`none` is Python's `IndexError`.  Used by every `seq[i]` of the code base
(`nannos/simulation.py:577-586`, `nannos/layers.py:280-312`). -/
def pyIdx (n : Nat) (i : Int) : Option Nat :=
  if 0 ≤ i then (if i < n then some i.toNat else none)
  else if 0 ≤ i + n then some (i + n).toNat else none

/-- `seq[i]` with Python's negative indexing (`nannos/layers.py:280-312`). -/
def pyGet {α : Type _} (l : List α) (i : Int) : Except PyErr α :=
  match pyIdx l.length i with
  | some k => match l[k]? with
    | some x => .ok x
    | none => .error .indexError
  | none => .error .indexError

/-- `if p: raise e` (`nannos/simulation.py:54-64`). -/
def raiseIf (p : Prop) [Decidable p] (e : PyErr) : Except PyErr Unit :=
  if p then .error e else .ok ()

/-- `list(range(a, b))` (`nannos/simulation.py:219-284`). -/
def pyRange (a b : Int) : List Int :=
  (List.range (b - a).toNat).map fun (k : Nat) => a + Int.ofNat k

/-- Python computation with a state that survives exceptions (`nannos/simulation.py:179-217`). -/
def PyM (σ α : Type) := σ → Except PyErr α × σ

instance {σ : Type} : Monad (PyM σ) where
  pure a := fun s => (.ok a, s)
  bind x f := fun s => match x s with
    | (.ok a, s') => f a s'
    | (.error e, s') => (.error e, s')

/-- Raise or return without touching the state (`nannos/simulation.py:179-217`). -/
def PyM.lift {σ α : Type} (x : Except PyErr α) : PyM σ α := fun s => (x, s)

/-- Read the state (`nannos/simulation.py:179-217`). -/
def PyM.get {σ : Type} : PyM σ σ := fun s => (.ok s, s)

/-- Change the state (`nannos/simulation.py:179-217`). -/
def PyM.modify {σ : Type} (f : σ → σ) : PyM σ Unit := fun s => (.ok (), f s)

/-- Attribute access: `AttributeError` when missing (`nannos/simulation.py:219-284`). -/
def attr {α : Type} (x : Option α) : Except PyErr α := match x with
  | some a => .ok a
  | none => .error .attributeError

end Nannos
