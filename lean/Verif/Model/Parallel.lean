import Verif.Model.Prelude

/-!
Model of `nannos/parallel.py`.

`joblib.Parallel` is not part of the code; it is modelled by its documented behaviour: the tasks run in any order,
the result of each is stored at its own place in the list of results, an exception raised by a task is raised by
the call, and `n_jobs=0` is refused.  With `n_jobs=1` the tasks run one after the other in the order of the list.
-/

namespace Nannos

universe u v w

/-- The results stored so far when the tasks have completed in the order `sched`; the first exception ends the
call (`nannos/parallel.py:25-27`). -/
def runTasks {α : Type u} (task : Nat → Except PyErr α) : List Nat → (Nat → Option α) → Except PyErr (Nat → Option α)
  | [], slots => .ok slots
  | i :: r, slots => match task i with
    | .ok a => runTasks task r (fun j => if j = i then some a else slots j)
    | .error e => .error e

/-- The list of results read from the places `0, …, n-1` (`nannos/parallel.py:25-27`). -/
def collect {α : Type u} (slots : Nat → Option α) (n : Nat) : Except PyErr (List α) :=
  (List.range n).mapM fun i => match slots i with
    | some a => .ok a
    | none => .error .unmodelled

/-- `Parallel(n_jobs)(tasks)` when the tasks complete in the order `sched` (`nannos/parallel.py:25-27`). -/
def joblibParallel {α : Type u} (nJobs : Int) (sched : List Nat) (tasks : List (Unit → Except PyErr α)) :
    Except PyErr (List α) :=
  if nJobs = 0 then .error .valueError
  else
    let task : Nat → Except PyErr α := fun i => match tasks[i]? with
      | some t => t ()
      | none => .error .indexError
    match runTasks task (if nJobs = 1 then List.range tasks.length else sched) (fun _ => none) with
    | .ok slots => collect slots tasks.length
    | .error e => .error e

/-- The decorated function (`nannos/parallel.py:20-25`): `args[0]` is the list, `args[1:]` the other
positional arguments; `func` carries the keyword arguments. -/
def parloop {α : Type u} {β : Type v} {γ : Type w} (nJobs : Int) (func : α → List β → Except PyErr γ)
    (sched : List Nat) (args : Option (List α × List β)) : Except PyErr (List γ) :=
  match args with
  | none => .error .indexError
  | some (xs, other) => joblibParallel nJobs sched (xs.map fun x _ => func x other)

end Nannos
