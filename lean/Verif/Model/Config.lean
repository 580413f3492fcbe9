import Verif.Model.Prelude

/-!
Model of the package configuration: `nannos/__init__.py` (backend, device, precision, environment variables,
package reload) and `nannos/log.py`.

The module globals are a record: the presence of `_SCIPY`, `_AUTOGRAD`, `_JAX`, `_TORCH`, `_FORCE_BACKEND`,
`_FORCE_GPU`, `_GPU_DEVICE`, `_USE_32` are booleans (`_NUMPY` and `_CPU_DEVICE` are written but never read and are
left out); `BACKEND`, `DEVICE` and the precision are the values the last execution of the module body computed.
-/

namespace Nannos

/-- The five backends (`nannos/__init__.py:214-223`). -/
inductive Backend where
  | numpy
  | scipy
  | autograd
  | jax
  | torch
  deriving DecidableEq, Repr

/-- The name the user gives (`nannos/__init__.py:171-194`); other strings are unknown. -/
def Backend.ofName (s : String) : Option Backend :=
  if s = "numpy" then some .numpy
  else if s = "scipy" then some .scipy
  else if s = "autograd" then some .autograd
  else if s = "jax" then some .jax
  else if s = "torch" then some .torch
  else none

/-- What is fixed while the interpreter runs: installed packages (`nannos/__init__.py:48-77`; `autograd` is a
requirement of nannos) and the environment variables `NANNOS_BACKEND` and `NANNOS_GPU`. -/
structure PkgEnv where
  hasTorch : Bool
  hasCuda : Bool
  hasJax : Bool
  backendVar : Option String
  gpuVar : Option String

/-- `name in available_backends` (`nannos/__init__.py:36`, `nannos/__init__.py:80-84`). -/
def PkgEnv.available (e : PkgEnv) : Backend → Bool
  | .torch => e.hasTorch
  | .jax => e.hasJax
  | _ => true

/-- A log handler: a number identifying the object, whether nannos created it, and its level
(`nannos/log.py:44-51`). -/
structure Handler where
  id : Nat
  own : Bool
  level : String
  deriving DecidableEq, Repr

/-- The logger `pythonConfig` (`nannos/log.py`). -/
structure LogState where
  handlers : List Handler
  level : String
  next : Nat

/-- `LEVELS` (`nannos/log.py:16-22`). -/
def logLevels : List String := ["DEBUG", "INFO", "WARNING", "ERROR", "CRITICAL"]

/-- `[logger.removeHandler(h) for h in logger.handlers]` (`nannos/log.py:50`): the list iterator keeps a
position and the list shrinks under it. -/
def removeLoop (i : Nat) (l : List Handler) : List Handler :=
  if h : i < l.length then removeLoop (i + 1) (l.erase (l[i]))
  else l
termination_by l.length - i
decreasing_by
  rw [List.length_erase_of_mem (List.getElem_mem h)]
  omega

/-- `set_log_level(level)` (`nannos/log.py:25-51`). -/
def setLogLevel (level : String) : PyM LogState Unit := fun s =>
  if level ∈ logLevels then
    (.ok (), ⟨removeLoop 0 s.handlers ++ [⟨s.next, true, level⟩], level, s.next + 1⟩)
  else (.error .keyError, s)

/-- Globals of the module (`nannos/__init__.py:87-121`). -/
structure Globals where
  scipy : Bool
  autograd : Bool
  jax : Bool
  torch : Bool
  forceBackend : Bool
  forceGpu : Bool
  gpuDevice : Bool
  use32 : Bool
  /-- `BACKEND` -/
  backendName : Backend
  /-- `DEVICE == "cuda"` -/
  cuda : Bool
  /-- `FLOAT` is `float32` -/
  single : Bool
  /-- the numerical module bound to `backend` -/
  module : Backend
  /-- `grad` is the function of autograd or of torch, not the placeholder `_grad` -/
  grad : Bool
  /-- the logger, reconfigured by every reload of `nannos.log` -/
  log : LogState

/-- Before the first import (`nannos/__init__.py:332-350`). -/
def Globals.empty : Globals :=
  ⟨false, false, false, false, false, false, false, false, .numpy, false, false, .numpy, false, ⟨[], "WARNING", 0⟩⟩

/-- `get_backend()` (`nannos/__init__.py:213-223`). -/
def Globals.getBackend (g : Globals) : Backend :=
  if g.scipy then .scipy
  else if g.autograd then .autograd
  else if g.jax then .jax
  else if g.torch then .torch
  else .numpy

/-- `get_device() == "cuda"` (`nannos/__init__.py:311-312`). -/
def Globals.getCuda (g : Globals) : Bool := g.gpuDevice

/-- The assignments of the branches of `set_backend` (`nannos/__init__.py:171-190`). -/
def Globals.choose (g : Globals) : Backend → Globals
  | .autograd => { g with autograd := true, jax := false, torch := false, scipy := false }
  | .scipy => { g with scipy := true, jax := false, torch := false, autograd := false }
  | .jax => { g with jax := true, scipy := false, torch := false, autograd := false }
  | .torch => { g with torch := true, scipy := false, jax := false, autograd := false }
  | .numpy => { g with scipy := false, jax := false, autograd := false, torch := false }

/-- The assignments of `use_gpu` before the reload (`nannos/__init__.py:87-120`). -/
def Globals.chooseGpu (e : PkgEnv) (g : Globals) (b : Bool) : Globals :=
  let g := { g with forceGpu := true }
  if b then
    if ¬ (g.backendName = .torch ∨ g.backendName = .jax) then { g with gpuDevice := false }
    else if g.backendName = .torch ∧ e.hasTorch = false then { g with gpuDevice := false }
    else if g.backendName = .torch ∧ e.hasCuda = false then { g with gpuDevice := false }
    else if g.backendName = .jax ∧ e.hasJax = false then { g with gpuDevice := false }
    else { g with cuda := true, gpuDevice := true }
  else { g with gpuDevice := false, cuda := false }

/-- Assignments of `BACKEND`, `DEVICE`, `FLOAT` (`nannos/__init__.py:332-334`). -/
def Globals.refresh (g : Globals) : Globals :=
  { g with backendName := g.getBackend, cuda := g.getCuda, single := g.use32 }

/-- The numerical module a backend uses: `scipy` computes with numpy (`nannos/__init__.py:230-308`). -/
def Backend.module : Backend → Backend
  | .scipy => .numpy
  | b => b

/-- Whether the branch of a backend binds `grad` to a function that differentiates: autograd's and torch's do, the
others bind `_grad` (`nannos/__init__.py:233,236,267,290-299,308`). -/
def Backend.gradient : Backend → Bool
  | .autograd => true
  | .torch => true
  | _ => false

/-- `nannos.grad(f)` (`nannos/__init__.py:226-227,236,290-299`): a function, or `NotImplementedError`.  The derivative
itself is computed by autograd or torch and is not modelled. -/
def Globals.callGrad (g : Globals) : Except PyErr Unit :=
  if g.grad then .ok () else .error .notImplemented

/-- `set_backend` with a known name, given what `_reload_package` does (`nannos/__init__.py:141-197`). -/
def pkgSet (reload : Globals → Globals) (b : Backend) (g : Globals) : Globals :=
  if b = g.getBackend then { g with forceBackend := true }
  else reload ({ g with forceBackend := true }.choose b)

/-- `use_gpu`, given what `_reload_package` does (`nannos/__init__.py:87-121`). -/
def pkgGpu (reload : Globals → Globals) (e : PkgEnv) (b : Bool) (g : Globals) : Globals :=
  reload (g.chooseGpu e b)

/-- Selection of the numerical module (`nannos/__init__.py:230-308`); a missing backend falls back to numpy and
then leaves the globals `backend` and `grad` as they are. -/
def pkgSelect (reload : Globals → Globals) (e : PkgEnv) (g : Globals) : Globals :=
  if e.available g.getBackend then { g with module := g.getBackend.module, grad := g.getBackend.gradient }
  else pkgSet reload .numpy g

/-- `NANNOS_BACKEND` (`nannos/__init__.py:336-346`). -/
def pkgEnvBackend (reload : Globals → Globals) (e : PkgEnv) (g : Globals) : Globals :=
  match e.backendVar.bind Backend.ofName with
  | some b => if e.available b ∧ g.backendName ≠ b ∧ g.forceBackend = false then pkgSet reload b g else g
  | none => g

/-- `NANNOS_GPU` (`nannos/__init__.py:348-350`). -/
def pkgEnvGpu (reload : Globals → Globals) (e : PkgEnv) (g : Globals) : Globals :=
  if e.gpuVar.isSome ∧ g.forceGpu = false then pkgGpu reload e true g else g

/-- Execution of the module body (`nannos/__init__.py:230-350`), by import or reload, given what
`_reload_package` does when the body calls it. -/
def pkgBody (reload : Globals → Globals) (e : PkgEnv) (g : Globals) : Globals :=
  pkgEnvGpu reload e (pkgEnvBackend reload e (pkgSelect reload e g).refresh)

/-- Reload of the submodules: of those only `nannos.log` changes the state modelled here
(`nannos/__init__.py:208-210`). -/
def Globals.relog (g : Globals) : Globals := { g with log := (setLogLevel "WARNING" g.log).2 }

/-- `_reload_package` (`nannos/__init__.py:200-210`): the package, then every loaded module of the package, of
which the first is the package itself.  When the body of the package, executed by `importlib.reload`, calls
`_reload_package` again, `importlib.reload` finds the package in its table of modules being reloaded and returns
at once, so only the submodules are reloaded. -/
def pkgReload (e : PkgEnv) (g : Globals) : Globals :=
  (pkgBody Globals.relog e (pkgBody Globals.relog e g)).relog

/-- Calls a user makes (`nannos/__init__.py:87,141,315`). -/
inductive ConfigCall where
  | setBackend (name : String)
  | useGpu (b : Bool)
  | use32 (b : Bool)
  | setLogLevel (level : String)
  deriving DecidableEq

/-- `import nannos`: `nannos.log` is executed first (`nannos/__init__.py:27`).  The body is executed by the
import system, not by `importlib.reload`, so that a nested `_reload_package` executes it again. -/
def pkgImport (e : PkgEnv) : Globals := pkgBody (pkgReload e) e Globals.empty.relog

/-- One call: its result and the globals afterwards.  `use_32_bit` is `nannos/__init__.py:315-321`. -/
def configStep (e : PkgEnv) : ConfigCall → PyM Globals Unit
  | .setBackend s => fun g => match Backend.ofName s with
    | some b => (.ok (), pkgSet (pkgReload e) b g)
    | none => (.error .valueError, { g with forceBackend := true })
  | .useGpu b => fun g => (.ok (), pkgGpu (pkgReload e) e b g)
  | .use32 b => fun g => (.ok (), pkgReload e { g with use32 := b })
  | .setLogLevel l => fun g =>
    let r := Nannos.setLogLevel l g.log
    (r.1, { g with log := r.2 })

/-- The globals after importing the package and a history of calls, failed ones included
(`nannos/__init__.py:200-210`). -/
def configAfter (e : PkgEnv) (hist : List ConfigCall) : Globals :=
  hist.foldl (fun g c => (configStep e c g).2) (pkgImport e)

end Nannos
