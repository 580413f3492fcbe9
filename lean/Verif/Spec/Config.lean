import Verif.Model.Config

/-!
Specification of the package configuration: what a user expects to read after each call, with no flags, no
reloads and no handlers.
-/

namespace Nannos.Spec

/-- What a user can read: the backend, whether the device is a GPU, whether numbers are single precision, and
the log level. -/
structure Config where
  backend : Backend
  gpu : Bool
  single : Bool
  level : String
  deriving DecidableEq

/-- A backend that is installed, or numpy. -/
def installed (e : PkgEnv) (b : Backend) : Backend := if e.available b then b else .numpy

/-- Whether the backend can use a GPU: torch with cuda, or jax. -/
def gpuCapable (e : PkgEnv) : Backend → Bool
  | .torch => e.hasTorch && e.hasCuda
  | .jax => e.hasJax
  | _ => false

/-- The backend `NANNOS_BACKEND` selects. -/
def envBackend (e : PkgEnv) : Backend :=
  match e.backendVar.bind Backend.ofName with
  | some b => installed e b
  | none => .numpy

/-- The configuration after `import nannos`. -/
def importConfig (e : PkgEnv) : Config :=
  ⟨envBackend e, e.gpuVar.isSome && gpuCapable e (envBackend e), false, "WARNING"⟩

/-- The result of a call and the configuration after it.  Every reconfiguration of the package puts the log
level back to `WARNING`. -/
def configStep (e : PkgEnv) (c : ConfigCall) (s : Config) : Except PyErr Unit × Config :=
  match c with
  | .setBackend name => match Backend.ofName name with
    | none => (.error .valueError, s)
    | some b => (.ok (), if b = s.backend then s else { s with backend := installed e b, level := "WARNING" })
  | .useGpu b => (.ok (), { s with gpu := b && gpuCapable e s.backend, level := "WARNING" })
  | .use32 b => (.ok (), { s with single := b, level := "WARNING" })
  | .setLogLevel l =>
    if l ∈ ["DEBUG", "INFO", "WARNING", "ERROR", "CRITICAL"] then (.ok (), { s with level := l })
    else (.error .keyError, s)

/-- The configuration after the import and a history of calls. -/
def configAfter (e : PkgEnv) (hist : List ConfigCall) : Config :=
  hist.foldl (fun s c => (configStep e c s).2) (importConfig e)

/-- The library that does the arithmetic: the scipy backend computes with numpy's arrays, every other backend with
its own. -/
def arrays : Backend → Backend
  | .numpy => .numpy
  | .scipy => .numpy
  | .autograd => .autograd
  | .jax => .jax
  | .torch => .torch

/-- The backends that differentiate. -/
def differentiates : List Backend := [.autograd, .torch]

/-- The globals `g` show the configuration `s` consistently: `get_backend()`, `BACKEND` and the numerical module
agree, `get_device()` and `DEVICE` agree, the types have the precision asked for, and the logger has exactly one
handler, created by nannos, at the level of the logger. -/
def Shows (g : Globals) (s : Config) : Prop :=
  g.getBackend = s.backend ∧ g.backendName = s.backend ∧ g.module = arrays s.backend ∧
    g.getCuda = s.gpu ∧ g.cuda = s.gpu ∧ g.single = s.single ∧
    ∃ h : Handler, g.log.handlers = [h] ∧ h.own = true ∧ h.level = s.level ∧ g.log.level = s.level

end Nannos.Spec
