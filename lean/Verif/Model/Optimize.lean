import Verif.Model.Prelude
import Mathlib.Analysis.SpecialFunctions.Pow.Real
import Mathlib.Analysis.Complex.Trigonometric
import Mathlib.LinearAlgebra.Matrix.NonsingularInverse

/-!
Model of `nannos/optimize.py`.  Densities are real, permittivities complex; each function is given for one
pixel, as the code applies it elementwise.
-/

namespace Nannos

/-- `x ** p` for real `x` and `p`: numpy returns `inf` for a negative power of zero and `nan` for a
non-integer power of a negative number (`nannos/optimize.py:21-22,42-58`). -/
noncomputable def powR (x p : ℝ) : Except PyErr ℝ :=
  open Classical in
  if (x = 0 ∧ p < 0) ∨ (x < 0 ∧ ¬ ∃ n : ℤ, p = n) then .error .nonfinite else .ok (x ^ p)

/-- `simp(x, eps_min, eps_max, p)` (`nannos/optimize.py:21-22`). -/
noncomputable def simpInterp (x : ℝ) (epsMin epsMax : ℂ) (p : ℝ) : Except PyErr ℂ := do
  let w ← powR x p
  pure ((epsMax - epsMin) * (w : ℂ) + epsMin)

/-- `project(x, beta, thres)` (`nannos/optimize.py:25-33`). -/
noncomputable def project (x beta thres : ℝ) : Except PyErr ℝ :=
  open Classical in do
  raiseIf (Real.tanh (thres * beta) + Real.tanh ((1 - thres) * beta) = 0) .nonfinite
  pure ((Real.tanh (thres * beta) + Real.tanh (beta * (x - thres))) /
    (Real.tanh (thres * beta) + Real.tanh ((1 - thres) * beta)))

/-- `bk.linspace(0, 1, Nthres + 1)[1:-1]` (`nannos/optimize.py:37`). -/
noncomputable def thresholds (Nthres : ℕ) : List ℝ :=
  (List.range (Nthres - 1)).map fun k : ℕ => ((k : ℝ) + 1) / Nthres

/-- `multi_project(x, beta, Nthres)` (`nannos/optimize.py:36-39`), `Nthres ≥ 0` (`linspace` raises
`ValueError` otherwise). -/
noncomputable def multiProject (x beta : ℝ) (Nthres : ℕ) : Except PyErr ℝ := do
  let l ← (thresholds Nthres).mapM fun t => project x beta t
  raiseIf ((thresholds Nthres).length = 0) .zeroDivision
  pure (l.sum / (thresholds Nthres).length)

/-- `bk.linspace(0, 1, n)`, one point (`nannos/optimize.py:37,48`). -/
noncomputable def linPt (n : ℕ) (i : ℕ) : ℝ := (i : ℝ) / ((n - 1 : ℕ) : ℝ)

/-- `multi_simp(x, epsilons, p)` (`nannos/optimize.py:42-58`). -/
noncomputable def multiSimp {n : ℕ} (x : ℝ) (epsilons : Fin n → ℂ) (p : ℝ) : Except PyErr ℂ :=
  open Classical in
  if h : n = 2 then simpInterp x (epsilons ⟨0, by omega⟩) (epsilons ⟨1, by omega⟩) p
  else do
    raiseIf (n = 0) .linAlgError
    raiseIf (∃ (i k : Fin n) (e : PyErr), powR (linPt n i) (k * p) = .error e) .nonfinite
    let M : Matrix (Fin n) (Fin n) ℂ := Matrix.of fun i k => ((linPt n i ^ ((k : ℝ) * p) : ℝ) : ℂ)
    raiseIf (M.det = 0) .linAlgError
    let coefs := M⁻¹.mulVec epsilons
    raiseIf (∃ (k : Fin n) (e : PyErr), powR x (k * p) = .error e) .nonfinite
    pure (∑ k : Fin n, coefs k * ((x ^ ((k : ℝ) * p) : ℝ) : ℂ))

/-! ### The optimiser -/

/-- The inner optimiser (`scipy.optimize.minimize` or `nlopt`) as seen from nannos: it asks for the objective at
points that may depend on the values received, and finally returns a point and a value
(`nannos/optimize.py:162-170,202-221`). -/
inductive Strategy (X : Type) where
  | ret (x : X) (f : ℝ)
  | eval (x : X) (k : ℝ → Strategy X)

/-- One evaluation of the objective: point, arguments, value; this is what the callback is given
(`nannos/optimize.py:146-154`, `nannos/optimize.py:184-199`). -/
abbrev Trace (X : Type) := List (X × List ℝ × ℝ)

/-- Attributes of a `StopFun` object (`nannos/optimize.py:67-77`). -/
structure StopFunObj (X : Type) where
  x : Option X
  f : Option ℝ

/-- `StopFun.fun(x, *args)` (`nannos/optimize.py:72-77`): the value is stored, the exception is raised, and
only then is the point stored. -/
noncomputable def stopFun {X : Type} (g : X → ℝ) (stopval : Option ℝ) (x : X) : PyM (StopFunObj X) ℝ := fun o =>
  open Classical in
  let y := g x
  if ∃ s, stopval = some s ∧ y < s then (.error .stopFun, { o with f := some y })
  else (.ok y, ⟨some x, some y⟩)

/-- Running the inner optimiser on `stop.fun`, with the callback (`nannos/optimize.py:160-176`). -/
noncomputable def runScipy {X : Type} (fn : X → List ℝ → ℝ) (args : List ℝ) (stopval : Option ℝ) :
    Strategy X → PyM (StopFunObj X × Trace X) (X × ℝ)
  | .ret x f, s => (.ok (x, f), s)
  | .eval x k, s => match stopFun (fun x => fn x args) stopval x s.1 with
    | (.ok y, o) => runScipy fn args stopval (k y) (o, s.2 ++ [(x, args, y)])
    | (.error e, o) => (.error e, (o, s.2 ++ [(x, args, fn x args)]))

/-- Running `nlopt` on the objective; it handles the stop value itself (`nannos/optimize.py:202-221`). -/
def runNlopt {X : Type} (fn : X → List ℝ → ℝ) (args : List ℝ) : Strategy X → PyM (Trace X) (X × ℝ)
  | .ret x f, s => (.ok (x, f), s)
  | .eval x k, s => runNlopt fn args (k (fn x args)) (s ++ [(x, args, fn x args)])

/-- The two methods (`nannos/optimize.py:95-101,143,178`). -/
inductive OptMethod where
  | scipy
  | nlopt
  deriving DecidableEq

/-- One turn of the loop of `TopologyOptimizer.minimize` (`nannos/optimize.py:135-222`); `alg` is the inner
optimiser started at a point with given arguments. -/
noncomputable def outerStep {X : Type} (fn : X → List ℝ → ℝ) (alg : X → List ℝ → Strategy X) (method : OptMethod)
    (stopval : Option ℝ) (args : Option (List ℝ)) (x0 : X) (iopt : ℤ) : PyM (Trace X) (X × ℝ) := do
  let l ← PyM.lift (match args with
    | none => .error .typeError
    | some [] => .error .indexError
    | some (_ :: r) => .ok ((2 : ℝ) ^ iopt :: r))
  match method with
  | .nlopt => runNlopt fn l (alg x0 l)
  | .scipy => fun t =>
    match runScipy fn l stopval (alg x0 l) (⟨none, none⟩, t) with
    | (.ok r, s) => (.ok r, s.2)
    | (.error .stopFun, s) => match s.1.x, s.1.f with
      | some x, some f => (.ok (x, f), s.2)
      | _, _ => (.error .attributeError, s.2)
    | (.error e, s) => (.error e, s.2)

/-- The loop of `TopologyOptimizer.minimize`; `last` is the pair of local variables `xopt, fopt`
(`nannos/optimize.py:134-223`). -/
noncomputable def outerLoop {X : Type} (fn : X → List ℝ → ℝ) (alg : X → List ℝ → Strategy X) (method : OptMethod)
    (stopval : Option ℝ) (args : Option (List ℝ)) :
    List ℤ → X → Option (X × ℝ) → PyM (Trace X) (Option (X × ℝ))
  | [], _, last => pure last
  | i :: r, x0, _ => do
    let (x, f) ← outerStep fn alg method stopval args x0 i
    outerLoop fn alg method stopval args r x (some (x, f))

/-- `TopologyOptimizer.minimize()` (`nannos/optimize.py:123-223`); `threshold = (a, b)`.  The state is the list
of evaluations. -/
noncomputable def topoMinimize {X : Type} (fn : X → List ℝ → ℝ) (alg : X → List ℝ → Strategy X) (method : OptMethod)
    (stopval : Option ℝ) (args : Option (List ℝ)) (a b : ℤ) (x0 : X) : PyM (Trace X) (X × ℝ) := do
  let last ← outerLoop fn alg method stopval args (pyRange a b) x0 none
  PyM.lift (match last with
    | some r => .ok r
    | none => .error .unboundLocal)

end Nannos
