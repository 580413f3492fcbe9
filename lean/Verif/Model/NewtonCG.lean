import Verif.Model.Opt
import Mathlib.Analysis.Calculus.Deriv.Basic

/-! Model of the minimisation asked by the default generator of tangent vectors (`nannos/formulations/tangent.py:185-198`):
one iteration (`maxiter=1`) of scipy's method `"Newton-CG"` from `x0 = 0`, with exact derivatives (`jac`, `hessp`).  The text
of scipy is not in `/repo`; its algorithm (`_minimize_newtoncg`) is written down here as published.  Of the line search
only the acceptance of its first trial step 1 is modelled. -/

namespace Nannos

variable {n : ℕ}

/-- `numpy.dot` of vectors of unknowns. -/
def dotU (x y : Unknowns n) : ℝ := ∑ c, ∑ k, x c k * y c k

/-- `numpy.linalg.norm(x, ord=1)`. -/
def normOne (x : Unknowns n) : ℝ := ∑ c, ∑ k, |x c k|

/-- The vector with 1 at one place. -/
def unitU (c : Fin 4) (k : Fin n) : Unknowns n := Pi.single c (Pi.single k 1)

/-- `jac=grad(minifun)` (`nannos/formulations/tangent.py:192`). -/
noncomputable def gradAt (f : Unknowns n → ℝ) (x : Unknowns n) : Unknowns n := fun c k =>
  deriv (fun t : ℝ => f (x + t • unitU c k)) 0

/-- `hessp=hessian_vector_product(minifun)` (`nannos/formulations/tangent.py:193`): derivative of the gradient along `p`. -/
noncomputable def hesspAt (f : Unknowns n → ℝ) (x p : Unknowns n) : Unknowns n := fun c k =>
  deriv (fun t : ℝ => gradAt f (x + t • p) c k) 0

/-- The inner loop of `_minimize_newtoncg`, conjugate gradients: `x`, `r`, `p`, `dri0` are `xsupi`, `ri`, `psupi`, `dri0`.
`none` when `cg_maxiter` is reached. -/
noncomputable def cgLoop (A : Unknowns n → Unknowns n) (b : Unknowns n) (termcond : ℝ) :
    ℕ → ℕ → Unknowns n → Unknowns n → Unknowns n → ℝ → Option (Unknowns n)
  | 0, _, _, _, _, _ => none
  | fuel + 1, i, x, r, p, dri0 => open Classical in
    if normOne r ≤ termcond then some x
    else
      let curv := dotU p (A p)
      if 0 ≤ curv ∧ curv ≤ 3 * (1 / 2 ^ 52) then some x
      else if curv < 0 then (if i > 0 then some x else some ((dri0 / -curv) • b))
      else
        let alpha := dri0 / curv
        let x' := x + alpha • p
        let r' := r + alpha • A p
        let dri1 := dotU r' r'
        cgLoop A b termcond fuel (i + 1) x' r' (-r' + (dri1 / dri0) • p) dri1

/-- `minimize(minifun, zeros(4 * nh), method="Newton-CG", ..., options={"maxiter": 1}).x`
(`nannos/formulations/tangent.py:185-198`).  `b`, `eta * maggrad` are as in scipy; where conjugate gradients do not finish
the starting point is returned; the step is accepted when it meets the strong Wolfe conditions with the constants `1e-4`,
`0.9` (`line_search_wolfe1`), or is zero; the other outcomes of the line search are not modelled (an error here). -/
noncomputable def newtonCG (n : ℕ) (f : Unknowns n → ℝ) : Except PyErr (Unknowns n) := open Classical in
  let g := gradAt f 0
  let maggrad := normOne g
  let eta := min 0.5 (Real.sqrt maggrad)
  match cgLoop (hesspAt f 0) (-g) (eta * maggrad) (20 * (4 * n)) 0 0 g (-g) (dotU g g) with
  | none => .ok 0
  | some p =>
    if p = 0 then .ok 0
    else if f p ≤ f 0 + 1 / 10 ^ 4 * dotU g p ∧ |dotU (gradAt f p) p| ≤ 0.9 * -(dotU g p) then .ok p
    else .error .unmodelled

end Nannos
