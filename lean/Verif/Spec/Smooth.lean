import Verif.Model.Sim
import Mathlib.Analysis.Calculus.ContDiff.Defs

/-! Structures whose thicknesses are parameters (C87). -/

namespace Nannos.Spec

/-- The layers `mats` with other thicknesses. A layer whose thickness is `None` keeps it. -/
def withThicknesses (mats : ℕ → LayerSpec) (th : ℕ → ℝ) : ℕ → LayerSpec :=
  fun r => { mats r with thickness := (mats r).thickness.map fun _ => th r }

/-- All Fourier components of the field are `n` times continuously differentiable at `x0`. -/
def SmoothField {V : Type} [NormedAddCommGroup V] [NormedSpace ℝ V] (n : WithTop ℕ∞) (x0 : V) {nh : ℕ}
    (F : V → FieldF nh) : Prop :=
  ∀ i, ContDiffAt ℝ n (fun x => (F x).ex i) x0 ∧ ContDiffAt ℝ n (fun x => (F x).ey i) x0 ∧
    ContDiffAt ℝ n (fun x => (F x).ez i) x0 ∧ ContDiffAt ℝ n (fun x => (F x).hx i) x0 ∧
    ContDiffAt ℝ n (fun x => (F x).hy i) x0 ∧ ContDiffAt ℝ n (fun x => (F x).hz i) x0

end Nannos.Spec
