import Mathlib.Data.Real.Basic
import Mathlib.Data.List.Sort

/-! Contract of the backend's `argsort` (any tie order) and a witness that it can be met. -/

namespace Nannos.Spec

/-- `p` is a valid result of `argsort(keys)`: a permutation of the positions along which the keys do not
decrease.  The order of equal keys is unspecified. -/
structure IsArgsort (keys : List ℝ) (p : List ℕ) : Prop where
  perm : p.Perm (List.range keys.length)
  sorted : p.Pairwise fun i j => keys.getD i 0 ≤ keys.getD j 0

/-- A sorting routine. -/
def ArgsortContract (argsort : List ℝ → List ℕ) : Prop := ∀ keys, IsArgsort keys (argsort keys)

/-- The contract is satisfiable. -/
theorem exists_argsort : ∃ argsort, ArgsortContract argsort := by
  classical
  refine ⟨fun keys => (List.range keys.length).insertionSort
    (fun i j => keys.getD i 0 ≤ keys.getD j 0), fun keys => ⟨List.perm_insertionSort _ _, ?_⟩⟩
  have : Std.Total (fun i j : ℕ => keys.getD i 0 ≤ keys.getD j 0) := ⟨fun i j => le_total _ _⟩
  have : IsTrans ℕ (fun i j : ℕ => keys.getD i 0 ≤ keys.getD j 0) := ⟨fun i j k => le_trans⟩
  exact List.pairwise_insertionSort _ _

end Nannos.Spec
