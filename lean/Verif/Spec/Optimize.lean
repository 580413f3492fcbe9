import Verif.Model.Optimize

/-! What is assumed of an inner optimiser. -/

namespace Nannos.Spec

/-- The optimiser returns a point it has evaluated, with the value it received there. -/
def Honest {X : Type} : Strategy X → List (X × ℝ) → Prop
  | .ret x f, seen => (x, f) ∈ seen
  | .eval x k, seen => ∀ y, Honest (k y) ((x, y) :: seen)

end Nannos.Spec
