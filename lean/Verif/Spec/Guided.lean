import Verif.Spec.Fields

/-! Waves which a part of a stack supports without being illuminated. -/

namespace Nannos.Spec

open Matrix Nannos

variable {m : Type} [Fintype m] [DecidableEq m]

/-- The layers `i..k` support a wave by themselves: modal amplitudes, not all zero, whose tangential fields match at the
interfaces, with no wave coming from layer `i` nor from layer `k`. -/
def GuidedWave (layers : List (Modes m)) (i k : ℕ) : Prop :=
  ∃ amp : ℕ → (m → ℂ) × (m → ℂ), Consistent layers i k amp ∧ (amp i).1 = 0 ∧ (amp k).2 = 0 ∧
    ∃ l, i ≤ l ∧ l ≤ k ∧ amp l ≠ (0, 0)

end Nannos.Spec
