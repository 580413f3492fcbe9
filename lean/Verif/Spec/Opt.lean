import Verif.Model.Opt
import Verif.Spec.Fourier

/-! The least-squares fit of the default generator of tangent vectors (C106). -/

namespace Nannos.Spec

open Nannos

/-- What is asked of the minimisation: where it returns, it returns a place where the function is smallest. -/
def Minimises (argmin : (n : ℕ) → (Unknowns n → ℝ) → Except PyErr (Unknowns n)) : Prop :=
  ∀ n f x, argmin n f = .ok x → ∀ y, f x ≤ f y

/-- The part of a pixel array carried by the orders `H`: its Fourier series restricted to these orders. -/
noncomputable def bandLimited {M N : ℕ} (H : List (ℤ × ℤ)) (f : Grid M N) : Grid M N :=
  series H.get (fun k => coeff f (H.get k).1 (H.get k).2) M N

/-- Distinct orders, with each order its opposite, below half the number of pixels. -/
structure BalancedOrders (H : List (ℤ × ℤ)) (M N : ℕ) : Prop where
  nodup : H.Nodup
  opposite : ∀ g ∈ H, (-g.1, -g.2) ∈ H
  below : ∀ g ∈ H, 2 * |g.1| < M ∧ 2 * |g.2| < N

/-- How much of a pair of arrays is carried by the orders `H`: sum of the squared moduli of the Fourier coefficients. -/
noncomputable def carried {M N : ℕ} (H : List (ℤ × ℤ)) (d : Grid M N × Grid M N) : ℝ :=
  ∑ k : Fin H.length, (‖coeff d.1 (H.get k).1 (H.get k).2‖ ^ 2 + ‖coeff d.2 (H.get k).1 (H.get k).2‖ ^ 2)

end Nannos.Spec
