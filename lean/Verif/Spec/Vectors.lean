import Verif.Spec.Energy

/-! Vocabulary for user-supplied tangent vectors (C95). -/

namespace Nannos.Spec

open Nannos

/-- The tangent field given to the layer is one vector, the same at all pixels. -/
def ConstantVectors (L : LayerSpec) : Prop :=
  ∃ (Nx Ny : ℕ) (a b : ℂ), L.tangentField = some ⟨Nx, Ny, fun _ _ => a, fun _ _ => b⟩

/-- The vectors used for the layer, from any source (given, or made by its generator for the orders it is asked for), are the
same at all pixels. -/
def ConstantVectorsUsed (E : Ext) (c : Static) (L : LayerSpec) : Prop :=
  ∀ w s, L.epsilon.toGrid = .ok w → (L.tangentField = some s ∨ L.tangentField = none ∧ ∃ H m,
      c.lattice.getHarmonics E.argsort c.nh true = .ok (H, m) ∧
      E.tangent L.tangentFieldType w H (c.formulation == "tangent") = .ok s) →
    ∃ Nx Ny a b, s = ⟨Nx, Ny, fun _ _ => a, fun _ _ => b⟩

end Nannos.Spec
