import Verif.Model.Sim

/-! Vocabulary of C104: the stack turned upside down. -/

namespace Nannos

/-- The scattering matrix seen from the other side: what was reflected or transmitted upwards is now reflected or transmitted
downwards. -/
def SMat.turned {m : Type} (S : SMat m) : SMat m := ⟨S.s22, S.s21, S.s12, S.s11⟩

/-- The simulation of the stack turned upside down, lit by `exc` through what was the last layer `L`. -/
noncomputable abbrev Static.turned (c : Static) (exc : PlaneWave) (L : LayerSpec) : Static :=
  { c with
    excitation := exc
    incidentFlux := ((Real.cos exc.theta : ℂ) / csqrt (L.epsilon.value * L.mu)).re
    a0 := Sum.elim (fun i => if (i : ℕ) = c.indexZerothOrder then (exc.a0 0 : ℂ) else 0)
      (fun i => if (i : ℕ) = c.indexZerothOrder then (exc.a0 1 : ℂ) else 0)
    stack := c.stack.reverse
    layerNames := c.layerNames.reverse }

/-- Same slab: everything but the name and the identity of the object. -/
def SameSlab (L L' : LayerSpec) : Prop := L' = { L with name := L'.name, original := L'.original }

end Nannos
