import Verif.Model.FieldGrid
import Verif.Spec.Fourier
import Verif.Spec.Calls

/-! Selection of fields and components by name. -/

namespace Nannos.Spec

variable {A : Type}

/-- The component called `x`, `y` or `z`, or all of them; nothing for another name. -/
def pickComponent (component : String) (F : Fin 3 → A) : Option (Part A) :=
  if component = "all" then some (.all (F 0) (F 1) (F 2))
  else if component = "x" then some (.one (F 0))
  else if component = "y" then some (.one (F 1))
  else if component = "z" then some (.one (F 2))
  else none

/-- The electric field, the magnetic field or both; nothing for another name. -/
def pick (field component : String) (E H : Fin 3 → A) : Option (Selected A) :=
  match pickComponent component E, pickComponent component H with
  | some e, some h =>
    if field = "all" then some (.both e h)
    else if field = "E" then some (.single e)
    else if field = "H" then some (.single h)
    else none
  | _, _ => none

/-- Electric and magnetic components by number. -/
def eComp {nh : ℕ} (f : FieldF nh) : Fin 3 → Fin nh → ℂ := ![f.ex, f.ey, f.ez]

/-- Magnetic components by number. -/
def hComp {nh : ℕ} (f : FieldF nh) : Fin 3 → Fin nh → ℂ := ![f.hx, f.hy, f.hz]

end Nannos.Spec
