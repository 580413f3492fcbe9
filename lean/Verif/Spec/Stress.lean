import Verif.Spec.Maxwell

/-! Maxwell's stress tensor, independent of the code: the flux of momentum through a plane of constant depth. -/

namespace Nannos.Spec

open Nannos Matrix

variable {nh : ℕ}

/-- Components `xz`, `yz`, `zz` of the stress tensor integrated over a unit cell (Parseval), for fields in a medium with
permittivity operator `e` (`D = e E`, in the truncated basis): `Re (E_j conj(D_z) + H_j conj(H_z))`, and for `zz` half of
`|E_z D_z| + |H_z|^2 - E_t . D_t - |H_t|^2`. -/
noncomputable def stress (e : Matrix (Fin nh) (Fin nh) ℂ) (F : FieldF nh) : ℝ × ℝ × ℝ :=
  let dx := e *ᵥ F.ex
  let dy := e *ᵥ F.ey
  let dz := e *ᵥ F.ez
  (∑ i, (F.ex i * star (dz i) + F.hx i * star (F.hz i)).re,
   ∑ i, (F.ey i * star (dz i) + F.hy i * star (F.hz i)).re,
   1 / 2 * ∑ i, (F.ez i * star (dz i) + F.hz i * star (F.hz i) -
     (F.ex i * star (dx i) + F.ey i * star (dy i) + F.hx i * star (F.hx i) + F.hy i * star (F.hy i))).re)

/-- `Re (E_t . conj(D_t))` for the transverse displacement `D_t = (dispX, dispY)` given by the operator `P` (acting on
`(-ey, ex)`). -/
noncomputable def tangentialEnergy (P : Matrix (Idx nh) (Idx nh) ℂ) (F : FieldF nh) : ℝ :=
  (∑ i, (F.ex i * star (dispX P F.ex F.ey i) + F.ey i * star (dispY P F.ex F.ey i))).re

/-- Flux of energy through a plane of constant depth carried by the order `i`. -/
noncomputable def orderFlux (F : FieldF nh) (i : Fin nh) : ℝ := (star (F.ex i) * F.hy i - star (F.ey i) * F.hx i).re

end Nannos.Spec
