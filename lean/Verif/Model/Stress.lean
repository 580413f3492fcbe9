import Verif.Model.Sim

/-! Model of `Simulation.get_z_stress_tensor_integral` (`nannos/simulation.py:518-557`). -/

namespace Nannos

open Matrix

variable (E : Ext) (c : Static)

/-- `dx, dy` (`nannos/simulation.py:531-542`): the permittivity of a uniform layer, the attribute `eps_hat` of any
other one. -/
noncomputable def stressDisp {nh : ℕ} (L : LayerSpec) (a : LayerAttr nh) (ex ey : Fin nh → ℂ) :
    Except PyErr ((Fin nh → ℂ) × (Fin nh → ℂ)) :=
  if L.isUniform then .ok (fun i => ex i * L.epsilon.value, fun i => ey i * L.epsilon.value)
  else do
    let p ← attr a.pat
    let exy : Idx nh → ℂ := Sum.elim (fun i => -ey i) ex
    let dxy := fromBlocks p.epsHat 0 0 p.epsHat *ᵥ exy
    pure (fun i => dxy (.inr i), fun i => -dxy (.inl i))

/-- The three numbers computed from the fields at one depth (`nannos/simulation.py:521-557`). -/
noncomputable def stressOf (L : LayerSpec) (a : LayerAttr c.nh) (F : FieldF c.nh) : Except PyErr (ℝ × ℝ × ℝ) := do
  let dz : Fin c.nh → ℂ := fun i => (c.ky i * F.hx i - c.kx i * F.hy i) / (c.omega : ℂ)
  let (dx, dy) ← stressDisp L a F.ex F.ey
  pure ((∑ i, (F.ex i * star (dz i) + F.hx i * star (F.hz i))).re,
    (∑ i, (F.ey i * star (dz i) + F.hy i * star (F.hz i))).re,
    1 / 2 * (∑ i, (F.ez i * star (dz i) + F.hz i * star (F.hz i) - F.ex i * star (dx i) - F.ey i * star (dy i) -
      F.hx i * star (F.hx i) - F.hy i * star (F.hy i))).re)

/-- `get_z_stress_tensor_integral(layer_index, z)` (`nannos/simulation.py:518-557`).  The frequency is not zero when
the fields are returned. -/
noncomputable def getZStress (id : LayerId) (z : ℝ) : PyM (Dyn c.nh) (ℝ × ℝ × ℝ) := do
  let (r, i) ← PyM.lift (getLayer c id)
  let ff ← getFieldFourier E c (.idx i) [z]
  let d ← PyM.get
  match ff with
  | [F] => PyM.lift (stressOf c (d.mats r) (d.attrs r) F)
  | _ => PyM.lift (.error .indexError)

end Nannos
