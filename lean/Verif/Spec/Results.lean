import Verif.Spec.Calls

/-! What a simulation returns, as a relation between its inputs and one number or vector of its output. -/

namespace Nannos.Spec

open Nannos

/-- Some simulation of the stack, after some history of calls, returns efficiencies whose values for the order `g` are `R`
and `T`. `ang` are the angles of the plane wave, in degrees: incidence, azimuth, polarisation. -/
def OrderEfficiencies (E : Ext) (lats : ℕ → Lattice) (mats : ℕ → LayerSpec) (stack : List ℕ) (wl : ℝ) (ang : ℝ × ℝ × ℝ)
    (nh : ℤ) (form : String) (g : ℤ × ℤ) (R T : ℝ) : Prop :=
  ∃ exc c, planeWave wl ang = .ok exc ∧ simInit E lats mats stack exc nh form = .ok c ∧
    ∃ (hist : List (Call c.nh)) (Rs Ts : Fin c.nh → ℝ) (i : Fin c.nh),
      (diffractionEfficiencies E c true (afterCalls E c hist (Dyn.fresh mats (unsolved c.nh)))).1 = .ok (.byOrder Rs Ts) ∧
      c.harmonics.get i = g ∧ R = Rs i ∧ T = Ts i

/-- Some simulation of the stack, after some history of calls, returns the total efficiencies `R` and `T`. -/
def TotalEfficiencies (E : Ext) (lats : ℕ → Lattice) (mats : ℕ → LayerSpec) (stack : List ℕ) (wl : ℝ) (ang : ℝ × ℝ × ℝ)
    (nh : ℤ) (form : String) (R T : ℝ) : Prop :=
  ∃ exc c, planeWave wl ang = .ok exc ∧ simInit E lats mats stack exc nh form = .ok c ∧
    ∃ hist : List (Call c.nh),
      (diffractionEfficiencies E c false (afterCalls E c hist (Dyn.fresh mats (unsolved c.nh)))).1 = .ok (.total R T)

/-- Some simulation of the stack, after some history of calls, returns at depth `z` of the layer `id` fields whose
components in the order `g` are `e` and `h` (x, y, z). -/
def OrderField (E : Ext) (lats : ℕ → Lattice) (mats : ℕ → LayerSpec) (stack : List ℕ) (wl : ℝ) (ang : ℝ × ℝ × ℝ)
    (nh : ℤ) (form : String) (id : LayerId) (z : ℝ) (g : ℤ × ℤ) (e h : Fin 3 → ℂ) : Prop :=
  ∃ exc c, planeWave wl ang = .ok exc ∧ simInit E lats mats stack exc nh form = .ok c ∧
    ∃ (hist : List (Call c.nh)) (F : FieldF c.nh) (i : Fin c.nh),
      (getFieldFourier E c id [z] (afterCalls E c hist (Dyn.fresh mats (unsolved c.nh)))).1 = .ok [F] ∧
      c.harmonics.get i = g ∧ e = ![F.ex i, F.ey i, F.ez i] ∧ h = ![F.hx i, F.hy i, F.hz i]

/-- The arrays of harmonics given by the user, if any, have distinct columns. -/
def DistinctOrders (lats : ℕ → Lattice) : Prop := ∀ k H, (lats k).harmonicsArray = some H → H.Nodup

end Nannos.Spec
