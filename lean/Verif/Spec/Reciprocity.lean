import Verif.Spec.Maxwell
import Verif.Spec.Calls

/-! Vocabulary for Lorentz reciprocity. -/

namespace Nannos.Spec

open Nannos

/-- A reciprocal material: the permittivity is a number or a symmetric tensor (at every pixel). It may absorb or amplify. -/
def Reciprocal (L : LayerSpec) : Prop :=
  L.isAnisotropic = true → ∀ idx, List.Forall₂ (· < ·) idx (L.epsilon.shape.drop 2) → ∀ i < 3, ∀ j < 3,
    L.epsilon.data (i :: j :: idx) = L.epsilon.data (j :: i :: idx)

/-- The permittivity operators of the layer are symmetric: with Laurent's rule, on lattices with one period, for a uniform layer,
and, in the formulations `tangent` and `pol`, for an isotropic layer with a given tangent field which is one real vector, the
same at all pixels. -/
def SymmetricFormulation (form : String) (oneD : Bool) (L : LayerSpec) : Prop :=
  form = "original" ∨ oneD = true ∨ L.isUniform = true ∨ form ≠ "jones" ∧ L.isAnisotropic = false ∧
    ∃ (Nx Ny : ℕ) (a b : ℝ), L.tangentField = some ⟨Nx, Ny, fun _ _ => (a : ℂ), fun _ _ => (b : ℂ)⟩

/-- Some simulation of the stack, after some history of calls, returns efficiencies whose values for the specular order
are `R` and `T`. `ang` are the angles of the plane wave, in degrees: incidence, azimuth, polarisation. -/
def SpecularEfficiencies (E : Ext) (lats : ℕ → Lattice) (mats : ℕ → LayerSpec) (stack : List ℕ) (wl : ℝ) (ang : ℝ × ℝ × ℝ)
    (nh : ℤ) (form : String) (R T : ℝ) : Prop :=
  ∃ exc c, planeWave wl ang = .ok exc ∧ simInit E lats mats stack exc nh form = .ok c ∧
    ∃ (hist : List (Call c.nh)) (Rs Ts : Fin c.nh → ℝ) (i : Fin c.nh),
      (diffractionEfficiencies E c true (afterCalls E c hist (Dyn.fresh mats (unsolved c.nh)))).1 = .ok (.byOrder Rs Ts) ∧
      c.harmonics.get i = (0, 0) ∧ R = Rs i ∧ T = Ts i

/-- Some simulation of the stack, after some history of calls, returns at depth `z` of the layer at position `id` of the
stack fields whose electric components in the specular order are `e` (x, y, z). -/
def SpecularField (E : Ext) (lats : ℕ → Lattice) (mats : ℕ → LayerSpec) (stack : List ℕ) (wl : ℝ) (ang : ℝ × ℝ × ℝ)
    (nh : ℤ) (form : String) (id : ℤ) (z : ℝ) (e : Fin 3 → ℂ) : Prop :=
  ∃ exc c, planeWave wl ang = .ok exc ∧ simInit E lats mats stack exc nh form = .ok c ∧
    ∃ (hist : List (Call c.nh)) (F : FieldF c.nh) (i : Fin c.nh),
      (getFieldFourier E c (.idx id) [z] (afterCalls E c hist (Dyn.fresh mats (unsolved c.nh)))).1 = .ok [F] ∧
      c.harmonics.get i = (0, 0) ∧ e = ![F.ex i, F.ey i, F.ez i]

/-- The arrays of harmonics given by the user, if any, have distinct columns and contain the opposite of each. -/
def OppositeOrders (lats : ℕ → Lattice) : Prop :=
  ∀ k H, (lats k).harmonicsArray = some H → H.Nodup ∧ ∀ g ∈ H, (-g.1, -g.2) ∈ H

end Nannos.Spec
