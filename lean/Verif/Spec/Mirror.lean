import Verif.Spec.Symmetry

/-! Structures unchanged by a reflection or by half a turn. -/

namespace Nannos.Spec

open Nannos

/-- The structure is unchanged by the reversal of the axes with negative sign, followed by a displacement by the fractions
`u`, `v` of the periods: the pattern of every layer is, the lattice is rectangular (or both axes are reversed), a list of
orders given by the user is symmetric, and a generator of tangent vectors, if it is used, respects the symmetry. -/
structure Symmetric (e1 e2 : ℤ) (u v : ℝ) (E : Ext) (lats : ℕ → Lattice) (mats : ℕ → LayerSpec) (stack : List ℕ) (nh : ℤ)
    (form : String) : Prop where
  signs : (e1 = 1 ∨ e1 = -1) ∧ (e2 = 1 ∨ e2 = -1)
  lattice : ∀ r ∈ stack, ((lats (mats r).lattice).basis 0 1 = 0 ∧ (lats (mats r).lattice).basis 1 0 = 0) ∨ e1 = e2
  layers : ∀ r ∈ stack, PatternMoved e1 e2 u v (mats r) (mats r)
  zero : ∀ exc c, simInit E lats mats stack exc nh form = .ok c → ((0 : ℤ), (0 : ℤ)) ∈ c.harmonics
  orders : ∀ r ∈ stack, ∀ H, (lats (mats r).lattice).harmonicsArray = some H → ∀ g ∈ H, (e1 * g.1, e2 * g.2) ∈ H
  generator : ∀ r ∈ stack, UsesGenerator form (lats (mats r).lattice).is1D mats stack → GeneratorMoves e1 e2 u v E mats mats stack

/-- Reflection of one axis: the axis number `n`. There is no displacement along the mirror plane. -/
def Mirror (n : Fin 3) (e1 e2 : ℤ) (u v : ℝ) : Prop :=
  (n = 0 ∧ e1 = -1 ∧ e2 = 1 ∧ v = 0) ∨ (n = 1 ∧ e1 = 1 ∧ e2 = -1 ∧ u = 0)

/-- The azimuth of the wave, in degrees, is in the mirror plane: the component of the direction along the axis number `n`
vanishes. -/
def AzimuthInPlane (n : Fin 3) (phi : ℝ) : Prop :=
  (n = 0 ∧ Real.cos (phi * (Real.pi / 180)) = 0) ∨ (n = 1 ∧ Real.sin (phi * (Real.pi / 180)) = 0)

end Nannos.Spec
