import Verif.Model.SMatrix

/-!
Specification of a stack of layers: the physics the scattering matrix must reproduce.
Independent of the scattering-matrix algorithm.
-/

namespace Nannos.Spec

open Matrix Nannos

variable {m : Type} [Fintype m] [DecidableEq m]

/-- Tangential magnetic field at depth `z` of a layer of thickness `d` whose forward modes have amplitude
`a` at the top (`z = 0`) and whose backward modes have amplitude `b` at the bottom (`z = d`):
every mode `j` contributes `phi_j (a_j e^{i q_j z} + b_j e^{i q_j (d - z)})`. -/
noncomputable def tanH (L : Modes m) (a b : m → ℂ) (z : ℝ) : m → ℂ := fun i =>
  ∑ j, L.phi i j * (a j * Complex.exp (Complex.I * L.q j * z)
    + b j * Complex.exp (Complex.I * L.q j * ((L.z - z : ℝ) : ℂ)))

/-- Tangential electric field (times the angular frequency) at depth `z`: `Q phi q⁻¹` applied to the
forward minus the backward amplitudes. -/
noncomputable def tanE (L : Modes m) (a b : m → ℂ) (z : ℝ) : m → ℂ := fun i =>
  ∑ j, (∑ k, L.Q i k * L.phi k j) / L.q j * (a j * Complex.exp (Complex.I * L.q j * z)
    - b j * Complex.exp (Complex.I * L.q j * ((L.z - z : ℝ) : ℂ)))

/-- Tangential fields match between the bottom of `L` and the top of `L'`. -/
def Match (L L' : Modes m) (a b a' b' : m → ℂ) : Prop :=
  tanE L a b L.z = tanE L' a' b' 0 ∧ tanH L a b L.z = tanH L' a' b' 0

/-- Modal amplitudes of all the layers of a stack, `amp k = (a_k, b_k)`, match at every interface
between layer `i` and layer `j`. -/
def Consistent (layers : List (Modes m)) (i j : ℕ) (amp : ℕ → (m → ℂ) × (m → ℂ)) : Prop :=
  ∀ k L L', i ≤ k → k < j → layers[k]? = some L → layers[k + 1]? = some L' →
    Match L L' (amp k).1 (amp k).2 (amp (k + 1)).1 (amp (k + 1)).2

end Nannos.Spec

namespace Nannos.Spec

open Matrix Nannos

variable {m : Type} [Fintype m] [DecidableEq m]

/-- Star product of two scattering matrices: the cascade of `S` (above) and `P` (below), obtained by
eliminating the amplitudes `a = S11 a₀ + S12 b`, `b = P21 a + P22 b'` of the layer they share. -/
noncomputable def cascade (S P : SMat m) : SMat m :=
  let X := (1 - S.s12 * P.s21)⁻¹
  { s11 := P.s11 * (X * S.s11)
    s12 := P.s12 + P.s11 * (X * (S.s12 * P.s22))
    s21 := S.s21 + S.s22 * (P.s21 * (X * S.s11))
    s22 := S.s22 * (P.s22 + P.s21 * (X * (S.s12 * P.s22))) }

/-- Two layers with the same modes (material) and possibly different thickness. -/
def SameModes (L L' : Modes m) : Prop := L.q = L'.q ∧ L.phi = L'.phi ∧ L.Q = L'.Q

/-- Total thickness of layers `i, …, j-1`. -/
noncomputable def depth (layers : List (Modes m)) (i j : ℕ) : ℝ :=
  (((layers.drop i).take (j - i)).map Modes.z).sum

/-- Amplitudes of the whole stack for the incoming wave `a0` from above and none from below. -/
def StackSolution (layers : List (Modes m)) (a0 : m → ℂ) (amp : ℕ → (m → ℂ) × (m → ℂ)) : Prop :=
  Consistent layers 0 (layers.length - 1) amp ∧ (amp 0).1 = a0 ∧ (amp (layers.length - 1)).2 = 0

end Nannos.Spec
