import Verif.Model.Prelude
import Mathlib.LinearAlgebra.Matrix.NonsingularInverse
import Mathlib.Data.Matrix.Block
import Mathlib.Analysis.SpecialFunctions.Exponential
import Mathlib.Analysis.SpecialFunctions.Trigonometric.Basic

/-!
Model of the scattering-matrix algorithm, `nannos/simulation.py`.

`m` is the index type of the modal amplitudes (`2*nh` entries in the code).
Arithmetic is exact complex arithmetic instead of `complex128`.
-/

namespace Nannos

open Matrix

variable {m : Type} [Fintype m] [DecidableEq m]

/-- `bk.linalg.solve(A, B)` (used at `nannos/simulation.py:270,271,759,918`): solves `A X = B`,
raising `LinAlgError` when `A` is singular.  External kernel, modelled in exact arithmetic. -/
noncomputable def linSolve {k : Type} (A : Matrix m m ℂ) (B : Matrix m k ℂ) :
    Except PyErr (Matrix m k ℂ) :=
  open Classical in
  if A.det = 0 then .error .linAlgError else .ok (A⁻¹ * B)

/-- `bk.linalg.solve(A, v)` with a vector right-hand side (`nannos/simulation.py:323,759`). -/
noncomputable def linSolveVec (A : Matrix m m ℂ) (v : m → ℂ) : Except PyErr (m → ℂ) :=
  open Classical in
  if A.det = 0 then .error .linAlgError else .ok (A⁻¹ *ᵥ v)

/-- `bk.linalg.inv(A)` (`nannos/simulation.py:24`). -/
noncomputable def linInv (A : Matrix m m ℂ) : Except PyErr (Matrix m m ℂ) :=
  open Classical in
  if A.det = 0 then .error .linAlgError else .ok A⁻¹

/-- The attributes of a solved layer read by the S-matrix algorithm
(`nannos/simulation.py:257-263,883-890`): `layer.eigenvalues`, `layer.eigenvectors`, `layer.Qeps` and
`layer.thickness` (`None` allowed). -/
structure Modes (m : Type) where
  q : m → ℂ
  phi : Matrix m m ℂ
  Q : Matrix m m ℂ
  thickness : Option ℝ

/-- `layer.thickness or 0` (`nannos/simulation.py:258-259`). -/
noncomputable def Modes.z (L : Modes m) : ℝ := L.thickness.getD 0

/-- `phasor(q, z)` (`nannos/simulation.py:855-856`). -/
noncomputable def phasor (q : m → ℂ) (z : ℝ) : m → ℂ :=
  fun i => Complex.exp (Complex.I * q i * (z : ℂ))

/-- `bk.diag(phasor(layer.eigenvalues, layer.thickness or 0))` (`nannos/simulation.py:258-262`). -/
noncomputable def Modes.f (L : Modes m) : Matrix m m ℂ := diagonal (phasor L.q L.z)

/-- `layer.Qeps @ matmuldiag(phi, 1 / layer.eigenvalues)` (`nannos/simulation.py:885-889`); the
einsum `"ik,k->ik"` scales column `k`. -/
noncomputable def Modes.amat (L : Modes m) : Matrix m m ℂ :=
  L.Q * Matrix.of fun i k => L.phi i k * (1 / L.q k)

/-- `_build_Mmatrix(layer)` (`nannos/simulation.py:882-890`).  A vanishing eigenvalue makes
`1 / layer.eigenvalues` infinite: outcome `nonfinite`. -/
noncomputable def buildM (L : Modes m) : Except PyErr (Matrix (m ⊕ m) (m ⊕ m) ℂ) :=
  open Classical in
  if ∃ i, L.q i = 0 then .error .nonfinite
  else .ok (fromBlocks L.amat (-L.amat) L.phi L.phi)

/-- `_build_Imatrix(layer1, layer2)` (`nannos/simulation.py:910-918`). -/
noncomputable def buildI (L1 L2 : Modes m) : Except PyErr (Matrix (m ⊕ m) (m ⊕ m) ℂ) := do
  let a1 ← buildM L1
  let a2 ← buildM L2
  linSolve a1 a2

/-- `[[S11, S12], [S21, S22]]` (`nannos/simulation.py:219-284`). -/
structure SMat (m : Type) where
  s11 : Matrix m m ℂ
  s12 : Matrix m m ℂ
  s21 : Matrix m m ℂ
  s22 : Matrix m m ℂ

/-- Initial scattering matrix (`nannos/simulation.py:240-243`). -/
def SMat.one : SMat m := ⟨1, 0, 0, 1⟩

/-- One iteration of the loop of `get_S_matrix` (`nannos/simulation.py:257-277`).
`Imat[i][j]` (`get_block(I_, i, j, 2*nh)`) are `toBlocks`. -/
noncomputable def stepS (S : SMat m) (L L' : Modes m) : Except PyErr (SMat m) := do
  let f := L.f
  let f' := L'.f
  let I ← buildI L L'
  let A := I.toBlocks₁₁ - f * S.s12 * I.toBlocks₂₁
  let s11 ← linSolve A (f * S.s11)
  let s12 ← linSolve A ((f * S.s12 * I.toBlocks₂₂ - I.toBlocks₁₂) * f')
  let s21 := S.s22 * I.toBlocks₂₁ * s11 + S.s21
  let s22 := S.s22 * I.toBlocks₂₁ * s12 + S.s22 * I.toBlocks₂₂ * f'
  pure ⟨s11, s12, s21, s22⟩

/-- Body of the loop at index `i`: fetch `self.layers[i]`, `self.layers[i+1]` and update `S`
(`nannos/simulation.py:257-277`). -/
noncomputable def stepAt (layers : List (Modes m)) (S : SMat m) (i : Int) : Except PyErr (SMat m) := do
  let L ← pyGet layers i
  let L' ← pyGet layers (i + 1)
  stepS S L L'

/-- The loop `for i in stack` of `get_S_matrix` without its cache (`nannos/simulation.py:240-277`):
what a freshly constructed Simulation computes for `indices = (i, j)`.  With an empty `range` the name
`S` is never bound and `return S` raises `UnboundLocalError`. -/
noncomputable def freshS (layers : List (Modes m)) (i j : Int) : Except PyErr (SMat m) :=
  if pyRange i j = [] then .error .unboundLocal
  else (pyRange i j).foldlM (stepAt layers) SMat.one

end Nannos
