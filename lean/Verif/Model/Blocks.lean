import Verif.Model.Prelude
import Mathlib.Data.Complex.Basic
import Mathlib.Data.Matrix.Block
import Mathlib.Data.Matrix.Mul

/-! Model of the block helpers of `nannos/utils/helpers.py` (two-dimensional arrays as lists of rows) and
of `_build_Kmatrix`. -/

namespace Nannos

open Matrix

/-- A two-dimensional array: the list of its rows (`nannos/utils/helpers.py:91-122`). -/
abbrev Arr2 := List (List ℂ)

/-- `bk.hstack([a, b])` of two-dimensional arrays; `ValueError` when the numbers of rows differ
(`nannos/utils/helpers.py:92-93`). -/
def hstack2 (a b : Arr2) : Except PyErr Arr2 :=
  if a.length = b.length then .ok (List.zipWith (· ++ ·) a b) else .error .valueError

/-- `bk.vstack([a, b])` of two-dimensional arrays; `ValueError` when the row lengths differ
(`nannos/utils/helpers.py:94`). -/
def vstack2 (a b : Arr2) : Except PyErr Arr2 :=
  if ∀ r ∈ a, ∀ r' ∈ b, r.length = r'.length then .ok (a ++ b) else .error .valueError

/-- `block(a)` (`nannos/utils/helpers.py:91-94`). -/
def blockL (a b c d : Arr2) : Except PyErr Arr2 := do
  let l1 ← hstack2 a b
  let l2 ← hstack2 c d
  vstack2 l1 l2

/-- Python slice `l[i * n : (i + 1) * n]` for `i ≥ 0` (`nannos/utils/helpers.py:97-98`). -/
def slice {α : Type} (l : List α) (i n : ℕ) : List α := (l.drop (i * n)).take ((i + 1) * n - i * n)

/-- `get_block(M, i, j, n)` (`nannos/utils/helpers.py:97-98`). -/
def getBlock (M : Arr2) (i j n : ℕ) : Arr2 := (slice M i n).map fun row => slice row j n

/-- `block2list(M, N)` (`nannos/utils/helpers.py:110-111`), as the tuple of its four entries. -/
def block2list (M : Arr2) (N : ℕ) : Arr2 × Arr2 × Arr2 × Arr2 :=
  (getBlock M 0 0 N, getBlock M 0 1 N, getBlock M 1 0 N, getBlock M 1 1 N)

/-- Elementwise operation on arrays of the same shape (broadcasting is not modelled)
(`nannos/utils/helpers.py:101-122`). -/
def map2 (f : ℂ → ℂ → ℂ) (a b : Arr2) : Arr2 := List.zipWith (List.zipWith f) a b

/-- Elementwise negation (`nannos/utils/helpers.py:119-120`). -/
def neg2 (a : Arr2) : Arr2 := a.map (List.map fun x => -x)

/-- `blockmatmul(A, B, N)` (`nannos/utils/helpers.py:101-107`); `sum` starts from the integer 0. -/
def blockmatmul (A B : Arr2) (N : ℕ) : Except PyErr Arr2 :=
  let e (i j : ℕ) : Arr2 :=
    map2 (· + ·) (map2 (· * ·) (getBlock A i 0 N) (getBlock B 0 j N))
      (map2 (· * ·) (getBlock A i 1 N) (getBlock B 1 j N))
  blockL (e 0 0) (e 0 1) (e 1 0) (e 1 1)

/-- `inv2by2block(T, N)` (`nannos/utils/helpers.py:114-122`); a vanishing determinant gives `inf`/`nan`
entries (`nonfinite`). -/
noncomputable def inv2by2block (T : Arr2) (N : ℕ) : Except PyErr Arr2 :=
  open Classical in
  let (m00, m01, m10, m11) := block2list T N
  let det := map2 (· - ·) (map2 (· * ·) m00 m11) (map2 (· * ·) m10 m01)
  if ∃ row ∈ det, (0 : ℂ) ∈ row then .error .nonfinite
  else blockL (map2 (· / ·) m11 det) (map2 (· / ·) (neg2 m01) det)
    (map2 (· / ·) (neg2 m10) det) (map2 (· / ·) m00 det)

/-- `matmuldiag(A, B)` of `_build_Kmatrix`, `einsum("i,ik->ik", diag(A), B)`
(`nannos/simulation.py:869-870`). -/
def matmuldiag {n : Type} (A B : Matrix n n ℂ) : Matrix n n ℂ := Matrix.of fun i k => A i i * B i k

/-- `_build_Kmatrix(u, Kx, Ky)` (`nannos/simulation.py:868-879`); the `2nh` rows are indexed by
`n ⊕ n` (`C16_block_is_fromBlocks`). -/
def buildK {n : Type} (u Kx Ky : Matrix n n ℂ) : Matrix (n ⊕ n) (n ⊕ n) ℂ :=
  let kxu := matmuldiag Kx u
  let kyu := matmuldiag Ky u
  fromBlocks (matmuldiag Kxᵀ kxuᵀ)ᵀ (matmuldiag Kyᵀ kxuᵀ)ᵀ
    (matmuldiag Kxᵀ kyuᵀ)ᵀ (matmuldiag Kyᵀ kyuᵀ)ᵀ

end Nannos
