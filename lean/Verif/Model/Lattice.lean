import Verif.Model.Excitation
import Mathlib.Analysis.SpecialFunctions.Pow.Real
import Mathlib.Data.Int.Star
import Mathlib.Data.Nat.Sqrt

/-! Model of `nannos/lattice.py`. -/

namespace Nannos

open Matrix

/-- `Lattice.truncation` (`nannos/lattice.py:61,65`). -/
inductive Truncation where
  | oneD
  | circular
  | parallelogrammic
  deriving DecidableEq

/-- Attributes of a `Lattice` (`nannos/lattice.py:59-69`).  `basis k i` is component `i` of basis
vector `k`; `harmonicsArray` (shape `(2, nh)`) is the list of its columns. -/
structure Lattice where
  basis : Fin 2 → Fin 2 → ℝ
  is1D : Bool
  truncation : Truncation
  discretization : ℕ × ℕ
  harmonicsArray : Option (List (ℤ × ℤ))

/-- `basis_vectors` argument: a number or a pair of vectors (`nannos/lattice.py:42-69`). -/
inductive BasisArg where
  | period (a : ℝ)
  | vectors (v : Fin 2 → Fin 2 → ℝ)

/-- `discretization` argument: an integer or a pair (`nannos/lattice.py:42-69`). -/
inductive DiscArg where
  | int (n : ℕ)
  | pair (n m : ℕ)

/-- `Lattice.__init__` (`nannos/lattice.py:42-69`).  `discretization` sequences of length other than two
are not modelled. -/
def mkLattice (basis : BasisArg) (disc : DiscArg) (truncation : String)
    (harmonicsArray : Option (List (ℤ × ℤ))) : Except PyErr Lattice :=
  let d : ℕ × ℕ := match disc with
    | .int n => (n, n)
    | .pair n m => (n, m)
  match (if truncation = "circular" then some Truncation.circular
         else if truncation = "parallelogrammic" then some Truncation.parallelogrammic
         else none) with
  | none => .error .valueError
  | some t =>
    match basis with
    | .period a => .ok
        { basis := ![![a, 0], ![0, 1]], is1D := true, truncation := .oneD,
          discretization := (d.1, 1), harmonicsArray := harmonicsArray }
    | .vectors v => .ok
        { basis := v, is1D := false, truncation := t, discretization := d,
          harmonicsArray := harmonicsArray }

/-- `Lattice.matrix` (`nannos/lattice.py:79-88`): the basis vectors are the columns. -/
def Lattice.matrix (l : Lattice) : Matrix (Fin 2) (Fin 2) ℝ := (Matrix.of l.basis)ᵀ

/-- `Lattice.reciprocal` (`nannos/lattice.py:91-100`). -/
noncomputable def Lattice.reciprocal (l : Lattice) : Except PyErr (Matrix (Fin 2) (Fin 2) ℝ) := do
  let inv ← inv2 l.matrix
  pure ((2 * Real.pi) • invᵀ)

/-- `Lattice.area` (`nannos/lattice.py:72-76`); for bi-periodic lattices the norm of the (scalar) cross
product. -/
noncomputable def Lattice.area (l : Lattice) : ℝ :=
  if l.is1D then l.basis 0 0
  else |l.basis 0 0 * l.basis 1 1 - l.basis 0 1 * l.basis 1 0|

/-! ### Truncations.  A `(2, nh)` array of harmonics is the list of its columns. -/

/-- `a[idx]` for an array of indices (all valid): `nannos/lattice.py:121,311,344`. -/
def gather {α : Type _} (l : List α) (idx : List ℕ) : List α := idx.filterMap (l[·]?)

/-- `_one_dim_truncation` (`nannos/lattice.py:287-292`); `int((nh - 1) / 2)` truncates towards zero. -/
def oneDimTruncation (nh : ℤ) : List (ℤ × ℤ) × ℤ :=
  let n := (nh - 1).tdiv 2
  let G := (0, 0) :: (pyRange 1 (n + 1)).flatMap fun i => [(i, 0), (-i, 0)]
  (G, G.length)

/-- `bk.meshgrid(xG, yG, indexing="ij")` flattened (`nannos/lattice.py:306-307,337-338`). -/
def meshFlat (xs ys : List ℤ) : List (ℤ × ℤ) := xs.flatMap fun x => ys.map fun y => (x, y)

/-- `bk.linalg.norm(Lk[i])` (`nannos/lattice.py:296,321`): norms of the rows of the reciprocal
matrix. -/
noncomputable def rowNorm (Lk : Matrix (Fin 2) (Fin 2) ℝ) (i : Fin 2) : ℝ :=
  Real.sqrt (Lk i 0 ^ 2 + Lk i 1 ^ 2)

/-- `udot` (`nannos/lattice.py:297,322`). -/
def rowDot (Lk : Matrix (Fin 2) (Fin 2) ℝ) : ℝ := Lk 0 0 * Lk 1 0 + Lk 0 1 * Lk 1 1

/-- `ucross` (`nannos/lattice.py:323`). -/
def rowCross (Lk : Matrix (Fin 2) (Fin 2) ℝ) : ℝ := Lk 0 0 * Lk 1 1 - Lk 0 1 * Lk 1 0

/-- `Gl2` for one harmonic (`nannos/lattice.py:309,341`); the code uses `u[0]` twice. -/
noncomputable def gl2 (Lk : Matrix (Fin 2) (Fin 2) ℝ) (g : ℤ × ℤ) : ℝ :=
  (g.1 : ℝ) ^ 2 * rowNorm Lk 0 ^ 2 + (g.2 : ℝ) ^ 2 * rowNorm Lk 0 ^ 2
    + 2 * (g.1 : ℝ) * (g.2 : ℝ) * rowDot Lk

/-- `_parallelogramic_truncation` (`nannos/lattice.py:295-317`).  `argsort` is the backend's sort.
`int(nh ** 0.5)` of a negative `nh` (a complex number) raises `TypeError`. -/
noncomputable def parallelogramicTruncation (argsort : List ℝ → List ℕ) (nh : ℤ)
    (Lk : Matrix (Fin 2) (Fin 2) ℝ) : Except PyErr (List (ℤ × ℤ) × ℤ) :=
  if nh < 0 then .error .typeError
  else
    let root : ℤ := Nat.sqrt nh.toNat
    let NGroot : ℤ := if root % 2 = 0 then root - 1 else root
    let M := NGroot.fdiv 2
    let xG := pyRange (-M) (NGroot - M)
    let G := meshFlat xG xG
    let jsort := argsort (G.map (gl2 Lk))
    let Gsorted := gather G jsort
    let nh := NGroot ^ 2
    .ok (Gsorted.take nh.toNat, nh)

/-- The loop `for i in arange(n, -1, -1): if cond(i): break` and the value of `i` after it
(`nannos/lattice.py:352-355`); at `i = 0` the value is `0` whether the loop breaks or ends. -/
def downTo (cond : ℕ → Prop) [DecidablePred cond] : ℕ → ℕ
  | 0 => 0
  | i + 1 => if cond (i + 1) then i + 1 else downTo cond i

/-- `u_extent[i]` (`nannos/lattice.py:325-335`); `bk.int32` truncates (overflow not modelled). -/
noncomputable def uExtent (nh : ℤ) (Lk : Matrix (Fin 2) (Fin 2) ℝ) (i : Fin 2) : ℕ :=
  1 + ⌊(Real.sqrt (nh * |rowCross Lk| / Real.pi) + rowNorm Lk 0 + rowNorm Lk 1) /
    (rowNorm Lk i * Real.sqrt (1 - rowDot Lk ^ 2 / (rowNorm Lk 0 * rowNorm Lk 1) ^ 2))⌋₊

/-- `_circular_truncation` (`nannos/lattice.py:320-359`).  A negative `nh` or linearly dependent rows
give `nan` (`nonfinite`); `nh = 0` leaves the loop variable unbound. -/
noncomputable def circularTruncation (argsort : List ℝ → List ℕ) (nh : ℤ)
    (Lk : Matrix (Fin 2) (Fin 2) ℝ) : Except PyErr (List (ℤ × ℤ) × ℤ) :=
  open Classical in
  if nh < 0 ∨ rowNorm Lk 0 * rowNorm Lk 1 = 0 ∨
      1 - rowDot Lk ^ 2 / (rowNorm Lk 0 * rowNorm Lk 1) ^ 2 ≤ 0 then .error .nonfinite
  else
    let e0 : ℤ := uExtent nh Lk 0
    let e1 : ℤ := uExtent nh Lk 1
    let G := meshFlat (pyRange (-e0) (e0 + 1)) (pyRange (-e1) (e1 + 1))
    let Gl2 := G.map (gl2 Lk)
    let jsort := argsort Gl2
    let Gsorted := gather G jsort
    let Gl2s := gather Gl2 jsort
    let nGtmp : ℤ := if nh < (2 * e0 + 1) * (2 * e1 + 1) then nh else (2 * e0 + 1) * (2 * e1 + 1)
    let tol : ℝ := 1 / 10 ^ 10 * max (rowNorm Lk 0 ^ 2) (rowNorm Lk 1 ^ 2)
    if nGtmp ≤ 0 then .error .unboundLocal
    else
      let i := downTo (fun i => |Gl2s.getD i 0 - Gl2s.getD (i - 1) 0| > tol) (nGtmp.toNat - 1)
      .ok (Gsorted.take i, i)

/-- `Lattice._get_harmonics` (`nannos/lattice.py:124-135`); `nh` is an integer (a non-integral `nh`
raises `ValueError`). -/
noncomputable def Lattice.getHarmonics' (argsort : List ℝ → List ℕ) (l : Lattice) (nh : ℤ) :
    Except PyErr (List (ℤ × ℤ) × ℤ) :=
  match l.harmonicsArray with
  | some H => .ok (H, H.length)
  | none =>
    match l.truncation with
    | .circular => do
      let r ← l.reciprocal
      circularTruncation argsort nh r
    | .parallelogrammic => do
      let r ← l.reciprocal
      parallelogramicTruncation argsort nh r
    | .oneD => .ok (oneDimTruncation nh)

/-- `Lattice.get_harmonics` (`nannos/lattice.py:102-122`). -/
noncomputable def Lattice.getHarmonics (argsort : List ℝ → List ℕ) (l : Lattice) (nh : ℤ) (sort : Bool) :
    Except PyErr (List (ℤ × ℤ) × ℤ) := do
  let (harmonics, nh) ← l.getHarmonics' argsort nh
  if sort then
    let srt := argsort (harmonics.map fun g => (g.1 : ℝ))
    pure (gather harmonics srt, nh)
  else
    pure (harmonics, nh)

/-! ### Transverse wave vectors of the harmonics -/

/-- `self.k0para` (`nannos/simulation.py:113-116`); `nsup` is `(epsilon * mu) ** 0.5` of the
superstrate. -/
noncomputable def k0para (wavevector : Fin 3 → ℝ) (nsup : ℂ) : ℂ × ℂ :=
  ((wavevector 0 : ℂ) * nsup, (wavevector 1 : ℂ) * nsup)

/-- `self.kx`, one entry (`nannos/simulation.py:117-122`). -/
noncomputable def kxOf (r : Matrix (Fin 2) (Fin 2) ℝ) (k0 : ℂ × ℂ) (g : ℤ × ℤ) : ℂ :=
  k0.1 + (r 0 0 : ℂ) * (g.1 : ℂ) + (r 0 1 : ℂ) * (g.2 : ℂ)

/-- `self.ky`, one entry (`nannos/simulation.py:123-127`). -/
noncomputable def kyOf (r : Matrix (Fin 2) (Fin 2) ℝ) (k0 : ℂ × ℂ) (g : ℤ × ℤ) : ℂ :=
  k0.2 + (r 1 0 : ℂ) * (g.1 : ℂ) + (r 1 1 : ℂ) * (g.2 : ℂ)

end Nannos
