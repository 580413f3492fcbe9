import Verif.Model.Parallel
import Mathlib.Analysis.SpecialFunctions.Trigonometric.Basic
import Mathlib.Data.List.Sort
import Mathlib.Data.Finset.Sort

/-!
Model of `nannos/sample.py`.  Abscissae and monitored values are real numbers.  A quotient `0/0` is numpy's
`nan`, for which every comparison is false; this is the only non-finite number that can occur for finite data.
-/

namespace Nannos

open Classical in
/-- `np.unique`: the distinct elements, increasing (`nannos/sample.py:99,103,119`). -/
noncomputable def npUnique (l : List ℝ) : List ℝ := l.toFinset.sort (· ≤ ·)

/-- The first index at which an element of `l` occurs (`return_index=True`) (`nannos/sample.py:119`). -/
noncomputable def firstIndex (l : List ℝ) (a : ℝ) : ℕ := l.findIdx fun b => decide (b = a)

open Classical in
/-- The test `bending` (`nannos/sample.py:76-86`). -/
noncomputable def bending (cmax xp x0 xn yp y0 yn : ℝ) : Bool :=
  let lmin := min yp (min y0 yn)
  let lmax := max yp (max y0 yn)
  let dx0 := (x0 - xp) / (xn - xp)
  let dx1 := (xn - x0) / (xn - xp)
  let dy0 := (y0 - yp) / (lmax - lmin)
  let dy1 := (yn - y0) / (lmax - lmin)
  let den := √((dx0 * dx0 + dy0 * dy0) * (dx1 * dx1 + dy1 * dy1))
  let bend := (dx0 * dx1 + dy0 * dy1) / den
  if xn - xp = 0 then false
  else decide ((lmax - lmin ≠ 0 ∧ den ≠ 0 ∧ bend < cmax) ∨ dx1 > 3 * dx0 ∨ dx0 > 3 * dx1)

open Classical in
/-- Points inserted for one window of three points (`nannos/sample.py:65-102`). -/
noncomputable def windowNew (cmax minDx minDy : ℝ) (xt yt : List ℝ) : Except PyErr (List ℝ) :=
  match xt, yt with
  | [xp, x0, xn], [yp, y0, yn] =>
    let refX := xn - x0 < minDx ∧ x0 - xp < minDx
    let refY := |y0 - yp| < minDy ∧ |yn - y0| < minDy
    if bending cmax xp x0 xn yp y0 yn = true ∧ ¬ refX ∧ ¬ refY then
      let seg : List ℕ := (if x0 - xp < minDx then [1] else []) ++ (if xn - x0 < minDx then [0] else []) ++
        [if x0 - xp > xn - x0 then 0 else 1]
      .ok (seg.dedup.map fun k => 0.5 * ((xt.drop k).take 2).sum)
    else .ok []
  | _, _ => .error .valueError

/-- `np.min`, `np.max` of a list, which raise `ValueError` when it is empty (`nannos/sample.py:58-61`). -/
noncomputable def npMin : List ℝ → Except PyErr ℝ
  | [] => .error .valueError
  | a :: l => .ok (l.foldl min a)

/-- See `npMin` (`nannos/sample.py:58-61`). -/
noncomputable def npMax : List ℝ → Except PyErr ℝ
  | [] => .error .valueError
  | a :: l => .ok (l.foldl max a)

/-- Parameters of the sampler (`nannos/sample.py:15`). -/
structure SampleParams where
  maxBend : ℝ
  maxXRel : ℝ
  maxDf : ℝ
  nJobs : ℤ

/-- `get_new` (`nannos/sample.py:54-103`): `x` is sorted, `y` is not. -/
noncomputable def getNew (p : SampleParams) (x y : List ℝ) : Except PyErr (List ℝ) := do
  let cmax := Real.cos (p.maxBend * Real.pi / 180)
  let xs := x.insertionSort (· ≤ ·)
  let xMin ← npMin xs
  let xMax ← npMax xs
  let yMin ← npMin y
  let yMax ← npMax y
  let parts ← (List.range (xs.length - 2)).mapM fun i =>
    windowNew cmax (p.maxXRel * (xMax - xMin)) (p.maxDf * (yMax - yMin)) ((xs.drop i).take 3) ((y.drop i).take 3)
  .ok (npUnique parts.flatten)

/-- `_function_adapted` (`nannos/sample.py:43-52`). -/
def functionAdapted {Y : Type} (p : SampleParams) (f : ℝ → Except PyErr Y) (sched : List ℕ) (x : List ℝ) :
    Except PyErr (List Y) :=
  if p.nJobs > 1 then parloop p.nJobs (fun x (_ : List Unit) => f x) sched (some (x, [])) else x.mapM f

/-- `y[iu]` (`nannos/sample.py:124`). -/
def takeIdx {α : Type} (l : List α) (idx : List ℕ) : Except PyErr (List α) :=
  idx.mapM fun i => match l[i]? with
    | some a => .ok a
    | none => .error .indexError

open Classical in
/-- The loop (`nannos/sample.py:112-129`).  `mon` is the value monitored: the value itself, or its first
component when `multi`.  `none` means that the loop makes more rounds than the first argument.
`sched k m` is the order in which the workers complete the `m` tasks of round `k`. -/
noncomputable def samplerLoop {Y : Type} (p : SampleParams) (f : ℝ → Except PyErr Y) (mon : Y → ℝ) (multi : Bool)
    (sched : ℕ → ℕ → List ℕ) : ℕ → List ℝ → List Y → List ℝ → Option (Except PyErr (List ℝ × List Y))
  | 0, _, _, _ => none
  | n + 1, x, y, ym =>
    match getNew p x (if multi then ym else y.map mon) with
    | .error e => some (.error e)
    | .ok [] => some (.ok (x, y))
    | .ok (a :: l) =>
      let xh := x ++ (a :: l)
      let x' := npUnique xh
      let iu := x'.map (firstIndex xh)
      let q := x'.filter (fun b => decide (b ∉ x))
      let step : Except PyErr (List Y × List ℝ) := do
        let newY ← functionAdapted p f (sched n q.length) q
        let y' ← takeIdx (y ++ newY) iu
        if multi then
          let ym' ← takeIdx (ym ++ newY.map mon) iu
          pure (y', ym')
        else pure (y', ym)
      match step with
      | .error e => some (.error e)
      | .ok (y', ym') => samplerLoop p f mon multi sched n x' y' ym'

/-- `adaptive_sampler(f, x, max_bend, max_x_rel, max_df, n_jobs)` (`nannos/sample.py:15-131`), with at most
`rounds` executions of the loop. -/
noncomputable def adaptiveSampler {Y : Type} (p : SampleParams) (f : ℝ → Except PyErr Y) (mon : Y → ℝ) (multi : Bool)
    (sched : ℕ → ℕ → List ℕ) (rounds : ℕ) (x : List ℝ) : Option (Except PyErr (List ℝ × List Y)) :=
  match functionAdapted p f (sched rounds x.length) x with
  | .error e => some (.error e)
  | .ok [] => some (.error .indexError)
  | .ok (b :: y) => samplerLoop p f mon multi sched rounds x (b :: y) ((b :: y).map mon)

end Nannos
