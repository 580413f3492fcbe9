import Verif.Model.Generators

/-! Model of what the default generator of tangent vectors (`'opt'`) minimises and of what it does with the minimiser
(`nannos/formulations/tangent.py:66-230`); the minimiser itself is scipy's. -/

namespace Nannos

variable {Nx Ny nh : ℕ}

/-- `norm(v)`, local to the generator (`nannos/formulations/tangent.py:89-92`), at one pixel; `eps = 2^-52` is under the
root here. -/
noncomputable def normOptPt (a b : ℂ) : ℝ := Real.sqrt ((1 / 2 ^ 52 : ℝ) + Complex.normSq a + Complex.normSq b)

/-- `bk.max(norm(t))` with the local `norm` (`nannos/formulations/tangent.py:141,228`). -/
noncomputable def maxNormOpt (t0 t1 : Grid Nx Ny) : ℝ := ⨆ p : Fin Nx × Fin Ny, normOptPt (t0 p.1 p.2) (t1 p.1 p.2)

/-- `grid = abs(grid); grid = grid / max(grid)` (`nannos/formulations/tangent.py:104-105`), for a grid which is not zero
everywhere. -/
noncomputable def relativeModulus (g : Grid Nx Ny) : Grid Nx Ny := fun x y =>
  ((‖g x y‖ / ⨆ p : Fin Nx × Fin Ny, ‖g p.1 p.2‖ : ℝ) : ℂ)

/-- `dgrid_f` (`nannos/formulations/tangent.py:132-141`): the two components of the gradient, filtered (`rfilt=4`), divided
by the largest length. -/
noncomputable def slopes (g : Grid Nx Ny) : Except PyErr (Grid Nx Ny × Grid Nx Ny) := do
  let d ← gradient (relativeModulus g)
  let fx ← applyFilter d.1 (4, 4) none
  let fy ← applyFilter d.2 (4, 4) none
  pure (fun x y => fx x y / maxNormOpt fx fy, fun x y => fy x y / maxNormOpt fx fy)

/-- Side of the reduced array, `min(2**6, N)` (`nannos/formulations/tangent.py:107-108`). -/
def reducedSide (N : ℕ) : ℕ := min (2 ^ 6) N

theorem strided_lt {N : ℕ} (i : Fin (reducedSide N)) : (i : ℕ) * (N / reducedSide N) < N := by
  have hi := i.isLt
  have h : reducedSide N * (N / reducedSide N) ≤ N := Nat.mul_div_le N _
  have h0 : 0 < N := by
    by_contra h0
    have : reducedSide N = 0 := by unfold reducedSide; omega
    omega
  rcases Nat.eq_zero_or_pos (N / reducedSide N) with h1 | h1
  · rw [h1]; omega
  · calc (i : ℕ) * (N / reducedSide N) < reducedSide N * (N / reducedSide N) := Nat.mul_lt_mul_of_pos_right hi h1
      _ ≤ N := h

/-- `dgrid_f[:, ::downsample_x, ::downsample_y]` for one component (`nannos/formulations/tangent.py:112-113,166`), where it
has the shape of the reduced array. -/
def strided (f : Grid Nx Ny) : Grid (reducedSide Nx) (reducedSide Ny) := fun i j =>
  f ⟨i * (Nx / reducedSide Nx), strided_lt i⟩ ⟨j * (Ny / reducedSide Ny), strided_lt j⟩

/-- The array with `amplitudes[k]` at position `harmonics[:, k]` (`nannos/formulations/tangent.py:151-158`): where two
orders designate one position, the assignment of the later one stays. -/
def placed (H : List (ℤ × ℤ)) (a : Fin H.length → ℂ) : Grid Nx Ny := fun p q =>
  match (List.finRange H.length).reverse.find? fun k => pyFin Nx (H.get k).1 = some p ∧ pyFin Ny (H.get k).2 = some q with
  | some k => a k
  | none => 0

/-- `_get_amps(amplitudes, shape)` (`nannos/formulations/tangent.py:151-160`): `Mx`, `My` is the shape; the factor is the
number of pixels `Nx * Ny` of the pattern. -/
noncomputable def getAmps (H : List (ℤ × ℤ)) (Nx Ny : ℕ) {Mx My : ℕ} (a : Fin H.length → ℂ) : Grid Mx My := fun x y =>
  ifft2 (placed H a) x y * (Nx : ℂ) * Ny

/-- The unknowns of the minimisation, `x` cut into its four parts (`nannos/formulations/tangent.py:173-174`). -/
abbrev Unknowns (n : ℕ) := Fin 4 → Fin n → ℝ

/-- `ax`, `ay` (`nannos/formulations/tangent.py:173-176,198-202`).  The shapes `(Nx_ds, Nx_ds)` and `(Ny_ds, Ny_ds)` are
those of the reduced array: others have raised. -/
noncomputable def fitted (H : List (ℤ × ℤ)) (Nx Ny : ℕ) {Mx My : ℕ} (x : Unknowns H.length) : Grid Mx My × Grid Mx My :=
  (getAmps H Nx Ny fun k => (x 0 k : ℂ) + Complex.I * x 1 k, getAmps H Nx Ny fun k => (x 2 k : ℂ) + Complex.I * x 3 k)

/-- `minifun(x)` (`nannos/formulations/tangent.py:172-183`): mean of the squared differences. -/
noncomputable def minifun (H : List (ℤ × ℤ)) (Nx Ny : ℕ) {Mx My : ℕ} (d : Grid Mx My × Grid Mx My) (x : Unknowns H.length) : ℝ :=
  (∑ i : Fin Mx, ∑ j : Fin My,
    (‖((((fitted H Nx Ny x).1 i j).re : ℝ) : ℂ) - d.1 i j‖ ^ 2 + ‖((((fitted H Nx Ny x).2 i j).re : ℝ) : ℂ) - d.2 i j‖ ^ 2)) /
    (2 * (Mx : ℝ) * My)

/-- Node at or before pixel `i` of `N` among `M` nodes, all equally spaced on `[0, 1]`, and the weight of the next one
(`RegularGridInterpolator`, called at `nannos/formulations/tangent.py:206-211`). -/
noncomputable def interpNode (M N : ℕ) (i : ℕ) : ℕ × ℝ :=
  let j := min (i * (M - 1) / (N - 1)) (M - 2)
  (j, (i : ℝ) * ((M - 1 : ℕ) : ℝ) / ((N - 1 : ℕ) : ℝ) - j)

/-- `interp(points).T` (`nannos/formulations/tangent.py:213-215`): bilinear interpolation on the pixels of the pattern. -/
noncomputable def interpolate {Mx My : ℕ} (f : Grid Mx My) (Nx Ny : ℕ) : Grid Nx Ny := fun x y =>
  let (i, u) := interpNode Mx Nx x
  let (j, v) := interpNode My Ny y
  let g : ℕ → ℕ → ℂ := fun i j => if h : i < Mx ∧ j < My then f ⟨i, h.1⟩ ⟨j, h.2⟩ else 0
  ((1 - u) * (1 - v) : ℝ) * g i j + ((1 - u) * v : ℝ) * g i (j + 1) + (u * (1 - v) : ℝ) * g (i + 1) j +
    (u * v : ℝ) * g (i + 1) (j + 1)

/-- `norm_t = norm(t1); t = _normalize_vec(t, norm_t)` with the local `norm`, or division by the largest length
(`nannos/formulations/tangent.py:219-228`). -/
noncomputable def finishOpt (t0 t1 : Grid Nx Ny) (normalize : Bool) : Field2 :=
  if normalize then
    ⟨Nx, Ny, fun x y => (normalizeVecPt (t0 x y) (t1 x y) (normOptPt (t0 x y) (t1 x y))).1,
      fun x y => (normalizeVecPt (t0 x y) (t1 x y) (normOptPt (t0 x y) (t1 x y))).2⟩
  else ⟨Nx, Ny, fun x y => t0 x y / maxNormOpt t0 t1, fun x y => t1 x y / maxNormOpt t0 t1⟩

/-- `_get_tangent_field_min` after its checks (`nannos/formulations/tangent.py:104-230`): what `tangentOpt` calls `fit`.
`argmin` is `scipy.optimize.minimize`, started at zero (185-197). -/
noncomputable def optFit (argmin : (n : ℕ) → (Unknowns n → ℝ) → Except PyErr (Unknowns n)) (w : PGrid) (H : List (ℤ × ℤ))
    (normalize : Bool) : Except PyErr Field2 := do
  let d ← slopes w.g
  let x ← argmin H.length (minifun H w.Nx w.Ny (strided d.1, strided d.2))
  let a : Grid (reducedSide w.Nx) (reducedSide w.Ny) × Grid (reducedSide w.Nx) (reducedSide w.Ny) := fitted H w.Nx w.Ny x
  let ax := interpolate a.1 w.Nx w.Ny
  let ay := interpolate a.2 w.Nx w.Ny
  pure (finishOpt (fun x y => ((ay x y).re : ℂ)) (fun x y => ((-(ax x y).re : ℝ) : ℂ)) normalize)

end Nannos
