import Verif.Model.Tangent
import Verif.Model.Filter

/-! Model of the tangent-field generators of `nannos/formulations/tangent.py`. -/

namespace Nannos

variable {Nx Ny : ℕ}

/-- `f[k]` with a bound known from the context (`nannos/formulations/tangent.py:43`). -/
def entry {n : ℕ} (f : Fin n → ℂ) (k : ℕ) : ℂ := if h : k < n then f ⟨k, h⟩ else 0

/-- `bk.gradient` along one axis of length at least two, with unit spacing: central differences inside, one-sided
differences at the two ends (numpy, called at `nannos/formulations/tangent.py:43-44`). -/
noncomputable def gradientAxis {n : ℕ} (f : Fin n → ℂ) (i : Fin n) : ℂ :=
  if (i : ℕ) = 0 then entry f 1 - entry f 0
  else if (i : ℕ) = n - 1 then entry f (n - 1) - entry f (n - 2)
  else (entry f (i + 1) - entry f (i - 1)) / 2

/-- `bk.gradient(grid)` (numpy, called at `nannos/formulations/tangent.py:43-44,132`); axes with less than two
entries raise `ValueError`. -/
noncomputable def gradient (g : Grid Nx Ny) : Except PyErr (Grid Nx Ny × Grid Nx Ny) :=
  if Nx < 2 ∨ Ny < 2 then .error .valueError
  else .ok (fun i j => gradientAxis (fun k => g k j) i, fun i j => gradientAxis (g i) j)

/-- `bk.hstack([grid, grid, grid])`, `bk.vstack([grid, grid, grid])` (`nannos/formulations/tangent.py:39-40`). -/
def tile3 (g : Grid Nx Ny) : Grid (3 * Nx) (3 * Ny) := fun i j =>
  g ⟨i % Nx, Nat.mod_lt _ (by have := i.isLt; omega)⟩ ⟨j % Ny, Nat.mod_lt _ (by have := j.isLt; omega)⟩

/-- `bk.fft.fftfreq(n)[p]` (numpy, called at `nannos/formulations/tangent.py:48-49`). -/
noncomputable def fftfreq (n : ℕ) (p : Fin n) : ℝ :=
  if (p : ℕ) < (n - 1) / 2 + 1 then (p : ℝ) / n else ((p : ℝ) - n) / n

/-- `_ft_filt(x, expo)` (`nannos/formulations/tangent.py:29-32`) at one point. -/
noncomputable def ftFilt (x expo : ℝ) : ℝ := open Classical in if x = 0 then 0 * x else 1 / x ^ expo

/-- `v * abs(vf)` followed by `_normalize(.., norma)` (`nannos/formulations/tangent.py:45-47`) at one point, for one
of the two components. -/
noncomputable def weightedNormalPt (v0 v1 v vf : ℂ) : ℂ := normalizePt (v * (‖vf‖ : ℂ)) (normPt v0 v1) 0 0

/-- Smoothing of a component of the normals, `inverse_fourier_transform(fourier_transform(N) * ghat)`
(`nannos/formulations/tangent.py:48-54`); the factor `Nx * Ny` of `ghat` is the size of the pattern, not of the
tiled array. -/
noncomputable def spread (expo : ℝ) (N : Grid (3 * Nx) (3 * Ny)) : Grid (3 * Nx) (3 * Ny) :=
  inverseFourierTransform fun p q =>
    fourierTransform N p q * ((ftFilt (fftfreq (3 * Nx) p ^ 2 + fftfreq (3 * Ny) q ^ 2) expo * Nx * Ny : ℝ) : ℂ)

/-- The part `[Nx : 2 * Nx, Ny : 2 * Ny]` (`nannos/formulations/tangent.py:56`). -/
def centre (g : Grid (3 * Nx) (3 * Ny)) : Grid Nx Ny := fun i j => g ⟨Nx + i, by omega⟩ ⟨Ny + j, by omega⟩

/-- `bk.max(norm(t))` (`nannos/formulations/tangent.py:64,228`). -/
noncomputable def maxNorm (t0 t1 : Grid Nx Ny) : ℝ := ⨆ p : Fin Nx × Fin Ny, normPt (t0 p.1 p.2) (t1 p.1 p.2)

/-- `_get_tangent_field_fft(grid, normalize, rfilt=4, expo=0.5)` (`nannos/formulations/tangent.py:35-65`). -/
noncomputable def tangentFft (w : PGrid) (normalize : Bool) : Except PyErr Field2 := do
  let grid := tile3 w.g
  let xf ← applyFilter grid (4, 4) none
  let v ← gradient grid
  let vf ← gradient xf
  let N0 : Grid (3 * w.Nx) (3 * w.Ny) := fun i j => weightedNormalPt (v.1 i j) (v.2 i j) (v.1 i j) (vf.1 i j)
  let N1 : Grid (3 * w.Nx) (3 * w.Ny) := fun i j => weightedNormalPt (v.1 i j) (v.2 i j) (v.2 i j) (vf.2 i j)
  let s0 := centre (spread (1 / 2) N0)
  let s1 := centre (spread (1 / 2) N1)
  let t0 : Grid w.Nx w.Ny := fun i j => ((s1 i j).re : ℂ)
  let t1 : Grid w.Nx w.Ny := fun i j => ((-(s0 i j).re : ℝ) : ℂ)
  if normalize then pure (normalizeField ⟨w.Nx, w.Ny, t0, t1⟩)
  else pure ⟨w.Nx, w.Ny, fun i j => t0 i j / maxNorm t0 t1, fun i j => t1 i j / maxNorm t0 t1⟩

/-- `len(dgrid[::step])` for an axis of length `n` (`nannos/formulations/tangent.py:166`). -/
def stridedLength (n step : ℕ) : ℕ := (n + step - 1) / step

/-- `da - dgrid_f_downspl` can be broadcast along an axis (numpy, at `nannos/formulations/tangent.py:178`). -/
def broadcastable (m n : ℕ) : Prop := m = n ∨ m = 1 ∨ n = 1

/-- `_get_tangent_field_min(grid, harmonics, normalize, rfilt=4)` (`nannos/formulations/tangent.py:66-230`) up to the
first evaluation of the function to minimise (lines 104-178), which raises when the shapes do not fit; `fit` stands
for what follows: the minimisation by scipy (185-197), the interpolation (201-217) and the normalisation (219-228), see
`optFit`.  A pattern
which is zero everywhere gives `nan` (105).  Without harmonics (what a simulation with one order of a circular truncation
asks for, C107) the fitted arrays are zero. -/
noncomputable def tangentOpt (fit : PGrid → List (ℤ × ℤ) → Bool → Except PyErr Field2) (w : PGrid) (H : List (ℤ × ℤ))
    (normalize : Bool) : Except PyErr Field2 := open Classical in do
  -- `bk.max` of an empty array, `bk.gradient` of a short one
  raiseIf (w.Nx < 2 ∨ w.Ny < 2) .valueError
  let nxDs := min (2 ^ 6) w.Nx
  let nyDs := min (2 ^ 6) w.Ny
  let downsampleX := w.Nx / nxDs
  let downsampleY := w.Ny / nyDs
  -- `_get_amps(coefx, (Nx_ds, Nx_ds))`, then `_get_amps(coefy, (Ny_ds, Ny_ds))`
  raiseIf (∃ g ∈ H, pyFin nxDs g.1 = none ∨ pyFin nxDs g.2 = none) .indexError
  raiseIf (∃ g ∈ H, pyFin nyDs g.1 = none ∨ pyFin nyDs g.2 = none) .indexError
  -- `npg.array([ax, ay])`
  raiseIf (nxDs ≠ nyDs) .valueError
  -- `da - dgrid_f_downspl`
  raiseIf (¬ broadcastable nxDs (stridedLength w.Nx downsampleX) ∨
    ¬ broadcastable nyDs (stridedLength w.Ny downsampleY)) .valueError
  raiseIf (∀ i j, w.g i j = 0) .nonfinite
  fit w H normalize

/-- `get_tangent_field(grid, harmonics, normalize, type)` (`nannos/formulations/tangent.py:233-241`). -/
noncomputable def tangentGenerator (fit : PGrid → List (ℤ × ℤ) → Bool → Except PyErr Field2) (type : String) (w : PGrid)
    (H : List (ℤ × ℤ)) (normalize : Bool) : Except PyErr Field2 :=
  if type = "fft" then tangentFft w normalize
  else if type = "opt" then tangentOpt fit w H normalize
  else .error .valueError

/-- The numerical kernels with the generators of the code (`nannos/formulations/tangent.py:233-241`); what remains
outside is the minimisation behind `'opt'`. -/
noncomputable def Ext.withGenerators (E : Ext) (fit : PGrid → List (ℤ × ℤ) → Bool → Except PyErr Field2) : Ext :=
  { E with tangent := tangentGenerator fit }

end Nannos
