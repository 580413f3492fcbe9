import Verif.Model.Generators
import Verif.Spec.Symmetry
import Verif.Props.Filter
import Verif.Props.Tangent

/-! The generator of tangent vectors by Fourier transforms, step by step. -/

namespace Nannos

open Spec

variable {Nx Ny : ℕ}

/-- What the filter of radius 4 returns. -/
noncomputable def smooth [NeZero Nx] [NeZero Ny] (u : Grid Nx Ny) : Grid Nx Ny := fun i j =>
  ((∑ a : Fin Nx, ∑ b : Fin Ny, weight (window Nx Ny none).1 4 Nx a * weight (window Nx Ny none).2 4 Ny b *
    (u (i - a) (j - b)).re : ℝ) : ℂ)

theorem applyFilter_smooth [NeZero Nx] [NeZero Ny] (hx : 2 ≤ Nx) (hy : 2 ≤ Ny) (u : Grid Nx Ny) :
    applyFilter u (4, 4) none = .ok (smooth u) :=
  applyFilter_ok hx hy u (4, 4) (by norm_num) (by norm_num) none

theorem smooth_shift [NeZero Nx] [NeZero Ny] (u : Grid Nx Ny) (p : Fin Nx) (q : Fin Ny) :
    smooth (fun i j => u (i - p) (j - q)) = fun i j => smooth u (i - p) (j - q) := by
  funext i j
  unfold smooth
  congr 1
  refine Finset.sum_congr rfl fun a _ => Finset.sum_congr rfl fun b _ => ?_
  dsimp only
  rw [sub_right_comm i a p, sub_right_comm j b q]

theorem smooth_im [NeZero Nx] [NeZero Ny] {u : Grid Nx Ny} (c : ℝ) (h : ∀ i j, (u i j).re = c) :
    ∃ d, smooth u = fun _ _ => d := by
  refine ⟨((∑ a : Fin Nx, ∑ b : Fin Ny, weight (window Nx Ny none).1 4 Nx a * weight (window Nx Ny none).2 4 Ny b *
    c : ℝ) : ℂ), ?_⟩
  funext i j
  unfold smooth
  simp only [h]

/-- Filtering `c - u` and `u + c`. -/
theorem smooth_neg [NeZero Nx] [NeZero Ny] (u : Grid Nx Ny) (c : ℂ) :
    ∃ d, smooth (fun i j => c - u i j) = fun i j => d - smooth u i j := by
  refine ⟨((∑ a : Fin Nx, ∑ b : Fin Ny, weight (window Nx Ny none).1 4 Nx a * weight (window Nx Ny none).2 4 Ny b *
    c.re : ℝ) : ℂ), ?_⟩
  funext i j
  unfold smooth
  rw [← Complex.ofReal_sub]
  congr 1
  simp only [Complex.sub_re, mul_sub, Finset.sum_sub_distrib]

theorem smooth_add [NeZero Nx] [NeZero Ny] (u : Grid Nx Ny) (c : ℂ) :
    ∃ d, smooth (fun i j => c + u i j) = fun i j => d + smooth u i j := by
  refine ⟨((∑ a : Fin Nx, ∑ b : Fin Ny, weight (window Nx Ny none).1 4 Nx a * weight (window Nx Ny none).2 4 Ny b *
    c.re : ℝ) : ℂ), ?_⟩
  funext i j
  unfold smooth
  rw [← Complex.ofReal_add]
  congr 1
  simp only [Complex.add_re, mul_add, Finset.sum_add_distrib]

/-! ### Differences -/

theorem gradientAxis_const {n : ℕ} (hn : 2 ≤ n) (d : ℂ) (i : Fin n) : gradientAxis (fun _ => d) i = 0 := by
  have := i.isLt
  unfold gradientAxis entry
  split_ifs <;> first | omega | simp

theorem gradientAxis_neg {n : ℕ} (hn : 2 ≤ n) (c : ℂ) (f : Fin n → ℂ) (i : Fin n) :
    gradientAxis (fun k => c - f k) i = -gradientAxis f i := by
  have := i.isLt
  unfold gradientAxis entry
  split_ifs <;> first | omega | ring

theorem gradientAxis_add {n : ℕ} (hn : 2 ≤ n) (c : ℂ) (f : Fin n → ℂ) (i : Fin n) :
    gradientAxis (fun k => c + f k) i = gradientAxis f i := by
  have := i.isLt
  unfold gradientAxis entry
  split_ifs <;> first | omega | ring

theorem gradient_ok (hx : 2 ≤ Nx) (hy : 2 ≤ Ny) (g : Grid Nx Ny) :
    gradient g = .ok (fun i j => gradientAxis (fun k => g k j) i, fun i j => gradientAxis (g i) j) := by
  unfold gradient
  rw [if_neg (by omega)]

/-! ### Spreading -/

/-- The spreading is a cyclic convolution. -/
theorem spread_conv [NeZero (3 * Nx)] [NeZero (3 * Ny)] (e : ℝ) : ∃ K : Grid (3 * Nx) (3 * Ny), ∀ N, spread e N = cconv K N := by
  set G : Grid (3 * Nx) (3 * Ny) := fun p q =>
    ((ftFilt (fftfreq (3 * Nx) p ^ 2 + fftfreq (3 * Ny) q ^ 2) e * Nx * Ny : ℝ) : ℂ) with hG
  set F : Grid (3 * Nx) (3 * Ny) := fun x y => ∑ p : Fin (3 * Nx), ∑ q : Fin (3 * Ny),
    G p q * (chi (3 * Nx) (p : ℕ) (x : ℕ) * chi (3 * Ny) (q : ℕ) (y : ℕ)) with hF
  refine ⟨fun x y => 1 / (((3 * Nx : ℕ) : ℂ) * ((3 * Ny : ℕ) : ℂ)) * F x y + 0 * F x y, fun N => ?_⟩
  have h1 : ((3 * Nx : ℕ) : ℂ) ≠ 0 := by exact_mod_cast NeZero.ne (3 * Nx)
  have h2 : ((3 * Ny : ℕ) : ℂ) ≠ 0 := by exact_mod_cast NeZero.ne (3 * Ny)
  funext i j
  rw [← filter_core]
  unfold spread
  rw [inverse_eq, inverse_eq, Finset.sum_mul]
  refine Finset.sum_congr rfl fun p _ => ?_
  rw [Finset.sum_mul]
  refine Finset.sum_congr rfl fun q _ => ?_
  rw [fourierTransform_eq (fun x y => 1 / (((3 * Nx : ℕ) : ℂ) * ((3 * Ny : ℕ) : ℂ)) * F x y + 0 * F x y), coeff_linear,
    inversion' G p q]
  change fourierTransform N p q * G p q * _ = _
  field_simp
  ring

theorem cconv_shift [NeZero Nx] [NeZero Ny] (K u : Grid Nx Ny) (p : Fin Nx) (q : Fin Ny) :
    cconv K (fun i j => u (i - p) (j - q)) = fun i j => cconv K u (i - p) (j - q) := by
  funext i j
  unfold cconv
  refine Finset.sum_congr rfl fun a _ => Finset.sum_congr rfl fun b _ => ?_
  dsimp only
  rw [sub_right_comm i a p, sub_right_comm j b q]

theorem spread_zero (e : ℝ) : spread e (fun _ _ => 0 : Grid (3 * Nx) (3 * Ny)) = fun _ _ => 0 := by
  funext i j
  unfold spread inverseFourierTransform ifft2 fourierTransform fft2
  simp

theorem spread_neg (e : ℝ) (N : Grid (3 * Nx) (3 * Ny)) : spread e (fun i j => -N i j) = fun i j => -spread e N i j := by
  funext i j
  unfold spread inverseFourierTransform ifft2 fourierTransform fft2
  simp only [neg_mul, Finset.sum_neg_distrib, neg_div, mul_neg]

/-! ### The generator -/

/-- The vectors before normalisation, from the two differences of the tiled pattern and of the filtered one. -/
noncomputable def rawField (v0 v1 w0 w1 : Grid (3 * Nx) (3 * Ny)) : Field2 :=
  ⟨Nx, Ny, fun i j => ((centre (spread (1 / 2) fun i j => weightedNormalPt (v0 i j) (v1 i j) (v1 i j) (w1 i j)) i j).re : ℂ),
    fun i j => ((-(centre (spread (1 / 2) fun i j => weightedNormalPt (v0 i j) (v1 i j) (v0 i j) (w0 i j)) i j).re : ℝ) : ℂ)⟩

/-- The two normalisations. -/
noncomputable def finishField (normalize : Bool) (t : Field2) : Field2 :=
  ⟨t.Nx, t.Ny,
    match normalize with
    | true => (normalizeField t).t0
    | false => fun i j => t.t0 i j / maxNorm t.t0 t.t1,
    match normalize with
    | true => (normalizeField t).t1
    | false => fun i j => t.t1 i j / maxNorm t.t0 t.t1⟩

theorem tangentFft_ok (a : Grid Nx Ny) (hx : 0 < Nx) (hy : 0 < Ny) (n : Bool) :
    haveI : NeZero (3 * Nx) := ⟨by omega⟩
    haveI : NeZero (3 * Ny) := ⟨by omega⟩
    tangentFft ⟨Nx, Ny, a⟩ n = .ok (finishField n (rawField
      (fun i j => gradientAxis (fun k => tile3 a k j) i) (fun i j => gradientAxis (tile3 a i) j)
      (fun i j => gradientAxis (fun k => smooth (tile3 a) k j) i) (fun i j => gradientAxis (smooth (tile3 a) i) j))) := by
  haveI : NeZero (3 * Nx) := ⟨by omega⟩
  haveI : NeZero (3 * Ny) := ⟨by omega⟩
  unfold tangentFft
  dsimp only
  rw [applyFilter_smooth (by omega) (by omega), except_bind_ok, gradient_ok (by omega) (by omega), except_bind_ok,
    gradient_ok (by omega) (by omega), except_bind_ok]
  cases n <;> rfl

theorem tangentFft_empty (a : Grid Nx Ny) (h : Nx = 0 ∨ Ny = 0) (n : Bool) :
    tangentFft ⟨Nx, Ny, a⟩ n = .error .valueError := by
  unfold tangentFft
  dsimp only
  have : applyFilter (tile3 a) (4, 4) none = .error .valueError := by
    unfold applyFilter
    rw [if_neg (by norm_num), if_pos (by omega)]
  rw [this]
  rfl

end Nannos
