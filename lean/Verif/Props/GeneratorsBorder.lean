import Verif.Proofs.Border
import Verif.Props.GeneratorsMoved

/-! C70: patterns which reach the border of the cell. -/

namespace Nannos

open Spec Border

theorem row_moved : GridMoved 1 1 (1 / 3) 0 ⟨3, 1, row 2⟩ ⟨3, 1, row 0⟩ := by
  refine ⟨3, 1, row 2, row 0, 1, 0, rfl, rfl, ⟨by norm_num, by norm_num⟩, fun x y x' y' ex _ => ?_⟩
  have : x = 0 ↔ x' = 2 := by
    rw [Fin.ext_iff, Fin.ext_iff, ex]
    unfold pixel
    fin_cases x <;> decide
  unfold row
  simp only [this]

theorem rowDiff_y (k : Fin 3) (i : Fin 9) (j : Fin 3) : gradientAxis (tile3 (row k) i) j = 0 := by
  have : tile3 (row k) i = fun _ => row k ⟨i % 3, Nat.mod_lt _ (by norm_num)⟩ 0 := by
    funext j; rfl
  rw [this]
  exact gradientAxis_const (by norm_num) _ _

theorem rowDiff_x (k : Fin 3) (i : Fin 9) (j : Fin 3) : gradientAxis (fun m => tile3 (row k) m j) i =
    if (i : ℕ) = 0 then (if k = 1 then 1 else 0) - (if k = 0 then 1 else 0)
    else if (i : ℕ) = 8 then (if k = 2 then 1 else 0) - (if k = 1 then 1 else 0)
    else ((if ((i + 1 : ℕ) % 3 = k) then 1 else 0) - (if ((i - 1 : ℕ) % 3 = k) then 1 else 0)) / 2 := by
  unfold gradientAxis entry tile3 row
  fin_cases i <;> fin_cases k <;> simp (decide := true) <;> norm_num

theorem smoothDiff (C D : ℝ) (k : Fin 3) (g : Grid 9 3) (hg : ∀ i j, g i j = ((C + if (i + 1 : ℕ) % 3 = k then D else 0 : ℝ) : ℂ))
    (i : Fin 9) (j : Fin 3) : gradientAxis (fun m => g m j) i =
    if (i : ℕ) = 0 then (if k = 2 then (D : ℂ) else 0) - (if k = 1 then (D : ℂ) else 0)
    else if (i : ℕ) = 8 then (if k = 0 then (D : ℂ) else 0) - (if k = 2 then (D : ℂ) else 0)
    else ((if ((i + 2 : ℕ) % 3 = k) then (D : ℂ) else 0) - (if ((i : ℕ) % 3 = k) then (D : ℂ) else 0)) / 2 := by
  unfold gradientAxis entry
  simp only [hg]
  fin_cases i <;> fin_cases k <;> simp (decide := true)

theorem raw_row {v0 v1 w0 w1 : Grid (3 * 3) (3 * 1)} {n : Fin 9 → ℂ}
    (h : ∀ i j, weightedNormalPt (v0 i j) (v1 i j) (v0 i j) (w0 i j) = n i) (x : Fin 3) (y : Fin 1) :
    (rawField v0 v1 w0 w1).t1 x y = ((-(∑ z : Fin 9, n z * (ker ((3 + (x : ℕ) : ℕ) - (z : ℕ)) : ℂ)).re : ℝ) : ℂ) := by
  have := spread_row (N := fun i j => weightedNormalPt (v0 i j) (v1 i j) (v0 i j) (w0 i j)) h ⟨3 + x, by omega⟩
    ⟨1 + y, by omega⟩
  unfold rawField centre
  dsimp only
  rw [this]

theorem vectorsMoved_row {p0 p1 q0 q1 : Grid 3 1} (h : VectorsMoved 1 1 (1 / 3) 0 ⟨3, 1, p0, p1⟩ ⟨3, 1, q0, q1⟩) :
    q1 0 0 = p1 2 0 ∧ q1 2 0 = p1 1 0 := by
  obtain ⟨Mx, My, a, b, a', b', sx, sy, e1, e2, ⟨hw1, hw2⟩, h⟩ := h
  cases e1
  cases e2
  have hsx : sx = 1 := by
    have : (sx : ℝ) = 1 := by rw [hw1]; norm_num
    exact_mod_cast this
  have hsy : sy = 0 := by
    have : (sy : ℝ) = 0 := by rw [hw2]; norm_num
    exact_mod_cast this
  subst hsx hsy
  have h1 := (h 0 0 2 0 (by decide) (by decide)).2
  have h2 := (h 2 0 1 0 (by decide) (by decide)).2
  rw [Int.cast_one, one_mul] at h1 h2
  exact ⟨h1, h2⟩

/-- The vectors of the row whose last pixel differs, before they are normalised, differ at the second and third pixels. -/
theorem row2_differs :
    (rawField (Nx := 3) (Ny := 1) (fun i j => gradientAxis (fun k => tile3 (row 2) k j) i) (fun i j => gradientAxis (tile3 (row 2) i) j)
      (fun i j => gradientAxis (fun k => smooth (tile3 (row 2)) k j) i) (fun i j => gradientAxis (smooth (tile3 (row 2)) i) j)).t1 (2 : Fin 3) (0 : Fin 1) ≠
    (rawField (Nx := 3) (Ny := 1) (fun i j => gradientAxis (fun k => tile3 (row 2) k j) i) (fun i j => gradientAxis (tile3 (row 2) i) j)
      (fun i j => gradientAxis (fun k => smooth (tile3 (row 2)) k j) i) (fun i j => gradientAxis (smooth (tile3 (row 2)) i) j)).t1 (1 : Fin 3) (0 : Fin 1) := by
  obtain ⟨C, D, hD, hs⟩ := smooth_row 2
  set R := rawField (Nx := 3) (Ny := 1) (fun i j => gradientAxis (fun k => tile3 (row 2) k j) i) (fun i j => gradientAxis (tile3 (row 2) i) j)
    (fun i j => gradientAxis (fun k => smooth (tile3 (row 2)) k j) i) (fun i j => gradientAxis (smooth (tile3 (row 2)) i) j) with hR
  set E : ℂ := weightedNormalPt (-1 / 2) 0 (-1 / 2) (D / 2) with hE
  set F : ℂ := weightedNormalPt 1 0 1 (-D) with hF
  have hn : ∀ x : Fin 3, R.t1 x (0 : Fin 1) = ((-(∑ y : Fin 9, (![0, 0, 0, E, 0, 0, E, 0, F] : Fin 9 → ℂ) y *
      (ker ((3 + (x : ℕ) : ℕ) - (y : ℕ)) : ℂ)).re : ℝ) : ℂ) := by
    intro x
    refine raw_row ?_ x 0
    intro i j
    rw [rowDiff_x, rowDiff_y, smoothDiff C D 2 _ hs]
    fin_cases i <;> simp (decide := true) [weightedNormalPt_zero, weightedNormalPt_flat, hE, hF]
  have e9 : ∀ f : Fin 9 → ℂ, ∑ a, f a = f 0 + f 1 + f 2 + f 3 + f 4 + f 5 + f 6 + f 7 + f 8 := by
    intro f
    rw [Fin.sum_univ_castSucc, Fin.sum_univ_eight]
    rfl
  have k1 := ker_neg 1
  have k2 := ker_neg 2
  have k3 := ker_neg 3
  have k4 := ker_neg 4
  have hF0 : 0 < F.re ∧ F.im = 0 := by
    have h0 : 0 < normPt 1 0 := normPt_pos _ _
    rw [hF]
    unfold weightedNormalPt normalizePt
    rw [if_neg (by linarith), norm_neg, Complex.norm_real, one_mul, ← Complex.ofReal_div]
    exact ⟨by rw [Complex.ofReal_re]; exact div_pos (norm_pos_iff.2 hD.ne') h0, Complex.ofReal_im _⟩
  rw [hn, hn, e9, e9]
  have a3 : ker ((3 + ((2 : Fin 3) : ℕ) : ℕ) - ((3 : Fin 9) : ℕ)) = ker 2 := rfl
  have a6 : ker ((3 + ((2 : Fin 3) : ℕ) : ℕ) - ((6 : Fin 9) : ℕ)) = ker (-1) := rfl
  have a8 : ker ((3 + ((2 : Fin 3) : ℕ) : ℕ) - ((8 : Fin 9) : ℕ)) = ker (-3) := rfl
  have b3 : ker ((3 + ((1 : Fin 3) : ℕ) : ℕ) - ((3 : Fin 9) : ℕ)) = ker 1 := rfl
  have b6 : ker ((3 + ((1 : Fin 3) : ℕ) : ℕ) - ((6 : Fin 9) : ℕ)) = ker (-2) := rfl
  have b8 : ker ((3 + ((1 : Fin 3) : ℕ) : ℕ) - ((8 : Fin 9) : ℕ)) = ker (-4) := rfl
  rw [a3, a6, a8, b3, b6, b8, k1, k2, k3, k4]
  intro hh
  have hh := neg_injective (Complex.ofReal_injective hh)
  change (0 * _ + 0 * _ + 0 * _ + E * _ + 0 * _ + 0 * _ + E * _ + 0 * _ + F * _ : ℂ).re =
    (0 * _ + 0 * _ + 0 * _ + E * _ + 0 * _ + 0 * _ + E * _ + 0 * _ + F * _ : ℂ).re at hh
  simp only [zero_mul, zero_add, add_zero, Complex.add_re, Complex.re_mul_ofReal] at hh
  have := mul_lt_mul_of_pos_left ker_lt hF0.1
  linarith

/-- **C70 fails at the border of the cell.**  Three pixels, two of permittivity 1 and one of permittivity 2. When the
pattern is displaced by one pixel the vectors of the generator `'fft'` are not: at the ends of the array the code takes
one-sided differences, twice as large as the central ones. -/
theorem C70_displacement_fails_at_border :
    ∃ a a' : Grid 3 1, GridMoved 1 1 (1 / 3) 0 ⟨3, 1, a⟩ ⟨3, 1, a'⟩ ∧
      ∃ t t', tangentFft ⟨3, 1, a⟩ false = .ok t ∧ tangentFft ⟨3, 1, a'⟩ false = .ok t' ∧
        ¬ VectorsMoved 1 1 (1 / 3) 0 t t' := by
  refine ⟨row 2, row 0, row_moved, _, _, tangentFft_ok (row 2) (by norm_num) (by norm_num) false,
    tangentFft_ok (row 0) (by norm_num) (by norm_num) false, ?_⟩
  obtain ⟨C', D', hD', hs'⟩ := smooth_row 0
  set R := rawField (Nx := 3) (Ny := 1) (fun i j => gradientAxis (fun k => tile3 (row 2) k j) i) _ _ _ with hR
  set R' := rawField (Nx := 3) (Ny := 1) (fun i j => gradientAxis (fun k => tile3 (row 0) k j) i) _ _ _ with hR'
  -- the normals
  set E' : ℂ := weightedNormalPt (-1 / 2) 0 (-1 / 2) (D' / 2) with hE'
  have hn' : ∀ x : Fin 3, R'.t1 x (0 : Fin 1) = ((-(∑ y : Fin 9, (![0, E', 0, 0, E', 0, 0, E', 0] : Fin 9 → ℂ) y *
      (ker ((3 + (x : ℕ) : ℕ) - (y : ℕ)) : ℂ)).re : ℝ) : ℂ) := by
    intro x
    refine raw_row ?_ x 0
    intro i j
    rw [rowDiff_x, rowDiff_y, smoothDiff C' D' 0 _ hs']
    fin_cases i <;> simp (decide := true) [weightedNormalPt_zero, weightedNormalPt_flat, hE']
  have e9 : ∀ f : Fin 9 → ℂ, ∑ a, f a = f 0 + f 1 + f 2 + f 3 + f 4 + f 5 + f 6 + f 7 + f 8 := by
    intro f
    rw [Fin.sum_univ_castSucc, Fin.sum_univ_eight]
    rfl
  have k1 := ker_neg 1
  have k2 := ker_neg 2
  have k4 := ker_neg 4
  -- the displaced pattern has equal vectors at the first and last pixel
  have h02 : R'.t1 (0 : Fin 3) (0 : Fin 1) = R'.t1 (2 : Fin 3) (0 : Fin 1) := by
    rw [hn', hn', e9, e9]
    congr 3
    have a1 : ker ((3 + ((0 : Fin 3) : ℕ) : ℕ) - ((1 : Fin 9) : ℕ)) = ker 2 := rfl
    have a4 : ker ((3 + ((0 : Fin 3) : ℕ) : ℕ) - ((4 : Fin 9) : ℕ)) = ker (-1) := rfl
    have a7 : ker ((3 + ((0 : Fin 3) : ℕ) : ℕ) - ((7 : Fin 9) : ℕ)) = ker (-4) := rfl
    have b1 : ker ((3 + ((2 : Fin 3) : ℕ) : ℕ) - ((1 : Fin 9) : ℕ)) = ker 4 := rfl
    have b4 : ker ((3 + ((2 : Fin 3) : ℕ) : ℕ) - ((4 : Fin 9) : ℕ)) = ker 1 := rfl
    have b7 : ker ((3 + ((2 : Fin 3) : ℕ) : ℕ) - ((7 : Fin 9) : ℕ)) = ker (-2) := rfl
    rw [a1, a4, a7, b1, b4, b7, k1, k2, k4]
    change 0 * _ + E' * _ + 0 * _ + 0 * _ + E' * _ + 0 * _ + 0 * _ + E' * _ + 0 * _ =
      0 * _ + E' * _ + 0 * _ + 0 * _ + E' * _ + 0 * _ + 0 * _ + E' * _ + 0 * _
    ring
  -- the pattern itself has different vectors at the second and third
  have h12 : R.t1 (2 : Fin 3) (0 : Fin 1) ≠ R.t1 (1 : Fin 3) (0 : Fin 1) := row2_differs
  intro h
  obtain ⟨m0, m2⟩ := vectorsMoved_row (p0 := fun i j => R.t0 i j / (maxNorm R.t0 R.t1 : ℂ))
    (p1 := fun i j => R.t1 i j / (maxNorm R.t0 R.t1 : ℂ)) (q0 := fun i j => R'.t0 i j / (maxNorm R'.t0 R'.t1 : ℂ))
    (q1 := fun i j => R'.t1 i j / (maxNorm R'.t0 R'.t1 : ℂ)) h
  have hM : (maxNorm R.t0 R.t1 : ℂ) ≠ 0 := Complex.ofReal_ne_zero.2 (maxNorm_pos R.t0 R.t1 (0 : Fin 3) (0 : Fin 1)).ne'
  rw [h02, m2] at m0
  rw [div_left_inj' hM] at m0
  exact h12 m0.symm

end Nannos
