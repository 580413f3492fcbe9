import Verif.Proofs.Orders2

/-! Truncations in another unit of length. -/

namespace Nannos

open Matrix Spec

theorem argsort_scaled {A : List ℝ → List ℕ} (hA : ComparisonSort A) {k : ℝ} (hk : 0 < k) (l : List ℝ) :
    A (l.map (k * ·)) = A l := by
  have hget : ∀ i, (l.map (k * ·)).getD i 0 = k * l.getD i 0 := by
    intro i
    rw [List.getD_eq_getElem?_getD, List.getD_eq_getElem?_getD, List.getElem?_map]
    cases l[i]? <;> simp
  refine hA _ _ (by simp) fun i j => ?_
  rw [hget, hget]
  exact mul_le_mul_iff_right₀ hk

variable {k : ℝ} (Lk : Matrix (Fin 2) (Fin 2) ℝ)

theorem rowNorm_smul (hk : 0 < k) (i) : rowNorm (k • Lk) i = k * rowNorm Lk i := by
  unfold rowNorm
  simp only [Matrix.smul_apply, smul_eq_mul]
  rw [show (k * Lk i 0) ^ 2 + (k * Lk i 1) ^ 2 = k ^ 2 * (Lk i 0 ^ 2 + Lk i 1 ^ 2) by ring, Real.sqrt_mul (by positivity),
    Real.sqrt_sq hk.le]

theorem rowDot_smul : rowDot (k • Lk) = k ^ 2 * rowDot Lk := by
  unfold rowDot
  simp only [Matrix.smul_apply, smul_eq_mul]
  ring

theorem rowCross_smul : rowCross (k • Lk) = k ^ 2 * rowCross Lk := by
  unfold rowCross
  simp only [Matrix.smul_apply, smul_eq_mul]
  ring

theorem gl2_smul (hk : 0 < k) (g) : gl2 (k • Lk) g = k ^ 2 * gl2 Lk g := by
  unfold gl2
  rw [rowNorm_smul Lk hk, rowDot_smul]
  ring

theorem map_gl2_smul (hk : 0 < k) (G : List (ℤ × ℤ)) : G.map (gl2 (k • Lk)) = (G.map (gl2 Lk)).map (k ^ 2 * ·) := by
  rw [List.map_map]
  refine List.map_congr_left fun g _ => ?_
  exact gl2_smul Lk hk g

theorem uExtent_smul (hk : 0 < k) (nh : ℤ) (i) : uExtent nh (k • Lk) i = uExtent nh Lk i := by
  unfold uExtent
  rw [rowNorm_smul Lk hk, rowNorm_smul Lk hk, rowNorm_smul Lk hk, rowDot_smul, rowCross_smul, abs_mul, abs_of_pos (by positivity : 0 < k ^ 2)]
  have e1 : (nh : ℝ) * (k ^ 2 * |rowCross Lk|) / Real.pi = k ^ 2 * (nh * |rowCross Lk| / Real.pi) := by ring
  rw [e1, Real.sqrt_mul (by positivity), Real.sqrt_sq hk.le]
  have e2 : (k ^ 2 * rowDot Lk) ^ 2 / (k * rowNorm Lk 0 * (k * rowNorm Lk 1)) ^ 2 = rowDot Lk ^ 2 / (rowNorm Lk 0 * rowNorm Lk 1) ^ 2 := by
    rw [show (k ^ 2 * rowDot Lk) ^ 2 = k ^ 4 * rowDot Lk ^ 2 by ring,
      show (k * rowNorm Lk 0 * (k * rowNorm Lk 1)) ^ 2 = k ^ 4 * (rowNorm Lk 0 * rowNorm Lk 1) ^ 2 by ring]
    exact mul_div_mul_left _ _ (by positivity)
  rw [e2]
  congr 2
  rw [← mul_add, ← mul_add, mul_assoc k]
  exact mul_div_mul_left _ _ hk.ne'

theorem circular_scaled {A : List ℝ → List ℕ} (hA : ComparisonSort A) (hk : 0 < k) (nh : ℤ) :
    circularTruncation A nh (k • Lk) = circularTruncation A nh Lk := by
  unfold circularTruncation
  have c1 : (nh < 0 ∨ rowNorm (k • Lk) 0 * rowNorm (k • Lk) 1 = 0 ∨
      1 - rowDot (k • Lk) ^ 2 / (rowNorm (k • Lk) 0 * rowNorm (k • Lk) 1) ^ 2 ≤ 0) ↔
      (nh < 0 ∨ rowNorm Lk 0 * rowNorm Lk 1 = 0 ∨ 1 - rowDot Lk ^ 2 / (rowNorm Lk 0 * rowNorm Lk 1) ^ 2 ≤ 0) := by
    rw [rowNorm_smul Lk hk, rowNorm_smul Lk hk, rowDot_smul]
    have e2 : (k ^ 2 * rowDot Lk) ^ 2 / (k * rowNorm Lk 0 * (k * rowNorm Lk 1)) ^ 2 = rowDot Lk ^ 2 / (rowNorm Lk 0 * rowNorm Lk 1) ^ 2 := by
      rw [show (k ^ 2 * rowDot Lk) ^ 2 = k ^ 4 * rowDot Lk ^ 2 by ring,
        show (k * rowNorm Lk 0 * (k * rowNorm Lk 1)) ^ 2 = k ^ 4 * (rowNorm Lk 0 * rowNorm Lk 1) ^ 2 by ring]
      exact mul_div_mul_left _ _ (by positivity)
    rw [e2, show k * rowNorm Lk 0 * (k * rowNorm Lk 1) = k ^ 2 * (rowNorm Lk 0 * rowNorm Lk 1) by ring, mul_eq_zero,
      or_iff_right (by positivity : k ^ 2 ≠ 0)]
  simp only [c1, uExtent_smul Lk hk, map_gl2_smul Lk hk, argsort_scaled hA (by positivity : 0 < k ^ 2), gather_map]
  rw [rowNorm_smul Lk hk, rowNorm_smul Lk hk]
  have hget : ∀ (l : List ℝ) (i : ℕ), (l.map (k ^ 2 * ·)).getD i 0 = k ^ 2 * l.getD i 0 := by
    intro l i
    rw [List.getD_eq_getElem?_getD, List.getD_eq_getElem?_getD, List.getElem?_map]
    cases l[i]? <;> simp
  have htol : 1 / 10 ^ 10 * max ((k * rowNorm Lk 0) ^ 2) ((k * rowNorm Lk 1) ^ 2) =
      k ^ 2 * (1 / 10 ^ 10 * max (rowNorm Lk 0 ^ 2) (rowNorm Lk 1 ^ 2)) := by
    rw [mul_pow, mul_pow, ← mul_max_of_nonneg _ _ (by positivity : (0 : ℝ) ≤ k ^ 2)]
    ring
  have hcond : ∀ (l : List ℝ) (i : ℕ),
      (|(l.map (k ^ 2 * ·)).getD i 0 - (l.map (k ^ 2 * ·)).getD (i - 1) 0| >
        1 / 10 ^ 10 * max ((k * rowNorm Lk 0) ^ 2) ((k * rowNorm Lk 1) ^ 2)) ↔
      (|l.getD i 0 - l.getD (i - 1) 0| > 1 / 10 ^ 10 * max (rowNorm Lk 0 ^ 2) (rowNorm Lk 1 ^ 2)) := by
    intro l i
    rw [hget, hget, ← mul_sub, abs_mul, abs_of_pos (by positivity : 0 < k ^ 2), htol]
    exact mul_lt_mul_iff_right₀ (by positivity)
  simp only [hcond]

theorem parallelogramic_scaled {A : List ℝ → List ℕ} (hA : ComparisonSort A) (hk : 0 < k) (nh : ℤ) :
    parallelogramicTruncation A nh (k • Lk) = parallelogramicTruncation A nh Lk := by
  unfold parallelogramicTruncation
  simp only [map_gl2_smul Lk hk, argsort_scaled hA (by positivity : 0 < k ^ 2)]

theorem reciprocal_scaled {l l' : Lattice} {s : ℝ} (hs : 0 < s) (hb : ∀ k i, l'.basis k i = s * l.basis k i) {r}
    (hr : l.reciprocal = .ok r) : l'.reciprocal = .ok (s⁻¹ • r) := by
  obtain ⟨h1, h2⟩ := reciprocal_ok.mp hr
  have e : l'.matrix = s • l.matrix := by
    ext i j
    simp [Lattice.matrix, hb]
  refine reciprocal_ok.mpr ⟨?_, ?_⟩
  · rw [e, det_smul]
    exact mul_ne_zero (by positivity) h1
  · rw [h2, e]
    have : (s • l.matrix)⁻¹ = s⁻¹ • l.matrix⁻¹ := by
      refine inv_eq_left_inv ?_
      rw [Matrix.smul_mul, Matrix.mul_smul, smul_smul, inv_mul_cancel₀ hs.ne', one_smul, nonsing_inv_mul _ (isUnit_iff_ne_zero.mpr h1)]
    rw [this, transpose_smul, smul_comm]

/-- The retained orders do not depend on the unit of length. -/
theorem harmonics_scaled {A : List ℝ → List ℕ} (hA : ComparisonSort A) {l l' : Lattice} {s : ℝ} (hs : 0 < s)
    (hb : l.truncation = .oneD ∨ ∀ k i, l'.basis k i = s * l.basis k i) (ht : l'.truncation = l.truncation)
    (hh : l'.harmonicsArray = l.harmonicsArray) {nh : ℤ} {sort : Bool} {R} (h : l.getHarmonics A nh sort = .ok R) :
    l'.getHarmonics A nh sort = .ok R := by
  have main : ∀ Q, l.getHarmonics' A nh = .ok Q → l'.getHarmonics' A nh = .ok Q := by
    intro Q hQ
    unfold Lattice.getHarmonics' at hQ ⊢
    rw [hh, ht]
    rcases hu : l.harmonicsArray with _ | G
    · rw [hu] at hQ
      rcases htr : l.truncation with _ | _ | _
      · rw [htr] at hQ
        exact hQ
      · rw [htr] at hQ
        dsimp only at hQ ⊢
        have hb' := hb.resolve_left (by rw [htr]; simp)
        rw [bind_eq_ok] at hQ ⊢
        obtain ⟨r, hr, hQ⟩ := hQ
        exact ⟨_, reciprocal_scaled hs hb' hr, by rw [circular_scaled r hA (inv_pos.mpr hs)]; exact hQ⟩
      · rw [htr] at hQ
        dsimp only at hQ ⊢
        have hb' := hb.resolve_left (by rw [htr]; simp)
        rw [bind_eq_ok] at hQ ⊢
        obtain ⟨r, hr, hQ⟩ := hQ
        exact ⟨_, reciprocal_scaled hs hb' hr, by rw [parallelogramic_scaled r hA (inv_pos.mpr hs)]; exact hQ⟩
    · rw [hu] at hQ
      exact hQ
  unfold Lattice.getHarmonics at h ⊢
  rw [bind_eq_ok] at h ⊢
  obtain ⟨Q, h1, h2⟩ := h
  exact ⟨Q, main Q h1, h2⟩

theorem exists_comparisonSort : ∃ A, ArgsortContract A ∧ ComparisonSort A := by
  classical
  refine ⟨fun keys => (List.range keys.length).insertionSort
    (fun i j => keys.getD i 0 ≤ keys.getD j 0), fun keys => ⟨List.perm_insertionSort _ _, ?_⟩, ?_⟩
  · have : Std.Total (fun i j : ℕ => keys.getD i 0 ≤ keys.getD j 0) := ⟨fun i j => le_total _ _⟩
    have : IsTrans ℕ (fun i j : ℕ => keys.getD i 0 ≤ keys.getD j 0) := ⟨fun i j k => le_trans⟩
    exact List.pairwise_insertionSort _ _
  · intro l l' hl h
    dsimp only
    rw [hl]
    have : (fun i j : ℕ => l.getD i 0 ≤ l.getD j 0) = fun i j => l'.getD i 0 ≤ l'.getD j 0 := by
      funext i j
      exact propext (h i j)
    simp only [this]

end Nannos
