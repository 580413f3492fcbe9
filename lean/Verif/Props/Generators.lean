import Verif.Proofs.Generators

/-! C70, C71: the generators of tangent vectors. -/

namespace Nannos

open Spec

variable {Nx Ny : ℕ}

theorem maxNorm_ge (t0 t1 : Grid Nx Ny) (x : Fin Nx) (y : Fin Ny) : normPt (t0 x y) (t1 x y) ≤ maxNorm t0 t1 :=
  le_ciSup (f := fun p : Fin Nx × Fin Ny => normPt (t0 p.1 p.2) (t1 p.1 p.2)) (Set.finite_range _).bddAbove (x, y)

theorem maxNorm_pos (t0 t1 : Grid Nx Ny) (x : Fin Nx) (y : Fin Ny) : 0 < maxNorm t0 t1 :=
  (normPt_pos _ _).trans_le (maxNorm_ge t0 t1 x y)

theorem normalizeVecPt_real {a b : ℂ} (ha : a.im = 0) (hb : b.im = 0) (n : ℝ) :
    (normalizeVecPt a b n).1.im = 0 ∧ (normalizeVecPt a b n).2.im = 0 := by
  unfold normalizeVecPt normalizePt
  constructor <;> dsimp only <;> split_ifs <;> simp [Complex.div_ofReal_im, ha, hb]

/-- What the normalised vector can be. -/
theorem normalizeVecPt_cases (a b : ℂ) :
    (normalizeVecPt a b (normPt a b) = (1, 0) ∧ length2 (a, b) + macheps ≤ 1 / 10 ^ 6) ∨
    (∃ k : ℝ, 0 < k ∧ normalizeVecPt a b (normPt a b) = (k * a, k * b)) ∧
      1 - 3 / 10 ^ 10 < length2 (normalizeVecPt a b (normPt a b)) := by
  obtain ⟨n, hn, hh, h⟩ := C52_normalised_vectors ⟨1, 1, fun _ _ => a, fun _ _ => b⟩ 0 0
  subst hn
  obtain ⟨h1, h2, -⟩ := h
  rcases le_or_gt (length2 (a, b) + macheps) (1 / 10 ^ 6) with h | h
  · exact .inl ⟨h1 h, h⟩
  · obtain ⟨h3, -, h4⟩ := h2 h
    exact .inr ⟨h3, h4⟩

theorem normalizeVecPt_le (a b : ℂ) : length2 (normalizeVecPt a b (normPt a b)) ≤ 1 := by
  obtain ⟨n, hn, hh, h⟩ := C52_normalised_vectors ⟨1, 1, fun _ _ => a, fun _ _ => b⟩ 0 0
  subst hn
  exact h.2.2

/-- **C70**. On every pattern with at least one pixel the generator `'fft'` succeeds, and returns real vectors, one per
pixel, not longer than one; on empty arrays it raises `ValueError`. -/
theorem C70_vectors (a : Grid Nx Ny) (normalize : Bool) :
    (Nx = 0 ∨ Ny = 0 → tangentFft ⟨Nx, Ny, a⟩ normalize = .error .valueError) ∧
    (0 < Nx → 0 < Ny → ∃ t0 t1 : Grid Nx Ny, tangentFft ⟨Nx, Ny, a⟩ normalize = .ok ⟨Nx, Ny, t0, t1⟩ ∧
      ∀ x y, (t0 x y).im = 0 ∧ (t1 x y).im = 0 ∧ length2 (t0 x y, t1 x y) ≤ 1) := by
  refine ⟨fun h => tangentFft_empty a h normalize, fun hx hy => ?_⟩
  rw [tangentFft_ok a hx hy]
  cases normalize with
  | true =>
    refine ⟨_, _, rfl, fun x y => ?_⟩
    dsimp only [rawField, finishField, normalizeField]
    refine ⟨(normalizeVecPt_real (Complex.ofReal_im _) (Complex.ofReal_im _) _).1,
      (normalizeVecPt_real (Complex.ofReal_im _) (Complex.ofReal_im _) _).2, normalizeVecPt_le _ _⟩
  | false =>
    refine ⟨_, _, rfl, fun x y => ?_⟩
    set R := rawField (Nx := Nx) (Ny := Ny) _ _ _ _ with hR
    change _ ∧ _ ∧ length2 (R.t0 x y / _, R.t1 x y / _) ≤ 1
    have hM := maxNorm_pos R.t0 R.t1 x y
    have hg := maxNorm_ge R.t0 R.t1 x y
    refine ⟨?_, ?_, ?_⟩
    · rw [Complex.div_ofReal_im]; simp [hR, rawField]
    · rw [Complex.div_ofReal_im]; simp [hR, rawField]
    · have e : (R.t0 x y / (maxNorm R.t0 R.t1 : ℂ), R.t1 x y / (maxNorm R.t0 R.t1 : ℂ)) =
          (((1 / maxNorm R.t0 R.t1 : ℝ) : ℂ) * R.t0 x y, ((1 / maxNorm R.t0 R.t1 : ℝ) : ℂ) * R.t1 x y) := by
        push_cast
        rw [one_div, div_eq_inv_mul, div_eq_inv_mul]
      rw [e, length2_smul (((1 / maxNorm R.t0 R.t1 : ℝ) : ℂ)) (R.t0 x y, R.t1 x y), Complex.norm_real, Real.norm_eq_abs,
        abs_of_pos (by positivity), one_div, ← div_eq_inv_mul, div_le_one hM]
      rw [normPt_eq] at hg
      have := macheps_pos
      linarith

/-! ### Lamellae -/

theorem length2_left (b : ℂ) : length2 (0, b) = ‖b‖ := by
  unfold length2
  simp [Real.sqrt_sq (norm_nonneg b)]

theorem length2_right (b : ℂ) : length2 (b, 0) = ‖b‖ := by
  unfold length2
  simp [Real.sqrt_sq (norm_nonneg b)]

theorem weightedNormalPt_zero (v0 v1 w : ℂ) : weightedNormalPt v0 v1 0 w = 0 := by
  unfold weightedNormalPt normalizePt
  split_ifs <;> simp

theorem weightedNormalPt_flat (v0 v1 v : ℂ) : weightedNormalPt v0 v1 v 0 = 0 := by
  unfold weightedNormalPt normalizePt
  split_ifs <;> simp

theorem rawField_t0 {v0 v1 w0 w1 : Grid (3 * Nx) (3 * Ny)}
    (h : ∀ i j, weightedNormalPt (v0 i j) (v1 i j) (v1 i j) (w1 i j) = 0) (x : Fin Nx) (y : Fin Ny) :
    (rawField v0 v1 w0 w1).t0 x y = 0 := by
  have e : (fun i j => weightedNormalPt (v0 i j) (v1 i j) (v1 i j) (w1 i j)) = fun _ _ => 0 := by
    funext i j; exact h i j
  unfold rawField
  dsimp only
  rw [e, spread_zero]
  simp [centre]

theorem rawField_t1 {v0 v1 w0 w1 : Grid (3 * Nx) (3 * Ny)}
    (h : ∀ i j, weightedNormalPt (v0 i j) (v1 i j) (v0 i j) (w0 i j) = 0) (x : Fin Nx) (y : Fin Ny) :
    (rawField v0 v1 w0 w1).t1 x y = 0 := by
  have e : (fun i j => weightedNormalPt (v0 i j) (v1 i j) (v0 i j) (w0 i j)) = fun _ _ => 0 := by
    funext i j; exact h i j
  unfold rawField
  dsimp only
  rw [e, spread_zero]
  simp [centre]

/-- **C70**, lamellae. For a pattern which does not change along the second axis (lamellae along it), the generated vectors
point along it, except that, when vectors are normalised (formulation `tangent`), pixels where the smoothed gradient is
too small get the vector `(1, 0)`, across the lamellae.  For a pattern which does not change along the first axis, all
vectors point along it. -/
theorem C70_lamellae (a : Grid Nx Ny) (hx : 0 < Nx) (hy : 0 < Ny) (normalize : Bool) :
    ∃ t0 t1 : Grid Nx Ny, tangentFft ⟨Nx, Ny, a⟩ normalize = .ok ⟨Nx, Ny, t0, t1⟩ ∧
      ((∀ x y y', a x y = a x y') → ∀ x y,
        (normalize = false → t0 x y = 0) ∧
        (normalize = true → (t0 x y = 0 ∧ 1 - 3 / 10 ^ 10 < ‖t1 x y‖) ∨ (t0 x y = 1 ∧ t1 x y = 0))) ∧
      ((∀ x x' y, a x y = a x' y) → ∀ x y,
        t1 x y = 0 ∧ (normalize = true → 1 - 3 / 10 ^ 10 < ‖t0 x y‖)) := by
  rw [tangentFft_ok a hx hy]
  set R := rawField (Nx := Nx) (Ny := Ny) _ _ _ _ with hR
  refine ⟨(finishField normalize R).t0, (finishField normalize R).t1, rfl, fun h x y => ?_, fun h x y => ?_⟩
  · have h0 : R.t0 x y = 0 := by
      apply rawField_t0
      intro i j
      have : gradientAxis (tile3 a i) j = 0 := by
        have : tile3 a i = fun _ => a ⟨i % Nx, Nat.mod_lt _ hx⟩ ⟨0, hy⟩ := by
          funext j; exact h _ _ _
        rw [this]
        exact gradientAxis_const (by omega) _ _
      rw [this]
      exact weightedNormalPt_zero _ _ _
    refine ⟨fun hn => ?_, fun hn => ?_⟩
    · subst hn
      change R.t0 x y / _ = 0
      rw [h0, zero_div]
    · subst hn
      have hc := normalizeVecPt_cases (R.t0 x y) (R.t1 x y)
      change ((normalizeVecPt (R.t0 x y) (R.t1 x y) _).1 = 0 ∧ _ < ‖(normalizeVecPt (R.t0 x y) (R.t1 x y) _).2‖) ∨
        ((normalizeVecPt (R.t0 x y) (R.t1 x y) _).1 = 1 ∧ (normalizeVecPt (R.t0 x y) (R.t1 x y) _).2 = 0)
      rcases hc with ⟨e, -⟩ | ⟨⟨k, -, e⟩, h4⟩
      · rw [e]; exact .inr ⟨rfl, rfl⟩
      · rw [e] at h4 ⊢
        rw [h0, mul_zero] at h4 ⊢
        refine .inl ⟨rfl, ?_⟩
        rwa [length2_left] at h4
  · have h0 : R.t1 x y = 0 := by
      apply rawField_t1
      intro i j
      have : gradientAxis (fun k => tile3 a k j) i = 0 := by
        have : (fun k => tile3 a k j) = fun _ => a ⟨0, hx⟩ ⟨j % Ny, Nat.mod_lt _ hy⟩ := by
          funext i; exact h _ _ _
        rw [this]
        exact gradientAxis_const (by omega) _ _
      rw [this]
      exact weightedNormalPt_zero _ _ _
    cases normalize with
    | false =>
      refine ⟨?_, by simp⟩
      change R.t1 x y / _ = 0
      rw [h0, zero_div]
    | true =>
      have hc := normalizeVecPt_cases (R.t0 x y) (R.t1 x y)
      change (normalizeVecPt (R.t0 x y) (R.t1 x y) _).2 = 0 ∧ (_ → _ < ‖(normalizeVecPt (R.t0 x y) (R.t1 x y) _).1‖)
      rcases hc with ⟨e, -⟩ | ⟨⟨k, -, e⟩, h4⟩
      · rw [e]; exact ⟨rfl, fun _ => by norm_num⟩
      · rw [e] at h4 ⊢
        rw [h0, mul_zero] at h4 ⊢
        refine ⟨rfl, fun _ => ?_⟩
        rwa [length2_right] at h4

/-- **C70**, absorbing inclusions. When all pixels have the same real part, the generator sees no interface: the vectors are
zero, and `(1, 0)` at all pixels when they are normalised, whatever the pattern of the imaginary part. -/
theorem C70_absorbing_inclusions_are_not_seen (a : Grid Nx Ny) (hx : 0 < Nx) (hy : 0 < Ny) (r : ℝ)
    (h : ∀ x y, (a x y).re = r) :
    tangentFft ⟨Nx, Ny, a⟩ true = .ok ⟨Nx, Ny, fun _ _ => 1, fun _ _ => 0⟩ ∧
    tangentFft ⟨Nx, Ny, a⟩ false = .ok ⟨Nx, Ny, fun _ _ => 0, fun _ _ => 0⟩ := by
  have : NeZero (3 * Nx) := ⟨by omega⟩
  have : NeZero (3 * Ny) := ⟨by omega⟩
  rw [tangentFft_ok a hx hy, tangentFft_ok a hx hy]
  set R := rawField (Nx := Nx) (Ny := Ny) _ _ _ _ with hR
  obtain ⟨d, hd⟩ := smooth_im (u := tile3 a) r (fun i j => h _ _)
  have e0 : ∀ x y, R.t0 x y = 0 := by
    intro x y
    apply rawField_t0
    intro i j
    rw [hd, gradientAxis_const (by omega)]
    exact weightedNormalPt_flat _ _ _
  have e1 : ∀ x y, R.t1 x y = 0 := by
    intro x y
    apply rawField_t1
    intro i j
    rw [hd, gradientAxis_const (by omega)]
    exact weightedNormalPt_flat _ _ _
  have eR : R = ⟨Nx, Ny, fun _ _ => 0, fun _ _ => 0⟩ := by
    have : R = ⟨Nx, Ny, R.t0, R.t1⟩ := rfl
    rw [this]
    congr 1
    · funext x y; exact e0 x y
    · funext x y; exact e1 x y
  rw [eR]
  have hn : normPt 0 0 ≤ 1 / 10 ^ 6 := by
    unfold normPt
    norm_num
  refine ⟨?_, ?_⟩
  · congr 1
    change normalizeField _ = _
    unfold normalizeField normalizeVecPt normalizePt
    simp only [if_pos hn, mul_one]
  · congr 1
    unfold finishField
    simp

/-! ### Exchange of materials -/

theorem weightedNormalPt_neg (v0 v1 v w : ℂ) : weightedNormalPt (-v0) (-v1) (-v) (-w) = -weightedNormalPt v0 v1 v w := by
  unfold weightedNormalPt normalizePt normPt
  rw [norm_neg, Complex.normSq_neg, Complex.normSq_neg]
  split_ifs
  · simp
  · rw [neg_mul, neg_div]

theorem normPt_neg (a b : ℂ) : normPt (-a) (-b) = normPt a b := by
  unfold normPt
  rw [Complex.normSq_neg, Complex.normSq_neg]

theorem rawField_neg {v0 v1 w0 w1 v0' v1' w0' w1' : Grid (3 * Nx) (3 * Ny)} (h0 : ∀ i j, v0' i j = -v0 i j)
    (h1 : ∀ i j, v1' i j = -v1 i j) (h2 : ∀ i j, w0' i j = -w0 i j) (h3 : ∀ i j, w1' i j = -w1 i j) :
    rawField v0' v1' w0' w1' =
      ⟨Nx, Ny, fun x y => -(rawField v0 v1 w0 w1).t0 x y, fun x y => -(rawField v0 v1 w0 w1).t1 x y⟩ := by
  unfold rawField
  dsimp only
  simp only [h0, h1, h2, h3, weightedNormalPt_neg, spread_neg, centre, Complex.neg_re, Complex.ofReal_neg, neg_neg]

/-- **C70**, exchange of the materials. Replacing the pattern `a` by `c - a`, in particular exchanging two materials,
reverses the vectors or keeps them, so that the projectors made of products of two components are the same; adding a
constant to the pattern changes nothing. -/
theorem C70_exchange_of_materials (a : Grid Nx Ny) (hx : 0 < Nx) (hy : 0 < Ny) (c : ℂ) (normalize : Bool) :
    ∃ t0 t1 s0 s1 : Grid Nx Ny, tangentFft ⟨Nx, Ny, a⟩ normalize = .ok ⟨Nx, Ny, t0, t1⟩ ∧
      tangentFft ⟨Nx, Ny, fun x y => c - a x y⟩ normalize = .ok ⟨Nx, Ny, s0, s1⟩ ∧
      tangentFft ⟨Nx, Ny, fun x y => c + a x y⟩ normalize = .ok ⟨Nx, Ny, t0, t1⟩ ∧
      ∀ x y, (s0 x y = -t0 x y ∧ s1 x y = -t1 x y) ∨ (s0 x y = t0 x y ∧ s1 x y = t1 x y) := by
  have : NeZero (3 * Nx) := ⟨by omega⟩
  have : NeZero (3 * Ny) := ⟨by omega⟩
  rw [tangentFft_ok a hx hy, tangentFft_ok (fun x y => c - a x y) hx hy, tangentFft_ok (fun x y => c + a x y) hx hy]
  have ht : tile3 (fun x y => c - a x y) = fun i j => c - tile3 a i j := rfl
  have ht' : tile3 (fun x y => c + a x y) = fun i j => c + tile3 a i j := rfl
  obtain ⟨d, hd⟩ := smooth_neg (tile3 a) c
  obtain ⟨d', hd'⟩ := smooth_add (tile3 a) c
  rw [ht, ht', hd, hd']
  rw [rawField_neg (v0 := fun i j => gradientAxis (fun k => tile3 a k j) i) (v1 := fun i j => gradientAxis (tile3 a i) j)
    (w0 := fun i j => gradientAxis (fun k => smooth (tile3 a) k j) i) (w1 := fun i j => gradientAxis (smooth (tile3 a) i) j)
    (fun i j => gradientAxis_neg (by omega) _ _ _) (fun i j => gradientAxis_neg (by omega) _ _ _)
    (fun i j => gradientAxis_neg (by omega) _ _ _) (fun i j => gradientAxis_neg (by omega) _ _ _)]
  set R := rawField (Nx := Nx) (Ny := Ny) (fun i j => gradientAxis (fun k => tile3 a k j) i)
    (fun i j => gradientAxis (tile3 a i) j) (fun i j => gradientAxis (fun k => smooth (tile3 a) k j) i)
    (fun i j => gradientAxis (smooth (tile3 a) i) j) with hR
  refine ⟨(finishField normalize R).t0, (finishField normalize R).t1, _, _, ?_, rfl, ?_, fun x y => ?_⟩
  · cases normalize <;> rfl
  · simp only [gradientAxis_add (show 2 ≤ 3 * Nx by omega), gradientAxis_add (show 2 ≤ 3 * Ny by omega)]
    rw [← hR]
    cases normalize <;> rfl
  · cases normalize with
    | false =>
      left
      have e : maxNorm (fun x y => -R.t0 x y) (fun x y => -R.t1 x y) = maxNorm R.t0 R.t1 := by
        unfold maxNorm
        simp only [normPt_neg]
      change -R.t0 x y / (maxNorm (fun x y => -R.t0 x y) (fun x y => -R.t1 x y) : ℂ) = -(R.t0 x y / (maxNorm R.t0 R.t1 : ℂ)) ∧
        -R.t1 x y / (maxNorm (fun x y => -R.t0 x y) (fun x y => -R.t1 x y) : ℂ) = -(R.t1 x y / (maxNorm R.t0 R.t1 : ℂ))
      rw [e, neg_div, neg_div]
      exact ⟨rfl, rfl⟩
    | true =>
      change ((normalizeVecPt (-R.t0 x y) (-R.t1 x y) (normPt (-R.t0 x y) (-R.t1 x y))).1 =
          -(normalizeVecPt (R.t0 x y) (R.t1 x y) (normPt (R.t0 x y) (R.t1 x y))).1 ∧
        (normalizeVecPt (-R.t0 x y) (-R.t1 x y) (normPt (-R.t0 x y) (-R.t1 x y))).2 =
          -(normalizeVecPt (R.t0 x y) (R.t1 x y) (normPt (R.t0 x y) (R.t1 x y))).2) ∨
        ((normalizeVecPt (-R.t0 x y) (-R.t1 x y) (normPt (-R.t0 x y) (-R.t1 x y))).1 =
          (normalizeVecPt (R.t0 x y) (R.t1 x y) (normPt (R.t0 x y) (R.t1 x y))).1 ∧
        (normalizeVecPt (-R.t0 x y) (-R.t1 x y) (normPt (-R.t0 x y) (-R.t1 x y))).2 =
          (normalizeVecPt (R.t0 x y) (R.t1 x y) (normPt (R.t0 x y) (R.t1 x y))).2)
      rw [normPt_neg]
      unfold normalizeVecPt normalizePt
      split_ifs
      · exact .inr ⟨rfl, rfl⟩
      · exact .inl ⟨neg_div _ _, neg_div _ _⟩

/-! ### Cases -/

/-- C70: absorbing lamellae along the second axis; normalised vectors point across them. -/
example : ∃ a : Grid 4 2, (∀ x y y', a x y = a x y') ∧ (∀ x y, (a x y).re = 2) ∧ a 0 0 ≠ a 2 0 ∧
    tangentFft ⟨4, 2, a⟩ true = .ok ⟨4, 2, fun _ _ => 1, fun _ _ => 0⟩ := by
  refine ⟨fun x _ => if (x : ℕ) < 2 then 2 else 2 + Complex.I, fun _ _ _ => rfl, fun x y => ?_, ?_, ?_⟩
  · dsimp only
    split_ifs <;> simp
  · simp
  · refine (C70_absorbing_inclusions_are_not_seen _ (by norm_num) (by norm_num) 2 fun x y => ?_).1
    split_ifs <;> simp

/-- C70: lamellae along the first axis, and the exchange of their materials. -/
example : ∃ a : Grid 2 4, (∀ x x' y, a x y = a x' y) ∧ a 0 0 = 1 ∧ a 0 2 = 4 ∧
    (fun x y => 5 - a x y) = (fun _ y => if (y : ℕ) < 2 then (4 : ℂ) else 1 : Grid 2 4) := by
  refine ⟨fun _ y => if (y : ℕ) < 2 then 1 else 4, fun _ _ _ => rfl, by simp, by simp, ?_⟩
  funext x y
  by_cases h : (y : ℕ) < 2 <;> simp only [h, if_true, if_false] <;> norm_num

end Nannos
