import Verif.Props.GeneratorsBorder

/-! C70: patterns of weak contrast. -/

namespace Nannos

open Spec Border Filter Topology

variable {Nx Ny : ℕ}

theorem smooth_mul [NeZero Nx] [NeZero Ny] (u : Grid Nx Ny) (s : ℝ) :
    smooth (fun i j => (s : ℂ) * u i j) = fun i j => (s : ℂ) * smooth u i j := by
  funext i j
  unfold smooth
  rw [← Complex.ofReal_mul]
  congr 1
  rw [Finset.mul_sum]
  refine Finset.sum_congr rfl fun a _ => ?_
  rw [Finset.mul_sum]
  refine Finset.sum_congr rfl fun b _ => ?_
  rw [Complex.re_ofReal_mul]
  ring

theorem gradientAxis_mul {n : ℕ} (s : ℂ) (f : Fin n → ℂ) (i : Fin n) :
    gradientAxis (fun k => s * f k) i = s * gradientAxis f i := by
  unfold gradientAxis entry
  split_ifs <;> ring

theorem weightedNormalPt_norm_le (v0 v1 v w : ℂ) (h : v = v0 ∨ v = v1) : ‖weightedNormalPt v0 v1 v w‖ ≤ ‖w‖ := by
  have hv : ‖v‖ ≤ normPt v0 v1 := by
    have : ‖v‖ ≤ Real.sqrt (Complex.normSq v0 + Complex.normSq v1) := by
      refine Real.le_sqrt_of_sq_le ?_
      rw [← Complex.normSq_eq_norm_sq]
      have h0 := Complex.normSq_nonneg v0
      have h1 := Complex.normSq_nonneg v1
      rcases h with rfl | rfl <;> linarith
    unfold normPt
    have : (0 : ℝ) ≤ 1 / 2 ^ 52 := by norm_num
    linarith
  have hn := normPt_pos v0 v1
  unfold weightedNormalPt normalizePt
  rw [if_neg (by linarith), norm_div, norm_mul, Complex.norm_real, norm_norm, Complex.norm_real, Real.norm_of_nonneg hn.le,
    div_le_iff₀ hn, mul_comm]
  exact mul_le_mul_of_nonneg_left hv (norm_nonneg _)

/-- Smoothing depends continuously on the normals. -/
theorem spread_tendsto {N : ℝ → Grid (3 * Nx) (3 * Ny)} (h : ∀ i j, Tendsto (fun s => N s i j) (𝓝 0) (𝓝 0)) (e : ℝ) (i : Fin (3 * Nx))
    (j : Fin (3 * Ny)) : Tendsto (fun s => spread e (N s) i j) (𝓝 0) (𝓝 0) := by
  have h1 : ∀ p q, Tendsto (fun s => fourierTransform (N s) p q) (𝓝 0) (𝓝 0) := by
    intro p q
    unfold fourierTransform fft2
    have : Tendsto (fun s => ∑ x, ∑ y, N s x y * Complex.exp (-(2 * Real.pi * Complex.I * (p * x / (3 * Nx : ℕ) + q * y / (3 * Ny : ℕ)))))
        (𝓝 0) (𝓝 (∑ x : Fin (3 * Nx), ∑ y : Fin (3 * Ny), 0 * Complex.exp (-(2 * Real.pi * Complex.I * (p * x / (3 * Nx : ℕ) + q * y / (3 * Ny : ℕ)))))) :=
      tendsto_finset_sum _ fun x _ => tendsto_finset_sum _ fun y _ => (h x y).mul_const _
    simpa using this.div_const (((3 * Nx : ℕ) : ℂ) * (3 * Ny : ℕ))
  unfold spread inverseFourierTransform ifft2
  have : Tendsto (fun s => ∑ p, ∑ q, fourierTransform (N s) p q *
      ((ftFilt (fftfreq (3 * Nx) p ^ 2 + fftfreq (3 * Ny) q ^ 2) e * Nx * Ny : ℝ) : ℂ) *
        Complex.exp (2 * Real.pi * Complex.I * (p * i / (3 * Nx : ℕ) + q * j / (3 * Ny : ℕ))))
      (𝓝 0) (𝓝 (∑ p : Fin (3 * Nx), ∑ q : Fin (3 * Ny), 0 *
      ((ftFilt (fftfreq (3 * Nx) p ^ 2 + fftfreq (3 * Ny) q ^ 2) e * Nx * Ny : ℝ) : ℂ) *
        Complex.exp (2 * Real.pi * Complex.I * (p * i / (3 * Nx : ℕ) + q * j / (3 * Ny : ℕ))))) :=
    tendsto_finset_sum _ fun x _ => tendsto_finset_sum _ fun y _ => ((h1 x y).mul_const _).mul_const _
  simpa using (this.const_mul (1 / (((3 * Nx : ℕ) : ℂ) * (3 * Ny : ℕ)))).mul_const (((3 * Nx : ℕ) : ℂ) * (3 * Ny : ℕ))

/-- The vectors before they are normalised, for the pattern times `s`. -/
noncomputable def scaledRaw (a : Grid Nx Ny) (hx : 0 < Nx) (hy : 0 < Ny) (s : ℝ) : Field2 :=
  haveI : NeZero (3 * Nx) := ⟨by omega⟩
  haveI : NeZero (3 * Ny) := ⟨by omega⟩
  rawField (Nx := Nx) (Ny := Ny) (fun i j => (s : ℂ) * gradientAxis (fun k => tile3 a k j) i) (fun i j => (s : ℂ) * gradientAxis (tile3 a i) j)
    (fun i j => (s : ℂ) * gradientAxis (fun k => smooth (tile3 a) k j) i) (fun i j => (s : ℂ) * gradientAxis (smooth (tile3 a) i) j)

theorem tangentFft_scaled (a : Grid Nx Ny) (hx : 0 < Nx) (hy : 0 < Ny) (s : ℝ) (c : ℂ) (n : Bool) :
    tangentFft ⟨Nx, Ny, fun x y => c + (s : ℂ) * a x y⟩ n = .ok (finishField n (scaledRaw a hx hy s)) := by
  haveI : NeZero (3 * Nx) := ⟨by omega⟩
  haveI : NeZero (3 * Ny) := ⟨by omega⟩
  rw [tangentFft_ok _ hx hy]
  have ht : tile3 (fun x y => c + (s : ℂ) * a x y) = fun i j => c + (s : ℂ) * tile3 a i j := rfl
  obtain ⟨d, hd⟩ := smooth_add (fun i j => (s : ℂ) * tile3 a i j) c
  rw [ht, hd, smooth_mul]
  simp only [gradientAxis_add (show 2 ≤ 3 * Nx by omega), gradientAxis_add (show 2 ≤ 3 * Ny by omega), gradientAxis_mul]
  rfl

theorem scaledRaw_tendsto (a : Grid Nx Ny) (hx : 0 < Nx) (hy : 0 < Ny) (x : Fin Nx) (y : Fin Ny) :
    Tendsto (fun s => (scaledRaw a hx hy s).t0 x y) (𝓝 0) (𝓝 0) ∧ Tendsto (fun s => (scaledRaw a hx hy s).t1 x y) (𝓝 0) (𝓝 0) := by
  haveI : NeZero (3 * Nx) := ⟨by omega⟩
  haveI : NeZero (3 * Ny) := ⟨by omega⟩
  have key : ∀ (v0 v1 v w : Grid (3 * Nx) (3 * Ny)) (_ : ∀ i j, v i j = v0 i j ∨ v i j = v1 i j) (i : Fin (3 * Nx)) (j : Fin (3 * Ny)),
      Tendsto (fun s : ℝ => weightedNormalPt ((s : ℂ) * v0 i j) ((s : ℂ) * v1 i j) ((s : ℂ) * v i j) ((s : ℂ) * w i j)) (𝓝 0) (𝓝 0) := by
    intro v0 v1 v w hv i j
    refine squeeze_zero_norm (a := fun s : ℝ => ‖(s : ℂ) * w i j‖) (fun s => weightedNormalPt_norm_le _ _ _ _ ?_) ?_
    · rcases hv i j with e | e <;> rw [e] <;> simp
    · have : Continuous fun s : ℝ => ‖(s : ℂ) * w i j‖ := by fun_prop
      simpa using this.tendsto 0
  constructor
  · have h := spread_tendsto (key (fun i j => gradientAxis (fun k => tile3 a k j) i) (fun i j => gradientAxis (tile3 a i) j)
      (fun i j => gradientAxis (tile3 a i) j) (fun i j => gradientAxis (smooth (tile3 a) i) j) fun i j => .inr rfl) (1 / 2)
      ⟨Nx + x, by omega⟩ ⟨Ny + y, by omega⟩
    have := (Complex.continuous_ofReal.tendsto _).comp ((Complex.continuous_re.tendsto _).comp h)
    rw [Complex.zero_re, Complex.ofReal_zero] at this
    exact this
  · have h := spread_tendsto (key (fun i j => gradientAxis (fun k => tile3 a k j) i) (fun i j => gradientAxis (tile3 a i) j)
      (fun i j => gradientAxis (fun k => tile3 a k j) i) (fun i j => gradientAxis (fun k => smooth (tile3 a) k j) i) fun i j => .inl rfl) (1 / 2)
      ⟨Nx + x, by omega⟩ ⟨Ny + y, by omega⟩
    have := ((Complex.continuous_ofReal.tendsto _).comp (((Complex.continuous_re.tendsto _).comp h).neg))
    rw [Complex.zero_re, neg_zero, Complex.ofReal_zero] at this
    exact this

theorem scaledRaw_norm_tendsto (a : Grid Nx Ny) (hx : 0 < Nx) (hy : 0 < Ny) (x : Fin Nx) (y : Fin Ny) :
    Tendsto (fun s => normPt ((scaledRaw a hx hy s).t0 x y) ((scaledRaw a hx hy s).t1 x y)) (𝓝 0) (𝓝 (1 / 2 ^ 52)) := by
  obtain ⟨h0, h1⟩ := scaledRaw_tendsto a hx hy x y
  unfold normPt
  have := ((Real.continuous_sqrt.tendsto _).comp (((Complex.continuous_normSq.tendsto _).comp h0).add
    ((Complex.continuous_normSq.tendsto _).comp h1))).const_add (1 / 2 ^ 52 : ℝ)
  simpa using this

/-- **C70**, weak patterns.  For every pattern there is a contrast below which the normalised vectors of the generator `'fft'`
are `(1, 0)` at every pixel, whatever the shapes: below an absolute threshold on the smoothed gradient the code does not look at
the pattern. -/
theorem C70_weak_patterns (a : Grid Nx Ny) (hx : 0 < Nx) (hy : 0 < Ny) :
    ∃ δ > 0, ∀ (s : ℝ) (c : ℂ), |s| < δ → tangentFft ⟨Nx, Ny, fun x y => c + (s : ℂ) * a x y⟩ true =
      .ok ⟨Nx, Ny, fun _ _ => 1, fun _ _ => 0⟩ := by
  have h : ∀ᶠ s in 𝓝 (0 : ℝ), ∀ x : Fin Nx, ∀ y : Fin Ny,
      normPt ((scaledRaw a hx hy s).t0 x y) ((scaledRaw a hx hy s).t1 x y) < 1 / 10 ^ 6 := by
    rw [eventually_all]
    intro x
    rw [eventually_all]
    intro y
    exact (scaledRaw_norm_tendsto a hx hy x y).eventually_lt_const (by norm_num)
  obtain ⟨δ, hδ, hb⟩ := Metric.eventually_nhds_iff.mp h
  refine ⟨δ, hδ, fun s c hs => ?_⟩
  have hs' := hb (by simpa using hs)
  rw [tangentFft_scaled a hx hy]
  refine congrArg Except.ok ?_
  unfold finishField normalizeField normalizeVecPt normalizePt
  have e : ∀ x : Fin Nx, ∀ y : Fin Ny, normPt ((scaledRaw a hx hy s).t0 x y) ((scaledRaw a hx hy s).t1 x y) ≤ 1 / 10 ^ 6 :=
    fun x y => (hs' x y).le
  have e0 : (fun (x : Fin Nx) (y : Fin Ny) => open Classical in
      if normPt ((scaledRaw a hx hy s).t0 x y) ((scaledRaw a hx hy s).t1 x y) ≤ 1 / 10 ^ 6 then (1 : ℂ) * 1
      else (scaledRaw a hx hy s).t0 x y / (normPt ((scaledRaw a hx hy s).t0 x y) ((scaledRaw a hx hy s).t1 x y) : ℂ)) = fun _ _ => 1 := by
    funext x y
    rw [if_pos (e x y), one_mul]
  have e1 : (fun (x : Fin Nx) (y : Fin Ny) => open Classical in
      if normPt ((scaledRaw a hx hy s).t0 x y) ((scaledRaw a hx hy s).t1 x y) ≤ 1 / 10 ^ 6 then (0 : ℂ) * 1
      else (scaledRaw a hx hy s).t1 x y / (normPt ((scaledRaw a hx hy s).t0 x y) ((scaledRaw a hx hy s).t1 x y) : ℂ)) = fun _ _ => 0 := by
    funext x y
    rw [if_pos (e x y), zero_mul]
  exact congrArg₂ (Field2.mk Nx Ny) e0 e1

/-- The generator `'fft'` sees a common factor of the permittivities: the condition of C103 on layers without given vectors is
needed. -/
theorem C103_generated_vectors_see_factor :
    ∃ a : Grid 3 1, ¬ ∀ p : ℝ, 0 < p → ∀ normalize,
      tangentFft ⟨3, 1, fun x y => (p : ℂ) ^ 2 * a x y⟩ normalize = tangentFft ⟨3, 1, a⟩ normalize := by
  refine ⟨row 2, fun h => ?_⟩
  set R := scaledRaw (row 2) (by norm_num) (by norm_num) with hR
  have e : ∀ s : ℝ, 0 < s → finishField false (R s) = finishField false (R 1) := by
    intro s hs
    have h1 := h (Real.sqrt s) (Real.sqrt_pos.mpr hs) false
    have h2 := tangentFft_scaled (row 2) (by norm_num) (by norm_num) s 0 false
    have h3 := tangentFft_scaled (row 2) (by norm_num) (by norm_num) 1 0 false
    have e1 : (fun x y => (0 : ℂ) + (s : ℂ) * row 2 x y) = fun x y => ((Real.sqrt s : ℝ) : ℂ) ^ 2 * row 2 x y := by
      funext x y
      rw [zero_add, ← Complex.ofReal_pow, Real.sq_sqrt hs.le]
    have e2 : (fun x y => (0 : ℂ) + ((1 : ℝ) : ℂ) * row 2 x y) = row 2 := by
      funext x y
      rw [zero_add, Complex.ofReal_one, one_mul]
    rw [e1] at h2
    rw [e2] at h3
    rw [h2, h3] at h1
    exact Except.ok.inj h1
  have z : ∀ x : Fin 3, (R 1).t1 x (0 : Fin 1) = 0 := by
    intro x
    have hM : ∀ s, (1 / 2 ^ 52 : ℝ) ≤ maxNorm (Nx := 3) (Ny := 1) (R s).t0 (R s).t1 := by
      intro s
      refine le_trans ?_ (maxNorm_ge _ _ x 0)
      unfold normPt
      have := Real.sqrt_nonneg (Complex.normSq ((R s).t0 x (0 : Fin 1)) + Complex.normSq ((R s).t1 x (0 : Fin 1)))
      linarith
    have hr : ∀ s : ℝ, 0 < s → (R s).t1 x (0 : Fin 1) / (maxNorm (Nx := 3) (Ny := 1) (R s).t0 (R s).t1 : ℂ) =
        (R 1).t1 x (0 : Fin 1) / (maxNorm (Nx := 3) (Ny := 1) (R 1).t0 (R 1).t1 : ℂ) := by
      intro s hs
      have := e s hs
      unfold finishField at this
      have := (Field2.mk.injEq _ _ _ _ _ _ _ _).mp this
      exact congrFun (congrFun (eq_of_heq this.2.2.2) x) (0 : Fin 1)
    have ht := (scaledRaw_tendsto (row 2) (by norm_num) (by norm_num) x 0).2
    have hlim : Tendsto (fun s => (R s).t1 x (0 : Fin 1) / (maxNorm (Nx := 3) (Ny := 1) (R s).t0 (R s).t1 : ℂ)) (𝓝 0) (𝓝 0) := by
      refine squeeze_zero_norm (a := fun s => ‖(R s).t1 x (0 : Fin 1)‖ * 2 ^ 52) (fun s => ?_) ?_
      · rw [norm_div, Complex.norm_real, Real.norm_of_nonneg (by linarith [hM s])]
        rw [div_le_iff₀ (by linarith [hM s])]
        have := mul_le_mul_of_nonneg_left (hM s) (norm_nonneg ((R s).t1 x (0 : Fin 1)))
        nlinarith
      · simpa using ht.norm.mul_const (2 ^ 52)
    have hc : Tendsto (fun _ : ℝ => (R 1).t1 x (0 : Fin 1) / (maxNorm (Nx := 3) (Ny := 1) (R 1).t0 (R 1).t1 : ℂ)) (𝓝[>] 0) (𝓝 0) := by
      refine (hlim.mono_left nhdsWithin_le_nhds).congr' ?_
      filter_upwards [self_mem_nhdsWithin] with s hs using hr s hs
    have h0 := tendsto_nhds_unique hc tendsto_const_nhds
    rcases div_eq_zero_iff.mp h0.symm with h | h
    · exact h
    · have := hM 1
      rw [Complex.ofReal_eq_zero] at h
      rw [h] at this
      norm_num at this
  have e1 : R 1 = rawField (Nx := 3) (Ny := 1) (fun i j => gradientAxis (fun k => tile3 (row 2) k j) i) (fun i j => gradientAxis (tile3 (row 2) i) j)
      (fun i j => gradientAxis (fun k => smooth (tile3 (row 2)) k j) i) (fun i j => gradientAxis (smooth (tile3 (row 2)) i) j) := by
    rw [hR]
    unfold scaledRaw
    simp only [Complex.ofReal_one, one_mul]
  have e2 := eq_of_heq ((Field2.mk.injEq _ _ _ _ _ _ _ _).mp e1).2.2.2
  exact row2_differs (((congrFun (congrFun e2 (2 : Fin 3)) (0 : Fin 1)).symm.trans (z 2)).trans
    ((congrFun (congrFun e2 (1 : Fin 3)) (0 : Fin 1)).symm.trans (z 1)).symm)

end Nannos
