import Verif.Proofs.SolveTotalVectors
import Verif.Props.Absorbing
import Verif.Props.ZeroVectors

/-! **C86** in every formulation, and for tensors. -/

namespace Nannos

open Matrix Spec

variable {E : Ext} {lats : ℕ → Lattice} {mats : ℕ → LayerSpec} {stack : List ℕ} {exc : PlaneWave} {nh : ℤ} {form : String} {c : Static}

theorem toeplitz_below {Nx Ny : ℕ} (h : ∀ g ∈ c.harmonics, ∀ k ∈ c.harmonics, |g.1 - k.1| < Nx ∧ |g.2 - k.2| < Ny) (u : Grid Nx Ny) :
    ∃ A, toeplitz c.harmonics.get u = .ok A := by
  refine toeplitz_exists u fun i j => ?_
  obtain ⟨h1, h2⟩ := h _ (List.get_mem c.harmonics i) _ (List.get_mem c.harmonics j)
  rw [abs_lt] at h1 h2
  omega

/-- **C86**, any formulation, patterns of numbers or of tensors: solving succeeds, at any time, if the eigenvalue routine returns.  In the
formulations with vectors, the layers get some, see `C86_fft_vectors` and `C86_opt_vectors`.  The patterns have more pixels than the largest
differences of orders. -/
theorem C86_solve_succeeds_any_formulation (hinit : simInit E lats mats stack exc nh form = .ok c)
    (hsolv : ∀ n M, ∃ wv, E.eig n M = .ok wv) (hnd : c.harmonics.Nodup)
    (hw : WellPlaced mats stack) (hmu : ∀ r ∈ stack, (mats r).mu ≠ 0)
    (hlay : ∀ r ∈ stack, (mats r).iscopy = false → (Homogeneous (mats r) ∧ (mats r).epsilon.value ≠ 0) ∨
      ∃ Nx Ny : ℕ, (∀ g ∈ c.harmonics, ∀ k ∈ c.harmonics, |g.1 - k.1| < Nx ∧ |g.2 - k.2| < Ny) ∧
        (SolvablePattern E c (mats r) Nx Ny ∨ SolvableTensors E c (mats r) Nx Ny))
    (hist : List (Call c.nh)) :
    (solve E c (afterCalls E c hist (Dyn.fresh mats (unsolved c.nh)))).1 = .ok () := by
  have hi := simInit_ok hinit
  have hst : c.stack = stack := hi.stack_eq
  have hsn : c.stack.Nodup := hst ▸ hi.nodup
  obtain ⟨A1, res, hs, -⟩ := solveSpec_of_noStale (E := E) (mats := mats) hsn
    (noStale_unsolved (c := c) mats c.stack)
  obtain ⟨n, hharm⟩ := hi.harm
  have hnh : 0 < c.nh := by
    obtain ⟨M, h1, -⟩ := checkNyquist_ok hi.nyquist
    obtain ⟨g, hg, -⟩ := maxHarmonic_mem h1
    exact List.length_pos_of_mem hg
  have hall : (solveAll E c c.stack (Dyn.fresh mats (unsolved c.nh))).1 = .ok () := by
    refine solveAll_total hsolv c.stack [] _ (by simpa using hsn) rfl (by rw [List.nil_append, hst]; exact hw) ?_ (by simp)
    intro r hr hc
    rw [List.nil_append, hst] at hr
    rcases hlay r hr hc with h | ⟨Nx, Ny, hd, h⟩
    · exact .inl h
    · exact .inr (buildPure_solvable hnh (List.nodup_iff_injective_get.mp hnd) (toeplitz_below hd) (harmonics_again hharm c.nh hnh) (hmu r hr) h)
  have hrun := hs.run (Dyn.fresh mats (unsolved c.nh)) rfl (.inl rfl)
  rw [hrun] at hall
  obtain rfl : res = .ok () := hall
  have h0 : Inv E c mats (unsolved c.nh) A1 (.ok ()) (Dyn.fresh mats (unsolved c.nh)) := inv_fresh _ (.inl rfl)
  have hd := h0.calls hs hist
  unfold solve
  rw [PyM.bind_ok (hs.run _ hd.mats_eq hd.attrs)]
  rfl

/-- **C86**: the generator `'fft'` makes vectors for every pattern. -/
theorem C86_fft_vectors {Nx Ny : ℕ} (fit : PGrid → List (ℤ × ℤ) → Bool → Except PyErr Field2) {L : LayerSpec} (w : Grid Nx Ny)
    (hx : 0 < Nx) (hy : 0 < Ny) (ht : L.tangentField = none) (hty : L.tangentFieldType = "fft") :
    VectorsMade (E.withGenerators fit) c L ⟨Nx, Ny, w⟩ := by
  refine .inr ⟨ht, .inl hty, fun H n _ => ?_⟩
  obtain ⟨t0, t1, h1, h2⟩ := (C70_vectors w (c.formulation == "tangent")).2 hx hy
  rw [hty]
  exact ⟨_, h1, rfl, rfl, fun x y => ⟨(h2 x y).1, (h2 x y).2.1⟩⟩

/-- **C86**: so does the default generator, with its search, for patterns of a size it accepts (C71) which are not zero everywhere, if the
orders it is asked for are distinct, come in opposite pairs and fit into its reduced array. -/
theorem C86_opt_vectors {Nx Ny : ℕ} {L : LayerSpec} {w : Grid Nx Ny} (hs : OptShape Nx Ny) (h0 : ∃ x y, w x y ≠ 0)
    (hord : ∀ H n, c.lattice.getHarmonics E.argsort c.nh true = .ok (H, n) →
      OrdersFit Nx Ny H ∧ BalancedOrders H (reducedSide Nx) (reducedSide Ny))
    (ht : L.tangentField = none) (hty : L.tangentFieldType = "opt") :
    VectorsMade (E.withGenerators (optFit newtonCG)) c L ⟨Nx, Ny, w⟩ := by
  refine .inr ⟨ht, .inr hty, fun H n hH => ?_⟩
  obtain ⟨ho, hb⟩ := hord H n hH
  obtain ⟨d, t, -, h, -⟩ := opt_newton hs h0 ho hb (c.formulation == "tangent")
  refine ⟨t, by rw [hty]; exact h, ?_⟩
  obtain ⟨-, -, hf⟩ := tangentOpt_ok h
  obtain ⟨-, x, -, -, rfl⟩ := optFit_ok hf
  unfold vectorOf finishOpt
  cases (c.formulation == "tangent")
  · refine ⟨rfl, rfl, fun x y => ?_⟩
    have real : ∀ a b : ℝ, ((a : ℂ) / (b : ℂ)).im = 0 := by
      intro a b
      rw [← Complex.ofReal_div]
      exact Complex.ofReal_im _
    exact ⟨real _ _, real _ _⟩
  · exact ⟨rfl, rfl, fun x y => normalizeVecPt_real (Complex.ofReal_im _) (Complex.ofReal_im _) _⟩

end Nannos

namespace Nannos.Examples

open Matrix Spec

theorem grid_pixels {Nx Ny : ℕ} (ty : String) (g : Grid Nx Ny) (h : [Nx, Ny] ≠ [3, 3]) :
    HasPixels (gridMats ty g 1) ⟨Nx, Ny, g⟩ := by
  have ha : (gridMats ty g 1).isAnisotropic = false := by
    change decide (List.take 2 [Nx, Ny] = [3, 3]) = false
    simpa using h
  have hp := patternOf_grid ty g h
  unfold patternOf at hp
  rw [ha] at hp
  refine ⟨?_, ha, hp⟩
  unfold LayerSpec.isUniform Nannos.isUniform
  unfold LayerSpec.isAnisotropic at ha
  rw [if_neg (by simp [ha])]
  rfl

/-- C86: any pattern with positive permittivities on a square lattice, oblique incidence, five orders, Jones vectors made from the vectors of
the generator `'fft'`. -/
example (g : Grid 64 64) (hg : ∀ x y, ∃ t : ℝ, 0 < t ∧ g x y = t) : ∃ E fit exc c,
    simInit (Ext.withGenerators E fit) (fun _ => square5) (gridMats "fft" g) [0, 1, 2] exc 5 "jones" = .ok c ∧ EigContract E ∧
    (∀ n M, ∃ wv, E.eig n M = .ok wv) ∧ planeWave 1 (60, 30, 45) = .ok exc ∧
    (solve (Ext.withGenerators E fit) c (Dyn.fresh (gridMats "fft" g) (unsolved c.nh))).1 = .ok () := by
  obtain ⟨E, hE, hA, htot⟩ := exists_total_eig
  obtain ⟨exc, h1, -⟩ := oblique_wave 1 30 45 one_pos
  obtain ⟨c, hc, hp, hl⟩ := listed_init (E := E.withGenerators (optFit newtonCG)) hA (l := square5) rfl rfl rfl
    (by simp [square5, Lattice.matrix, det_fin_two]) (by simp) (by simp) "fft" g exc 5 "jones" (by simp)
  have hd : ∀ g ∈ c.harmonics, ∀ k ∈ c.harmonics, |g.1 - k.1| < 64 ∧ |g.2 - k.2| < 64 := by
    intro g hg k hk
    have : ∀ g ∈ ([(0, 0), (-1, 0), (1, 0), (0, 1), (0, -1)] : List (ℤ × ℤ)),
      ∀ k ∈ ([(0, 0), (-1, 0), (1, 0), (0, 1), (0, -1)] : List (ℤ × ℤ)), |g.1 - k.1| < 64 ∧ |g.2 - k.2| < 64 := by decide
    exact this g (hp.mem_iff.mp hg) k (hp.mem_iff.mp hk)
  refine ⟨E, optFit newtonCG, exc, c, hc, hE, htot, h1, ?_⟩
  refine C86_solve_succeeds_any_formulation hc htot (hp.nodup_iff.mpr (by decide)) (gridMats_placed _ g) (fun r _ => ?_) (fun r _ _ => ?_) []
  · rw [(gridMats_cases _ g r).2.1]; exact one_ne_zero
  · by_cases hr : r = 1
    · subst hr
      refine .inr ⟨64, 64, hd, .inl ⟨g, grid_pixels "fft" g (by decide), ⟨Complex.I, fun x y => ?_⟩, .inr (.inr ?_)⟩⟩
      · obtain ⟨t, ht, e⟩ := hg x y
        rw [e]
        simpa using ht
      · exact C86_fft_vectors _ g (by norm_num) (by norm_num) (gridMats_cases _ g 1).2.2.2 rfl
    · left
      unfold gridMats
      rw [if_neg hr]
      exact ⟨⟨rfl, rfl, rfl⟩, by simp [exLayer, NdArr.scalar, NdArr.value]⟩

/-- C86: a pattern of tensors `diag(2, 3, 4)` in the formulation with tangent vectors. -/
example (E : Ext) (fit : PGrid → List (ℤ × ℤ) → Bool → Except PyErr Field2) (c : Static) (h : c.lattice.is1D = false) :
    SolvableTensors (E.withGenerators fit) c crystal 2 2 := by
  refine ⟨fun i j _ _ => if i = j then ((i : ℕ) + 2 : ℂ) else 0, rfl, rfl, fun i j => ?_, ⟨Complex.I, fun x y => ?_⟩,
    .inr ⟨h, rfl, C86_fft_vectors _ _ (by norm_num) (by norm_num) rfl rfl, Complex.I, fun x y p q hpq => ?_⟩⟩
  · fin_cases i <;> fin_cases j <;> simp [crystal, NdArr.comp, NdArr.toGrid] <;> norm_num
  · simp
  · have e : Complex.I * (star p * (0 + 2) * p + star p * 0 * q + star q * 0 * p + star q * (1 + 2) * q) =
        ((2 * Complex.normSq p + 3 * Complex.normSq q : ℝ) : ℂ) * Complex.I := by
      push_cast
      rw [Complex.normSq_eq_conj_mul_self, Complex.normSq_eq_conj_mul_self]
      simp only [Complex.star_def]
      ring
    have hpos : 0 < 2 * Complex.normSq p + 3 * Complex.normSq q := by
      have := Complex.normSq_nonneg p
      have := Complex.normSq_nonneg q
      rcases hpq with h | h
      · have := Complex.normSq_pos.mpr h
        linarith
      · have := Complex.normSq_pos.mpr h
        linarith
    simp only [Fin.isValue, if_true, Fin.val_zero, Fin.val_one, Nat.cast_zero, Nat.cast_one, zero_ne_one, one_ne_zero, if_false]
    rw [e, Complex.im_ofReal_mul]
    simpa using hpos

/-- The dot of permittivity 4 in air is a pattern as in C107: eight by eight pixels, clear of the border. -/
theorem dotSquare_pattern : ClearPattern (gridMats "opt" (dotSquare 2) 1) 8 (dotSquare 2) := by
  refine ⟨by norm_num, by unfold OptShape; omega, grid_pixels "opt" _ (by decide), dotSquare_clear 2 (by norm_num) (by norm_num),
    ⟨Complex.I, fun x y => ?_⟩, rfl, rfl⟩
  unfold dotSquare
  split_ifs <;> simp

/-- C107, C55, C95, C86: the dot with the default truncation, the default generator and nine harmonics.  The formulation `'jones'` returns what
`'original'` returns; the simulation solves; and the hypotheses of `C55_square_nine` and of `C95_square_nine` are met. -/
example : ∃ E c, EigContract E ∧ ArgsortContract E.argsort ∧
    simInit (E.withGenerators (optFit newtonCG)) (fun _ => disk) (gridMats "opt" (dotSquare 2)) [0, 1, 2] exExc 9 "jones" = .ok c ∧
    (∀ (hist : List (Call c.nh)) (a : Call c.nh),
      Call.result (E.withGenerators (optFit newtonCG)) { c with formulation := "original" } a
          (afterCalls (E.withGenerators (optFit newtonCG)) { c with formulation := "original" } hist
            (Dyn.fresh (gridMats "opt" (dotSquare 2)) (unsolved c.nh))) =
        a.result (E.withGenerators (optFit newtonCG)) c
          (afterCalls (E.withGenerators (optFit newtonCG)) c hist (Dyn.fresh (gridMats "opt" (dotSquare 2)) (unsolved c.nh)))) ∧
    (solve (E.withGenerators (optFit newtonCG)) c (Dyn.fresh (gridMats "opt" (dotSquare 2)) (unsolved c.nh))).1 = .ok () ∧
    (∃ M p Q, buildPure (E.withGenerators (optFit newtonCG)) c (gridMats "opt" (dotSquare 2) 1) = .ok (.patterned M p Q)) ∧
    UsesVectors c ∧ c.lattice.truncation = .circular ∧ c.lattice.harmonicsArray = none ∧ c.lattice.basis = ![![1, 0], ![0, 1]] ∧
    (gridMats "opt" (dotSquare 2) 1).epsilon = NdArr.ofGrid (dotSquare 2) ∧ Lossless (gridMats "opt" (dotSquare 2) 1) := by
  obtain ⟨E, hE, hA, htot⟩ := exists_total_eig
  obtain ⟨c, hc, k3⟩ := disk_init (E := E.withGenerators (optFit newtonCG)) hA "opt" (dotSquare 2) exExc
  have hl : c.lattice.truncation = .circular := by rw [k3]; rfl
  have hu : c.lattice.harmonicsArray = none := by rw [k3]; rfl
  have hb : c.lattice.basis = ![![1, 0], ![0, 1]] := by rw [k3]; rfl
  have hi := simInit_ok hc
  obtain ⟨⟨h5, hm⟩, m, hh⟩ := square_nine (E := E.withGenerators (optFit newtonCG)) hA hc ⟨1, by simp, dotSquare_pattern.pixels.1⟩ hl hu hb
  have hnd := square_nine_nodup h5 hm
  have hd : ∀ g ∈ c.harmonics, ∀ k ∈ c.harmonics, |g.1 - k.1| < 8 ∧ |g.2 - k.2| < 8 := by
    intro g hg k hk
    have : ∀ g ∈ ([((0 : ℤ), (0 : ℤ)), (1, 0), (-1, 0), (0, 1), (0, -1)] : List (ℤ × ℤ)),
      ∀ k ∈ ([((0 : ℤ), (0 : ℤ)), (1, 0), (-1, 0), (0, 1), (0, -1)] : List (ℤ × ℤ)), |g.1 - k.1| < 8 ∧ |g.2 - k.2| < 8 := by decide
    exact this g ((hm _).mp hg) k ((hm _).mp hk)
  have huni : ∀ r, r ≠ 1 → Homogeneous (gridMats "opt" (dotSquare 2) r) ∧ (gridMats "opt" (dotSquare 2) r).epsilon.value ≠ 0 := by
    intro r hr
    unfold gridMats
    rw [if_neg hr]
    exact ⟨⟨rfl, rfl, rfl⟩, by simp [exLayer, NdArr.scalar, NdArr.value]⟩
  have hpat : SolvablePattern (E.withGenerators (optFit newtonCG)) c (gridMats "opt" (dotSquare 2) 1) 8 8 := by
    refine ⟨dotSquare 2, dotSquare_pattern.pixels, dotSquare_pattern.half, .inr (.inr ?_)⟩
    refine C86_opt_vectors dotSquare_pattern.shape ⟨0, 0, by simp [dotSquare]⟩ (fun H n hH => ?_) rfl rfl
    rw [show c.lattice.getHarmonics E.argsort c.nh true = .ok ([(0, 0)], m) from hh] at hH
    obtain ⟨rfl, -⟩ := Prod.mk.inj (Except.ok.inj hH)
    have hbal : BalancedOrders [((0 : ℤ), (0 : ℤ))] 8 8 := ⟨by decide, by decide, by decide⟩
    exact ⟨balanced_fit (by norm_num) hbal, hbal⟩
  have hnh : 0 < c.nh := by omega
  refine ⟨E, c, hE, hA, hc, ?_, ?_, ?_, .inr (.inr hi.form_eq), hl, hu, hb, rfl, ?_⟩
  · refine (C107_square_nine_is_original hA hc (.inl rfl) hl hu hb fun r _ => ?_).2
    by_cases hr : r = 1
    · subst hr
      exact .inr ⟨8, _, dotSquare_pattern⟩
    · exact .inl (huni r hr).1.2.1
  · refine C86_solve_succeeds_any_formulation hc htot hnd (gridMats_placed _ _) (fun r _ => ?_) (fun r _ _ => ?_) []
    · rw [(gridMats_cases _ _ r).2.1]; exact one_ne_zero
    · by_cases hr : r = 1
      · subst hr
        exact .inr ⟨8, 8, hd, .inl hpat⟩
      · exact .inl (huni r hr)
  · exact buildPure_solvable hnh (List.nodup_iff_injective_get.mp hnd) (toeplitz_below hd) ⟨_, _, hh⟩ one_ne_zero (.inl hpat)
  · unfold Lossless LossIn
    rw [dotSquare_pattern.pixels.2.1]
    simp only [Bool.false_eq_true, if_false]
    intro idx _
    show ((NdArr.ofGrid (dotSquare 2)).data idx).im = 0
    unfold NdArr.ofGrid
    dsimp only
    split
    · split
      · unfold dotSquare; split <;> simp
      · rfl
    · rfl

end Nannos.Examples
