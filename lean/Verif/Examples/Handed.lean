import Verif.Examples.OneOrder

/-! A lossless grating of rows in air, with one order, in the formulation `jones`. -/

namespace Nannos.Examples

open Matrix Nannos Spec

variable {c : Static} {n : ℕ} {st : List ℕ}

/-- The constant which `norm` adds. -/
noncomputable def ge : ℝ := 1 / 2 ^ 52
/-- Length of the tangent vectors, which `norm` makes one half. -/
noncomputable def gt : ℝ := 1 / 2 - ge
noncomputable def gth : ℝ := (ge + 2 * gt) / (2 * gt)
noncomputable def gc : ℝ := Real.cos (Real.pi / 8)
noncomputable def gs : ℝ := Real.sin (Real.pi / 8)

theorem gt_pos : 0 < gt := by unfold gt ge; norm_num
theorem gth_bounds : 0 < gth ∧ gth < 3 / 2 := by unfold gth gt ge; constructor <;> norm_num
theorem g_one : gs ^ 2 + gc ^ 2 = 1 := Real.sin_sq_add_cos_sq _
theorem g_half : (2 * gs * gc) ^ 2 = 1 / 2 := by
  have : 2 * gs * gc = Real.sqrt 2 / 2 := by
    unfold gs gc
    rw [← Real.sin_two_mul, ← Real.sin_pi_div_four]
    congr 1
    ring
  rw [this, div_pow, Real.sq_sqrt (by norm_num)]
  norm_num

/-- Rows of two permittivities. -/
noncomputable def rowGrid : Grid 4 4 := fun _ y => if (y : ℕ) % 2 = 0 then ((25 + 15 * gth : ℝ) : ℂ) else ((25 - 15 * gth : ℝ) : ℂ)

noncomputable def rowField : Field2 := ⟨4, 4, fun _ _ => (gt : ℂ), fun _ _ => 0⟩

noncomputable def rowMats : ℕ → LayerSpec := fun r =>
  if r = 0 then exLayer "Superstrate" 0 (NdArr.scalar 1)
  else if r = 1 then { exLayer "Grating" (1 / 2) (NdArr.ofGrid rowGrid) with tangentField := some rowField }
  else exLayer "Substrate" 0 (NdArr.scalar 1)

theorem row_lattice (r) : (rowMats r).lattice = 0 := by
  unfold rowMats
  split
  · rfl
  · split <;> rfl

theorem row_init (E : Ext) (hE : E.argsort = exSort) {exc : PlaneWave} (hw : exc.wavelength = 1) (ht : exc.theta = 0)
    (hk0 : exc.wavevector 0 = 0) (hk1 : exc.wavevector 1 = 0) {a b : ℕ} (hab : (a = 0 ∧ b = 2) ∨ (a = 2 ∧ b = 0)) :
    ∃ c, simInit E (fun _ => oneLat) rowMats [a, 1, b] exc 1 "jones" = .ok c ∧ OneSim c "jones" [a, 1, b] ∧
      ∀ i, c.a0 (.inl i) = exc.a0 0 ∧ c.a0 (.inr i) = exc.a0 1 := by
  have hdet : oneLat.matrix.det ≠ 0 := by simp [oneLat, Lattice.matrix, det_fin_two]
  have hny : checkNyquist oneLat [(0, 0)] = .ok () := by
    unfold checkNyquist maxHarmonic
    simp [oneLat]
  obtain ⟨c, hc⟩ := simInit_exists (E := E) (lats := fun _ => oneLat) (mats := rowMats)
    (r0 := a) (tl := [1, b]) (exc := exc) (nh := 1) (form := "jones")
    (by rcases hab with ⟨rfl, rfl⟩ | ⟨rfl, rfl⟩ <;> simp [rowMats, exLayer]) (fun r _ => by rw [row_lattice, row_lattice])
    (by tauto) (fun h => by tauto) (by rw [hE]; exact one_harm _) hny ⟨by rcases hab with ⟨rfl, rfl⟩ | ⟨rfl, rfl⟩ <;> rfl, by rcases hab with ⟨rfl, rfl⟩ | ⟨rfl, rfl⟩ <;> rfl⟩
    (by rcases hab with ⟨rfl, rfl⟩ | ⟨rfl, rfl⟩ <;> simp [rowMats, exLayer, NdArr.scalar, NdArr.value]) (reciprocal_ok.mpr ⟨hdet, rfl⟩)
  have hi := simInit_ok hc
  have hl' : c.lattice = oneLat := hi.lat_eq a rfl
  have hharm : c.harmonics = [(0, 0)] := by
    obtain ⟨k, hk⟩ := hi.harm
    rw [hl', hE, one_harm] at hk
    simp only [Except.ok.injEq, Prod.mk.injEq] at hk
    exact hk.1.symm
  have hget : ∀ i, c.harmonics.get i = (0, 0) := by
    intro i
    have h0 := List.get_mem c.harmonics i
    have h1 : ∀ x ∈ c.harmonics, x = (0, 0) := by rw [hharm]; simp
    exact h1 _ h0
  obtain ⟨-, -, -, hfl, hkk⟩ := hi.sup a rfl
  have hsq : csqrt ((rowMats a).epsilon.value * (rowMats a).mu) = 1 := by
    have : (rowMats a).epsilon.value * (rowMats a).mu = ((1 : ℝ) : ℂ) := by
      rcases hab with ⟨rfl, rfl⟩ | ⟨rfl, rfl⟩ <;> simp [rowMats, exLayer, NdArr.scalar, NdArr.value]
    rw [this, csqrt_ofReal zero_le_one]
    simp
  rw [hsq] at hfl hkk
  obtain ⟨r, hr, hkx, hky⟩ := hi.recip
  have hsim : OneSim c "jones" [a, 1, b] := by
    refine ⟨hharm, ?_, fun i => ?_, fun i => ?_, hi.form_eq, hl', ?_, hi.stack_eq⟩
    · rw [hi.omega_eq]; rw [hw]; unfold lw; norm_num
    · rw [hkx, hget, hkk]; simp [kxOf, k0para, hk0]
    · rw [hky, hget, hkk]; simp [kyOf, k0para, hk1]
    · rw [hfl]; simp [ht]
  refine ⟨c, hc, hsim, fun i => ?_⟩
  have hz : (i : ℕ) = c.indexZerothOrder := by
    have h2 : (i : ℕ) < 1 := lt_of_lt_of_eq i.isLt hsim.nh
    have : c.indexZerothOrder = 0 := by
      rw [hi.idx, hharm]; decide
    omega
  obtain ⟨x, y⟩ := hi.a0 i
  rw [x, y, if_pos hz, if_pos hz]
  exact ⟨rfl, rfl⟩

/-- Transverse permittivity, its eigenvalues and eigenvectors. -/
noncomputable def rowP (n : ℕ) : Matrix (Idx n) (Idx n) ℂ :=
  fromBlocks ((25 - 9 * gs ^ 2 : ℂ) • 1) ((9 * Complex.I * (gc * gs) : ℂ) • 1) ((-9 * Complex.I * (gc * gs) : ℂ) • 1) ((25 - 9 * gc ^ 2 : ℂ) • 1)
noncomputable def rowM (n : ℕ) : Matrix (Idx n) (Idx n) ℂ := (lw : ℂ) ^ 2 • rowP n
noncomputable def rowW (n : ℕ) : Idx n → ℝ := Sum.elim (fun _ => (4 * lw) ^ 2) (fun _ => (5 * lw) ^ 2)
noncomputable def rowN (n : ℕ) : Idx n → ℝ := Sum.elim (fun _ => 4 * lw) (fun _ => 5 * lw)
noncomputable def rowV (n : ℕ) : Matrix (Idx n) (Idx n) ℂ :=
  fromBlocks ((gs : ℂ) • 1) ((Complex.I * gc) • 1) ((Complex.I * gc) • 1) ((gs : ℂ) • 1)

theorem g_oneC : (gs : ℂ) ^ 2 + (gc : ℂ) ^ 2 = 1 := by exact_mod_cast congrArg (fun x : ℝ => (x : ℂ)) g_one

theorem diag_blocks (a b : ℂ) : diagonal (Sum.elim (fun _ : Fin n => a) (fun _ : Fin n => b)) =
    fromBlocks (a • (1 : Matrix (Fin n) (Fin n) ℂ)) 0 0 (b • 1) := by
  rw [smul_one_eq_diagonal, smul_one_eq_diagonal, fromBlocks_diagonal]

theorem rowMV : rowM n * rowV n = rowV n * diagonal fun i => (rowW n i : ℂ) := by
  have e : (fun i => (rowW n i : ℂ)) = Sum.elim (fun _ : Fin n => ((4 : ℂ) * lw) ^ 2) (fun _ : Fin n => ((5 : ℂ) * lw) ^ 2) := by
    funext i
    unfold rowW
    rcases i with i | i <;> simp
  have h1 := g_oneC
  have hI := Complex.I_sq
  rw [e, diag_blocks]
  unfold rowM rowP rowV
  rw [Matrix.smul_mul, fromBlocks_multiply, fromBlocks_multiply, fromBlocks_smul]
  simp only [Matrix.mul_smul, Matrix.mul_one, smul_smul, ← add_smul, Matrix.mul_zero, add_zero, zero_add]
  congr 2
  · linear_combination (9 * (gc : ℂ) ^ 2 * gs * lw ^ 2) * hI - 9 * lw ^ 2 * gs * h1
  · linear_combination (0 : ℂ) * h1
  · linear_combination -9 * lw ^ 2 * Complex.I * gc * h1
  · linear_combination (-9 * (gc : ℂ) ^ 2 * gs * lw ^ 2) * hI

theorem rowV_inv : rowV n * fromBlocks ((gs : ℂ) • 1) ((-(Complex.I * gc)) • 1) ((-(Complex.I * gc)) • 1) ((gs : ℂ) • 1) = 1 := by
  have h1 := g_oneC
  have hI := Complex.I_sq
  unfold rowV
  rw [fromBlocks_multiply]
  simp only [Matrix.smul_mul, Matrix.one_mul, smul_smul, ← add_smul]
  rw [← fromBlocks_one, ← one_smul ℂ (1 : Matrix (Fin n) (Fin n) ℂ), ← zero_smul ℂ (1 : Matrix (Fin n) (Fin n) ℂ)]
  simp only [smul_smul, mul_one]
  congr 2
  · linear_combination h1 - (gc : ℂ) ^ 2 * hI
  · ring
  · ring
  · linear_combination h1 - (gc : ℂ) ^ 2 * hI

theorem rowV_det : (rowV n).det ≠ 0 := by
  have := congrArg Matrix.det (rowV_inv (n := n))
  rw [det_mul, det_one] at this
  exact left_ne_zero_of_mul_eq_one this

theorem gc_pos : 0 < gc := Real.cos_pos_of_mem_Ioo ⟨by have := Real.pi_pos; linarith, by have := Real.pi_pos; linarith⟩

theorem row_col (j) : ∃ i, rowV n i j ≠ 0 := by
  have hc : (gc : ℂ) ≠ 0 := by exact_mod_cast gc_pos.ne'
  rcases j with j | j
  · exact ⟨.inr j, by simp [rowV, hc]⟩
  · exact ⟨.inl j, by simp [rowV, hc]⟩

/-- The numerical library of the example. -/
noncomputable def rowE (n : ℕ) : Ext := eigWith (rowM n) (fun i => (rowW n i : ℂ)) (rowV n)

theorem rowE_contract : EigContract (rowE n) := eigWith_contract rowMV row_col

theorem rowE_sort : ArgsortContract (rowE n).argsort := exSort_spec

theorem row_jones : jonesPt gt 0 = ((2 * gt * gc : ℂ), -(Complex.I * (2 * gt * gs))) := by
  have hp := gt_pos
  have hn : normPt (gt : ℂ) ((0 : ℝ) : ℂ) = 1 / 2 := by
    unfold normPt
    rw [Complex.normSq_ofReal, Complex.ofReal_zero, map_zero, add_zero, Real.sqrt_mul_self hp.le]
    unfold gt ge
    ring
  have ha : Complex.arg ((gt : ℂ) + ((0 : ℝ) : ℂ) * Complex.I) = 0 := by
    rw [Complex.ofReal_zero, zero_mul, add_zero]
    exact Complex.arg_ofReal_of_nonneg hp.le
  unfold jonesPt
  simp only [hn, ha]
  have hphi : Real.pi / 8 * (1 + Real.cos (Real.pi * (1 / 2))) = Real.pi / 8 := by
    rw [show Real.pi * (1 / 2) = Real.pi / 2 by ring, Real.cos_pi_div_two]
    ring
  rw [hphi]
  change ( _ , _) = _
  have e1 : ((Real.cos (Real.pi / 8) : ℝ) : ℂ) = (gc : ℂ) := rfl
  have e2 : ((Real.sin (Real.pi / 8) : ℝ) : ℂ) = (gs : ℂ) := rfl
  rw [e1, e2]
  simp only [Complex.ofReal_zero, mul_zero, neg_zero, Complex.exp_zero, zero_mul, sub_zero, zero_sub, Prod.mk.injEq]
  push_cast
  constructor <;> ring

theorem row_norm : normPt (2 * gt * gc : ℂ) (-(Complex.I * (2 * gt * gs))) = ge + 2 * gt := by
  have hp := gt_pos
  unfold normPt
  have e : Complex.normSq (2 * gt * gc : ℂ) + Complex.normSq (-(Complex.I * (2 * gt * gs))) = (2 * gt) ^ 2 := by
    rw [Complex.normSq_neg, Complex.normSq_mul Complex.I, Complex.normSq_I, one_mul]
    rw [show (2 * gt * gc : ℂ) = ((2 * gt * gc : ℝ) : ℂ) by push_cast; rfl, show (2 * gt * gs : ℂ) = ((2 * gt * gs : ℝ) : ℂ) by push_cast; rfl,
      Complex.normSq_ofReal, Complex.normSq_ofReal]
    linear_combination (2 * gt) ^ 2 * g_one
  rw [e, Real.sqrt_sq (by positivity)]
  rfl

theorem OneSim.rows (h : OneSim c "jones" st) (Ao : LayerAttr c.nh) : (stepOut (rowE c.nh) c (rowMats 1) Ao).1 = .ok () ∧
    ∀ a, ((stepOut (rowE c.nh) c (rowMats 1) Ao).2 a).eig = some (fun i => (rowN c.nh i : ℂ), rowV c.nh) ∧
      ((stepOut (rowE c.nh) c (rowMats 1) Ao).2 a).Qeps = some ((lw : ℂ) ^ 2 • 1) := by
  have hu : (rowMats 1).isUniform = false ∧ (rowMats 1).isAnisotropic = false := by
    constructor <;> simp [rowMats, exLayer, LayerSpec.isUniform, LayerSpec.isAnisotropic, NdArr.ofGrid, isUniform, isAnisotropic]
  have hmu : (rowMats 1).mu = 1 := rfl
  have hc : (rowMats 1).iscopy = false := rfl
  obtain ⟨hb1, hb2⟩ := gth_bounds
  have hg : (rowMats 1).epsilon.toGrid = .ok ⟨4, 4, rowGrid⟩ := by
    show (NdArr.ofGrid rowGrid).toGrid = _
    unfold NdArr.toGrid NdArr.ofGrid
    simp
  have hsum : ∀ f : ℂ → ℂ, (∑ x, ∑ y, f (rowGrid x y)) / 16 = (f ((25 + 15 * gth : ℝ) : ℂ) + f ((25 - 15 * gth : ℝ) : ℂ)) / 2 := by
    intro f
    simp [rowGrid, Fin.sum_univ_succ]
    ring
  have ht : c.toep ⟨4, 4, rowGrid⟩ = .ok ((25 : ℂ) • 1) := by
    rw [h.toep, hsum fun x => x]
    congr 2
    push_cast
    ring
  have hdet : ((25 : ℂ) • (1 : Matrix (Fin c.nh) (Fin c.nh) ℂ)).det ≠ 0 := by
    rw [det_smul, det_one, mul_one]; exact pow_ne_zero _ (by norm_num)
  have n1 : ((25 + 15 * gth : ℝ) : ℂ) ≠ 0 := by
    have : (0 : ℝ) < 25 + 15 * gth := by linarith
    exact_mod_cast this.ne'
  have n2 : ((25 - 15 * gth : ℝ) : ℂ) ≠ 0 := by
    have : (0 : ℝ) < 25 - 15 * gth := by linarith
    exact_mod_cast this.ne'
  have n3 : ((25 - 9 * gth ^ 2 : ℝ) : ℂ) ≠ 0 := by
    have : (0 : ℝ) < 25 - 9 * gth ^ 2 := by nlinarith
    exact_mod_cast this.ne'
  have hnu : nuHatInvIso c ⟨4, 4, rowGrid⟩ = .ok ((25 - 9 * gth ^ 2 : ℂ) • 1) := by
    unfold nuHatInvIso recipGrid
    rw [if_neg (by
      push Not
      intro x y
      show (if (y : ℕ) % 2 = 0 then _ else _) ≠ (0 : ℂ)
      split
      · exact n1
      · exact n2)]
    simp only [except_bind_ok]
    rw [h.toep (fun x y => 1 / rowGrid x y), except_bind_ok, linInv_ok, hsum fun x => 1 / x]
    have e : (1 / ((25 + 15 * gth : ℝ) : ℂ) + 1 / ((25 - 15 * gth : ℝ) : ℂ)) / 2 = 1 / ((25 - 9 * gth ^ 2 : ℝ) : ℂ) := by
      rw [div_add_div _ _ n1 n2, div_div, div_eq_div_iff (mul_ne_zero (mul_ne_zero n1 n2) two_ne_zero) n3]
      push_cast
      ring
    rw [e]
    refine ⟨?_, ?_⟩
    · rw [det_smul, det_one, mul_one]; exact pow_ne_zero _ (div_ne_zero one_ne_zero n3)
    · symm
      refine inv_eq_right_inv ?_
      rw [Matrix.smul_mul, Matrix.one_mul, smul_smul, show (25 - 9 * gth ^ 2 : ℂ) = ((25 - 9 * gth ^ 2 : ℝ) : ℂ) by push_cast; rfl, one_div,
        inv_mul_cancel₀ n3, one_smul]
  have hP : ∀ H, pepsOf (rowE c.nh) c (rowMats 1) ⟨4, 4, rowGrid⟩ none ((25 : ℂ) • 1) (diag2 ((25 : ℂ) • 1)) H = .ok (rowP c.nh) := by
    intro H
    unfold pepsOf
    simp only [h.form, if_false, if_true, show ¬ ("jones" = "original") by decide, show ¬ ("jones" = "tangent") by decide, hnu, except_bind_ok,
      except_pure_eq_ok]
    have htan : getTangentField (rowE c.nh) (rowMats 1) ⟨4, 4, rowGrid⟩ H false = .ok rowField := rfl
    have hJ : jonesField rowField = .ok ⟨4, 4, fun _ _ => (2 * gt * gc : ℂ), fun _ _ => -(Complex.I * (2 * gt * gs))⟩ := by
      unfold jonesField
      rw [if_neg (by simp [rowField])]
      simp only [rowField, Complex.ofReal_re, Complex.zero_re, row_jones]
    rw [htan, except_bind_ok, hJ, except_bind_ok]
    have hp : ∀ f : ℂ → ℂ → ℂ, c.toep (projField ⟨4, 4, fun _ _ => (2 * gt * gc : ℂ), fun _ _ => -(Complex.I * (2 * gt * gs))⟩ f) =
        .ok ((f (2 * gt * gc) (-(Complex.I * (2 * gt * gs))) / ((ge + 2 * gt : ℝ) : ℂ) ^ 2) • 1) := by
      intro f
      have e : projField ⟨4, 4, fun _ _ => (2 * gt * gc : ℂ), fun _ _ => -(Complex.I * (2 * gt * gs))⟩ f =
        ⟨4, 4, fun _ _ => f (2 * gt * gc) (-(Complex.I * (2 * gt * gs))) / ((|normPt (2 * gt * gc) (-(Complex.I * (2 * gt * gs)))| ^ 2 : ℝ) : ℂ)⟩ := rfl
      rw [e, h.toep, row_norm, sq_abs, Complex.ofReal_pow]
      congr 2
      simp
      ring
    unfold getPeps
    rw [hp, hp, hp, hp]
    have hgp := gt_pos
    have hgtC : (gt : ℂ) ≠ 0 := by exact_mod_cast hgp.ne'
    have hden : ((ge + 2 * gt : ℝ) : ℂ) = gth * (2 * gt) := by
      have : ge + 2 * gt = gth * (2 * gt) := by unfold gth; field_simp
      rw [this]; push_cast; rfl
    have hthC : (gth : ℂ) ≠ 0 := by exact_mod_cast hb1.ne'
    have s1 : star (2 * gt * gc : ℂ) = 2 * gt * gc := by
      rw [show (2 * gt * gc : ℂ) = ((2 * gt * gc : ℝ) : ℂ) by push_cast; rfl]; exact Complex.conj_ofReal _
    have s2 : star (-(Complex.I * (2 * gt * gs)) : ℂ) = Complex.I * (2 * gt * gs) := by
      rw [show (2 * gt * gs : ℂ) = ((2 * gt * gs : ℝ) : ℂ) by push_cast; rfl]
      simp
    rw [s1, s2, hden]
    simp only [except_bind_ok, except_pure_eq_ok]
    congr 1
    unfold diag2 rowP
    rw [sub_eq_add_neg (fromBlocks _ _ _ _) (fromBlocks ((25 - 9 * gth ^ 2 : ℂ) • 1) _ _ _), fromBlocks_neg, fromBlocks_add]
    simp only [neg_zero, add_zero, ← sub_eq_add_neg, fromBlocks_multiply, Matrix.zero_mul, zero_add, ← sub_smul, Matrix.smul_mul, Matrix.one_mul,
      smul_smul]
    rw [sub_eq_add_neg, fromBlocks_neg, fromBlocks_add]
    simp only [← neg_smul, ← add_smul, zero_add]
    have hI := Complex.I_sq
    congr 2
    · field_simp
      first | (simp only [hI]; ring1) | linear_combination (9 * (gs : ℂ) ^ 2 * (gth : ℂ) ^ 2) * hI | linear_combination (-9 * (gs : ℂ) ^ 2) * hI | ring_nf
    · field_simp
      ring
    · field_simp
      ring
    · field_simp
      ring
  obtain ⟨M, p, Q, hb⟩ : ∃ M p Q, buildPure (rowE c.nh) c (rowMats 1) = .ok (.patterned M p Q) := by
    unfold buildPure
    simp only [hu, Bool.false_eq_true, if_false, hg, ht, except_bind_ok, hmu, one_ne_zero]
    rw [(linInv_ok _ _).mpr ⟨hdet, rfl⟩, except_bind_ok, raiseIf_ok (u := ()).mpr (by simp), except_bind_ok]
    unfold paraOf epsParaHatOf
    simp only [hu, Bool.false_eq_true, if_false, except_bind_ok, except_pure_eq_ok]
    rw [h.lat, show (rowE c.nh).argsort = exSort from rfl, one_harm]
    simp only [except_bind_ok, hP]
    exact ⟨_, _, _, rfl⟩
  obtain ⟨-, -, -, h4, h5, -, -, epszz, para, eph, Ht, k, h6, h7, h8, h9, h10, h11⟩ := buildPure_patterned_ok hmu hb
  simp only [hu, Bool.false_eq_true, if_false, hg, Except.ok.injEq] at h6
  subst h6
  rw [ht, Except.ok.injEq] at h7
  unfold paraOf at h8
  simp only [hu, Bool.false_eq_true, if_false, except_pure_eq_ok, Except.ok.injEq] at h8
  subst h8
  unfold epsParaHatOf at h9
  simp only [except_pure_eq_ok, Except.ok.injEq] at h9
  rw [← h9, ← h7, hP, Except.ok.injEq] at h11
  rw [h.kEps, sub_zero, h.om] at h4
  have hM : M = rowM c.nh := by
    rw [h5]
    unfold waveMatrix
    rw [h.kEps, h.kMu, Matrix.mul_zero, sub_zero, sub_zero, ← h11, h.om]
    rfl
  have hlw := lw_pos
  have hs : solveEigenproblem (rowE c.nh) M = .ok (fun i => (rowN c.nh i : ℂ), rowV c.nh) := by
    unfold solveEigenproblem
    rw [hM, show (rowE c.nh).eig c.nh (rowM c.nh) = _ from eigWith_eig _ _ _]
    simp only [except_bind_ok, except_pure_eq_ok, Except.ok.injEq, Prod.mk.injEq, and_true]
    funext k
    unfold rowW rowN
    rcases k with k | k <;> simp only [Sum.elim_inl, Sum.elim_inr] <;> rw [modeSqrt_real (sq_nonneg _), Real.sqrt_sq (by positivity)]
  unfold stepOut
  simp only [hc, Bool.false_eq_true, if_false, hb, hs, h4]
  exact ⟨trivial, fun _ => ⟨trivial, trivial⟩⟩

/-- The fields below the grating: half of the power is in either polarisation. -/
theorem OneSim.rowField (h : OneSim c "jones" st) {x y : ℂ} (ha : ∀ i, c.a0 (.inl i) = x ∧ c.a0 (.inr i) = y)
    {a b : ℕ} (hab : (a = 0 ∧ b = 2) ∨ (a = 2 ∧ b = 0)) (hst : st = [a, 1, b]) :
    ∃ F, (getFieldFourier (rowE c.nh) c (.idx (-1)) [0] (Dyn.fresh rowMats (unsolved c.nh))).1 = .ok [F] ∧
      ∀ i, F.hx i = (gs ^ 2 - gc ^ 2) * x - Complex.I * (2 * gs * gc) * y ∧
        F.hy i = Complex.I * (2 * gs * gc) * x + (gc ^ 2 - gs ^ 2) * y ∧ F.ex i = F.hy i ∧ F.ey i = -F.hx i := by
  subst hst
  let ev : ℕ → (Idx c.nh → ℂ) × Matrix (Idx c.nh) (Idx c.nh) ℂ := fun r =>
    if r = 1 then (fun i => (rowN c.nh i : ℂ), rowV c.nh) else (fun _ => (lw : ℂ), 1)
  let Q : ℕ → Matrix (Idx c.nh) (Idx c.nh) ℂ := fun _ => (lw : ℂ) ^ 2 • 1
  have hnd : c.stack.Nodup := by rw [h.stack]; rcases hab with ⟨rfl, rfl⟩ | ⟨rfl, rfl⟩ <;> decide
  obtain ⟨A1, hs, h3, h4⟩ := solved_steps (E := rowE c.nh) (mats := rowMats) ev Q hnd (by
    intro r hr Ao
    rw [h.stack] at hr
    simp only [List.mem_cons, List.not_mem_nil, or_false] at hr
    rcases hab with ⟨rfl, rfl⟩ | ⟨rfl, rfl⟩ <;> rcases hr with rfl | rfl | rfl
    · exact h.air _ rfl rfl rfl Ao
    · exact h.rows Ao
    · exact h.air _ rfl rfl rfl Ao
    · exact h.air _ rfl rfl rfl Ao
    · exact h.rows Ao
    · exact h.air _ rfl rfl rfl Ao)
  let La : Modes (Idx c.nh) := ⟨fun _ => (lw : ℂ), 1, (lw : ℂ) ^ 2 • 1, some 0⟩
  let Lg : Modes (Idx c.nh) := ⟨fun i => (rowN c.nh i : ℂ), rowV c.nh, (lw : ℂ) ^ 2 • 1, some (1 / 2)⟩
  have hwp := lw_pos
  have hw : (lw : ℂ) ≠ 0 := by exact_mod_cast hwp.ne'
  have hN : ∀ i, 0 < rowN c.nh i := by
    intro i
    unfold rowN
    rcases i with i | i <;> simp only [Sum.elim_inl, Sum.elim_inr] <;> positivity
  have hqg : ∀ i, (rowN c.nh i : ℂ) ≠ 0 := fun i => by exact_mod_cast (hN i).ne'
  have hfilm : FilmModes La Lg La (rowV c.nh) (fun _ => ((lw : ℝ) : ℂ)) (fun i => ((lw ^ 2 / rowN c.nh i : ℝ) : ℂ)) := by
    have hA : La.amat = diagonal fun _ => ((lw : ℝ) : ℂ) := by
      rw [amat_eq]
      simp only [La, Matrix.one_mul, Matrix.smul_mul]
      rw [← diagonal_smul]
      congr 1
      funext i
      simp only [Pi.smul_apply, smul_eq_mul]
      field_simp
    refine ⟨rfl, rfl, rfl, rowV_det, fun _ => hw, hqg, fun _ => hw, fun _ => hw, fun i => ?_, hA, hA, ?_, ?_⟩
    · have := hN i
      exact_mod_cast (by positivity : 0 < lw ^ 2 / rowN c.nh i).ne'
    · rw [amat_eq]
      simp only [Lg, Matrix.one_mul, Matrix.smul_mul]
      rw [← Matrix.mul_smul, ← diagonal_smul]
      congr 2
      funext i
      simp only [Pi.smul_apply, smul_eq_mul]
      push_cast
      ring
    · rw [← smul_one_eq_diagonal, Matrix.mul_smul, Matrix.smul_mul, Matrix.mul_one, Matrix.one_mul]
  have hph : ∀ i, phasor Lg.q Lg.z i = Sum.elim (fun _ => 1) (fun _ => -1) i := by
    intro i
    unfold phasor
    simp only [Lg, Modes.z, Option.getD_some, rowN]
    rcases i with i | i <;> simp only [Sum.elim_inl, Sum.elim_inr]
    · rw [show Complex.I * ((4 * lw : ℝ) : ℂ) * ((1 / 2 : ℝ) : ℂ) = (2 : ℤ) * (2 * Real.pi * Complex.I) by unfold lw; push_cast; ring]
      exact Complex.exp_int_mul_two_pi_mul_I 2
    · rw [show Complex.I * ((5 * lw : ℝ) : ℂ) * ((1 / 2 : ℝ) : ℂ) = (2 : ℤ) * (2 * Real.pi * Complex.I) + Real.pi * Complex.I by unfold lw; push_cast; ring,
        Complex.exp_add, Complex.exp_int_mul_two_pi_mul_I 2, Complex.exp_pi_mul_I, one_mul]
  have hph2 : ∀ i, phasor Lg.q Lg.z i ^ 2 = 1 := by
    intro i
    rw [hph]
    rcases i with i | i <;> simp
  obtain ⟨S, hS⟩ := hfilm.S (fun i => by
      have := hN i
      have : 0 < 1 + lw ^ 2 / rowN c.nh i / lw := by positivity
      exact_mod_cast this.ne') (fun i => by
      have h1 := hN i
      rw [hph2, one_mul]
      intro he
      have h2 : 0 < lw ^ 2 / rowN c.nh i / lw := by positivity
      have h3 : (((lw ^ 2 / rowN c.nh i : ℝ) : ℂ) / ((lw : ℝ) : ℂ)) = 0 := by linear_combination he / 4
      rw [← Complex.ofReal_div] at h3
      exact h2.ne' (by exact_mod_cast h3))
  have m0 : (⟨(ev a).1, (ev a).2, Q a, (rowMats a).thickness⟩ : Modes (Idx c.nh)) = La := by rcases hab with ⟨rfl, rfl⟩ | ⟨rfl, rfl⟩ <;> rfl
  have m1 : (⟨(ev 1).1, (ev 1).2, Q 1, (rowMats 1).thickness⟩ : Modes (Idx c.nh)) = Lg := rfl
  have m2 : (⟨(ev b).1, (ev b).2, Q b, (rowMats b).thickness⟩ : Modes (Idx c.nh)) = La := by rcases hab with ⟨rfl, rfl⟩ | ⟨rfl, rfl⟩ <;> rfl
  have v2 := h4 b (by rw [h.stack]; simp)
  rw [m2] at v2
  have hS' : valS c rowMats A1 (.ok ()) none = .ok S := by
    rw [valS_none, h3, h.stack]
    simp only [List.map_cons, List.map_nil, m0, m1, m2]
    exact hS
  have hq : ∀ k, (c.omega : ℂ) * La.q k ≠ 0 := fun k => by rw [h.om]; exact mul_ne_zero hw hw
  have hr : pyGet c.stack (-1) = .ok b := by rw [h.stack]; rfl
  have hg : getLayer c (.idx (-1)) = .ok (b, -1) := by
    unfold getLayer
    simp only [hr]
    rfl
  have hamp : AmpOk c rowMats A1 (.ok ()) (-1) := ⟨⟨b, hr⟩, fun _ => ⟨_, hS'⟩, fun _ _ b => absurd rfl b⟩
  have hnormal : ∀ dz, ∃ x, normalE (rowMats b) (A1 b) dz = .ok x := by
    intro dz
    unfold normalE
    have q1 : (rowMats b).isUniform = true := by rcases hab with ⟨rfl, rfl⟩ | ⟨rfl, rfl⟩ <;> rfl
    have q3 : (rowMats b).epsilon.value ≠ 0 := by rcases hab with ⟨rfl, rfl⟩ | ⟨rfl, rfl⟩ <;> simp [rowMats, exLayer, NdArr.scalar, NdArr.value]
    simp only [q1, if_true, q3, if_false]
    exact ⟨_, rfl⟩
  obtain ⟨Fs, d', e1, -⟩ := succeeds_getFieldFourier hs hg rfl hamp (fieldAt_ok v2 rfl hq hnormal) [0]
    (Dyn.fresh rowMats (unsolved c.nh)) (inv_fresh _ (.inl rfl))
  obtain ⟨-, -, r', i', ab, y3, y4, y5⟩ := yields_getFieldFourier hs (.idx (-1)) [0] _ Fs d' (inv_fresh _ (.inl rfl)) e1
  rw [hg] at y3
  simp only [Except.ok.injEq, Prod.mk.injEq] at y3
  obtain ⟨rfl, rfl⟩ := y3
  have hab : ab = (S.s11 *ᵥ c.a0, 0) := by
    rcases y4.2 with ⟨h, -⟩ | ⟨-, -, S', h1, h2⟩ | ⟨-, -, h, -⟩
    · exact absurd h (by decide)
    · rw [hS'] at h1
      obtain rfl := Except.ok.inj h1
      exact h2
    · exact absurd rfl h
  obtain ⟨F, hF⟩ : ∃ F, fieldAt c (rowMats b) (A1 b) ab.1 ab.2 0 = .ok F := fieldAt_ok v2 rfl hq hnormal _ _ _
  have hFs : Fs = [F] := by
    simp only [List.mapM_cons, List.mapM_nil, hF, except_bind_ok, except_pure_eq_ok, Except.ok.injEq] at y5
    exact y5.symm
  refine ⟨F, by rw [e1, hFs], ?_⟩
  obtain ⟨M, t, f1, -, -, hFS⟩ := fieldAt_spec hF
  obtain rfl := Except.ok.inj (v2.symm.trans f1)
  let al : Idx c.nh → ℂ := Sum.elim (fun _ => gs * x - Complex.I * gc * y) (fun _ => gs * y - Complex.I * gc * x)
  have hV : ∀ x y : ℂ, rowV c.nh *ᵥ Sum.elim (fun _ => x) (fun _ => y) =
      Sum.elim (fun _ => gs * x + Complex.I * gc * y) (fun _ => Complex.I * gc * x + gs * y) := by
    intro x y
    unfold rowV
    rw [fromBlocks_mulVec]
    simp only [Sum.elim_comp_inl, Sum.elim_comp_inr, smul_mulVec, Matrix.one_mulVec]
    congr 1
  have h1 := g_oneC
  have hI := Complex.I_sq
  have hal : rowV c.nh *ᵥ al = c.a0 := by
    rw [hV]
    funext i
    rcases i with i | i
    · rw [(ha i).1]
      simp only [Sum.elim_inl]
      linear_combination x * h1 - (gc : ℂ) ^ 2 * x * hI
    · rw [(ha i).2]
      simp only [Sum.elim_inr]
      linear_combination y * h1 - (gc : ℂ) ^ 2 * y * hI
  obtain ⟨hout, -⟩ := hfilm.through hS (by
    unfold Modes.f
    ext i j
    by_cases hij : i = j
    · subst hij; simp [phasor, La, Modes.z]
    · simp [hij]) al (fun i => .inl (.inl (hph2 i)))
  have hal2 : (fun i => phasor Lg.q Lg.z i * al i) = Sum.elim (fun _ => gs * x - Complex.I * gc * y) (fun _ => -(gs * y - Complex.I * gc * x)) := by
    funext i
    rw [hph]
    rcases i with i | i <;> simp [al]
  rw [hal, hal2, hV] at hout
  rw [hab, hout] at hFS
  have htan : ∀ (v : Idx c.nh → ℂ) k, tanH La v 0 0 k = v k := by
    intro v k
    unfold tanH
    rw [Finset.sum_eq_single k (fun j _ hj => by simp [La, Matrix.one_apply_ne (Ne.symm hj)]) (by simp)]
    simp [La]
  have htanE : ∀ (v : Idx c.nh → ℂ) k, tanE La v 0 0 k = lw * v k := by
    intro v k
    have hl : (lw : ℂ) ≠ 0 := by exact_mod_cast lw_pos.ne'
    simp only [tanE, La, Pi.zero_apply, zero_mul, sub_zero, Complex.ofReal_zero, mul_zero, Complex.exp_zero, mul_one,
      Matrix.smul_apply, smul_eq_mul, Matrix.one_apply, mul_ite, Finset.sum_ite_eq, Finset.sum_ite_eq', Finset.mem_univ, if_true,
      ite_mul, ite_div, zero_div, zero_mul]
    field_simp
  intro i
  have hl : (lw : ℂ) ≠ 0 := by exact_mod_cast lw_pos.ne'
  rw [hFS.hx, hFS.hy, hFS.ex, hFS.ey, htan, htan, htanE, htanE, h.om]
  simp only [Sum.elim_inl, Sum.elim_inr]
  refine ⟨?_, ?_, ?_, ?_⟩
  · linear_combination (gc : ℂ) ^ 2 * x * hI
  · linear_combination -(gc : ℂ) ^ 2 * y * hI
  · field_simp
  · field_simp

end Nannos.Examples
