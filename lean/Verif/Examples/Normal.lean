import Verif.Examples.Scalar
import Verif.Proofs.FieldEqs
import Verif.Proofs.Lattice
import Mathlib.Analysis.Real.Pi.Bounds

/-! A family of concrete simulations: mono-periodic lattice, normal incidence, one harmonic, any stack of
uniform or patterned layers. -/

namespace Nannos.Examples

open Matrix Nannos Spec

/-- A sorting function. -/
noncomputable def exSort : List ℝ → List ℕ := exists_argsort.choose

theorem exSort_spec : ArgsortContract exSort := exists_argsort.choose_spec

/-- An eigenvalue solver for diagonal matrices, a sort, no tangent-field generator. -/
noncomputable def exE : Ext where
  eig := fun _ A => open Classical in
    if A = diagonal (fun i => A i i) then .ok (fun i => A i i, 1) else .error .linAlgError
  argsort := exSort
  tangent := fun _ _ _ _ => .error .unmodelled

theorem exE_eig : EigContract exE := by
  intro n A w v h j
  unfold exE at h
  dsimp only at h
  split at h
  · rename_i hA
    simp only [Except.ok.injEq, Prod.mk.injEq] at h
    obtain ⟨rfl, rfl⟩ := h
    refine ⟨fun i => ?_, j, by simp⟩
    have : ∑ k, A i k * (1 : Matrix (Idx n) (Idx n) ℂ) k j = A i j := by
      simpa [mul_apply] using congrFun (congrFun (Matrix.mul_one A) i) j
    rw [this]
    by_cases hij : i = j
    · subst hij; simp
    · rw [hA]; simp [diagonal_apply_ne _ hij, one_apply_ne hij]
  · simp at h

/-- Period 1, 256 points. -/
def exLat : Lattice := ⟨![![1, 0], ![0, 1]], true, .oneD, (256, 1), none⟩

theorem exLat_mk : mkLattice (.period 1) (.int 256) "circular" none = .ok exLat := rfl

/-- Wavelength 1, normal incidence. -/
noncomputable def exExc : PlaneWave :=
  ⟨1, 0, 0, 0, 2 * Real.pi, ![0, 0, 2 * Real.pi], ![1, 0, 0], ![0, 1]⟩

theorem exExc_mk : planeWave 1 (0, 0, 0) = .ok exExc := by
  have hpi : (2 * Real.pi) ≠ 0 := by positivity
  have hs : Real.sqrt ((2 * Real.pi) ^ 2) = 2 * Real.pi := Real.sqrt_sq (by positivity)
  have hi : ((2 * Real.pi) ^ 2 • (1 : Matrix (Fin 2) (Fin 2) ℝ))⁻¹ = (1 / (2 * Real.pi) ^ 2) • 1 := by
    refine inv_eq_right_inv ?_
    rw [Matrix.smul_mul, Matrix.one_mul, smul_smul]
    field_simp
    simp
  have hz : !![(0:ℝ), 0; 0, 0] = 0 := by ext i j; fin_cases i <;> fin_cases j <;> rfl
  have hd : ((2 * Real.pi) ^ 2 • (1 : Matrix (Fin 2) (Fin 2) ℝ)).det ≠ 0 := by
    rw [det_smul]; simp
  unfold planeWave
  simp only [one_ne_zero, if_false, zero_mul, Real.sin_zero, Real.cos_zero, mul_one, mul_zero, div_one, sub_zero,
    add_zero, neg_zero, neg_mul, one_mul, except_bind_ok, except_pure_eq_ok]
  simp only [powHalf, inv2, Matrix.cons_val_zero, Matrix.cons_val_one, mul_zero, neg_zero, zero_mul,
    ne_eq, OfNat.ofNat_ne_zero, not_false_eq_true, zero_pow, sub_zero, hz, hd, if_false, except_bind_ok]
  rw [if_neg (not_lt.mpr (sq_nonneg _)), hs, hi, except_bind_ok]
  simp only [Except.ok.injEq, exExc, PlaneWave.mk.injEq, true_and]
  refine ⟨?_, ?_⟩
  · funext i; fin_cases i <;> simp
  · rw [smul_smul]
    have : 2 * Real.pi * (2 * Real.pi) * (1 / (2 * Real.pi) ^ 2) = 1 := by field_simp
    rw [this, one_smul, one_mulVec]

/-- Wavelength `w`, normal incidence. -/
noncomputable def exExcW (w : ℝ) : PlaneWave :=
  ⟨w, 0, 0, 0, 2 * Real.pi * (1 / w), ![0, 0, 2 * Real.pi * (1 / w)], ![1, 0, 0], ![0, 1]⟩

theorem exExcW_mk {w : ℝ} (hw : 0 < w) : planeWave w (0, 0, 0) = .ok (exExcW w) := by
  set k : ℝ := 2 * Real.pi * (1 / w) with hk
  have hpi : 0 < k := by positivity
  have hs : Real.sqrt (k ^ 2) = k := Real.sqrt_sq hpi.le
  have hi : (k ^ 2 • (1 : Matrix (Fin 2) (Fin 2) ℝ))⁻¹ = (1 / k ^ 2) • 1 := by
    refine inv_eq_right_inv ?_
    rw [Matrix.smul_mul, Matrix.one_mul, smul_smul]
    field_simp
    simp
  have hz : !![(0:ℝ), 0; 0, 0] = 0 := by ext i j; fin_cases i <;> fin_cases j <;> rfl
  have hd : (k ^ 2 • (1 : Matrix (Fin 2) (Fin 2) ℝ)).det ≠ 0 := by
    rw [det_smul]; simp [hpi.ne']
  unfold planeWave
  simp only [hw.ne', if_false, zero_mul, Real.sin_zero, Real.cos_zero, mul_one, mul_zero, sub_zero,
    add_zero, neg_zero, neg_mul, one_mul, except_bind_ok, except_pure_eq_ok, ← hk]
  simp only [powHalf, inv2, Matrix.cons_val_zero, Matrix.cons_val_one, mul_zero, neg_zero, zero_mul,
    ne_eq, OfNat.ofNat_ne_zero, not_false_eq_true, zero_pow, sub_zero, hz, hd, if_false, except_bind_ok]
  rw [if_neg (not_lt.mpr (sq_nonneg _)), hs, hi, except_bind_ok]
  simp only [Except.ok.injEq, exExcW, PlaneWave.mk.injEq, true_and]
  refine ⟨hk, ?_, ?_⟩
  · rw [← hk]; funext i; fin_cases i <;> simp
  · rw [smul_smul]
    have : k * k * (1 / k ^ 2) = 1 := by field_simp
    rw [this, one_smul, one_mulVec]

/-- What the examples know of the constructed object. -/
structure NormalSim (c : Static) (w : ℝ := 1) : Prop where
  pos : 0 < w
  harm : c.harmonics = [(0, 0)]
  kx : ∀ i, c.kx i = 0
  ky : ∀ i, c.ky i = 0
  omegaEq : c.omega = 2 * Real.pi * (1 / w)
  form : c.formulation = "original"
  lat : c.lattice = exLat
  idx : c.indexZerothOrder = 0
  a0 : ∃ p : Fin 2 → ℝ, p 0 ^ 2 + p 1 ^ 2 = 1 ∧ c.a0 = Sum.elim (fun _ => (p 0 : ℂ)) (fun _ => (p 1 : ℂ))

theorem NormalSim.omega {c : Static} (h : NormalSim c) : c.omega = 2 * Real.pi := by rw [h.omegaEq]; norm_num

theorem NormalSim.omega_pos {c : Static} {w : ℝ} (h : NormalSim c w) : 0 < c.omega := by
  have := h.pos
  rw [h.omegaEq]; positivity

/-- A layer given by its index. -/
noncomputable def exLayer (name : String) (d : ℝ) (eps : NdArr) : LayerSpec :=
  ⟨name, some d, eps, 1, 0, none, "fft", false, 0⟩

theorem exHarm (n : ℕ) (hn : n ≤ 2) : exLat.getHarmonics exSort (n : ℤ) true = .ok ([(0, 0)], 1) := by
  have h0 : oneDimTruncation (n : ℤ) = ([(0, 0)], 1) := by
    interval_cases n <;> decide
  unfold Lattice.getHarmonics
  have : exLat.getHarmonics' exSort (n : ℤ) = .ok ([(0, 0)], 1) := by
    unfold Lattice.getHarmonics'
    simp only [exLat, h0]
  rw [this]
  simp only [except_bind_ok, if_true, except_pure_eq_ok, Except.ok.injEq, Prod.mk.injEq, and_true]
  exact List.perm_singleton.mp (argsort_gather_perm [((0 : ℤ), (0 : ℤ))] (fun g => (g.1 : ℝ)) (exSort_spec _))

theorem exRecip : exLat.reciprocal = .ok ((2 * Real.pi) • (1 : Matrix (Fin 2) (Fin 2) ℝ)) := by
  have hm : exLat.matrix = 1 := by
    ext i j; fin_cases i <;> fin_cases j <;> rfl
  unfold Lattice.reciprocal inv2
  rw [hm]
  simp

theorem exInitW {w : ℝ} (hw : 0 < w) (exc : PlaneWave) (h1 : exc.wavelength = w) (h2 : exc.theta = 0)
    (h3 : exc.wavevector 0 = 0) (h4 : exc.wavevector 1 = 0) (h5 : exc.a0 0 ^ 2 + exc.a0 1 ^ 2 = 1) (mats : ℕ → LayerSpec) (r0 : ℕ) (tl : List ℕ) (n : ℝ) (hn : 0 < n)
    (hnames : ((r0 :: tl).map fun r => (mats r).name).Nodup)
    (hlat : ∀ r ∈ r0 :: tl, (mats r).lattice = 0) (hmu : (mats r0).mu = 1)
    (he : (mats r0).epsilon = NdArr.scalar ((n ^ 2 : ℝ) : ℂ)) :
    ∃ c, simInit exE (fun _ => exLat) mats (r0 :: tl) exc 1 "original" = .ok c ∧ NormalSim c w ∧
      c.stack = r0 :: tl ∧ c.layerNames = (r0 :: tl).map (fun r => (mats r).name) ∧
      c.incidentFlux = 1 / n := by
  have hval : (mats r0).epsilon.value * (mats r0).mu = ((n ^ 2 : ℝ) : ℂ) := by
    rw [he, hmu, mul_one]; rfl
  have hsq : csqrt ((n ^ 2 : ℝ) : ℂ) = (n : ℂ) := by
    rw [csqrt_ofReal (by positivity), Real.sqrt_sq hn.le]
  have hnc : (n : ℂ) ≠ 0 := by exact_mod_cast hn.ne'
  have hu : (mats r0).isUniform = true ∧ (mats r0).isAnisotropic = false := by
    unfold LayerSpec.isUniform LayerSpec.isAnisotropic
    rw [he]; exact ⟨rfl, rfl⟩
  have heff : ∀ b, effectiveNh 1 b = ((2 : ℕ) : ℤ) := by intro b; cases b <;> rfl
  have hex : ∃ c, simInit exE (fun _ => exLat) mats (r0 :: tl) exc 1 "original" = .ok c := by
    unfold simInit
    dsimp only
    rw [(unique_iff _).mpr hnames]
    have hall : ((r0 :: tl).all fun r => decide ((mats r).lattice = (mats r0).lattice)) = true := by
      simp only [List.all_eq_true, decide_eq_true_eq]
      intro r hr
      rw [hlat r hr, hlat r0 (by simp)]
    rw [hall]
    simp only [Bool.not_true, Bool.false_eq_true, if_false, true_or, not_true, and_false]
    rw [heff, show exE.argsort = exSort from rfl, exHarm 2 le_rfl]
    simp only [except_bind_ok]
    have hny : checkNyquist exLat [(0, 0)] = .ok () := by
      unfold checkNyquist maxHarmonic
      simp [exLat]
    rw [hny, raiseIf_ok (u := ()).mpr (by simp [hu]), raiseIf_ok (u := ()).mpr (by
      rw [hval]; exact_mod_cast pow_ne_zero 2 hn.ne'), exRecip]
    exact ⟨_, rfl⟩
  obtain ⟨c, hc⟩ := hex
  have hi := simInit_ok hc
  have hlatc : c.lattice = exLat := hi.lat_eq r0 rfl
  obtain ⟨-, -, -, hf, hk⟩ := hi.sup r0 rfl
  have hharm : c.harmonics = [(0, 0)] := by
    obtain ⟨k, hk⟩ := hi.harm
    rw [hlatc, heff, show exE.argsort = exSort from rfl, exHarm 2 le_rfl] at hk
    simp only [Except.ok.injEq, Prod.mk.injEq] at hk
    exact hk.1.symm
  have hget : ∀ i, c.harmonics.get i = (0, 0) := by
    intro i
    have h0 := List.get_mem c.harmonics i
    have h1 : ∀ x ∈ c.harmonics, x = (0, 0) := by rw [hharm]; simp
    exact h1 _ h0
  have hidx : c.indexZerothOrder = 0 := by
    rw [hi.idx, hharm]; decide
  rw [hval, hsq] at hf hk
  obtain ⟨r, hr, hkx, hky⟩ := hi.recip
  refine ⟨c, hc, ⟨hw, hharm, ?_, ?_, ?_, hi.form_eq, hlatc, hidx, ?_⟩, hi.stack_eq, hi.names_eq, ?_⟩
  · intro i; rw [hkx, hget, hk]; simp [kxOf, k0para, h3, h4]
  · intro i; rw [hky, hget, hk]; simp [kyOf, k0para, h3, h4]
  · rw [hi.omega_eq]; simp [h1]
  · refine ⟨exc.a0, h5, ?_⟩
    funext k
    have hlt : ∀ i : Fin c.nh, (i : ℕ) = 0 := by
      intro i
      have h1 := i.isLt
      have h2 : c.nh = 1 := by unfold Static.nh; rw [hharm]; rfl
      omega
    rcases k with i | i
    · rw [(hi.a0 i).1, hidx, if_pos (hlt i)]; rfl
    · rw [(hi.a0 i).2, hidx, if_pos (hlt i)]; rfl
  · rw [hf]
    simp [h2, ← Complex.ofReal_inv]


theorem exInit (mats : ℕ → LayerSpec) (r0 : ℕ) (tl : List ℕ) (n : ℝ) (hn : 0 < n)
    (hnames : ((r0 :: tl).map fun r => (mats r).name).Nodup)
    (hlat : ∀ r ∈ r0 :: tl, (mats r).lattice = 0) (hmu : (mats r0).mu = 1)
    (he : (mats r0).epsilon = NdArr.scalar ((n ^ 2 : ℝ) : ℂ)) :
    ∃ c, simInit exE (fun _ => exLat) mats (r0 :: tl) exExc 1 "original" = .ok c ∧ NormalSim c ∧
      c.stack = r0 :: tl ∧ c.layerNames = (r0 :: tl).map (fun r => (mats r).name) ∧
      c.incidentFlux = 1 / n :=
  exInitW one_pos exExc rfl rfl rfl rfl (by simp [exExc]) mats r0 tl n hn hnames hlat hmu he

end Nannos.Examples
