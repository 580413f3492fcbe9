import Verif.Examples.Handed
import Verif.Examples.Film
import Verif.Examples.Polarised

/-! A lossless grating of rows in air, with one order, in the formulation `tangent`, on a square lattice in any orientation. -/

namespace Nannos.Examples

open Matrix Nannos Spec

section
variable {m : Type} [Fintype m] [DecidableEq m] {L0 L1 L2 : Modes m} {V : Matrix m m ℂ} {z y : m → ℂ}

/-- Reflection and transmission of a film, mode by mode: `rho` is reflected, `tau` is transmitted, `a1` and `b1` are the waves
inside. -/
theorem FilmModes.scatter (h : FilmModes L0 L1 L2 V z y) {S : SMat m} (hS : freshS [L0, L1, L2] (0 : ℕ) (2 : ℕ) = .ok S)
    (hf0 : L0.f = 1) {al rho tau a1 b1 : m → ℂ} (e1 : ∀ i, al i + rho i = a1 i + phasor L1.q L1.z i * b1 i)
    (e2 : ∀ i, z i * (al i - rho i) = y i * (a1 i - phasor L1.q L1.z i * b1 i))
    (e3 : ∀ i, tau i = phasor L1.q L1.z i * a1 i + b1 i)
    (e4 : ∀ i, z i * tau i = y i * (phasor L1.q L1.z i * a1 i - b1 i)) :
    S.s11 *ᵥ (V *ᵥ al) = V *ᵥ tau ∧ S.s21 *ᵥ (V *ᵥ al) = V *ᵥ rho := by
  obtain ⟨-, -, hrel, -⟩ := C22_scattering_matrix_solves_stack _ 0 2 S hS
  set f := phasor L1.q L1.z with hf
  let amp : ℕ → (m → ℂ) × (m → ℂ) := fun k =>
    if k = 0 then (V *ᵥ al, V *ᵥ rho) else if k = 1 then (a1, b1) else (V *ᵥ tau, 0)
  have hM0 : L0.M = fromBlocks (diagonal z) (-diagonal z) 1 1 := by unfold Modes.M; rw [h.amat0, h.phi0]
  have hM2 : L2.M = fromBlocks (diagonal z) (-diagonal z) 1 1 := by unfold Modes.M; rw [h.amat2, h.phi2]
  have hM1 : L1.M = fromBlocks (V * diagonal y) (-(V * diagonal y)) V V := by unfold Modes.M; rw [h.amat1, h.phi1]
  have hfv : ∀ v : m → ℂ, L1.f *ᵥ v = fun i => f i * v i := by
    intro v
    unfold Modes.f
    funext i
    rw [mulVec_diagonal]
  have hzV : ∀ v : m → ℂ, diagonal z *ᵥ (V *ᵥ v) = V *ᵥ (fun i => z i * v i) := by
    intro v
    rw [mulVec_mulVec, ← h.comm, ← mulVec_mulVec]
    congr 1
    funext i
    rw [mulVec_diagonal]
  have hyV : ∀ v : m → ℂ, (V * diagonal y) *ᵥ v = V *ᵥ (fun i => y i * v i) := by
    intro v
    rw [← mulVec_mulVec]
    congr 1
    funext i
    rw [mulVec_diagonal]
  have hc : Consistent [L0, L1, L2] 0 2 amp := by
    intro k L L' _ hk h3 h4
    interval_cases k
    · obtain rfl : L0 = L := by simpa using h3
      obtain rfl : L1 = L' := by simpa using h4
      rw [match_iff, hM0, hM1]
      simp only [amp, if_true, if_false, one_ne_zero, zero_add, hf0, Matrix.one_mulVec, hfv, fromBlocks_mulVec,
        Sum.elim_comp_inl, Sum.elim_comp_inr, hzV, hyV, neg_mulVec, ← sub_eq_add_neg, ← mulVec_sub, ← mulVec_add]
      congr 2
      · funext i
        simp only [Pi.sub_apply]
        linear_combination e2 i
      · funext i
        simp only [Pi.add_apply]
        exact e1 i
    · obtain rfl : L1 = L := by simpa using h3
      obtain rfl : L2 = L' := by simpa using h4
      rw [match_iff, hM1, hM2]
      have e5 : (2 : ℕ) ≠ 0 := by omega
      have e6 : (2 : ℕ) ≠ 1 := by omega
      simp only [amp, if_true, if_false, one_ne_zero, Nat.reduceAdd, e5, e6, Matrix.one_mulVec, hfv, fromBlocks_mulVec,
        Sum.elim_comp_inl, Sum.elim_comp_inr, mulVec_zero, add_zero, hzV, hyV, neg_mulVec, ← sub_eq_add_neg, ← mulVec_sub, ← mulVec_add]
      congr 2
      · funext i
        simp only [Pi.sub_apply]
        linear_combination -e4 i
      · funext i
        simp only [Pi.add_apply]
        exact (e3 i).symm
  obtain ⟨r1, r2⟩ := hrel amp hc
  simp only [amp, if_true, if_false, mulVec_zero, add_zero, OfNat.ofNat_ne_zero, OfNat.ofNat_ne_one] at r1 r2
  exact ⟨r1.symm, r2.symm⟩
end

variable {c : Static} {n : ℕ} {st : List ℕ} {p q : ℝ}

/-- The square lattice with first basis vector `(p, q)`. -/
noncomputable def oneTurned (p q : ℝ) : Lattice := { oneLat with basis := ![![p, q], ![-q, p]] }

/-- Tangent vectors along the first basis vector. -/
noncomputable def turnedField (p q : ℝ) : Field2 := ⟨4, 4, fun _ _ => ((2 * gt * p : ℝ) : ℂ), fun _ _ => ((2 * gt * q : ℝ) : ℂ)⟩

noncomputable def turnedLayer (p q : ℝ) : LayerSpec :=
  { exLayer "Grating" (1 / 4) (NdArr.ofGrid rowGrid) with tangentField := some (turnedField p q) }

/-- Air, rows of two permittivities along the first basis vector, air. -/
noncomputable def turnedMats (p q : ℝ) : ℕ → LayerSpec := fun r =>
  if r = 0 then exLayer "Superstrate" 0 (NdArr.scalar 1)
  else if r = 1 then turnedLayer p q
  else exLayer "Substrate" 0 (NdArr.scalar 1)

/-- The transverse permittivity which the code builds, its eigenvalues and eigenvectors. -/
noncomputable def turnedP (n : ℕ) (p q : ℝ) : Matrix (Idx n) (Idx n) ℂ :=
  fromBlocks ((25 - 9 * q ^ 2 : ℂ) • 1) ((-9 * (p * q) : ℂ) • 1) ((-9 * (p * q) : ℂ) • 1) ((25 - 9 * p ^ 2 : ℂ) • 1)
noncomputable def turnedM (n : ℕ) (p q : ℝ) : Matrix (Idx n) (Idx n) ℂ := (lw : ℂ) ^ 2 • turnedP n p q
noncomputable def turnedV (n : ℕ) (p q : ℝ) : Matrix (Idx n) (Idx n) ℂ :=
  fromBlocks ((q : ℂ) • 1) ((p : ℂ) • 1) ((p : ℂ) • 1) ((-q : ℂ) • 1)

theorem pq_oneC (h : p ^ 2 + q ^ 2 = 1) : (p : ℂ) ^ 2 + (q : ℂ) ^ 2 = 1 := by exact_mod_cast congrArg (fun x : ℝ => (x : ℂ)) h

theorem turnedMV (h : p ^ 2 + q ^ 2 = 1) : turnedM n p q * turnedV n p q = turnedV n p q * diagonal fun i => (rowW n i : ℂ) := by
  have e : (fun i => (rowW n i : ℂ)) = Sum.elim (fun _ : Fin n => ((4 : ℂ) * lw) ^ 2) (fun _ : Fin n => ((5 : ℂ) * lw) ^ 2) := by
    funext i
    unfold rowW
    rcases i with i | i <;> simp
  have h1 := pq_oneC h
  rw [e, diag_blocks]
  unfold turnedM turnedP turnedV
  rw [Matrix.smul_mul, fromBlocks_multiply, fromBlocks_multiply, fromBlocks_smul]
  simp only [Matrix.mul_smul, Matrix.mul_one, smul_smul, ← add_smul, Matrix.mul_zero, add_zero, zero_add]
  congr 2
  · linear_combination -9 * lw ^ 2 * (q : ℂ) * h1
  · ring
  · linear_combination -9 * lw ^ 2 * (p : ℂ) * h1
  · ring

theorem turnedV_inv (h : p ^ 2 + q ^ 2 = 1) : turnedV n p q * turnedV n p q = 1 := by
  have h1 := pq_oneC h
  unfold turnedV
  rw [fromBlocks_multiply]
  simp only [Matrix.smul_mul, Matrix.one_mul, smul_smul, ← add_smul]
  rw [← fromBlocks_one, ← one_smul ℂ (1 : Matrix (Fin n) (Fin n) ℂ), ← zero_smul ℂ (1 : Matrix (Fin n) (Fin n) ℂ)]
  simp only [smul_smul, mul_one]
  congr 2
  · linear_combination h1
  · ring
  · ring
  · linear_combination h1

theorem turnedV_det (h : p ^ 2 + q ^ 2 = 1) : (turnedV n p q).det ≠ 0 := by
  have := congrArg Matrix.det (turnedV_inv (n := n) h)
  rw [det_mul, det_one] at this
  exact left_ne_zero_of_mul_eq_one this

theorem turned_col (h : p ^ 2 + q ^ 2 = 1) (j) : ∃ i, turnedV n p q i j ≠ 0 := by
  by_contra hc
  push Not at hc
  have := congrFun (congrFun (turnedV_inv (n := n) h) j) j
  rw [mul_apply] at this
  simp [hc] at this

/-- The numerical library of the example. -/
noncomputable def turnedE (n : ℕ) (p q : ℝ) : Ext := eigWith (turnedM n p q) (fun i => (rowW n i : ℂ)) (turnedV n p q)

theorem turnedE_contract (h : p ^ 2 + q ^ 2 = 1) : EigContract (turnedE n p q) := eigWith_contract (turnedMV h) (turned_col h)

theorem turnedE_sort : ArgsortContract (turnedE n p q).argsort := exSort_spec

theorem turned_harm (n) : (oneTurned p q).getHarmonics exSort n true = .ok ([(0, 0)], 1) := by
  have : (oneTurned p q).getHarmonics' exSort n = .ok ([(0, 0)], 1) := rfl
  unfold Lattice.getHarmonics
  rw [this]
  simp only [except_bind_ok, if_true, except_pure_eq_ok, Except.ok.injEq, Prod.mk.injEq, and_true]
  exact List.perm_singleton.mp (argsort_gather_perm [((0 : ℤ), (0 : ℤ))] (fun g => (g.1 : ℝ)) (exSort_spec _))

theorem turned_init (h : p ^ 2 + q ^ 2 = 1) (E : Ext) (hE : E.argsort = exSort) {exc : PlaneWave} (hw : exc.wavelength = 1)
    (ht : exc.theta = 0) (hk0 : exc.wavevector 0 = 0) (hk1 : exc.wavevector 1 = 0) :
    ∃ c, simInit E (fun _ => oneTurned p q) (turnedMats p q) [0, 1, 2] exc 1 "tangent" = .ok c ∧
      OneSim c "tangent" [0, 1, 2] (oneTurned p q) ∧ ∀ i, c.a0 (.inl i) = exc.a0 0 ∧ c.a0 (.inr i) = exc.a0 1 := by
  have hdet : (oneTurned p q).matrix.det ≠ 0 := by
    have e : (oneTurned p q).matrix.det = p ^ 2 + q ^ 2 := by simp [Lattice.matrix, oneTurned, det_fin_two]; ring
    rw [e, h]
    exact one_ne_zero
  have hny : checkNyquist (oneTurned p q) [(0, 0)] = .ok () := by
    unfold checkNyquist maxHarmonic
    simp [oneTurned, oneLat]
  obtain ⟨c, hc⟩ := simInit_exists (E := E) (lats := fun _ => oneTurned p q) (mats := turnedMats p q)
    (r0 := 0) (tl := [1, 2]) (exc := exc) (nh := 1) (form := "tangent")
    (by simp [turnedMats, turnedLayer, exLayer]) (fun r hr => by
      simp only [List.mem_cons, List.not_mem_nil, or_false] at hr
      rcases hr with rfl | rfl | rfl <;> rfl)
    (by tauto) (fun h => by tauto) (by rw [hE]; exact turned_harm _) hny ⟨rfl, rfl⟩
    (by simp [turnedMats, exLayer, NdArr.scalar, NdArr.value]) (reciprocal_ok.mpr ⟨hdet, rfl⟩)
  have hi := simInit_ok hc
  have hl' : c.lattice = oneTurned p q := hi.lat_eq 0 rfl
  have hharm : c.harmonics = [(0, 0)] := by
    obtain ⟨k, hk⟩ := hi.harm
    rw [hl', hE, turned_harm] at hk
    simp only [Except.ok.injEq, Prod.mk.injEq] at hk
    exact hk.1.symm
  have hget : ∀ i, c.harmonics.get i = (0, 0) := by
    intro i
    have h0 := List.get_mem c.harmonics i
    have h1 : ∀ x ∈ c.harmonics, x = (0, 0) := by rw [hharm]; simp
    exact h1 _ h0
  obtain ⟨-, -, -, hfl, hkk⟩ := hi.sup 0 rfl
  have hsq : csqrt ((turnedMats p q 0).epsilon.value * (turnedMats p q 0).mu) = 1 := by
    have : (turnedMats p q 0).epsilon.value * (turnedMats p q 0).mu = ((1 : ℝ) : ℂ) := by
      simp [turnedMats, exLayer, NdArr.scalar, NdArr.value]
    rw [this, csqrt_ofReal zero_le_one]
    simp
  rw [hsq] at hfl hkk
  obtain ⟨r, hr, hkx, hky⟩ := hi.recip
  have hsim : OneSim c "tangent" [0, 1, 2] (oneTurned p q) := by
    refine ⟨hharm, ?_, fun i => ?_, fun i => ?_, hi.form_eq, hl', ?_, hi.stack_eq⟩
    · rw [hi.omega_eq]; rw [hw]; unfold lw; norm_num
    · rw [hkx, hget, hkk]; simp [kxOf, k0para, hk0]
    · rw [hky, hget, hkk]; simp [kyOf, k0para, hk1]
    · rw [hfl]; simp [ht]
  refine ⟨c, hc, hsim, fun i => ?_⟩
  have hz : (i : ℕ) = c.indexZerothOrder := by
    have h2 : (i : ℕ) < 1 := lt_of_lt_of_eq i.isLt hsim.nh
    have : c.indexZerothOrder = 0 := by
      rw [hi.idx, hharm]; decide
    omega
  obtain ⟨x, y⟩ := hi.a0 i
  rw [x, y, if_pos hz, if_pos hz]
  exact ⟨rfl, rfl⟩

theorem turned_norm (h : p ^ 2 + q ^ 2 = 1) : normPt ((2 * gt * p : ℝ) : ℂ) ((2 * gt * q : ℝ) : ℂ) = ge + 2 * gt := by
  have hp := gt_pos
  unfold normPt
  have e : Complex.normSq ((2 * gt * p : ℝ) : ℂ) + Complex.normSq ((2 * gt * q : ℝ) : ℂ) = (2 * gt) ^ 2 := by
    rw [Complex.normSq_ofReal, Complex.normSq_ofReal]
    linear_combination (2 * gt) ^ 2 * h
  rw [e, Real.sqrt_sq (by positivity)]
  rfl

theorem OneSim.turnedRows (hpq : p ^ 2 + q ^ 2 = 1) (h : OneSim c "tangent" st (oneTurned p q)) (Ao : LayerAttr c.nh) :
    (stepOut (turnedE c.nh p q) c (turnedLayer p q) Ao).1 = .ok () ∧
    ∀ a, ((stepOut (turnedE c.nh p q) c (turnedLayer p q) Ao).2 a).eig = some (fun i => (rowN c.nh i : ℂ), turnedV c.nh p q) ∧
      ((stepOut (turnedE c.nh p q) c (turnedLayer p q) Ao).2 a).Qeps = some ((lw : ℂ) ^ 2 • 1) := by
  have hu : (turnedLayer p q).isUniform = false ∧ (turnedLayer p q).isAnisotropic = false := by
    constructor <;> simp [turnedLayer, exLayer, LayerSpec.isUniform, LayerSpec.isAnisotropic, NdArr.ofGrid, isUniform, isAnisotropic]
  have hmu : (turnedLayer p q).mu = 1 := rfl
  have hc : (turnedLayer p q).iscopy = false := rfl
  obtain ⟨hb1, hb2⟩ := gth_bounds
  have hg : (turnedLayer p q).epsilon.toGrid = .ok ⟨4, 4, rowGrid⟩ := by
    show (NdArr.ofGrid rowGrid).toGrid = _
    unfold NdArr.toGrid NdArr.ofGrid
    simp
  have hsum : ∀ f : ℂ → ℂ, (∑ x, ∑ y, f (rowGrid x y)) / 16 = (f ((25 + 15 * gth : ℝ) : ℂ) + f ((25 - 15 * gth : ℝ) : ℂ)) / 2 := by
    intro f
    simp [rowGrid, Fin.sum_univ_succ]
    ring
  have ht : c.toep ⟨4, 4, rowGrid⟩ = .ok ((25 : ℂ) • 1) := by
    rw [h.toep, hsum fun x => x]
    congr 2
    push_cast
    ring
  have hdet : ((25 : ℂ) • (1 : Matrix (Fin c.nh) (Fin c.nh) ℂ)).det ≠ 0 := by
    rw [det_smul, det_one, mul_one]; exact pow_ne_zero _ (by norm_num)
  have n1 : ((25 + 15 * gth : ℝ) : ℂ) ≠ 0 := by
    have : (0 : ℝ) < 25 + 15 * gth := by linarith
    exact_mod_cast this.ne'
  have n2 : ((25 - 15 * gth : ℝ) : ℂ) ≠ 0 := by
    have : (0 : ℝ) < 25 - 15 * gth := by linarith
    exact_mod_cast this.ne'
  have n3 : ((25 - 9 * gth ^ 2 : ℝ) : ℂ) ≠ 0 := by
    have : (0 : ℝ) < 25 - 9 * gth ^ 2 := by nlinarith
    exact_mod_cast this.ne'
  have hnu : nuHatInvIso c ⟨4, 4, rowGrid⟩ = .ok ((25 - 9 * gth ^ 2 : ℂ) • 1) := by
    unfold nuHatInvIso recipGrid
    rw [if_neg (by
      push Not
      intro x y
      show (if (y : ℕ) % 2 = 0 then _ else _) ≠ (0 : ℂ)
      split
      · exact n1
      · exact n2)]
    simp only [except_bind_ok]
    rw [h.toep (fun x y => 1 / rowGrid x y), except_bind_ok, linInv_ok, hsum fun x => 1 / x]
    have e : (1 / ((25 + 15 * gth : ℝ) : ℂ) + 1 / ((25 - 15 * gth : ℝ) : ℂ)) / 2 = 1 / ((25 - 9 * gth ^ 2 : ℝ) : ℂ) := by
      rw [div_add_div _ _ n1 n2, div_div, div_eq_div_iff (mul_ne_zero (mul_ne_zero n1 n2) two_ne_zero) n3]
      push_cast
      ring
    rw [e]
    refine ⟨?_, ?_⟩
    · rw [det_smul, det_one, mul_one]; exact pow_ne_zero _ (div_ne_zero one_ne_zero n3)
    · symm
      refine inv_eq_right_inv ?_
      rw [Matrix.smul_mul, Matrix.one_mul, smul_smul, show (25 - 9 * gth ^ 2 : ℂ) = ((25 - 9 * gth ^ 2 : ℝ) : ℂ) by push_cast; rfl, one_div,
        inv_mul_cancel₀ n3, one_smul]
  have hP : ∀ H, pepsOf (turnedE c.nh p q) c (turnedLayer p q) ⟨4, 4, rowGrid⟩ none ((25 : ℂ) • 1) (diag2 ((25 : ℂ) • 1)) H =
      .ok (turnedP c.nh p q) := by
    intro H
    unfold pepsOf
    have hf1 : c.lattice.is1D = false := by rw [h.lat]; rfl
    simp only [h.form, hf1, Bool.false_eq_true, if_false, if_true, show ¬ ("tangent" = "original") by decide, hnu, except_bind_ok,
      except_pure_eq_ok]
    have htan : getTangentField (turnedE c.nh p q) (turnedLayer p q) ⟨4, 4, rowGrid⟩ H true = .ok (turnedField p q) := rfl
    rw [htan, except_bind_ok]
    have hp : ∀ f : ℂ → ℂ → ℂ, c.toep (projField (turnedField p q) f) =
        .ok ((f ((2 * gt * p : ℝ) : ℂ) ((2 * gt * q : ℝ) : ℂ) / ((ge + 2 * gt : ℝ) : ℂ) ^ 2) • 1) := by
      intro f
      have e : projField (turnedField p q) f = ⟨4, 4, fun _ _ => f ((2 * gt * p : ℝ) : ℂ) ((2 * gt * q : ℝ) : ℂ) /
        ((|normPt ((2 * gt * p : ℝ) : ℂ) ((2 * gt * q : ℝ) : ℂ)| ^ 2 : ℝ) : ℂ)⟩ := rfl
      rw [e, h.toep, turned_norm hpq, sq_abs, Complex.ofReal_pow]
      congr 2
      simp
      ring
    unfold getPeps
    rw [hp, hp, hp, hp]
    have hgp := gt_pos
    have hgtC : (gt : ℂ) ≠ 0 := by exact_mod_cast hgp.ne'
    have hden : ((ge + 2 * gt : ℝ) : ℂ) = gth * (2 * gt) := by
      have : ge + 2 * gt = gth * (2 * gt) := by unfold gth; field_simp
      rw [this]; push_cast; rfl
    have hthC : (gth : ℂ) ≠ 0 := by exact_mod_cast hb1.ne'
    have s1 : ∀ x : ℝ, star (x : ℂ) = x := fun x => Complex.conj_ofReal x
    simp only [s1, hden]
    simp only [except_bind_ok, except_pure_eq_ok]
    congr 1
    unfold diag2 turnedP
    rw [sub_eq_add_neg (fromBlocks _ _ _ _) (fromBlocks ((25 - 9 * gth ^ 2 : ℂ) • 1) _ _ _), fromBlocks_neg, fromBlocks_add]
    simp only [neg_zero, add_zero, ← sub_eq_add_neg, fromBlocks_multiply, Matrix.zero_mul, zero_add, ← sub_smul, Matrix.smul_mul, Matrix.one_mul,
      smul_smul]
    rw [sub_eq_add_neg, fromBlocks_neg, fromBlocks_add]
    simp only [← neg_smul, ← add_smul, zero_add]
    push_cast
    congr 2
    · field_simp
      ring
    · field_simp
      ring
    · field_simp
      ring
    · field_simp
      ring
  obtain ⟨M, pp, Q, hb⟩ : ∃ M p' Q, buildPure (turnedE c.nh p q) c (turnedLayer p q) = .ok (.patterned M p' Q) := by
    unfold buildPure
    simp only [hu, Bool.false_eq_true, if_false, hg, ht, except_bind_ok, hmu, one_ne_zero]
    rw [(linInv_ok _ _).mpr ⟨hdet, rfl⟩, except_bind_ok, raiseIf_ok (u := ()).mpr (by simp), except_bind_ok]
    unfold paraOf epsParaHatOf
    simp only [hu, Bool.false_eq_true, if_false, except_bind_ok, except_pure_eq_ok]
    rw [h.lat, show (turnedE c.nh p q).argsort = exSort from rfl, turned_harm]
    simp only [except_bind_ok, hP]
    exact ⟨_, _, _, rfl⟩
  obtain ⟨-, -, -, h4, h5, -, -, epszz, para, eph, Ht, k, h6, h7, h8, h9, h10, h11⟩ := buildPure_patterned_ok hmu hb
  simp only [hu, Bool.false_eq_true, if_false, hg, Except.ok.injEq] at h6
  subst h6
  rw [ht, Except.ok.injEq] at h7
  unfold paraOf at h8
  simp only [hu, Bool.false_eq_true, if_false, except_pure_eq_ok, Except.ok.injEq] at h8
  subst h8
  unfold epsParaHatOf at h9
  simp only [except_pure_eq_ok, Except.ok.injEq] at h9
  rw [← h9, ← h7, hP, Except.ok.injEq] at h11
  rw [h.kEps, sub_zero, h.om] at h4
  have hM : M = turnedM c.nh p q := by
    rw [h5]
    unfold waveMatrix
    rw [h.kEps, h.kMu, Matrix.mul_zero, sub_zero, sub_zero, ← h11, h.om]
    rfl
  have hlw := lw_pos
  have hs : solveEigenproblem (turnedE c.nh p q) M = .ok (fun i => (rowN c.nh i : ℂ), turnedV c.nh p q) := by
    unfold solveEigenproblem
    rw [hM, show (turnedE c.nh p q).eig c.nh (turnedM c.nh p q) = _ from eigWith_eig _ _ _]
    simp only [except_bind_ok, except_pure_eq_ok, Except.ok.injEq, Prod.mk.injEq, and_true]
    funext k
    unfold rowW rowN
    rcases k with k | k <;> simp only [Sum.elim_inl, Sum.elim_inr] <;> rw [modeSqrt_real (sq_nonneg _), Real.sqrt_sq (by positivity)]
  unfold stepOut
  simp only [hc, Bool.false_eq_true, if_false, hb, hs, h4]
  exact ⟨trivial, fun _ => ⟨trivial, trivial⟩⟩

/-- Flux in air. -/
theorem OneSim.airFlux {f : String} {l : Lattice} (h : OneSim c f st l) (a b : Idx c.nh → ℂ) :
    ∃ F, poyntingFlux c ⟨fun _ => (lw : ℂ), 1, (lw : ℂ) ^ 2 • 1, some 0⟩ a b = .ok F ∧
      (∀ i, F.1 i = Complex.normSq (a (.inl i)) + Complex.normSq (a (.inr i))) ∧
      ∀ i, F.2 i = -(Complex.normSq (b (.inl i)) + Complex.normSq (b (.inr i))) := by
  have hwp := lw_pos
  have hw : (lw : ℂ) ≠ 0 := by exact_mod_cast hwp.ne'
  have hA : ((lw : ℂ) ^ 2 • (1 : Matrix (Idx c.nh) (Idx c.nh) ℂ)) * 1 * diagonal (fun _ => 1 / ((c.omega : ℂ) * (lw : ℂ))) = 1 := by
    rw [Matrix.mul_one, Matrix.smul_mul, Matrix.one_mul, ← smul_one_eq_diagonal, smul_smul, h.om]
    rw [show (lw : ℂ) ^ 2 * (1 / ((lw : ℂ) * lw)) = 1 by field_simp, one_smul]
  unfold poyntingFlux
  rw [if_neg (by push Not; intro k; rw [h.om]; exact mul_ne_zero hw hw)]
  dsimp only
  rw [hA]
  simp only [Matrix.one_mulVec, sub_self, mul_zero, add_zero, star_zero]
  have e : ∀ z : ℂ, (star z * z).re = Complex.normSq z := fun z => by
    rw [RCLike.star_def, mul_comm, Complex.mul_conj, Complex.ofReal_re]
  refine ⟨_, rfl, fun i => ?_, fun i => ?_⟩
  · simp only [e, Complex.add_re, Complex.ofReal_re]
  · simp only [e, Complex.add_re, Complex.neg_re, Complex.ofReal_re]
    ring

/-- Efficiencies of the rows: the first mode is transmitted, the second mode is reflected with the reflectance 144/169. -/
theorem OneSim.turnedEff (hpq : p ^ 2 + q ^ 2 = 1) (h : OneSim c "tangent" [0, 1, 2] (oneTurned p q)) {u v : ℝ}
    (ha : ∀ i, c.a0 (.inl i) = q * u + p * v ∧ c.a0 (.inr i) = p * u - q * v) :
    (diffractionEfficiencies (turnedE c.nh p q) c false (Dyn.fresh (turnedMats p q) (unsolved c.nh))).1 =
      .ok (.total (144 / 169 * v ^ 2) (u ^ 2 + 25 / 169 * v ^ 2)) := by
  let ev : ℕ → (Idx c.nh → ℂ) × Matrix (Idx c.nh) (Idx c.nh) ℂ := fun r =>
    if r = 1 then (fun i => (rowN c.nh i : ℂ), turnedV c.nh p q) else (fun _ => (lw : ℂ), 1)
  let Q : ℕ → Matrix (Idx c.nh) (Idx c.nh) ℂ := fun _ => (lw : ℂ) ^ 2 • 1
  have hnd : c.stack.Nodup := by rw [h.stack]; decide
  obtain ⟨A1, hs, h3, h4⟩ := solved_steps (E := turnedE c.nh p q) (mats := turnedMats p q) ev Q hnd (by
    intro r hr Ao
    rw [h.stack] at hr
    simp only [List.mem_cons, List.not_mem_nil, or_false] at hr
    rcases hr with rfl | rfl | rfl
    · exact h.air _ rfl rfl rfl Ao
    · exact h.turnedRows hpq Ao
    · exact h.air _ rfl rfl rfl Ao)
  let La : Modes (Idx c.nh) := ⟨fun _ => (lw : ℂ), 1, (lw : ℂ) ^ 2 • 1, some 0⟩
  let Lg : Modes (Idx c.nh) := ⟨fun i => (rowN c.nh i : ℂ), turnedV c.nh p q, (lw : ℂ) ^ 2 • 1, some (1 / 4)⟩
  have hwp := lw_pos
  have hw : (lw : ℂ) ≠ 0 := by exact_mod_cast hwp.ne'
  have hN : ∀ i, 0 < rowN c.nh i := by
    intro i
    unfold rowN
    rcases i with i | i <;> simp only [Sum.elim_inl, Sum.elim_inr] <;> positivity
  have hqg : ∀ i, (rowN c.nh i : ℂ) ≠ 0 := fun i => by exact_mod_cast (hN i).ne'
  have hfilm : FilmModes La Lg La (turnedV c.nh p q) (fun _ => ((lw : ℝ) : ℂ)) (fun i => ((lw ^ 2 / rowN c.nh i : ℝ) : ℂ)) := by
    have hA : La.amat = diagonal fun _ => ((lw : ℝ) : ℂ) := by
      rw [amat_eq]
      simp only [La, Matrix.one_mul, Matrix.smul_mul]
      rw [← diagonal_smul]
      congr 1
      funext i
      simp only [Pi.smul_apply, smul_eq_mul]
      field_simp
    refine ⟨rfl, rfl, rfl, turnedV_det hpq, fun _ => hw, hqg, fun _ => hw, fun _ => hw, fun i => ?_, hA, hA, ?_, ?_⟩
    · have := hN i
      exact_mod_cast (by positivity : 0 < lw ^ 2 / rowN c.nh i).ne'
    · rw [amat_eq]
      simp only [Lg, Matrix.one_mul, Matrix.smul_mul]
      rw [← Matrix.mul_smul, ← diagonal_smul]
      congr 2
      funext i
      simp only [Pi.smul_apply, smul_eq_mul]
      push_cast
      ring
    · rw [← smul_one_eq_diagonal, Matrix.mul_smul, Matrix.smul_mul, Matrix.mul_one, Matrix.one_mul]
  have hph : ∀ i, phasor Lg.q Lg.z i = Sum.elim (fun _ => 1) (fun _ => Complex.I) i := by
    intro i
    unfold phasor
    simp only [Lg, Modes.z, Option.getD_some, rowN]
    rcases i with i | i <;> simp only [Sum.elim_inl, Sum.elim_inr]
    · rw [show Complex.I * ((4 * lw : ℝ) : ℂ) * ((1 / 4 : ℝ) : ℂ) = (1 : ℤ) * (2 * Real.pi * Complex.I) by unfold lw; push_cast; ring]
      exact Complex.exp_int_mul_two_pi_mul_I 1
    · rw [show Complex.I * ((5 * lw : ℝ) : ℂ) * ((1 / 4 : ℝ) : ℂ) = (1 : ℤ) * (2 * Real.pi * Complex.I) + Real.pi / 2 * Complex.I by unfold lw; push_cast; ring,
        Complex.exp_add, Complex.exp_int_mul_two_pi_mul_I 1, Complex.exp_pi_div_two_mul_I, one_mul]
  have hy : ∀ i, (((lw ^ 2 / rowN c.nh i : ℝ) : ℂ) / ((lw : ℝ) : ℂ)) = Sum.elim (fun _ => 1 / 4) (fun _ => 1 / 5) i := by
    intro i
    unfold rowN
    rcases i with i | i <;> simp only [Sum.elim_inl, Sum.elim_inr] <;> push_cast <;> field_simp
  obtain ⟨S, hS⟩ := hfilm.S (fun i => by
      rw [hy]
      rcases i with i | i <;> simp only [Sum.elim_inl, Sum.elim_inr] <;> norm_num) (fun i => by
      rw [hy, hph]
      rcases i with i | i <;> simp only [Sum.elim_inl, Sum.elim_inr, Complex.I_sq] <;> norm_num)
  have m0 : (⟨(ev 0).1, (ev 0).2, Q 0, (turnedMats p q 0).thickness⟩ : Modes (Idx c.nh)) = La := rfl
  have m1 : (⟨(ev 1).1, (ev 1).2, Q 1, (turnedMats p q 1).thickness⟩ : Modes (Idx c.nh)) = Lg := rfl
  have m2 : (⟨(ev 2).1, (ev 2).2, Q 2, (turnedMats p q 2).thickness⟩ : Modes (Idx c.nh)) = La := rfl
  have v0 := h4 0 (by rw [h.stack]; simp)
  have v2 := h4 2 (by rw [h.stack]; simp)
  rw [m0] at v0
  rw [m2] at v2
  have hS' : valS c (turnedMats p q) A1 (.ok ()) none = .ok S := by
    rw [valS_none, h3, h.stack]
    simp only [List.map_cons, List.map_nil, m0, m1, m2]
    exact hS
  have hq : ∀ k, (c.omega : ℂ) * La.q k ≠ 0 := fun k => by rw [h.om]; exact mul_ne_zero hw hw
  obtain ⟨RT, d', e1, -, f0, fN, e2, e3, e4⟩ := succeeds_efficiencies hs hS' (by rw [h.stack]; rfl) (by rw [h.stack]; rfl) v0 v2
    hq hq (by rw [h.flux]; exact one_ne_zero) (Dyn.fresh (turnedMats p q) (unsolved c.nh)) (inv_fresh _ (.inl rfl))
  have hV : ∀ x y : ℂ, turnedV c.nh p q *ᵥ Sum.elim (fun _ => x) (fun _ => y) =
      Sum.elim (fun _ => q * x + p * y) (fun _ => p * x - q * y) := by
    intro x y
    unfold turnedV
    rw [fromBlocks_mulVec]
    simp only [Sum.elim_comp_inl, Sum.elim_comp_inr, smul_mulVec, Matrix.one_mulVec]
    congr 1
    funext i
    simp
    ring
  have ha0 : c.a0 = turnedV c.nh p q *ᵥ Sum.elim (fun _ => (u : ℂ)) (fun _ => (v : ℂ)) := by
    rw [hV]
    funext i
    rcases i with i | i
    · exact (ha i).1
    · exact (ha i).2
  have hI := Complex.I_sq
  have hf0 : La.f = 1 := by
    unfold Modes.f phasor
    simp [La, Modes.z]
  obtain ⟨s1, s2⟩ := hfilm.scatter hS hf0 (al := Sum.elim (fun _ => (u : ℂ)) (fun _ => (v : ℂ)))
    (rho := Sum.elim (fun _ => 0) (fun _ => 12 / 13 * (v : ℂ))) (tau := Sum.elim (fun _ => (u : ℂ)) (fun _ => 5 / 13 * Complex.I * (v : ℂ)))
    (a1 := Sum.elim (fun _ => 5 / 2 * (u : ℂ)) (fun _ => 15 / 13 * (v : ℂ)))
    (b1 := Sum.elim (fun _ => -3 / 2 * (u : ℂ)) (fun _ => -10 / 13 * Complex.I * (v : ℂ)))
    (fun i => by
      rw [hph]
      rcases i with i | i <;> simp only [Sum.elim_inl, Sum.elim_inr]
      · ring
      · linear_combination (10 / 13 * (v : ℂ)) * hI)
    (fun i => by
      rw [hph, ← mul_div_cancel₀ (((lw ^ 2 / rowN c.nh i : ℝ) : ℂ)) hw, hy]
      rcases i with i | i <;> simp only [Sum.elim_inl, Sum.elim_inr]
      · ring
      · linear_combination (-(2 / 13) * lw * (v : ℂ)) * hI)
    (fun i => by
      rw [hph]
      rcases i with i | i <;> simp only [Sum.elim_inl, Sum.elim_inr]
      · ring
      · ring)
    (fun i => by
      rw [hph, ← mul_div_cancel₀ (((lw ^ 2 / rowN c.nh i : ℝ) : ℂ)) hw, hy]
      rcases i with i | i <;> simp only [Sum.elim_inl, Sum.elim_inr]
      · ring
      · ring)
  rw [← ha0, hV] at s1 s2
  rw [s2] at e2
  rw [s1] at e3
  obtain ⟨F, g1, -, g2⟩ := h.airFlux c.a0 (Sum.elim (fun _ => (q : ℂ) * 0 + p * (12 / 13 * (v : ℂ))) (fun _ => (p : ℂ) * 0 - q * (12 / 13 * (v : ℂ))))
  obtain ⟨F', g1', g2', -⟩ := h.airFlux (Sum.elim (fun _ => (q : ℂ) * u + p * (5 / 13 * Complex.I * (v : ℂ))) (fun _ => (p : ℂ) * u - q * (5 / 13 * Complex.I * (v : ℂ)))) 0
  obtain rfl := Except.ok.inj (g1.symm.trans e2)
  obtain rfl := Except.ok.inj (g1'.symm.trans e3)
  have hpos : 0 < c.nh := by rw [h.nh]; norm_num
  haveI : Subsingleton (Fin c.nh) := ⟨h.sub⟩
  unfold diffractionEfficiencies
  rw [PyM.bind_ok e1]
  subst e4
  simp only [Bool.false_eq_true, if_false, PyM.pure_def]
  rw [Fintype.sum_subsingleton _ (⟨0, hpos⟩ : Fin c.nh), Fintype.sum_subsingleton _ (⟨0, hpos⟩ : Fin c.nh), g2, g2', h.flux]
  simp only [Sum.elim_inl, Sum.elim_inr, Complex.normSq_apply]
  congr 2
  · simp
    linear_combination (144 / 169 * v ^ 2) * hpq
  · simp
    linear_combination (u ^ 2 + 25 / 169 * v ^ 2) * hpq

end Nannos.Examples
