import Verif.Examples.OneOrder
import Verif.Examples.Square

/-! A grating a quarter of a wavelength thick in air on a mono-periodic lattice, formulation `tangent`, one order. -/

namespace Nannos.Examples

open Matrix Nannos Spec

section film

variable {m : Type} [Fintype m] [DecidableEq m]
variable {L0 L1 L2 : Modes m} {V : Matrix m m ℂ} {z y : m → ℂ}

/-- The amplitudes inside the film are defined. -/
theorem FilmModes.interior (h : FilmModes L0 L1 L2 V z y) (hA : ∀ i, 1 + y i / z i ≠ 0)
    (hg : ∀ i, (1 + y i / z i) ^ 2 ≠ (phasor L1.q L1.z i) ^ 2 * (1 - y i / z i) ^ 2) :
    ∃ S P, freshS [L0, L1, L2] 0 1 = .ok S ∧ freshS [L0, L1, L2] 1 2 = .ok P ∧ (1 - S.s12 * P.s21).det ≠ 0 := by
  have hV : V * V⁻¹ = 1 := mul_nonsing_inv _ (det_unit h.detV)
  have hV' : V⁻¹ * V = 1 := nonsing_inv_mul _ (det_unit h.detV)
  have hB : ∀ i, 1 + z i / y i ≠ 0 := by
    intro i
    have h1 := hA i
    have h3 := h.y0 i
    have h4 := h.z0 i
    intro h0
    apply h1
    field_simp at h0 ⊢
    linear_combination h0
  obtain ⟨S1, h1⟩ := stepS_of (S := SMat.one) h.I01 (by
    simp only [toBlocks_fromBlocks₁₁, toBlocks_fromBlocks₂₁, SMat.one, Matrix.mul_zero, Matrix.zero_mul, sub_zero]
    rw [det_mul, det_diagonal]
    exact mul_ne_zero h.detV (Finset.prod_ne_zero_iff.mpr fun i _ => div_ne_zero (hA i) two_ne_zero))
  obtain ⟨P1, h2⟩ := stepS_of (S := SMat.one) h.I12 (by
    simp only [toBlocks_fromBlocks₁₁, toBlocks_fromBlocks₂₁, SMat.one, Matrix.mul_zero, Matrix.zero_mul, sub_zero]
    rw [det_mul, det_diagonal, det_nonsing_inv, Ring.inverse_eq_inv']
    exact mul_ne_zero (Finset.prod_ne_zero_iff.mpr fun i _ => div_ne_zero (hB i) two_ne_zero) (inv_ne_zero h.detV))
  have hs12 : S1.s12 = diagonal fun i => -((1 - y i / z i) / (1 + y i / z i) * phasor L1.q L1.z i) := by
    obtain ⟨I, A, hI, hA', hd, -, h12, -, -⟩ := stepS_ok h1
    rw [h.I01] at hI
    obtain rfl := Except.ok.inj hI
    simp only [toBlocks_fromBlocks₁₁, toBlocks_fromBlocks₁₂, toBlocks_fromBlocks₂₁, toBlocks_fromBlocks₂₂, SMat.one,
      Matrix.mul_zero, Matrix.zero_mul, sub_zero, zero_sub] at hA' h12
    subst hA'
    have hu := det_unit hd
    have h3 : (V * diagonal fun i => (1 + y i / z i) / 2) *
        (diagonal fun i => -((1 - y i / z i) / (1 + y i / z i) * phasor L1.q L1.z i)) =
        -(V * diagonal fun i => (1 - y i / z i) / 2) * L1.f := by
      unfold Modes.f
      rw [Matrix.neg_mul, Matrix.mul_assoc, Matrix.mul_assoc, diagonal_mul_diagonal, diagonal_mul_diagonal, ← Matrix.mul_neg,
        diagonal_neg]
      congr 2
      funext i
      have := hA i
      generalize y i / z i = w at this ⊢
      field_simp
    rw [← h3] at h12
    have := congrArg (fun Y => (V * diagonal fun i => (1 + y i / z i) / 2)⁻¹ * Y) h12
    simpa only [← Matrix.mul_assoc, nonsing_inv_mul _ hu, Matrix.one_mul] using this
  have hp21 : P1.s21 = diagonal fun i => (1 - z i / y i) / (1 + z i / y i) * phasor L1.q L1.z i := by
    obtain ⟨I, A, hI, hA', hd, h11, -, h21, -⟩ := stepS_ok h2
    rw [h.I12] at hI
    obtain rfl := Except.ok.inj hI
    simp only [toBlocks_fromBlocks₁₁, toBlocks_fromBlocks₁₂, toBlocks_fromBlocks₂₁, toBlocks_fromBlocks₂₂, SMat.one,
      Matrix.mul_zero, Matrix.zero_mul, sub_zero, zero_sub, Matrix.mul_one, Matrix.one_mul, add_zero] at hA' h11 h21
    subst hA'
    have hu := det_unit hd
    have h3 : ((diagonal fun i => (1 + z i / y i) / 2) * V⁻¹) *
        (V * diagonal fun i => 2 / (1 + z i / y i) * phasor L1.q L1.z i) = L1.f := by
      unfold Modes.f
      rw [Matrix.mul_assoc, ← Matrix.mul_assoc V⁻¹, hV', Matrix.one_mul, diagonal_mul_diagonal]
      congr 1
      funext i
      have := hB i
      generalize z i / y i = w at this ⊢
      field_simp
    rw [← h3] at h11
    have := congrArg (fun Y => ((diagonal fun i => (1 + z i / y i) / 2) * V⁻¹)⁻¹ * Y) h11
    simp only [← Matrix.mul_assoc, nonsing_inv_mul _ hu, Matrix.one_mul] at this
    rw [h21, this, Matrix.mul_assoc, ← Matrix.mul_assoc V⁻¹, hV', Matrix.one_mul, diagonal_mul_diagonal]
    congr 1
    funext i
    have := hB i
    generalize z i / y i = w at this ⊢
    field_simp
  refine ⟨S1, P1, ?_, ?_, ?_⟩
  · have := (freshS_ok (layers := [L0, L1, L2]) (i := 0) (j := 1) (S := S1)).mpr ⟨by omega, by
      have : ((1 : ℕ) : ℤ) = ((0 : ℕ) : ℤ) + 1 := rfl
      rw [this, loopS_succ _ 0 0 le_rfl, loopS_self, except_bind_ok, stepAt_ok]
      exact ⟨_, _, rfl, rfl, h1⟩⟩
    exact this
  · have := (freshS_ok (layers := [L0, L1, L2]) (i := 1) (j := 2) (S := P1)).mpr ⟨by omega, by
      have : ((2 : ℕ) : ℤ) = ((1 : ℕ) : ℤ) + 1 := rfl
      rw [this, loopS_succ _ 1 1 le_rfl, loopS_self, except_bind_ok, stepAt_ok]
      exact ⟨_, _, rfl, rfl, h2⟩⟩
    exact this
  · rw [hs12, hp21, diagonal_mul_diagonal, ← diagonal_one, diagonal_sub, det_diagonal]
    refine Finset.prod_ne_zero_iff.mpr fun i _ => ?_
    have h1 := hA i
    have h2 := hg i
    have h3 := h.y0 i
    have h4 := h.z0 i
    have h5 := hB i
    intro h0
    apply h2
    have e : z i / y i = 1 / (y i / z i) := by field_simp
    rw [e] at h0 h5
    have hw : y i / z i ≠ 0 := div_ne_zero h3 h4
    generalize y i / z i = w at *
    have h6 : w + 1 ≠ 0 := by rwa [add_comm]
    field_simp at h0
    linear_combination h0

end film

variable {c : Static}

/-- Columns of permittivity 3 and 6: mean 9/2, harmonic mean 4. -/
noncomputable def quarterGrid : Grid 4 1 := fun x _ => if (x : ℕ) < 2 then 3 else 6

noncomputable def quarterMats : ℕ → LayerSpec := fun r =>
  if r = 0 then exLayer "Superstrate" 0 (NdArr.scalar 1)
  else if r = 1 then exLayer "Grating" (1 / 8) (NdArr.ofGrid quarterGrid)
  else exLayer "Substrate" 0 (NdArr.scalar 1)

structure QuarterSim (c : Static) : Prop where
  sq : SquareSim true c "tangent"
  stack : c.stack = [0, 1, 2]
  a0 : ∀ i, c.a0 (.inr i) = 1

theorem quarter_init : ∃ c, simInit exE (fun _ => sqLat true) quarterMats [0, 1, 2] exExc 1 "tangent" = .ok c ∧ QuarterSim c := by
  obtain ⟨c, h1, h2, h3⟩ := sqInit true "tangent" (by tauto) (fun _ => by tauto) quarterMats 0 [1, 2] 1 one_pos
    (by simp [quarterMats, exLayer]) (fun r hr => by
      simp only [List.mem_cons, List.not_mem_nil, or_false] at hr
      rcases hr with rfl | rfl | rfl <;> rfl) rfl (by simp [quarterMats, exLayer])
  refine ⟨c, h1, h2, h3, fun i => ?_⟩
  have hi := simInit_ok h1
  rw [(hi.a0 i).2, hi.idx, h2.harm]
  have hn : c.harmonics.length = 1 := by rw [h2.harm]; rfl
  have : (i : ℕ) = 0 := by have : (i : ℕ) < c.harmonics.length := i.isLt; omega
  rw [if_pos (by rw [this]; simp [zerothIndex])]
  simp [exExc]

theorem QuarterSim.sub (h : QuarterSim c) (i j : Fin c.nh) : i = j := sqSub true h.sq i j

theorem QuarterSim.kEps (h : QuarterSim c) (e) : Spec.kEps c.kx c.ky e = 0 := by
  ext a b
  rcases a with i | i <;> rcases b with j | j <;> simp [Spec.kEps, h.sq.kx, h.sq.ky]

theorem QuarterSim.kMu (h : QuarterSim c) : Spec.kMu c.kx c.ky = 0 := by
  ext a b
  rcases a with i | i <;> rcases b with j | j <;> simp [Spec.kMu, h.sq.kx, h.sq.ky]

theorem QuarterSim.om (h : QuarterSim c) : c.omega = lw := h.sq.omega

theorem QuarterSim.toep (h : QuarterSim c) (u : Grid 4 1) : c.toep ⟨4, 1, u⟩ = .ok (((∑ x, ∑ y, u x y) / 4) • 1) := by
  obtain ⟨A, hA⟩ := toeplitz_exists (H := c.harmonics.get) u (by
    intro i j; simp only [sqGet true h.sq, sub_self]; omega)
  unfold Static.toep
  dsimp only
  rw [hA, (toeplitz_ok hA).2]
  congr 1
  ext i j
  obtain rfl := h.sub i j
  simp only [Matrix.of_apply, sub_self, coeff_zero_zero, Matrix.smul_apply, Matrix.one_apply_eq, smul_eq_mul, mul_one]
  unfold mean
  norm_num

/-- The transverse permittivities: for `E_y` the mean, for `E_x` the harmonic mean. -/
noncomputable def quarterP (c : Static) : Idx c.nh → ℝ := Sum.elim (fun _ => 9 / 2) (fun _ => 4)

theorem quarterP_pos (i) : 0 < quarterP c i := by
  unfold quarterP
  rcases i with i | i <;> dsimp only [Sum.elim_inl, Sum.elim_inr] <;> norm_num

theorem QuarterSim.air (h : QuarterSim c) (L : LayerSpec) (hc : L.iscopy = false) (he : L.epsilon = NdArr.scalar 1) (hmu : L.mu = 1)
    (Ao : LayerAttr c.nh) : (stepOut exE c L Ao).1 = .ok () ∧ ∀ a, ((stepOut exE c L Ao).2 a).eig = some (fun _ => (lw : ℂ), 1) ∧
      ((stepOut exE c L Ao).2 a).Qeps = some ((lw : ℂ) ^ 2 • 1) := by
  have hu : L.isUniform = true ∧ L.isAnisotropic = false := by
    unfold LayerSpec.isUniform LayerSpec.isAnisotropic
    rw [he]; exact ⟨rfl, rfl⟩
  have hv : L.epsilon.value = 1 := by rw [he]; rfl
  obtain ⟨Q, hb⟩ : ∃ Q, buildPure exE c L = .ok (.uniform Q) := by
    unfold buildPure
    simp only [hu, if_true, Bool.false_eq_true, if_false, hv, one_ne_zero]
    exact ⟨_, rfl⟩
  obtain ⟨-, -, -, hQ⟩ := buildPure_uniform_ok hmu hb
  rw [h.kEps, sub_zero, h.om] at hQ
  have hq : csqrt ((lw : ℂ) ^ 2) = lw := by
    rw [← Complex.ofReal_pow, csqrt_ofReal (sq_nonneg _), Real.sqrt_sq lw_pos.le]
  have hs : solveUniform L c.omega c.kx c.ky = .ok (fun _ => (lw : ℂ), 1) := by
    unfold solveUniform
    simp only [hu, Bool.false_eq_true, if_false, hv, hmu, h.sq.kx, h.sq.ky, h.om, Except.ok.injEq, Prod.mk.injEq, and_true]
    funext k
    rcases k with i | i <;> simp [hq]
  unfold stepOut
  simp only [hc, Bool.false_eq_true, if_false, hb, hs, hQ]
  exact ⟨trivial, fun _ => ⟨trivial, trivial⟩⟩

theorem QuarterSim.grating (h : QuarterSim c) : (∀ Ao, (stepOut exE c (quarterMats 1) Ao).1 = .ok () ∧
    ∀ a, ((stepOut exE c (quarterMats 1) Ao).2 a).eig = some (fun i => ((lw * Real.sqrt (quarterP c i) : ℝ) : ℂ), 1) ∧
      ((stepOut exE c (quarterMats 1) Ao).2 a).Qeps = some ((lw : ℂ) ^ 2 • 1)) ∧
    Medium exE c quarterMats 1 (diagonal fun i => (quarterP c i : ℂ)) ((9 / 2 : ℂ) • 1) ∧
    ∃ M p Q, buildPure exE c (quarterMats 1) = .ok (.patterned M p Q) ∧ p.epsHat = (9 / 2 : ℂ) • 1 := by
  have hu : (quarterMats 1).isUniform = false ∧ (quarterMats 1).isAnisotropic = false := by
    constructor <;> simp [quarterMats, exLayer, LayerSpec.isUniform, LayerSpec.isAnisotropic, NdArr.ofGrid, isUniform, isAnisotropic]
  have hmu : (quarterMats 1).mu = 1 := rfl
  have hc : (quarterMats 1).iscopy = false := rfl
  have hg : (quarterMats 1).epsilon.toGrid = .ok ⟨4, 1, quarterGrid⟩ := by
    show (NdArr.ofGrid quarterGrid).toGrid = _
    unfold NdArr.toGrid NdArr.ofGrid
    simp
    rfl
  have ht : c.toep ⟨4, 1, quarterGrid⟩ = .ok ((9 / 2 : ℂ) • 1) := by
    rw [h.toep]
    congr 2
    simp [quarterGrid, Fin.sum_univ_succ]
    norm_num
  have hdet : ((9 / 2 : ℂ) • (1 : Matrix (Fin c.nh) (Fin c.nh) ℂ)).det ≠ 0 := by
    rw [det_smul, det_one, mul_one]; exact pow_ne_zero _ (by norm_num)
  have hnu : nuHatInvIso c ⟨4, 1, quarterGrid⟩ = .ok ((4 : ℂ) • 1) := by
    unfold nuHatInvIso recipGrid
    rw [if_neg (by
      push Not
      intro x y
      show (if (x : ℕ) < 2 then (3 : ℂ) else 6) ≠ 0
      split <;> norm_num)]
    simp only [except_bind_ok]
    rw [h.toep (fun x y => 1 / quarterGrid x y), except_bind_ok, linInv_ok]
    have e : (∑ x, ∑ y, 1 / quarterGrid x y) / 4 = (1 / 4 : ℂ) := by
      simp [quarterGrid, Fin.sum_univ_succ]
      norm_num
    rw [e]
    refine ⟨?_, ?_⟩
    · rw [det_smul, det_one, mul_one]; exact pow_ne_zero _ (by norm_num)
    · symm
      refine inv_eq_right_inv ?_
      rw [Matrix.smul_mul, Matrix.one_mul, smul_smul]
      norm_num
  have hP : ∀ H, pepsOf exE c (quarterMats 1) ⟨4, 1, quarterGrid⟩ none ((9 / 2 : ℂ) • 1) (diag2 ((9 / 2 : ℂ) • 1)) H =
      .ok (diagonal fun i => (quarterP c i : ℂ)) := by
    intro H
    unfold pepsOf
    have hf1 : c.lattice.is1D = true := by rw [h.sq.lat]; rfl
    simp only [h.sq.form, hf1, if_false, if_true, show ¬ ("tangent" = "original") by decide, hnu, except_bind_ok, except_pure_eq_ok]
    congr 1
    rw [smul_one_eq_diagonal, smul_one_eq_diagonal, fromBlocks_diagonal]
    congr 1
    funext i
    unfold quarterP
    rcases i with i | i <;> simp only [Sum.elim_inl, Sum.elim_inr] <;> push_cast <;> rfl
  obtain ⟨M, p, Q, hb⟩ : ∃ M p Q, buildPure exE c (quarterMats 1) = .ok (.patterned M p Q) := by
    unfold buildPure
    simp only [hu, Bool.false_eq_true, if_false, hg, ht, except_bind_ok, hmu, one_ne_zero]
    rw [(linInv_ok _ _).mpr ⟨hdet, rfl⟩, except_bind_ok, raiseIf_ok (u := ()).mpr (by simp), except_bind_ok]
    unfold paraOf epsParaHatOf
    simp only [hu, Bool.false_eq_true, if_false, except_bind_ok, except_pure_eq_ok]
    rw [h.sq.lat, show exE.argsort = exSort from rfl, sqHarm]
    simp only [except_bind_ok, hP]
    exact ⟨_, _, _, rfl⟩
  obtain ⟨-, -, -, h4, h5, -, -, epszz, para, eph, Ht, k, h6, h7, h8, h9, h10, h11⟩ := buildPure_patterned_ok hmu hb
  simp only [hu, Bool.false_eq_true, if_false, hg, Except.ok.injEq] at h6
  subst h6
  rw [ht, Except.ok.injEq] at h7
  unfold paraOf at h8
  simp only [hu, Bool.false_eq_true, if_false, except_pure_eq_ok, Except.ok.injEq] at h8
  subst h8
  unfold epsParaHatOf at h9
  simp only [except_pure_eq_ok, Except.ok.injEq] at h9
  rw [← h9, ← h7, hP, Except.ok.injEq] at h11
  rw [h.kEps, sub_zero, h.om] at h4
  have hM : M = diagonal fun i => ((lw ^ 2 * quarterP c i : ℝ) : ℂ) := by
    rw [h5]
    unfold waveMatrix
    rw [h.kEps, h.kMu, Matrix.mul_zero, sub_zero, sub_zero, ← h11, h.om, ← diagonal_smul]
    congr 1
    funext i
    simp
  have hs : solveEigenproblem exE M = .ok (fun i => ((lw * Real.sqrt (quarterP c i) : ℝ) : ℂ), 1) := by
    unfold solveEigenproblem exE
    have : M = diagonal (fun i => M i i) := by rw [hM]; simp
    dsimp only
    rw [if_pos this]
    simp only [except_bind_ok, except_pure_eq_ok, Except.ok.injEq, Prod.mk.injEq, and_true]
    funext k
    have h1 := quarterP_pos k
    have h2 := lw_pos
    rw [hM, diagonal_apply_eq, modeSqrt_real (by positivity), Real.sqrt_mul (sq_nonneg _), Real.sqrt_sq h2.le]
  refine ⟨fun Ao => ?_, ?_, M, p, Q, hb, h7.symm⟩
  · unfold stepOut
    simp only [hc, Bool.false_eq_true, if_false, hb, hs, h4]
    exact ⟨trivial, fun _ => ⟨trivial, trivial⟩⟩
  · have := Medium.patterned (E := exE) (c := c) (mats := quarterMats) 1 M p Q hc hb
    rwa [← h11, ← h7] at this

/-- The modes of the two media. -/
noncomputable def quarterAir (c : Static) : Modes (Idx c.nh) := ⟨fun _ => (lw : ℂ), 1, (lw : ℂ) ^ 2 • 1, some 0⟩

noncomputable def quarterModes (c : Static) : Modes (Idx c.nh) :=
  ⟨fun i => ((lw * Real.sqrt (quarterP c i) : ℝ) : ℂ), 1, (lw : ℂ) ^ 2 • 1, some (1 / 8)⟩

theorem quarter_film : FilmModes (quarterAir c) (quarterModes c) (quarterAir c) 1 (fun _ => ((lw : ℝ) : ℂ))
    (fun i => ((lw / Real.sqrt (quarterP c i) : ℝ) : ℂ)) := by
  have hwp := lw_pos
  have hw : (lw : ℂ) ≠ 0 := by exact_mod_cast hwp.ne'
  have hsp : ∀ i, 0 < Real.sqrt (quarterP c i) := fun i => Real.sqrt_pos.mpr (quarterP_pos i)
  have hqg : ∀ i, ((lw * Real.sqrt (quarterP c i) : ℝ) : ℂ) ≠ 0 := fun i => by
    have := hsp i
    exact_mod_cast (by positivity : 0 < lw * Real.sqrt (quarterP c i)).ne'
  have ha : (quarterAir c).amat = diagonal fun _ => ((lw : ℝ) : ℂ) := by
    rw [amat_eq]
    simp only [quarterAir, Matrix.one_mul, Matrix.smul_mul]
    rw [← diagonal_smul]
    congr 1
    funext i
    simp only [Pi.smul_apply, smul_eq_mul]
    field_simp
  refine ⟨rfl, rfl, rfl, by simp, fun _ => hw, hqg, fun _ => hw, fun _ => hw, fun i => ?_, ha, ha, ?_, by simp⟩
  · have := hsp i
    exact_mod_cast (by positivity : 0 < lw / Real.sqrt (quarterP c i)).ne'
  · rw [amat_eq]
    simp only [quarterModes, Matrix.one_mul, Matrix.smul_mul]
    rw [← diagonal_smul]
    congr 1
    funext i
    simp only [Pi.smul_apply, smul_eq_mul]
    have : (Real.sqrt (quarterP c i) : ℂ) ≠ 0 := by exact_mod_cast (hsp i).ne'
    push_cast
    field_simp

theorem quarter_interior : ∃ S P, freshS [quarterAir c, quarterModes c, quarterAir c] 0 1 = .ok S ∧
    freshS [quarterAir c, quarterModes c, quarterAir c] 1 2 = .ok P ∧ (1 - S.s12 * P.s21).det ≠ 0 := by
  have hwp := lw_pos
  have hsp : ∀ i, 0 < Real.sqrt (quarterP c i) := fun i => Real.sqrt_pos.mpr (quarterP_pos i)
  refine (quarter_film (c := c)).interior (fun i => ?_) (fun i => ?_)
  · have := hsp i
    have : 0 < 1 + lw / Real.sqrt (quarterP c i) / lw := by positivity
    exact_mod_cast this.ne'
  · have h1 := hsp i
    intro he
    have he := congrArg (fun x : ℂ => ‖x‖) he
    have hn : ‖phasor (quarterModes c).q (quarterModes c).z i‖ = 1 := by
      unfold phasor
      rw [show Complex.I * (quarterModes c).q i * ((quarterModes c).z : ℂ) =
          ((lw * Real.sqrt (quarterP c i) * (quarterModes c).z : ℝ) : ℂ) * Complex.I from by
        simp only [quarterModes]; push_cast; ring]
      exact Complex.norm_exp_ofReal_mul_I _
    simp only [norm_mul, norm_pow, hn, one_pow, one_mul] at he
    have e1 : (1 + ((lw / Real.sqrt (quarterP c i) : ℝ) : ℂ) / ((lw : ℝ) : ℂ)) = ((1 + lw / Real.sqrt (quarterP c i) / lw : ℝ) : ℂ) := by push_cast; rfl
    have e2 : (1 - ((lw / Real.sqrt (quarterP c i) : ℝ) : ℂ) / ((lw : ℝ) : ℂ)) = ((1 - lw / Real.sqrt (quarterP c i) / lw : ℝ) : ℂ) := by push_cast; rfl
    rw [e1, e2, Complex.norm_real, Complex.norm_real, Real.norm_eq_abs, Real.norm_eq_abs, sq_abs, sq_abs] at he
    have : 0 < lw / Real.sqrt (quarterP c i) / lw := by positivity
    nlinarith

end Nannos.Examples
