import Verif.Examples.OneOrder

/-! Columns of permittivities `u` and `7 u` in air, one order, formulation `tangent` with constant vectors. -/

namespace Nannos.Examples

open Matrix Spec

variable {c : Static}

noncomputable def colGrid (u : ℂ) : Grid 4 4 := fun x _ => u * (if (x : ℕ) < 2 then 1 else 7)

noncomputable def colMats (u : ℂ) : ℕ → LayerSpec := fun r =>
  if r = 0 then exLayer "Superstrate" 0 (NdArr.scalar 1)
  else if r = 1 then { exLayer "Grating" 1 (NdArr.ofGrid (colGrid u)) with tangentField := some ⟨4, 4, fun _ _ => 0, fun _ _ => 1⟩ }
  else exLayer "Substrate" 0 (NdArr.scalar 1)

theorem col_init (u : ℂ) {exc : PlaneWave} (hw : exc.wavelength = 1) (ht : exc.theta = 0) (hx0 : exc.wavevector 0 = 0)
    (hx1 : exc.wavevector 1 = 0) : ∃ c, simInit exE (fun _ => oneLat) (colMats u) [0, 1, 2] exc 1 "tangent" = .ok c ∧ OneSim c := by
  have hdet : oneLat.matrix.det ≠ 0 := by simp [oneLat, Lattice.matrix, det_fin_two]
  have hny : checkNyquist oneLat [(0, 0)] = .ok () := by
    unfold checkNyquist maxHarmonic
    simp [oneLat]
  obtain ⟨c, hc⟩ := simInit_exists (E := exE) (lats := fun _ => oneLat) (mats := (colMats u))
    (r0 := 0) (tl := [1, 2]) (exc := exc) (nh := 1) (form := "tangent")
    (by simp [colMats, exLayer]) (fun r hr => by
      simp only [List.mem_cons, List.not_mem_nil, or_false] at hr
      rcases hr with rfl | rfl | rfl <;> rfl)
    (by tauto) (fun h => by tauto) (one_harm _) hny ⟨rfl, rfl⟩
    (by simp [colMats, exLayer, NdArr.scalar, NdArr.value]) (reciprocal_ok.mpr ⟨hdet, rfl⟩)
  have hi := simInit_ok hc
  have hl' : c.lattice = oneLat := hi.lat_eq 0 rfl
  have hharm : c.harmonics = [(0, 0)] := by
    obtain ⟨k, hk⟩ := hi.harm
    rw [hl', show exE.argsort = exSort from rfl, one_harm] at hk
    simp only [Except.ok.injEq, Prod.mk.injEq] at hk
    exact hk.1.symm
  have hget : ∀ i, c.harmonics.get i = (0, 0) := by
    intro i
    have h0 := List.get_mem c.harmonics i
    have h1 : ∀ x ∈ c.harmonics, x = (0, 0) := by rw [hharm]; simp
    exact h1 _ h0
  obtain ⟨-, -, -, hfl, hk0⟩ := hi.sup 0 rfl
  have hsq : csqrt (((colMats u) 0).epsilon.value * ((colMats u) 0).mu) = 1 := by
    have : ((colMats u) 0).epsilon.value * ((colMats u) 0).mu = ((1 : ℝ) : ℂ) := by
      simp [colMats, exLayer, NdArr.scalar, NdArr.value]
    rw [this, csqrt_ofReal zero_le_one]
    simp
  rw [hsq] at hfl hk0
  obtain ⟨r, hr, hkx, hky⟩ := hi.recip
  refine ⟨c, hc, hharm, ?_, fun i => ?_, fun i => ?_, hi.form_eq, hl', ?_, hi.stack_eq⟩
  · rw [hi.omega_eq]; rw [hw]; unfold lw; norm_num
  · rw [hkx, hget, hk0]; simp [kxOf, k0para, hx0]
  · rw [hky, hget, hk0]; simp [kyOf, k0para, hx1]
  · rw [hfl]; simp [ht]

theorem OneSim.columns (h : OneSim c) {u : ℂ} (hu0 : u ≠ 0) (Ao : LayerAttr c.nh) : (stepOut exE c (colMats u 1) Ao).1 = .ok () ∧
    ∀ a, ((stepOut exE c (colMats u 1) Ao).2 a).eig = some (fun i => modeSqrt ((lw : ℂ) ^ 2 * (u * oneP c i)), 1) ∧
      ((stepOut exE c (colMats u 1) Ao).2 a).Qeps = some ((lw : ℂ) ^ 2 • 1) := by
  have hu : (colMats u 1).isUniform = false ∧ (colMats u 1).isAnisotropic = false := by
    constructor <;> simp [colMats, exLayer, LayerSpec.isUniform, LayerSpec.isAnisotropic, NdArr.ofGrid, isUniform, isAnisotropic]
  have hmu : (colMats u 1).mu = 1 := rfl
  have hc : (colMats u 1).iscopy = false := rfl
  have hg : (colMats u 1).epsilon.toGrid = .ok ⟨4, 4, colGrid u⟩ := by
    show (NdArr.ofGrid (colGrid u)).toGrid = _
    unfold NdArr.toGrid NdArr.ofGrid
    simp
  have ht : c.toep ⟨4, 4, colGrid u⟩ = .ok ((u * 4) • 1) := by
    rw [h.toep]
    congr 2
    simp [colGrid, Fin.sum_univ_succ]
    ring
  have hdet : ((u * 4 : ℂ) • (1 : Matrix (Fin c.nh) (Fin c.nh) ℂ)).det ≠ 0 := by
    rw [det_smul, det_one, mul_one]; exact pow_ne_zero _ (mul_ne_zero hu0 (by norm_num))
  have hnu : nuHatInvIso c ⟨4, 4, colGrid u⟩ = .ok ((u * (7 / 4)) • 1) := by
    unfold nuHatInvIso recipGrid
    rw [if_neg (by
      push Not
      intro x y
      show u * (if (x : ℕ) < 2 then (1 : ℂ) else 7) ≠ 0
      refine mul_ne_zero hu0 ?_
      split <;> norm_num)]
    simp only [except_bind_ok]
    rw [h.toep (fun x y => 1 / colGrid u x y), except_bind_ok, linInv_ok]
    have e : (∑ x, ∑ y, 1 / colGrid u x y) / 16 = (4 / (7 * u) : ℂ) := by
      simp [colGrid, Fin.sum_univ_succ]
      field_simp
      ring
    rw [e]
    refine ⟨?_, ?_⟩
    · rw [det_smul, det_one, mul_one]; exact pow_ne_zero _ (div_ne_zero (by norm_num) (mul_ne_zero (by norm_num) hu0))
    · symm
      refine inv_eq_right_inv ?_
      rw [Matrix.smul_mul, Matrix.one_mul, smul_smul, show 4 / (7 * u) * (u * (7 / 4)) = 1 by field_simp, one_smul]
  have hP : ∀ H, pepsOf exE c (colMats u 1) ⟨4, 4, colGrid u⟩ none ((u * 4) • 1) (diag2 ((u * 4) • 1)) H =
      .ok (diagonal fun i => u * (oneP c i : ℂ)) := by
    intro H
    unfold pepsOf
    have hf1 : c.lattice.is1D = false := by rw [h.lat]; rfl
    simp only [h.form, hf1, Bool.false_eq_true, if_false, if_true, show ¬ ("tangent" = "original") by decide, hnu, except_bind_ok,
      except_pure_eq_ok]
    have htan : getTangentField exE (colMats u 1) ⟨4, 4, colGrid u⟩ H true = .ok ⟨4, 4, fun _ _ => 0, fun _ _ => 1⟩ := rfl
    rw [htan, except_bind_ok]
    have hp : ∀ f : ℂ → ℂ → ℂ, c.toep (projField ⟨4, 4, fun _ _ => 0, fun _ _ => 1⟩ f) = .ok ((f 0 1 * (16 * lb)) • 1) := by
      intro f
      have e : projField ⟨4, 4, fun _ _ => 0, fun _ _ => 1⟩ f = ⟨4, 4, fun _ _ => f 0 1 / ((|normPt 0 1| ^ 2 : ℝ) : ℂ)⟩ := rfl
      have hn : (1 : ℂ) / ((|normPt 0 1| ^ 2 : ℝ) : ℂ) = 16 * lb := by
        have : (1 : ℝ) / |normPt 0 1| ^ 2 = 16 * lb := by
          unfold normPt lb
          simp only [map_zero, map_one, zero_add, Real.sqrt_one, sq_abs]
          norm_num
        exact_mod_cast congrArg (fun x : ℝ => (x : ℂ)) this
      have e1 : f 0 1 / ((|normPt 0 1| ^ 2 : ℝ) : ℂ) = f 0 1 * (16 * lb) := by rw [div_eq_mul_one_div, hn]
      rw [e, h.toep, e1]
      congr 2
      simp
      ring
    unfold getPeps
    rw [hp, hp, hp, hp]
    simp only [except_bind_ok, except_pure_eq_ok, star_zero, star_one, mul_zero, zero_mul, one_mul, zero_smul]
    congr 1
    unfold diag2
    rw [sub_eq_add_neg (fromBlocks _ _ _ _) (fromBlocks ((u * (7 / 4)) • 1) _ _ _), fromBlocks_neg, fromBlocks_add]
    simp only [neg_zero, add_zero, ← sub_eq_add_neg, fromBlocks_multiply, Matrix.mul_zero, Matrix.zero_mul, ← sub_smul, Matrix.smul_mul, Matrix.one_mul,
      smul_smul]
    rw [sub_eq_add_neg, fromBlocks_neg, fromBlocks_add]
    simp only [neg_zero, add_zero, ← sub_eq_add_neg, smul_one_eq_diagonal, diagonal_sub]
    rw [fromBlocks_diagonal]
    congr 1
    funext i
    unfold oneP
    rcases i with i | i <;> simp only [Sum.elim_inl, Sum.elim_inr] <;> push_cast <;> ring
  have hG := one_harm
  obtain ⟨M, p, Q, hb⟩ : ∃ M p Q, buildPure exE c (colMats u 1) = .ok (.patterned M p Q) := by
    unfold buildPure
    simp only [hu, Bool.false_eq_true, if_false, hg, ht, except_bind_ok, hmu, one_ne_zero]
    rw [(linInv_ok _ _).mpr ⟨hdet, rfl⟩, except_bind_ok, raiseIf_ok (u := ()).mpr (by simp), except_bind_ok]
    unfold paraOf epsParaHatOf
    simp only [hu, Bool.false_eq_true, if_false, except_bind_ok, except_pure_eq_ok]
    rw [h.lat, show exE.argsort = exSort from rfl, hG]
    simp only [except_bind_ok, hP]
    exact ⟨_, _, _, rfl⟩
  obtain ⟨-, -, -, h4, h5, -, -, epszz, para, eph, Ht, k, h6, h7, h8, h9, h10, h11⟩ := buildPure_patterned_ok hmu hb
  simp only [hu, Bool.false_eq_true, if_false, hg, Except.ok.injEq] at h6
  subst h6
  rw [ht, Except.ok.injEq] at h7
  unfold paraOf at h8
  simp only [hu, Bool.false_eq_true, if_false, except_pure_eq_ok, Except.ok.injEq] at h8
  subst h8
  unfold epsParaHatOf at h9
  simp only [except_pure_eq_ok, Except.ok.injEq] at h9
  rw [← h9, ← h7, hP, Except.ok.injEq] at h11
  rw [h.kEps, sub_zero, h.om] at h4
  have hM : M = diagonal fun i => (lw : ℂ) ^ 2 * (u * oneP c i) := by
    rw [h5]
    unfold waveMatrix
    rw [h.kEps, h.kMu, Matrix.mul_zero, sub_zero, sub_zero, ← h11, h.om, ← diagonal_smul]
    congr 1
  have hs : solveEigenproblem exE M = .ok (fun i => modeSqrt ((lw : ℂ) ^ 2 * (u * oneP c i)), 1) := by
    unfold solveEigenproblem exE
    have : M = diagonal (fun i => M i i) := by rw [hM]; simp
    dsimp only
    rw [if_pos this]
    simp only [except_bind_ok, except_pure_eq_ok, Except.ok.injEq, Prod.mk.injEq, and_true]
    funext k
    rw [hM, diagonal_apply_eq]
  unfold stepOut
  simp only [hc, Bool.false_eq_true, if_false, hb, hs, h4]
  exact ⟨trivial, fun _ => ⟨trivial, trivial⟩⟩

end Nannos.Examples
