import Verif.Spec.Grating
import Mathlib.Analysis.Matrix.Spectrum
import Mathlib.LinearAlgebra.Matrix.Charpoly.Eigs
import Mathlib.Analysis.Complex.Polynomial.Basic

/-! The wave operator of a mono-periodic grating (C100, C101). -/

namespace Nannos

open Matrix Spec Polynomial

section general
variable {m : Type} [Fintype m] [DecidableEq m]

/-- Similar to a real diagonal matrix. -/
def RealDiag (A : Matrix m m ℂ) : Prop :=
  ∃ (V : Matrix m m ℂ) (d : m → ℝ), V.det ≠ 0 ∧ A * V = V * diagonal fun i => (d i : ℂ)

theorem realDiag_herm {A : Matrix m m ℂ} (hA : A.IsHermitian) : RealDiag A := by
  refine ⟨hA.eigenvectorUnitary, hA.eigenvalues, ?_, ?_⟩
  · have h := (Unitary.mem_iff.mp hA.eigenvectorUnitary.2).1
    intro h0
    have := congrArg det h
    rw [det_mul, h0, mul_zero, det_one] at this
    exact zero_ne_one this
  · have h1 := hA.spectral_theorem
    rw [Unitary.conjStarAlgAut_apply] at h1
    have h := (Unitary.mem_iff.mp hA.eigenvectorUnitary.2).1
    generalize hA.eigenvectorUnitary = U at *
    obtain ⟨U, hU⟩ := U
    dsimp only at *
    conv_lhs => rw [h1]
    rw [Matrix.mul_assoc, h, Matrix.mul_one]
    rfl

/-- Positive definite times Hermitian. -/
theorem realDiag_pos_mul {P H : Matrix m m ℂ} (hP : P.IsHermitian) (hpos : ∀ v, v ≠ 0 → 0 < (star v ⬝ᵥ P *ᵥ v).re)
    (hH : H.IsHermitian) : RealDiag (P * H) := by
  obtain ⟨U, lam, hU, hlam, hPU⟩ : ∃ (U : Matrix m m ℂ) (lam : m → ℝ), star U * U = 1 ∧ (∀ i, 0 < lam i) ∧
      P = U * diagonal (fun i => (lam i : ℂ)) * star U := by
    refine ⟨hP.eigenvectorUnitary, hP.eigenvalues, (Unitary.mem_iff.mp hP.eigenvectorUnitary.2).1, fun i => ?_, ?_⟩
    · rw [hP.eigenvalues_eq]
      refine hpos _ fun h0 => ?_
      have := hP.eigenvectorBasis.orthonormal.ne_zero i
      exact this (by ext j; exact congrFun h0 j)
    · have h1 := hP.spectral_theorem
      rw [Unitary.conjStarAlgAut_apply] at h1
      exact h1
  have hdU : U.det ≠ 0 := by
    intro h0
    have := congrArg det hU
    rw [det_mul, h0, mul_zero, det_one] at this
    exact zero_ne_one this
  set S : Matrix m m ℂ := diagonal fun i => ((Real.sqrt (lam i) : ℝ) : ℂ) with hS
  have hSS : S * S = diagonal fun i => (lam i : ℂ) := by
    rw [hS, diagonal_mul_diagonal]
    congr 1
    funext i
    rw [← Complex.ofReal_mul, Real.mul_self_sqrt (hlam i).le]
  have hSh : Sᴴ = S := by
    rw [hS, diagonal_conjTranspose]
    congr 1
    funext i
    simp
  have hSd : S.det ≠ 0 := by
    rw [hS, det_diagonal, Finset.prod_ne_zero_iff]
    intro i _
    exact_mod_cast (Real.sqrt_pos.mpr (hlam i)).ne'
  set B := U * S with hB
  have hPB : P = B * Bᴴ := by
    rw [hB, conjTranspose_mul, hSh, hPU, ← hSS]
    simp only [Matrix.mul_assoc, star_eq_conjTranspose]
  have hK : (Bᴴ * H * B).IsHermitian := isHermitian_conjTranspose_mul_mul B hH
  obtain ⟨V, d, hV, hVd⟩ := realDiag_herm hK
  refine ⟨B * V, d, ?_, ?_⟩
  · rw [det_mul, hB, det_mul]
    exact mul_ne_zero (mul_ne_zero hdU hSd) hV
  · calc P * H * (B * V) = B * (Bᴴ * H * B * V) := by rw [hPB]; simp only [Matrix.mul_assoc]
      _ = _ := by rw [hVd, ← Matrix.mul_assoc]

theorem RealDiag.sub_real {A : Matrix m m ℂ} (h : RealDiag A) (y : ℝ) : RealDiag (A - (y : ℂ) • 1) := by
  obtain ⟨V, d, hV, hVd⟩ := h
  refine ⟨V, fun i => d i - y, hV, ?_⟩
  rw [Matrix.sub_mul, hVd, smul_mul, Matrix.one_mul]
  ext i j
  simp only [Matrix.sub_apply, mul_diagonal, Matrix.smul_apply, smul_eq_mul]
  push_cast
  ring

theorem charpoly_conj {A D V : Matrix m m ℂ} (hV : V.det ≠ 0) (h : A * V = V * D) : A.charpoly = D.charpoly := by
  have hu : IsUnit V.det := isUnit_iff_ne_zero.mpr hV
  have : A = V * D * V⁻¹ := by rw [← h, Matrix.mul_assoc, Matrix.mul_nonsing_inv _ hu, Matrix.mul_one]
  rw [this]
  have := Matrix.charpoly_units_conj (Matrix.nonsingInvUnit V hu) D
  exact this

theorem charpoly_diag (d : m → ℂ) : (diagonal d).charpoly = ∏ i, (X - C (d i)) := by
  rw [Matrix.charpoly, Matrix.charmatrix]
  have : scalar m (X : ℂ[X]) - C.mapMatrix (diagonal d) = diagonal fun i => X - C (d i) := by
    ext i j
    by_cases h : i = j <;> simp [h, diagonal]
  rw [this, det_diagonal]

/-- Real spectrum. -/
theorem RealDiag.root {A : Matrix m m ℂ} (h : RealDiag A) {x : ℂ} (hx : A.charpoly.IsRoot x) : x.im = 0 := by
  obtain ⟨V, d, hV, hVd⟩ := h
  rw [charpoly_conj hV hVd, charpoly_diag, IsRoot, eval_prod, Finset.prod_eq_zero_iff] at hx
  obtain ⟨i, -, hi⟩ := hx
  rw [eval_sub, eval_X, eval_C, sub_eq_zero] at hi
  rw [hi]; exact Complex.ofReal_im _

theorem charpoly_sub_smul (A : Matrix m m ℂ) (y : ℂ) : (A - y • 1).charpoly = A.charpoly.comp (X + C y) := by
  have := Matrix.charpoly_sub_scalar A y
  rw [← this]
  congr 1
  rw [smul_one_eq_diagonal]
  rfl

end general

section grating
variable {nh : ℕ}

/-- Fields with the electric field along the grooves. -/
noncomputable def teOp (omega : ℝ) (kx : Fin nh → ℂ) (A : Matrix (Fin nh) (Fin nh) ℂ) : Matrix (Fin nh) (Fin nh) ℂ :=
  (omega : ℂ) ^ 2 • A - diagonal kx * diagonal kx

/-- See `teOp`. -/
noncomputable def tmCore (omega : ℝ) (kx : Fin nh → ℂ) (A : Matrix (Fin nh) (Fin nh) ℂ) : Matrix (Fin nh) (Fin nh) ℂ :=
  (omega : ℂ) ^ 2 • 1 - diagonal kx * A⁻¹ * diagonal kx

theorem wave_blocks (omega : ℝ) (kx : Fin nh → ℂ) {ky : Fin nh → ℂ} {y : ℂ} (hy : ∀ i, ky i = y)
    {A n : Matrix (Fin nh) (Fin nh) ℂ} (hA : A.det ≠ 0) :
    waveMatrix omega kx ky (fromBlocks A 0 0 n) A⁻¹ =
      fromBlocks (teOp omega kx A - y ^ 2 • 1) 0 (y • (n * (diagonal kx * A⁻¹) - diagonal kx))
        (n * tmCore omega kx A - y ^ 2 • 1) := by
  obtain rfl : ky = fun _ => y := funext hy
  have hk : kEps kx (fun _ => y) A⁻¹ = fromBlocks (y ^ 2 • A⁻¹) (-(y • (A⁻¹ * diagonal kx)))
      (-(y • (diagonal kx * A⁻¹))) (diagonal kx * A⁻¹ * diagonal kx) := by
    ext a b
    rcases a with i | i <;> rcases b with j | j <;>
      simp [kEps, mul_diagonal, diagonal_mul] <;> ring
  have hm : kMu kx (fun _ => y) = fromBlocks (diagonal kx * diagonal kx) (y • diagonal kx) (y • diagonal kx) (y ^ 2 • 1) := by
    ext a b
    rcases a with i | i <;> rcases b with j | j <;> by_cases h : i = j <;>
      simp [kMu, h, diagonal_mul_diagonal, one_apply] <;> ring
  have hu : IsUnit A.det := isUnit_iff_ne_zero.mpr hA
  unfold waveMatrix
  rw [hk, hm, fromBlocks_multiply, fromBlocks_smul]
  have e1 : A * (y ^ 2 • A⁻¹) = y ^ 2 • 1 := by rw [Matrix.mul_smul, Matrix.mul_nonsing_inv _ hu]
  have e2 : A * (-(y • (A⁻¹ * diagonal kx))) = -(y • diagonal kx) := by
    rw [Matrix.mul_neg, Matrix.mul_smul, ← Matrix.mul_assoc, Matrix.mul_nonsing_inv _ hu, Matrix.one_mul]
  simp only [Matrix.zero_mul, add_zero, zero_add, e1, e2, smul_zero]
  rw [sub_eq_add_neg, sub_eq_add_neg, fromBlocks_neg, fromBlocks_neg, fromBlocks_add, fromBlocks_add]
  unfold teOp tmCore
  congr 1
  · abel
  · simp
  · rw [Matrix.mul_neg, Matrix.mul_smul, smul_sub]
    abel
  · rw [Matrix.mul_sub, Matrix.mul_smul, Matrix.mul_one]
    abel

/-- The spectrum in conical mounting. -/
theorem wave_charpoly (omega : ℝ) (kx : Fin nh → ℂ) {ky : Fin nh → ℂ} {y : ℂ} (hy : ∀ i, ky i = y)
    {A n : Matrix (Fin nh) (Fin nh) ℂ} (hA : A.det ≠ 0) :
    (waveMatrix omega kx ky (fromBlocks A 0 0 n) A⁻¹).charpoly =
      ((teOp omega kx A).charpoly * (n * tmCore omega kx A).charpoly).comp (X + C (y ^ 2)) := by
  rw [wave_blocks omega kx hy hA, Matrix.charpoly_fromBlocks_zero₁₂, charpoly_sub_smul, charpoly_sub_smul, mul_comp]

theorem te_tm (omega : ℝ) (kx : Fin nh → ℂ) {A : Matrix (Fin nh) (Fin nh) ℂ} (hA : A.det ≠ 0) :
    tmCore omega kx A * diagonal kx = diagonal kx * A⁻¹ * teOp omega kx A := by
  have hu : IsUnit A.det := isUnit_iff_ne_zero.mpr hA
  unfold tmCore teOp
  rw [Matrix.sub_mul, Matrix.mul_sub, Matrix.smul_mul, Matrix.one_mul, Matrix.mul_smul, Matrix.mul_assoc _ A⁻¹ A,
    Matrix.nonsing_inv_mul _ hu, Matrix.mul_one]
  simp only [Matrix.mul_assoc]

/-- Lossless grating: a basis of modes. -/
theorem wave_realDiag (omega : ℝ) {kx : Fin nh → ℂ} {ky : Fin nh → ℂ} {y : ℝ} (hy : ∀ i, ky i = y)
    {A n : Matrix (Fin nh) (Fin nh) ℂ} (hA : A.det ≠ 0) (h1 : RealDiag (teOp omega kx A))
    (h2 : RealDiag (n * tmCore omega kx A)) (h : y = 0 ∨ (teOp omega kx A).det ≠ 0) :
    RealDiag (waveMatrix omega kx ky (fromBlocks A 0 0 n) A⁻¹) := by
  rw [wave_blocks omega kx hy hA]
  have e : ((y : ℂ) ^ 2) = ((y ^ 2 : ℝ) : ℂ) := by push_cast; rfl
  have h1' := h1.sub_real (y ^ 2)
  have h2' := h2.sub_real (y ^ 2)
  rw [← e] at h1' h2'
  obtain ⟨V1, d1, hV1, hd1⟩ := h1'
  obtain ⟨V2, d2, hV2, hd2⟩ := h2'
  obtain ⟨Z, hZ⟩ : ∃ Z : Matrix (Fin nh) (Fin nh) ℂ, (y : ℂ) • (n * (diagonal kx * A⁻¹) - diagonal kx) +
      (n * tmCore omega kx A - (y : ℂ) ^ 2 • 1) * Z = Z * (teOp omega kx A - (y : ℂ) ^ 2 • 1) := by
    rcases h with rfl | hT
    · exact ⟨0, by simp⟩
    · have hTu : IsUnit (teOp omega kx A).det := isUnit_iff_ne_zero.mpr hT
      refine ⟨-((y : ℂ) • (diagonal kx * (teOp omega kx A)⁻¹)), ?_⟩
      have k1 : n * tmCore omega kx A * (diagonal kx * (teOp omega kx A)⁻¹) = n * (diagonal kx * A⁻¹) := by
        rw [Matrix.mul_assoc, ← Matrix.mul_assoc (tmCore omega kx A), te_tm omega kx hA, Matrix.mul_assoc _ (teOp omega kx A),
          Matrix.mul_nonsing_inv _ hTu, Matrix.mul_one]
      have k2 : diagonal kx * (teOp omega kx A)⁻¹ * teOp omega kx A = diagonal kx := by
        rw [Matrix.mul_assoc, Matrix.nonsing_inv_mul _ hTu, Matrix.mul_one]
      simp only [Matrix.mul_neg, Matrix.neg_mul, Matrix.mul_smul, Matrix.smul_mul, Matrix.sub_mul, Matrix.mul_sub, Matrix.one_mul,
        Matrix.mul_one, k1, k2, smul_sub]
      module
  refine ⟨fromBlocks 1 0 Z 1 * fromBlocks V1 0 0 V2, Sum.elim d1 d2, ?_, ?_⟩
  · rw [det_mul, det_fromBlocks_zero₁₂, det_fromBlocks_zero₁₂, det_one, one_mul, one_mul]
    exact mul_ne_zero hV1 hV2
  · have hdg : (diagonal fun i => ((Sum.elim d1 d2 i : ℝ) : ℂ)) =
        fromBlocks (diagonal fun i => (d1 i : ℂ)) 0 0 (diagonal fun i => (d2 i : ℂ)) := by
      rw [fromBlocks_diagonal]
      congr 1
      funext i
      rcases i with i | i <;> rfl
    rw [hdg]
    simp only [fromBlocks_multiply, Matrix.one_mul, Matrix.zero_mul, Matrix.mul_zero, add_zero, zero_add]
    rw [hd1, hd2, ← hd1, Matrix.mul_assoc Z V1, ← hd1, ← Matrix.mul_assoc Z, ← hZ, Matrix.add_mul, Matrix.mul_assoc _ Z V1]

end grating

end Nannos
