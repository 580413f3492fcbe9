import Verif.Proofs.SMatrix2

/-! Stacks in which every mode behaves the same: used for the concrete cases. -/

namespace Nannos.Examples

open Matrix Nannos

variable {m : Type} [Fintype m] [DecidableEq m]

/-- Layer of index `n` at normal incidence, frequency `om`. -/
noncomputable def scal (om n : ℂ) (d : Option ℝ) : Modes m := ⟨fun _ => n * om, 1, om ^ 2 • 1, d⟩

/-- Scattering matrix acting the same way on every mode. -/
def sscal (a b c d : ℂ) : SMat m := ⟨a • 1, b • 1, c • 1, d • 1⟩

theorem sscal_one : (sscal 1 0 0 1 : SMat m) = SMat.one := by simp [sscal, SMat.one]

theorem scal_amat {om n : ℂ} (ho : om ≠ 0) (hn : n ≠ 0) (d) :
    (scal om n d : Modes m).amat = (om / n) • 1 := by
  ext i j
  unfold Modes.amat scal
  rw [smul_mul, Matrix.one_mul]
  by_cases h : i = j
  · subst h; simp; field_simp
  · simp [h]

theorem scal_f (om n : ℂ) (d) : (scal om n d : Modes m).f =
    Complex.exp (Complex.I * (n * om) * ((scal om n d : Modes m).z : ℂ)) • 1 := by
  unfold Modes.f phasor
  rw [smul_one_eq_diagonal]
  rfl

theorem mul_smul_one (a b : ℂ) : (a • (1 : Matrix m m ℂ)) * (b • 1) = (a * b) • 1 := by
  rw [smul_mul, Matrix.one_mul, smul_smul]

theorem scal_buildI {om n n' : ℂ} (ho : om ≠ 0) (hn : n ≠ 0) (hn' : n' ≠ 0) (d d') :
    buildI (scal om n d : Modes m) (scal om n' d') = .ok (fromBlocks (((1 + n / n') / 2) • 1)
      (((1 - n / n') / 2) • 1) (((1 - n / n') / 2) • 1) (((1 + n / n') / 2) • 1)) := by
  rw [buildI_ok]
  have hM : ∀ k : ℂ, k ≠ 0 → ∀ e, (scal om k e : Modes m).M =
      fromBlocks ((om / k) • 1) (-((om / k) • 1)) 1 1 := by
    intro k hk e
    unfold Modes.M
    rw [scal_amat ho hk]; rfl
  have hinv : (scal om n d : Modes m).M * fromBlocks ((n / (2 * om)) • 1) ((1 / 2 : ℂ) • 1)
      (-((n / (2 * om)) • 1)) ((1 / 2 : ℂ) • 1) = 1 := by
    rw [hM n hn, fromBlocks_multiply, ← fromBlocks_one]
    refine fromBlocks_inj.2 ⟨?_, ?_, ?_, ?_⟩
    · rw [mul_smul_one, neg_mul_neg, mul_smul_one, ← add_smul]
      convert one_smul ℂ (1 : Matrix m m ℂ) using 2
      field_simp; ring
    · rw [mul_smul_one, Matrix.neg_mul, mul_smul_one]; simp
    · simp
    · rw [Matrix.one_mul, ← add_smul]
      convert one_smul ℂ (1 : Matrix m m ℂ) using 2
      ring
  refine ⟨by simp [scal, ho, hn], by simp [scal, ho, hn'], ?_, ?_⟩
  · intro h0
    have := congrArg det hinv
    rw [det_mul, h0] at this
    simp at this
  · rw [inv_eq_right_inv hinv, hM n' hn', fromBlocks_multiply]
    refine fromBlocks_inj.2 ⟨?_, ?_, ?_, ?_⟩
    · rw [mul_smul_one, Matrix.mul_one, ← add_smul]; congr 1; field_simp; ring
    · rw [Matrix.mul_neg, mul_smul_one, Matrix.mul_one, ← neg_smul, ← add_smul]; congr 1; field_simp; ring
    · rw [Matrix.neg_mul, mul_smul_one, Matrix.mul_one, ← neg_smul, ← add_smul]; congr 1; field_simp; ring
    · rw [neg_mul_neg, mul_smul_one, Matrix.mul_one, ← add_smul]; congr 1; field_simp; ring

/-- One interface. -/
theorem scal_step {om n n' : ℂ} (ho : om ≠ 0) (hn : n ≠ 0) (hn' : n' ≠ 0) (d d') (x11 x12 x21 x22 f f' : ℂ)
    (hf : Complex.exp (Complex.I * (n * om) * ((d.getD 0 : ℝ) : ℂ)) = f)
    (hf' : Complex.exp (Complex.I * (n' * om) * ((d'.getD 0 : ℝ) : ℂ)) = f')
    (D : ℂ) (hD : D = (1 + n / n') / 2 - f * x12 * ((1 - n / n') / 2)) (hD0 : D ≠ 0)
    (y11 y12 : ℂ) (h11 : D * y11 = f * x11)
    (h12 : D * y12 = (f * x12 * ((1 + n / n') / 2) - (1 - n / n') / 2) * f') :
    stepS (sscal x11 x12 x21 x22) (scal om n d : Modes m) (scal om n' d') =
      .ok (sscal y11 y12 (x22 * ((1 - n / n') / 2) * y11 + x21)
        (x22 * ((1 - n / n') / 2) * y12 + x22 * ((1 + n / n') / 2) * f')) := by
  have e1 : (scal om n d : Modes m).f = f • 1 := by rw [scal_f, ← hf]; rfl
  have e2 : (scal om n' d' : Modes m).f = f' • 1 := by rw [scal_f, ← hf']; rfl
  have hA : ((1 + n / n') / 2) • (1 : Matrix m m ℂ) - f • (1 : Matrix m m ℂ) * (x12 • 1) * (((1 - n / n') / 2) • 1) =
      D • 1 := by
    rw [mul_smul_one, mul_smul_one, ← sub_smul, hD]
  have hdet : (D • (1 : Matrix m m ℂ)).det ≠ 0 := by rw [det_smul]; simp [hD0]
  have hsol : ∀ b x : ℂ, D * x = b → linSolve (D • (1 : Matrix m m ℂ)) (b • (1 : Matrix m m ℂ)) = .ok (x • 1) := by
    intro b x hb
    rw [linSolve_ok]
    refine ⟨hdet, ?_⟩
    rw [← hb, ← mul_smul_one, ← Matrix.mul_assoc, nonsing_inv_mul _ (det_unit hdet), Matrix.one_mul]
  unfold stepS
  simp only [scal_buildI ho hn hn', except_bind_ok, e1, e2, sscal, toBlocks_fromBlocks₁₁, toBlocks_fromBlocks₁₂,
    toBlocks_fromBlocks₂₁, toBlocks_fromBlocks₂₂]
  rw [hA, mul_smul_one, mul_smul_one, mul_smul_one, ← sub_smul, mul_smul_one, hsol _ _ h11, except_bind_ok,
    hsol _ _ h12, except_bind_ok]
  simp only [mul_smul_one, ← add_smul]
  rfl

end Nannos.Examples
