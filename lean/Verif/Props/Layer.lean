import Verif.Proofs.Medium

/-! Properties C20, C21, C53: modes of the layers, classification of materials. -/

namespace Nannos

open Matrix Spec

/-- **C20**. `Layer.solve_uniform` raises exactly for an anisotropic material.  Otherwise its eigenvalues `q`
and eigenvectors `phi` satisfy, for a permittivity `e ≠ 0`, the second-order eigenproblem of patterned
layers, `matrix phi = phi diag(q^2)` with the operators `e * 1` and `1 / e * 1` of a homogeneous medium; the
eigenvectors are a basis; `q^2 = e omega^2 - kx^2 - ky^2` for both polarisations; `Re q ≥ 0`; and for a
passive medium and real wave vectors `Im q ≥ 0`, so that no mode grows. -/
theorem C20_uniform_modes {nh : ℕ} (L : LayerSpec) (hmu : L.mu = 1) (omega : ℝ) (kx ky : Fin nh → ℂ) :
    (L.isAnisotropic = true → solveUniform L omega kx ky = .error .notImplemented) ∧
    (L.isAnisotropic = false → ∃ q phi, solveUniform L omega kx ky = .ok (q, phi) ∧
      (L.epsilon.value ≠ 0 → waveMatrix omega kx ky (L.epsilon.value • 1) ((1 / L.epsilon.value) • 1) * phi =
        phi * diagonal fun k => q k ^ 2) ∧
      phi.det ≠ 0 ∧
      (∀ i, q (.inl i) ^ 2 = L.epsilon.value * (omega : ℂ) ^ 2 - kx i ^ 2 - ky i ^ 2 ∧ q (.inr i) = q (.inl i)) ∧
      (∀ k, 0 ≤ (q k).re) ∧
      (0 ≤ L.epsilon.value.im → (∀ i, (kx i).im = 0 ∧ (ky i).im = 0) →
        ∀ k, 0 ≤ (q k).im ∧ ∀ z : ℝ, 0 ≤ z → ‖Complex.exp (Complex.I * q k * z)‖ ≤ 1)) := by
  constructor
  · intro h
    unfold solveUniform
    rw [if_pos h]
  · intro h
    refine ⟨_, _, by unfold solveUniform; rw [if_neg (by simp [h])], fun he => ?_, by simp, ?_, ?_, ?_⟩
    · rw [uniform_wave _ _ _ he, Matrix.mul_one, Matrix.one_mul]
      congr 1
      funext k
      rcases k with i | i <;> simp [csqrt_sq, hmu]
    · intro i
      exact ⟨by simp [csqrt_sq, hmu], rfl⟩
    · rintro (i | i) <;> exact csqrt_re_nonneg _
    · intro he hk k
      have key : ∀ i, 0 ≤ (csqrt (L.epsilon.value * L.mu * (omega : ℂ) ^ 2 - kx i ^ 2 - ky i ^ 2)).im := by
        intro i
        apply csqrt_im_nonneg
        have h1 : ((omega : ℂ) ^ 2) = ((omega ^ 2 : ℝ) : ℂ) := by push_cast; rfl
        rw [hmu, mul_one, h1, Complex.sub_im, Complex.sub_im, Complex.im_mul_ofReal, pow_two (kx i),
          pow_two (ky i), Complex.mul_im, Complex.mul_im, (hk i).1, (hk i).2]
        have := mul_nonneg he (sq_nonneg omega)
        linarith
      have : 0 ≤ (Sum.elim (fun i => csqrt (L.epsilon.value * L.mu * (omega : ℂ) ^ 2 - kx i ^ 2 - ky i ^ 2))
          (fun i => csqrt (L.epsilon.value * L.mu * (omega : ℂ) ^ 2 - kx i ^ 2 - ky i ^ 2)) k : ℂ).im := by
        rcases k with i | i <;> exact key i
      exact ⟨this, fun z hz => norm_exp_le_one this hz⟩

/-- C20 is met by glass with two orders, one propagating and one evanescent. -/
example : ∃ L : LayerSpec, ∃ q phi, L.mu = 1 ∧ L.isAnisotropic = false ∧
    solveUniform (nh := 2) L 1 ![0, 3] ![0, 0] = .ok (q, phi) ∧ q (.inl 0) ^ 2 = 4 ∧ q (.inr 1) ^ 2 = -5 := by
  let L : LayerSpec := ⟨"glass", some 1, .scalar 4, 1, 0, none, "fft", false, 0⟩
  obtain ⟨-, h⟩ := C20_uniform_modes (nh := 2) L rfl 1 ![0, 3] ![0, 0]
  obtain ⟨q, phi, h1, -, -, h4, -⟩ := h rfl
  refine ⟨L, q, phi, rfl, rfl, h1, ?_, ?_⟩
  · rw [(h4 0).1]; simp [L, NdArr.scalar, NdArr.value]
  · rw [(h4 1).2, (h4 1).1]; simp [L, NdArr.scalar, NdArr.value]; norm_num

/-- **C21**. `Layer.solve_eigenproblem` fails exactly when the eigenvalue solver does.  Otherwise, whatever
the solver returns, each `q` is a square root of the eigenvalue with `Im q ≥ 0` (and `Re q ≥ 0` if it is
real), so `|exp(i q z)| ≤ 1` for `z ≥ 0`; if the solver returns eigenpairs, `matrix phi = phi diag(q^2)`. -/
theorem C21_patterned_modes (E : Ext) {nh : ℕ} (A : Matrix (Idx nh) (Idx nh) ℂ) :
    (∀ e, E.eig nh A = .error e ↔ solveEigenproblem E A = .error e) ∧
    ∀ q phi, solveEigenproblem E A = .ok (q, phi) →
      (∃ w, E.eig nh A = .ok (w, phi) ∧ ∀ k, q k ^ 2 = w k) ∧
      (∀ k, 0 ≤ (q k).im ∧ ((q k).im = 0 → 0 ≤ (q k).re) ∧
        ∀ z : ℝ, 0 ≤ z → ‖Complex.exp (Complex.I * q k * z)‖ ≤ 1) ∧
      (EigContract E → A * phi = phi * diagonal fun k => q k ^ 2) := by
  constructor
  · intro e
    unfold solveEigenproblem
    rcases E.eig nh A with e' | ⟨w, v⟩
    · rfl
    · simp
  · intro q phi h
    refine ⟨?_, ?_, fun hE => (solveEigenproblem_ok h hE).1⟩
    · unfold solveEigenproblem at h
      rw [bind_eq_ok] at h
      obtain ⟨⟨w, v⟩, h1, h2⟩ := h
      simp only [except_pure_eq_ok, Except.ok.injEq, Prod.mk.injEq] at h2
      obtain ⟨rfl, rfl⟩ := h2
      exact ⟨w, h1, fun k => modeSqrt_sq _⟩
    · intro k
      unfold solveEigenproblem at h
      rw [bind_eq_ok] at h
      obtain ⟨⟨w, v⟩, h1, h2⟩ := h
      simp only [except_pure_eq_ok, Except.ok.injEq, Prod.mk.injEq] at h2
      obtain ⟨rfl, rfl⟩ := h2
      refine ⟨modeSqrt_im_nonneg _, fun h0 => ?_, fun z hz => norm_exp_le_one (modeSqrt_im_nonneg _) hz⟩
      dsimp only at h0 ⊢
      unfold modeSqrt at h0 ⊢
      split
      · rename_i hneg
        rw [if_pos hneg, Complex.neg_im] at h0
        linarith
      · exact csqrt_re_nonneg _

/-- C21: a solver that returns the eigenvalue `-9` yields the evanescent mode `3i`. -/
example : ∃ (E : Ext) (A : Matrix (Idx 1) (Idx 1) ℂ) (q : Idx 1 → ℂ) (phi : Matrix (Idx 1) (Idx 1) ℂ),
    solveEigenproblem E A = .ok (q, phi) ∧
    q (.inl 0) = 3 * Complex.I ∧ A * phi = phi * diagonal fun k => q k ^ 2 := by
  refine ⟨⟨fun n _ => .ok (fun _ => -9, 1), fun _ => [], fun _ _ _ _ => .error .valueError⟩, (-9 : ℂ) • 1,
    fun _ => modeSqrt (-9), 1, rfl, ?_, ?_⟩
  · have : csqrt (-9) = Complex.I * 3 := by
      have := csqrt_neg_ofReal (x := -9) (by norm_num)
      rw [neg_neg, show Real.sqrt 9 = 3 by rw [show (9 : ℝ) = 3 ^ 2 by norm_num, Real.sqrt_sq (by norm_num)]] at this
      push_cast at this
      exact this
    unfold modeSqrt
    rw [this]
    simp [mul_comm]
  · rw [Matrix.mul_one, Matrix.one_mul]
    simp only [modeSqrt_sq]
    ext i j
    simp [Matrix.one_apply, diagonal_apply]

/-- **C53**. The classification depends on the shape of the array only: an array is uniform iff it is a
number (shape `()` or `(1,)`) or a `(3,3)` tensor, anisotropic iff its first two dimensions are 3.  Hence
numbers are uniform isotropic, `(3,3)` arrays uniform anisotropic, `(3,3,Nx,Ny)` arrays patterned
anisotropic, and `(Nx,Ny)` grids patterned isotropic with the only exception of 3 by 3 pixels, which are taken
for a tensor. -/
theorem C53_material_classification (L : LayerSpec) :
    (L.isUniform = true ↔ L.epsilon.shape = [] ∨ L.epsilon.shape = [1] ∨ L.epsilon.shape = [3, 3]) ∧
    (L.isAnisotropic = true ↔ ∃ s, L.epsilon.shape = 3 :: 3 :: s) ∧
    (∀ Nx Ny : ℕ, L.epsilon.shape = [Nx, Ny] →
      ((L.isUniform = false ∧ L.isAnisotropic = false) ↔ ¬ (Nx = 3 ∧ Ny = 3))) ∧
    (∀ Nx Ny : ℕ, L.epsilon.shape = [3, 3, Nx, Ny] → L.isUniform = false ∧ L.isAnisotropic = true) := by
  have ani : ∀ s : List ℕ, isAnisotropic s = true ↔ ∃ t, s = 3 :: 3 :: t := by
    intro s
    unfold isAnisotropic
    rw [decide_eq_true_iff]
    rcases s with _ | ⟨a, _ | ⟨b, t⟩⟩
    · simp
    · simp
    · simp
  have uni : ∀ s : List ℕ, isUniform s = true ↔ s = [] ∨ s = [1] ∨ s = [3, 3] := by
    intro s
    unfold isUniform
    by_cases h : isAnisotropic s = true
    · rw [if_pos h, decide_eq_true_iff]
      obtain ⟨t, rfl⟩ := (ani s).mp h
      simp
    · rw [if_neg h]
      have hne : s ≠ [3, 3] := by rintro rfl; exact h ((ani _).mpr ⟨[], rfl⟩)
      rcases s with _ | ⟨a, _ | ⟨b, t⟩⟩
      · simp
      · simp
      · simp
        simpa using hne
  refine ⟨uni _, ani _, ?_, ?_⟩
  · intro Nx Ny h
    have h1 := uni L.epsilon.shape
    have h2 := ani L.epsilon.shape
    rw [h] at h1 h2
    unfold LayerSpec.isUniform LayerSpec.isAnisotropic
    rw [h]
    rw [← Bool.not_eq_true, ← Bool.not_eq_true, h1, h2]
    simp
  · intro Nx Ny h
    unfold LayerSpec.isUniform LayerSpec.isAnisotropic
    rw [h]
    refine ⟨?_, (ani _).mpr ⟨_, rfl⟩⟩
    rw [← Bool.not_eq_true, uni]
    simp

end Nannos
