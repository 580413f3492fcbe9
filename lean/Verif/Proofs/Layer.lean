import Verif.Proofs.Csqrt
import Verif.Proofs.Solved
import Verif.Props.Blocks
import Verif.Spec.Maxwell

/-! Helper lemmas on layer operators. -/

namespace Nannos

open Matrix Spec

variable {nh : ℕ}

theorem buildK_eps (kx ky : Fin nh → ℂ) (eta : Matrix (Fin nh) (Fin nh) ℂ) :
    buildK eta (diagonal ky) (-diagonal kx) = kEps kx ky eta := by
  rw [show (-diagonal kx : Matrix (Fin nh) (Fin nh) ℂ) = diagonal (-kx) from by
    ext i j; by_cases h : i = j <;> simp [diagonal, h], C18_kmatrix]
  ext a b
  rcases a with i | i <;> rcases b with j | j <;>
    simp [kEps, fromBlocks, mul_diagonal, diagonal_mul]

theorem buildK_mu (kx ky : Fin nh → ℂ) :
    buildK ((1 : ℂ) • (1 : Matrix (Fin nh) (Fin nh) ℂ)) (diagonal kx) (diagonal ky) = kMu kx ky := by
  rw [C18_kmatrix]
  ext a b
  rcases a with i | i <;> rcases b with j | j <;> by_cases h : i = j <;>
    simp [kMu, fromBlocks, h]

theorem diag2_one : diag2 ((1 : ℂ) • (1 : Matrix (Fin nh) (Fin nh) ℂ)) = 1 := by
  unfold diag2
  rw [one_smul, fromBlocks_one]

theorem diag2_smul_one (e : ℂ) : diag2 (e • (1 : Matrix (Fin nh) (Fin nh) ℂ)) = e • 1 := by
  unfold diag2
  rw [← fromBlocks_one, fromBlocks_smul]
  simp

theorem kMu_mul_kEps (kx ky : Fin nh → ℂ) (eta : Matrix (Fin nh) (Fin nh) ℂ) :
    kMu kx ky * kEps kx ky eta = 0 := by
  ext a b
  rw [mul_apply, Fintype.sum_sum_type]
  rcases a with i | i <;> rcases b with j | j <;>
    simp [kMu, kEps] <;> ring

/-- The second-order operator is the product of the two first-order ones. -/
theorem waveMatrix_factor {omega : ℝ} (h : omega ≠ 0) (kx ky : Fin nh → ℂ)
    (P : Matrix (Idx nh) (Idx nh) ℂ) (eta : Matrix (Fin nh) (Fin nh) ℂ) :
    waveMatrix omega kx ky P eta =
      (P - ((omega : ℂ) ^ 2)⁻¹ • kMu kx ky) * ((omega : ℂ) ^ 2 • 1 - kEps kx ky eta) := by
  have h2 : ((omega : ℂ) ^ 2) ≠ 0 := by simpa using h
  unfold waveMatrix
  rw [Matrix.sub_mul, Matrix.mul_sub, Matrix.mul_sub, Matrix.smul_mul, Matrix.smul_mul, kMu_mul_kEps]
  simp only [Matrix.mul_smul, Matrix.mul_one, smul_smul, inv_mul_cancel₀ h2, one_smul, smul_zero, sub_zero]

variable {E : Ext} {c : Static}

theorem buildPure_uniform_parts {L : LayerSpec} {Q} (h : buildPure E c L = .ok (.uniform Q)) :
    L.isUniform = true ∧ L.isAnisotropic = false ∧ L.epsilon.value ≠ 0 ∧
    Q = ((c.omega : ℂ) ^ 2 * L.mu) • 1 - kEps c.kx c.ky ((1 / L.epsilon.value) • 1) := by
  have hu := buildPure_uniform h
  unfold buildPure at h
  simp only [hu, if_true] at h
  split at h
  · split at h <;> simp at h
  rename_i ha
  split at h
  · simp at h
  rename_i he
  simp only [Except.ok.injEq, BuiltLayer.uniform.injEq] at h
  refine ⟨hu, by simpa using ha, he, ?_⟩
  rw [← h, diag2_smul_one, buildK_eps, smul_smul]

theorem buildPure_uniform_ok {L : LayerSpec} {Q} (hmu : L.mu = 1)
    (h : buildPure E c L = .ok (.uniform Q)) :
    L.isUniform = true ∧ L.isAnisotropic = false ∧ L.epsilon.value ≠ 0 ∧
    Q = (c.omega : ℂ) ^ 2 • 1 - kEps c.kx c.ky ((1 / L.epsilon.value) • 1) := by
  have := buildPure_uniform_parts h
  rwa [hmu, mul_one] at this

theorem buildK_mu_smul (kx ky : Fin nh → ℂ) (s : ℂ) :
    buildK (s • (1 : Matrix (Fin nh) (Fin nh) ℂ)) (diagonal kx) (diagonal ky) = s • kMu kx ky := by
  rw [C18_kmatrix]
  ext a b
  rcases a with i | i <;> rcases b with j | j <;> by_cases h : i = j <;>
    simp [kMu, fromBlocks, h] <;> ring

theorem buildPure_patterned_parts {L : LayerSpec} {M p Q}
    (h : buildPure E c L = .ok (.patterned M p Q)) :
    L.isUniform = false ∧ p.epsHat.det ≠ 0 ∧ p.epsHatInv = p.epsHat⁻¹ ∧
    Q = ((c.omega : ℂ) ^ 2 * L.mu) • 1 - kEps c.kx c.ky p.epsHatInv ∧
    M = ((c.omega : ℂ) ^ 2 * L.mu) • p.Peps - p.Peps * kEps c.kx c.ky p.epsHatInv - kMu c.kx c.ky ∧
    p.Kmu = (1 / L.mu) • kMu c.kx c.ky ∧ p.Keps = kEps c.kx c.ky p.epsHatInv ∧ L.mu ≠ 0 ∧
    ∃ epszz para epsParaHat Ht n,
      (if L.isAnisotropic then L.epsilon.comp 2 2 else L.epsilon).toGrid = .ok epszz ∧
      c.toep epszz = .ok p.epsHat ∧ paraOf L = .ok para ∧
      epsParaHatOf c para p.epsHat = .ok epsParaHat ∧
      c.lattice.getHarmonics E.argsort c.nh true = .ok (Ht, n) ∧
      pepsOf E c L epszz para p.epsHat epsParaHat Ht = .ok p.Peps := by
  have hu := buildPure_patterned h
  unfold buildPure at h
  simp only [hu, Bool.false_eq_true, if_false, bind_eq_ok] at h
  obtain ⟨epszz, h1, epsHat, h2, epsHatInv, h3, u, h4, para, h5, eph, h6, ⟨Ht, n⟩, h7, Peps, h8, h⟩ := h
  simp only [except_pure_eq_ok, Except.ok.injEq, BuiltLayer.patterned.injEq] at h
  obtain ⟨hM, hp, hQ⟩ := h
  subst hp
  rw [linInv_ok] at h3
  rw [raiseIf_ok] at h4
  rw [diag2_smul_one, buildK_eps] at hQ hM
  rw [smul_smul] at hQ
  refine ⟨hu, h3.1, h3.2, hQ.symm, ?_, ?_, ?_, h4, epszz, para, eph, Ht, n, h1, h2, h5, h6, h7, h8⟩
  · rw [← hM, buildK_mu_smul]
    simp only [Matrix.mul_smul, Matrix.mul_one, smul_smul, mul_one_div_cancel h4, one_smul]
    rw [sub_sub]
  · dsimp only
    rw [buildK_mu_smul]
  · dsimp only
    rw [buildK_eps]

theorem buildPure_patterned_ok {L : LayerSpec} {M p Q} (hmu : L.mu = 1)
    (h : buildPure E c L = .ok (.patterned M p Q)) :
    L.isUniform = false ∧ p.epsHat.det ≠ 0 ∧ p.epsHatInv = p.epsHat⁻¹ ∧
    Q = (c.omega : ℂ) ^ 2 • 1 - kEps c.kx c.ky p.epsHatInv ∧
    M = waveMatrix c.omega c.kx c.ky p.Peps p.epsHatInv ∧
    p.Kmu = kMu c.kx c.ky ∧ p.Keps = kEps c.kx c.ky p.epsHatInv ∧
    ∃ epszz para epsParaHat Ht n,
      (if L.isAnisotropic then L.epsilon.comp 2 2 else L.epsilon).toGrid = .ok epszz ∧
      c.toep epszz = .ok p.epsHat ∧ paraOf L = .ok para ∧
      epsParaHatOf c para p.epsHat = .ok epsParaHat ∧
      c.lattice.getHarmonics E.argsort c.nh true = .ok (Ht, n) ∧
      pepsOf E c L epszz para p.epsHat epsParaHat Ht = .ok p.Peps := by
  obtain ⟨h1, h2, h3, h4, h5, h6, h7, -, h8⟩ := buildPure_patterned_parts h
  rw [hmu, mul_one] at h4 h5
  rw [hmu, div_one, one_smul] at h6
  exact ⟨h1, h2, h3, h4, h5, h6, h7, h8⟩

end Nannos
