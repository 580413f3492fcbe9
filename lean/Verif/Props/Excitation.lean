import Verif.Model.Excitation
import Verif.Proofs.SMatrix
import Mathlib.LinearAlgebra.CrossProduct
import Mathlib.Tactic.LinearCombination
import Mathlib.Tactic.FieldSimp
import Mathlib.Tactic.Positivity
import Mathlib.Tactic.Linarith

/-! Properties C01, C02: plane wave excitation. -/

namespace Nannos

open Matrix

/-- Unfolding of a successful construction. -/
theorem planeWave_ok {l : ℝ} {ang : ℝ × ℝ × ℝ} {p : PlaneWave} (h : planeWave l ang = .ok p) :
    l ≠ 0 ∧ p.wavelength = l ∧ p.theta = ang.1 * (Real.pi / 180) ∧
    p.phi = ang.2.1 * (Real.pi / 180) ∧ p.psi = ang.2.2 * (Real.pi / 180) ∧
    p.wavenumber = 2 * Real.pi * (1 / l) ∧
    p.wavevector = (fun i => p.wavenumber * ![Real.sin p.theta * Real.cos p.phi,
      Real.sin p.theta * Real.sin p.phi, Real.cos p.theta] i) ∧
    p.amplitude = ![Real.cos p.psi * Real.cos p.theta * Real.cos p.phi - Real.sin p.psi * Real.sin p.phi,
      Real.cos p.psi * Real.cos p.theta * Real.sin p.phi + Real.sin p.psi * Real.cos p.phi,
      -Real.cos p.psi * Real.sin p.theta] ∧
    (let Q := p.wavenumber ^ 2 • (1 : Matrix (Fin 2) (Fin 2) ℝ) -
      !![p.wavevector 1 ^ 2, -p.wavevector 0 * p.wavevector 1;
        -p.wavevector 0 * p.wavevector 1, p.wavevector 0 ^ 2]
     Q.det ≠ 0 ∧ Q *ᵥ p.a0 = (p.wavenumber *
      Real.sqrt (p.wavenumber ^ 2 - p.wavevector 0 ^ 2 - p.wavevector 1 ^ 2)) •
        ![-p.amplitude 1, p.amplitude 0]) := by
  unfold planeWave at h
  by_cases hl : l = 0
  · simp [hl] at h
  simp only [hl, if_false, powHalf, inv2] at h
  split at h
  · simp at h
  · simp only [except_bind_ok] at h
    split at h
    · simp at h
    · rename_i hdet
      simp only [except_bind_ok, except_pure_eq_ok, Except.ok.injEq] at h
      subst h
      refine ⟨hl, rfl, rfl, rfl, rfl, rfl, rfl, rfl, hdet, ?_⟩
      dsimp only
      rw [smul_mulVec, mulVec_smul, mulVec_mulVec, mul_nonsing_inv _ (isUnit_iff_ne_zero.mpr hdet),
        one_mulVec]
      rfl

theorem Qdet (k a b : ℝ) : (k ^ 2 • (1 : Matrix (Fin 2) (Fin 2) ℝ) -
      !![b ^ 2, -a * b; -a * b, a ^ 2]).det = k ^ 2 * (k ^ 2 - a ^ 2 - b ^ 2) := by
  rw [det_fin_two]
  simp
  ring

/-- **C01**. The wave vector has length `2π/wavelength`, the amplitude is a unit vector orthogonal to
the wave vector. -/
theorem C01_plane_wave_is_transverse (wavelength : ℝ) (angles : ℝ × ℝ × ℝ) (p : PlaneWave)
    (h : planeWave wavelength angles = .ok p) :
    p.wavevector ⬝ᵥ p.wavevector = (2 * Real.pi / wavelength) ^ 2 ∧
    p.amplitude ⬝ᵥ p.amplitude = 1 ∧
    p.amplitude ⬝ᵥ p.wavevector = 0 := by
  obtain ⟨hl, -, -, -, -, hk, hkv, ha, -⟩ := planeWave_ok h
  have t := Real.sin_sq_add_cos_sq p.theta
  have f := Real.sin_sq_add_cos_sq p.phi
  have s := Real.sin_sq_add_cos_sq p.psi
  refine ⟨?_, ?_, ?_⟩
  · rw [hkv, hk]
    simp only [dotProduct, Fin.sum_univ_three]
    simp
    field_simp
    linear_combination (Real.sin p.theta ^ 2) * f + t
  · rw [ha]
    simp only [dotProduct, Fin.sum_univ_three]
    simp
    linear_combination (Real.cos p.psi ^ 2 * Real.cos p.theta ^ 2 + Real.sin p.psi ^ 2) * f
      + Real.cos p.psi ^ 2 * t + s
  · rw [ha, hkv]
    simp only [dotProduct, Fin.sum_univ_three]
    simp
    linear_combination (Real.cos p.psi * Real.cos p.theta * Real.sin p.theta * p.wavenumber) * f

/-- **C02**. For a positive wavelength the construction fails exactly at grazing incidence; for
`cos θ > 0` the modal amplitude `a0` is the tangential part of the magnetic amplitude
`(k × E) / |k|` of the plane wave, and `(-E_y, E_x) · a0`, the flux through a horizontal plane, is
`cos θ`. -/
theorem C02_modal_amplitude_is_magnetic_amplitude (wavelength : ℝ) (hl : 0 < wavelength)
    (angles : ℝ × ℝ × ℝ) :
    ((∃ p, planeWave wavelength angles = .ok p) ↔ Real.cos (angles.1 * (Real.pi / 180)) ≠ 0) ∧
    ∀ p, planeWave wavelength angles = .ok p → 0 < Real.cos p.theta →
      p.a0 = ![(p.wavevector ⨯₃ p.amplitude) 0 / p.wavenumber,
               (p.wavevector ⨯₃ p.amplitude) 1 / p.wavenumber] ∧
      ![-p.amplitude 1, p.amplitude 0] ⬝ᵥ p.a0 = Real.cos p.theta := by
  have key : ∀ k θ φ : ℝ, k ^ 2 - (k * (Real.sin θ * Real.cos φ)) ^ 2
      - (k * (Real.sin θ * Real.sin φ)) ^ 2 = (k * Real.cos θ) ^ 2 := by
    intro k θ φ
    have t := Real.sin_sq_add_cos_sq θ
    have f := Real.sin_sq_add_cos_sq φ
    linear_combination (-k ^ 2 * Real.sin θ ^ 2) * f - k ^ 2 * t
  constructor
  · constructor
    · rintro ⟨p, h⟩ h0
      obtain ⟨_, _, ht, hf, _, hk, hkv, _, hdet, _⟩ := planeWave_ok h
      apply hdet
      rw [Qdet, hkv]
      have := key p.wavenumber p.theta p.phi
      simp only [Matrix.cons_val_zero, Matrix.cons_val_one]
      rw [this, ht, h0]
      ring
    · intro h0
      have hk : (2 * Real.pi * (1 / wavelength)) ≠ 0 := by positivity
      unfold planeWave
      simp only [hl.ne', if_false, powHalf, inv2, Qdet]
      simp only [Matrix.cons_val_zero, Matrix.cons_val_one, key]
      rw [if_neg (not_lt.mpr (sq_nonneg _))]
      simp only [except_bind_ok]
      rw [if_neg (by positivity)]
      exact ⟨_, rfl⟩
  · intro p h hc
    obtain ⟨_, _, ht, hf, _, hk, hkv, ha, hdet, hQ⟩ := planeWave_ok h
    have hkpos : 0 < p.wavenumber := by rw [hk]; positivity
    have hq : Real.sqrt (p.wavenumber ^ 2 - p.wavevector 0 ^ 2 - p.wavevector 1 ^ 2) =
        p.wavenumber * Real.cos p.theta := by
      rw [hkv]
      simp only [Matrix.cons_val_zero, Matrix.cons_val_one]
      rw [key, Real.sqrt_sq (by positivity)]
    rw [hq] at hQ
    have t := Real.sin_sq_add_cos_sq p.theta
    have f := Real.sin_sq_add_cos_sq p.phi
    have s := Real.sin_sq_add_cos_sq p.psi
    have e : p.a0 = ![(p.wavevector ⨯₃ p.amplitude) 0 / p.wavenumber,
               (p.wavevector ⨯₃ p.amplitude) 1 / p.wavenumber] := by
      have hinj : Function.Injective (fun v => (p.wavenumber ^ 2 • (1 : Matrix (Fin 2) (Fin 2) ℝ) -
          !![p.wavevector 1 ^ 2, -p.wavevector 0 * p.wavevector 1;
            -p.wavevector 0 * p.wavevector 1, p.wavevector 0 ^ 2]) *ᵥ v) :=
        Matrix.mulVec_injective_of_isUnit
          ((isUnit_iff_isUnit_det _).mpr (isUnit_iff_ne_zero.mpr hdet))
      apply hinj
      dsimp only
      rw [hQ, hkv, ha]
      ext i
      fin_cases i
      · simp [mulVec, dotProduct, Fin.sum_univ_two, cross_apply]
        field_simp
        generalize Real.sin p.theta = a at *
        generalize Real.cos p.theta = b at *
        generalize Real.sin p.phi = c at *
        generalize Real.cos p.phi = d at *
        generalize Real.sin p.psi = x at *
        generalize Real.cos p.psi = y at *
        linear_combination (-y * c * a ^ 2) * t - (c * a ^ 2 * y * (a ^ 2 + b ^ 2)) * f
      · simp [mulVec, dotProduct, Fin.sum_univ_two, cross_apply]
        field_simp
        generalize Real.sin p.theta = a at *
        generalize Real.cos p.theta = b at *
        generalize Real.sin p.phi = c at *
        generalize Real.cos p.phi = d at *
        generalize Real.sin p.psi = x at *
        generalize Real.cos p.psi = y at *
        linear_combination (y * d * a ^ 2) * t + (d * a ^ 2 * y * (a ^ 2 + b ^ 2)) * f
    refine ⟨e, ?_⟩
    rw [e, hkv, ha]
    simp [dotProduct, Fin.sum_univ_two, cross_apply]
    field_simp
    generalize Real.sin p.theta = a at *
    generalize Real.cos p.theta = b at *
    generalize Real.sin p.phi = c at *
    generalize Real.cos p.phi = d at *
    generalize Real.sin p.psi = x at *
    generalize Real.cos p.psi = y at *
    linear_combination (b * (x ^ 2 + y ^ 2 * (a ^ 2 + b ^ 2))) * f + b * s + (b * y ^ 2) * t

/-! Concrete case: wavelength 1, incidence `θ = 60°`, `φ = 0`, `ψ = 0`. -/
example : ∃ p, planeWave 1 (60, 0, 0) = .ok p ∧ 0 < Real.cos p.theta ∧
    p.amplitude ⬝ᵥ p.wavevector = 0 ∧ ![-p.amplitude 1, p.amplitude 0] ⬝ᵥ p.a0 = 1 / 2 := by
  have hc : Real.cos (60 * (Real.pi / 180)) = 1 / 2 := by
    rw [← Real.cos_pi_div_three]; congr 1; ring
  obtain ⟨p, hp⟩ := ((C02_modal_amplitude_is_magnetic_amplitude 1 one_pos (60, 0, 0)).1).mpr
    (by rw [hc]; norm_num)
  have ht : Real.cos p.theta = 1 / 2 := by rw [(planeWave_ok hp).2.2.1]; exact hc
  have hpos : 0 < Real.cos p.theta := by rw [ht]; norm_num
  exact ⟨p, hp, hpos, (C01_plane_wave_is_transverse 1 _ p hp).2.2, by
    rw [((C02_modal_amplitude_is_magnetic_amplitude 1 one_pos _).2 p hp hpos).2, ht]⟩

end Nannos
