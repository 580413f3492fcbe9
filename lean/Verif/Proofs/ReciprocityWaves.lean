import Verif.Proofs.ReciprocitySim
import Verif.Proofs.SimilarRun

/-! Reciprocity (C72, C73): the incident waves, the efficiencies and the fields of the zeroth order. -/

namespace Nannos

open Matrix Spec

variable {E : Ext} {c c' : Static} {mats : ℕ → LayerSpec}

theorem crossFlux_neg (w : ℝ) (e X Y g x1 x2 y1 y2 : ℂ) :
    crossFlux w e (-X) (-Y) g x1 x2 y1 y2 = crossFlux w e X Y g x1 x2 y1 y2 := by
  unfold crossFlux; rw [coefA_neg]

/-- The amplitude of a plane wave in a medium of index `n`. -/
theorem wave_cross {exc : PlaneWave} {n : ℝ} (hn : 0 < n) {wl ang} (hwl : 0 < wl)
    (hp : planeWave wl ang = .ok exc) (hcos : 0 < Real.cos exc.theta) (y1 y2 : ℂ) :
    crossFlux exc.wavenumber ((n ^ 2 : ℝ) : ℂ) ((exc.wavevector 0 * n : ℝ) : ℂ) ((exc.wavevector 1 * n : ℝ) : ℂ)
      ((n * exc.wavenumber * Real.cos exc.theta : ℝ) : ℂ) (exc.a0 0) (exc.a0 1) y1 y2 =
      (-(exc.amplitude 1 : ℂ) * y1 + (exc.amplitude 0 : ℂ) * y2) / n := by
  obtain ⟨hl, hwe, -, -, -, hk, hkv, hamp, ha0⟩ := planeWave_ok hp
  have hw : 0 < exc.wavenumber := by rw [hk]; positivity
  have t := Real.sin_sq_add_cos_sq exc.theta
  have f := Real.sin_sq_add_cos_sq exc.phi
  obtain ⟨-, q0⟩ := ha0
  have n1 := congrFun q0 0
  have n2 := congrFun q0 1
  have hsq : Real.sqrt (exc.wavenumber ^ 2 - exc.wavevector 0 ^ 2 - exc.wavevector 1 ^ 2) =
      exc.wavenumber * Real.cos exc.theta := by
    rw [show exc.wavenumber ^ 2 - exc.wavevector 0 ^ 2 - exc.wavevector 1 ^ 2 =
      (exc.wavenumber * Real.cos exc.theta) ^ 2 from ?_, Real.sqrt_sq (by positivity)]
    rw [hkv]
    simp
    linear_combination (-exc.wavenumber ^ 2 * Real.sin exc.theta ^ 2) * f - exc.wavenumber ^ 2 * t
  rw [hsq] at n1 n2
  clear hkv hamp hk
  generalize exc.wavevector 0 = X at *
  generalize exc.wavevector 1 = Y at *
  generalize exc.wavenumber = w at *
  generalize Real.cos exc.theta = C at *
  generalize exc.amplitude = A at *
  generalize exc.a0 = x at *
  simp [mulVec, dotProduct, Fin.sum_univ_two] at n1 n2
  have n1C : ((w : ℂ) ^ 2 - Y ^ 2) * x 0 + X * Y * x 1 = -(w * (w * C) * A 1) := by exact_mod_cast n1
  have n2C : (X : ℂ) * Y * x 0 + (w ^ 2 - X ^ 2) * x 1 = w * (w * C) * A 0 := by exact_mod_cast n2
  have w0 : (w : ℂ) ≠ 0 := by exact_mod_cast hw.ne'
  have c0 : (C : ℂ) ≠ 0 := by exact_mod_cast hcos.ne'
  have m0 : (n : ℂ) ≠ 0 := by exact_mod_cast hn.ne'
  unfold crossFlux coefA
  push_cast
  field_simp
  linear_combination y1 * n1C + y2 * n2C

/-- The amplitude of the incident wave, in the superstrate. -/
theorem incident_on {exc : PlaneWave} {n : ℝ} (g : GoodSup c exc n) {wl ang}
    (hp : planeWave wl ang = .ok exc) (hcos : 0 < Real.cos exc.theta) {M : Modes (Idx c.nh)}
    {gz} (h : UniformFlux c ((n ^ 2 : ℝ) : ℂ) M gz) {i : Fin c.nh} (hi : (i : ℕ) = c.indexZerothOrder) :
    gz i = ((n * exc.wavenumber * Real.cos exc.theta : ℝ) : ℂ) ∧ c.omega = exc.wavenumber ∧
    c.kx i = ((exc.wavevector 0 * n : ℝ) : ℂ) ∧ c.ky i = ((exc.wavevector 1 * n : ℝ) : ℂ) := by
  obtain ⟨hl, hwe, -, -, -, hk, hkv, hamp, ha0⟩ := planeWave_ok hp
  have hom : c.omega = exc.wavenumber := by rw [g.omk, hk, hwe]
  have hn := g.pos
  have hw := g.omega
  have t := Real.sin_sq_add_cos_sq exc.theta
  have f := Real.sin_sq_add_cos_sq exc.phi
  obtain ⟨-, -, h3, h4⟩ := g.on i hi
  refine ⟨?_, hom, h3, h4⟩
  rw [h.g_eq i, h3, h4]
  have : ((n ^ 2 : ℝ) : ℂ) * (c.omega : ℂ) ^ 2 - ((exc.wavevector 0 * n : ℝ) : ℂ) ^ 2 -
      ((exc.wavevector 1 * n : ℝ) : ℂ) ^ 2 = (((n * exc.wavenumber * Real.cos exc.theta) ^ 2 : ℝ) : ℂ) := by
    rw [hkv, hom]
    norm_cast
    simp
    linear_combination (-n ^ 2 * exc.wavenumber ^ 2 * Real.sin exc.theta ^ 2) * f - n ^ 2 * exc.wavenumber ^ 2 * t
  rw [hom] at hw
  rw [this, csqrt_ofReal (by positivity), Real.sqrt_sq (by positivity)]

/-- The products of the amplitudes of two waves with the same direction. -/
theorem incident_products {wl th ph ps ps' : ℝ} {exc exc' : PlaneWave} (hwl : 0 < wl)
    (hp : planeWave wl (th, ph, ps) = .ok exc) (hp' : planeWave wl (th, ph, ps') = .ok exc')
    (hcos : 0 < Real.cos exc.theta) :
    -exc.amplitude 1 * exc'.a0 0 + exc.amplitude 0 * exc'.a0 1 =
      Real.cos exc.theta * Real.cos ((ps - ps') * (Real.pi / 180)) := by
  obtain ⟨-, -, ht, hf, hs, hk, hkv, ha, -⟩ := planeWave_ok hp
  obtain ⟨-, -, ht', hf', hs', hk', hkv', ha', -⟩ := planeWave_ok hp'
  have hcos' : 0 < Real.cos exc'.theta := by rw [ht', ← ht]; exact hcos
  obtain ⟨e1, -⟩ := (C02_modal_amplitude_is_magnetic_amplitude wl hwl _).2 exc' hp' hcos'
  have hw : exc'.wavenumber ≠ 0 := by rw [hk']; positivity
  rw [e1, ha, hkv', ha']
  simp only [cross_apply, cons_val_zero, cons_val_one]
  have : (ps - ps') * (Real.pi / 180) = exc.psi - exc'.psi := by rw [hs, hs']; ring
  rw [this, Real.cos_sub]
  have e2 : exc'.theta = exc.theta := by rw [ht, ht']
  have e3 : exc'.phi = exc.phi := by rw [hf, hf']
  rw [e2, e3]
  have t := Real.sin_sq_add_cos_sq exc.theta
  have f := Real.sin_sq_add_cos_sq exc.phi
  field_simp
  simp
  generalize Real.sin exc.theta = st at *
  generalize Real.cos exc.theta = ct at *
  generalize Real.sin exc.phi = sf at *
  generalize Real.cos exc.phi = cf at *
  generalize Real.sin exc.psi = sp at *
  generalize Real.cos exc.psi = cp at *
  generalize Real.sin exc'.psi = sq at *
  generalize Real.cos exc'.psi = cq at *
  linear_combination ((cp * ct * sf + sp * cf) * (sf * cq) + (cp * ct * cf - sf * sp) * (cf * cq)) * t +
    (cp * ct * cq + sp * sq * ct) * f

/-- Expansion of the flux of one order in two orthogonal incident waves. -/
theorem flux_expand {α β δ u1 u2 v1 v2 F : ℝ} (hF : F ≠ 0)
    (huu : (α * u1 + β * u2) * u1 + (β * u1 + δ * u2) * u2 = F) (hvv : (α * v1 + β * v2) * v1 + (β * v1 + δ * v2) * v2 = F)
    (huv : (α * u1 + β * u2) * v1 + (β * u1 + δ * u2) * v2 = 0) (b1 b2 : ℂ) :
    (star ((α : ℂ) * b1 + (β : ℂ) * b2) * b1 + star ((β : ℂ) * b1 + (δ : ℂ) * b2) * b2).re =
      (Complex.normSq (((α : ℂ) * u1 + β * u2) * b1 + ((β : ℂ) * u1 + δ * u2) * b2) +
        Complex.normSq (((α : ℂ) * v1 + β * v2) * b1 + ((β : ℂ) * v1 + δ * v2) * b2)) / F := by
  have h1 : !![u1, u2; v1, v2] * (!![α, β; β, δ] * !![u1, v1; u2, v2]) = F • (1 : Matrix (Fin 2) (Fin 2) ℝ) := by
    ext i j
    fin_cases i <;> fin_cases j <;> simp [Matrix.mul_apply, Fin.sum_univ_two] <;> linarith
  have h2 : (F⁻¹ • !![u1, u2; v1, v2]) * (!![α, β; β, δ] * !![u1, v1; u2, v2]) = 1 := by
    rw [Matrix.smul_mul, h1, smul_smul, inv_mul_cancel₀ hF, one_smul]
  rw [← Matrix.mul_assoc, mul_eq_one_comm] at h2
  have h3 : !![u1, v1; u2, v2] * (!![u1, u2; v1, v2] * !![α, β; β, δ]) = F • (1 : Matrix (Fin 2) (Fin 2) ℝ) := by
    have := congrArg (F • ·) h2
    simp only [Matrix.smul_mul, Matrix.mul_smul, smul_smul, mul_inv_cancel₀ hF, one_smul] at this
    exact this
  have e00 := congrFun (congrFun h3 0) 0
  have e01 := congrFun (congrFun h3 0) 1
  have e10 := congrFun (congrFun h3 1) 0
  have e11 := congrFun (congrFun h3 1) 1
  simp [Matrix.mul_apply, Fin.sum_univ_two] at e00 e01 e10 e11
  have a11 : (α * u1 + β * u2) ^ 2 + (α * v1 + β * v2) ^ 2 = F * α := by linear_combination α * e00 + β * e10
  have a12 : (α * u1 + β * u2) * (β * u1 + δ * u2) + (α * v1 + β * v2) * (β * v1 + δ * v2) = F * β := by
    linear_combination α * e01 + β * e11
  have a22 : (β * u1 + δ * u2) ^ 2 + (β * v1 + δ * v2) ^ 2 = F * δ := by linear_combination β * e01 + δ * e11
  rw [eq_div_iff hF]
  simp [Complex.normSq_apply]
  linear_combination (-(b1.re ^ 2 + b1.im ^ 2)) * a11 - 2 * (b1.re * b2.re + b1.im * b2.im) * a12 -
    (b2.re ^ 2 + b2.im ^ 2) * a22

/-- The flux of one order in terms of two orthogonal plane waves of the same direction. -/
theorem flux_unpolarised {wl th ph ps : ℝ} {exc exc' : PlaneWave} (hwl : 0 < wl) {n : ℝ} (hn : 0 < n)
    (hp : planeWave wl (th, ph, ps) = .ok exc) (hp' : planeWave wl (th, ph, ps + 90) = .ok exc')
    (hcos : 0 < Real.cos exc.theta) (b1 b2 : ℂ) :
    (star (((coefA exc.wavenumber ((n ^ 2 : ℝ) : ℂ) ((exc.wavevector 0 * n : ℝ) : ℂ) ((exc.wavevector 1 * n : ℝ) : ℂ)
        ((n * exc.wavenumber * Real.cos exc.theta : ℝ) : ℂ)).1 * b1 +
      (coefA exc.wavenumber ((n ^ 2 : ℝ) : ℂ) ((exc.wavevector 0 * n : ℝ) : ℂ) ((exc.wavevector 1 * n : ℝ) : ℂ)
        ((n * exc.wavenumber * Real.cos exc.theta : ℝ) : ℂ)).2.1 * b2)) * b1 +
     star (((coefA exc.wavenumber ((n ^ 2 : ℝ) : ℂ) ((exc.wavevector 0 * n : ℝ) : ℂ) ((exc.wavevector 1 * n : ℝ) : ℂ)
        ((n * exc.wavenumber * Real.cos exc.theta : ℝ) : ℂ)).2.1 * b1 +
      (coefA exc.wavenumber ((n ^ 2 : ℝ) : ℂ) ((exc.wavevector 0 * n : ℝ) : ℂ) ((exc.wavevector 1 * n : ℝ) : ℂ)
        ((n * exc.wavenumber * Real.cos exc.theta : ℝ) : ℂ)).2.2 * b2)) * b2).re =
      (Complex.normSq ((-(exc.amplitude 1 : ℂ) * b1 + (exc.amplitude 0 : ℂ) * b2) / n) +
        Complex.normSq ((-(exc'.amplitude 1 : ℂ) * b1 + (exc'.amplitude 0 : ℂ) * b2) / n)) / (Real.cos exc.theta / n) := by
  have hF : Real.cos exc.theta / n ≠ 0 := (div_pos hcos hn).ne'
  obtain ⟨-, -, ht, hf, -, hk, hkv, -, -⟩ := planeWave_ok hp
  obtain ⟨-, -, ht', hf', -, hk', hkv', -, -⟩ := planeWave_ok hp'
  have e1 : exc'.theta = exc.theta := by rw [ht, ht']
  have e2 : exc'.phi = exc.phi := by rw [hf, hf']
  have e3 : exc'.wavenumber = exc.wavenumber := by rw [hk, hk']
  have e4 : exc'.wavevector = exc.wavevector := by rw [hkv, hkv', e1, e2, e3]
  have hcos' : 0 < Real.cos exc'.theta := by rw [e1]; exact hcos
  have W := wave_cross hn hwl hp hcos
  have W' := wave_cross hn hwl hp' hcos'
  rw [e1, e3, e4] at W'
  have P1 := incident_products hwl hp hp hcos
  have P2 := incident_products hwl hp' hp' hcos'
  have P3 := incident_products hwl hp hp' hcos
  rw [sub_self, zero_mul, Real.cos_zero, mul_one] at P1 P2
  rw [e1] at P2
  have h90 : Real.cos ((ps - (ps + 90)) * (Real.pi / 180)) = 0 := by
    rw [show (ps - (ps + 90)) * (Real.pi / 180) = -(Real.pi / 2) by ring, Real.cos_neg, Real.cos_pi_div_two]
  rw [h90, mul_zero] at P3
  unfold crossFlux at W W'
  rw [coefA_real] at W W' ⊢
  generalize (exc.wavenumber ^ 2 - (exc.wavevector 1 * n) ^ 2 / n ^ 2) * (1 / (exc.wavenumber * (n * exc.wavenumber * Real.cos exc.theta))) = α at *
  generalize exc.wavevector 0 * n * (exc.wavevector 1 * n) / n ^ 2 * (1 / (exc.wavenumber * (n * exc.wavenumber * Real.cos exc.theta))) = β at *
  generalize (exc.wavenumber ^ 2 - (exc.wavevector 0 * n) ^ 2 / n ^ 2) * (1 / (exc.wavenumber * (n * exc.wavenumber * Real.cos exc.theta))) = δ at *
  dsimp only at W W' ⊢
  have W1 := W (exc.a0 0) (exc.a0 1)
  have W2 := W' (exc'.a0 0) (exc'.a0 1)
  have W3 := W (exc'.a0 0) (exc'.a0 1)
  have Q1 : (α * exc.a0 0 + β * exc.a0 1) * exc.a0 0 + (β * exc.a0 0 + δ * exc.a0 1) * exc.a0 1 = Real.cos exc.theta / n := by
    rw [← P1]; exact_mod_cast W1
  have Q2 : (α * exc'.a0 0 + β * exc'.a0 1) * exc'.a0 0 + (β * exc'.a0 0 + δ * exc'.a0 1) * exc'.a0 1 = Real.cos exc.theta / n := by
    rw [← P2]; exact_mod_cast W2
  have Q3 : (α * exc.a0 0 + β * exc.a0 1) * exc'.a0 0 + (β * exc.a0 0 + δ * exc.a0 1) * exc'.a0 1 = 0 := by
    rw [← zero_div n, ← P3]; exact_mod_cast W3
  rw [flux_expand hF Q1 Q2 Q3, W, W']

end Nannos
