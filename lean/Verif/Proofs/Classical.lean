import Verif.Proofs.ParametersRun
import Verif.Spec.Classical

/-! Efficiencies from the electric field of each order (C90). -/

namespace Nannos

open Matrix Spec

variable {E : Ext} {c : Static}

theorem order_intensity {w e X Y s : ℝ} (hw : w ≠ 0) (he : e ≠ 0) (hs : 0 < s) (h : s ^ 2 = e * w ^ 2 - X ^ 2 - Y ^ 2)
    (b1 b2 : ℂ) :
    (1 / (w * s)) * (w ^ 2 * (Complex.normSq b1 + Complex.normSq b2) - Complex.normSq (Y * b1 - X * b2) / e) =
    s / w * (Complex.normSq ((coefA w e X Y s).2.1 * b1 + (coefA w e X Y s).2.2 * b2) +
      Complex.normSq (-((coefA w e X Y s).1 * b1 + (coefA w e X Y s).2.1 * b2)) +
      Complex.normSq ((Y * b1 - X * b2) / w / e)) := by
  rw [coefA_real]
  simp only [Complex.normSq_apply, Complex.neg_re, Complex.neg_im, Complex.add_re, Complex.add_im, Complex.sub_re,
    Complex.sub_im, Complex.re_ofReal_mul, Complex.im_ofReal_mul, Complex.div_ofReal_re, Complex.div_ofReal_im]
  generalize b1.re = p1
  generalize b1.im = p2
  generalize b2.re = r1
  generalize b2.im = r2
  have hs' := hs.ne'
  have e1 : ∀ u v : ℝ, (X * Y / e * (1 / (w * s)) * u + (w ^ 2 - X ^ 2 / e) * (1 / (w * s)) * v) ^ 2 +
      ((w ^ 2 - Y ^ 2 / e) * (1 / (w * s)) * u + X * Y / e * (1 / (w * s)) * v) ^ 2 + ((Y * u - X * v) / w / e) ^ 2 =
      1 / s ^ 2 * (w ^ 2 * (u ^ 2 + v ^ 2) - (Y * u - X * v) ^ 2 / e) := by
    intro u v
    field_simp
    linear_combination (Y * u - X * v) ^ 2 * h
  have g1 := e1 p1 r1
  have g2 := e1 p2 r2
  have : s / w * (1 / s ^ 2) = 1 / (w * s) := by field_simp
  generalize 1 / (w * s) = k at *
  linear_combination (-s / w) * g1 + (-s / w) * g2 - (w ^ 2 * (p1 ^ 2 + r1 ^ 2) - (Y * p1 - X * r1) ^ 2 / e +
    (w ^ 2 * (p2 ^ 2 + r2 ^ 2) - (Y * p2 - X * r2) ^ 2 / e)) * this

theorem orderFlux_real {e : ℝ} (he : e ≠ 0) (hom : 0 < c.omega) {M : Modes (Idx c.nh)} {g} (h : UniformFlux c e M g)
    (hkx : ∀ i, star (c.kx i) = c.kx i) (hky : ∀ i, star (c.ky i) = c.ky i)
    (hq : ∀ k, (c.omega : ℂ) * M.q k ≠ 0) (x : Idx c.nh → ℂ) (i : Fin c.nh) (p : ℂ)
    (hp : (g i).im = 0 → Complex.normSq p = 1) :
    orderFlux c M x i = Real.sqrt (e * c.omega ^ 2 - (c.kx i).re ^ 2 - (c.ky i).re ^ 2) / c.omega *
      (Complex.normSq (p * ((coefA c.omega e (c.kx i) (c.ky i) (g i)).2.1 * x (.inl i) +
        (coefA c.omega e (c.kx i) (c.ky i) (g i)).2.2 * x (.inr i))) +
      Complex.normSq (p * -((coefA c.omega e (c.kx i) (c.ky i) (g i)).1 * x (.inl i) +
        (coefA c.omega e (c.kx i) (c.ky i) (g i)).2.1 * x (.inr i))) +
      Complex.normSq (p * ((c.ky i * x (.inl i) - c.kx i * x (.inr i)) / c.omega / e))) := by
  obtain ⟨A1, A2⟩ := uniform_mulVec h.phi h.q h.Q x i
  unfold orderFlux
  rw [A1, A2, h.phi, one_mulVec]
  obtain ⟨X, Y, s, hX, hY, hs, ⟨h1, h2, hg⟩ | ⟨h1, hg⟩⟩ := h.cases hkx hky hq i
  · rw [hX, hY, hg, Complex.ofReal_re, Complex.ofReal_re, ← h2]
    simp only [Complex.normSq_mul, hp (by rw [hg]; exact Complex.ofReal_im _), one_mul]
    rw [← order_intensity hom.ne' he hs (by rw [h2, Real.sq_sqrt h1.le])]
    rw [coefA_real, order_form]
  · rw [hX, hY, hg, Complex.ofReal_re, Complex.ofReal_re, Real.sqrt_eq_zero'.mpr h1.le, zero_div, zero_mul, coefA_imag]
    dsimp only
    generalize (c.omega ^ 2 - Y ^ 2 / e) * (1 / (c.omega * s)) = u1
    generalize X * Y / e * (1 / (c.omega * s)) = u2
    generalize (c.omega ^ 2 - X ^ 2 / e) * (1 / (c.omega * s)) = u3
    simp
    ring

/-- Fields of one order of a uniform layer. -/
theorem uniform_field {e : ℂ} (hom : 0 < c.omega) {L : LayerSpec} {a : LayerAttr c.nh} (hu : L.isUniform = true)
    (he : L.epsilon.value = e) {M : Modes (Idx c.nh)} {g} (h : UniformFlux c e M g) {ai bi : Idx c.nh → ℂ} {z : ℝ} {F}
    (hF : FieldSpec c L a M ai bi z F) (i : Fin c.nh) :
    ∃ p q : ℂ, p = Complex.exp (Complex.I * g i * z) ∧ q = Complex.exp (Complex.I * g i * ((M.z - z : ℝ) : ℂ)) ∧
    F.ex i = p * ((coefA c.omega e (c.kx i) (c.ky i) (g i)).2.1 * ai (.inl i) +
        (coefA c.omega e (c.kx i) (c.ky i) (g i)).2.2 * ai (.inr i)) -
      q * ((coefA c.omega e (c.kx i) (c.ky i) (g i)).2.1 * bi (.inl i) +
        (coefA c.omega e (c.kx i) (c.ky i) (g i)).2.2 * bi (.inr i)) ∧
    F.ey i = p * -((coefA c.omega e (c.kx i) (c.ky i) (g i)).1 * ai (.inl i) +
        (coefA c.omega e (c.kx i) (c.ky i) (g i)).2.1 * ai (.inr i)) -
      q * -((coefA c.omega e (c.kx i) (c.ky i) (g i)).1 * bi (.inl i) +
        (coefA c.omega e (c.kx i) (c.ky i) (g i)).2.1 * bi (.inr i)) ∧
    F.ez i = p * ((c.ky i * ai (.inl i) - c.kx i * ai (.inr i)) / c.omega / e) +
      q * ((c.ky i * bi (.inl i) - c.kx i * bi (.inr i)) / c.omega / e) := by
  refine ⟨_, _, rfl, rfl, ?_⟩
  have hw : (c.omega : ℂ) ≠ 0 := by exact_mod_cast hom.ne'
  have tE : tanE M ai bi z = (c.omega : ℂ) • ((M.Q * M.phi * diagonal fun k => 1 / ((c.omega : ℂ) * M.q k)) *ᵥ
      fun j => ai j * Complex.exp (Complex.I * M.q j * z) - bi j * Complex.exp (Complex.I * M.q j * ((M.z - z : ℝ) : ℂ))) := by
    rw [← smul_mulVec, ← amat_omega hom.ne']
    funext k
    simp only [tanE, mulVec, dotProduct, amat_apply]
  have tH : ∀ k, tanH M ai bi z k = ai k * Complex.exp (Complex.I * M.q k * z) +
      bi k * Complex.exp (Complex.I * M.q k * ((M.z - z : ℝ) : ℂ)) := by
    intro k
    simp only [tanH, h.phi]
    rw [Finset.sum_eq_single k]
    · rw [one_apply_eq, one_mul]
    · intro j _ hj; rw [one_apply_ne hj.symm, zero_mul]
    · intro h0; exact absurd (Finset.mem_univ _) h0
  obtain ⟨A1, A2⟩ := uniform_mulVec h.phi h.q h.Q (fun j => ai j * Complex.exp (Complex.I * M.q j * z) -
    bi j * Complex.exp (Complex.I * M.q j * ((M.z - z : ℝ) : ℂ))) i
  have hez := hF.ez
  unfold normalE at hez
  rw [if_pos hu] at hez
  split at hez
  · cases hez
  have hez' := congrFun (Except.ok.inj hez) i
  dsimp only at hez'
  rw [hF.hx, hF.hy, tH, tH, he] at hez'
  rw [hF.ex, hF.ey, tE, Pi.smul_apply, Pi.smul_apply, A1, A2, smul_eq_mul, smul_eq_mul, mul_div_cancel_left₀ _ hw,
    mul_div_cancel_left₀ _ hw, ← hez']
  simp only [h.q, Sum.elim_inl, Sum.elim_inr]
  generalize Complex.exp (Complex.I * g i * z) = p
  generalize Complex.exp (Complex.I * g i * ((M.z - z : ℝ) : ℂ)) = q
  refine ⟨by ring, by ring, by ring⟩

theorem phase_normSq {g : ℂ} (h : g.im = 0) (z : ℝ) : Complex.normSq (Complex.exp (Complex.I * g * z)) = 1 := by
  rw [Complex.normSq_eq_norm_sq, Complex.norm_exp]
  simp [h]

/-- The incident wave in its order. -/
theorem incident_intensity_field {exc : PlaneWave} {n : ℝ} (g : GoodSup c exc n) {wl ang} (hp : planeWave wl ang = .ok exc)
    (hcos : 0 < Real.cos exc.theta) (hwl : 0 < wl) {i : Fin c.nh} (hi : (i : ℕ) = c.indexZerothOrder) {M : Modes (Idx c.nh)}
    {gz} (h : UniformFlux c ((n ^ 2 : ℝ) : ℂ) M gz) :
    gz i = ((n * c.omega * Real.cos exc.theta : ℝ) : ℂ) ∧
    (coefA c.omega ((n ^ 2 : ℝ) : ℂ) (c.kx i) (c.ky i) (gz i)).2.1 * c.a0 (.inl i) +
        (coefA c.omega ((n ^ 2 : ℝ) : ℂ) (c.kx i) (c.ky i) (gz i)).2.2 * c.a0 (.inr i) = ((exc.amplitude 0 / n : ℝ) : ℂ) ∧
    -((coefA c.omega ((n ^ 2 : ℝ) : ℂ) (c.kx i) (c.ky i) (gz i)).1 * c.a0 (.inl i) +
        (coefA c.omega ((n ^ 2 : ℝ) : ℂ) (c.kx i) (c.ky i) (gz i)).2.1 * c.a0 (.inr i)) =
          ((exc.amplitude 1 / n : ℝ) : ℂ) ∧
    (c.ky i * c.a0 (.inl i) - c.kx i * c.a0 (.inr i)) / c.omega / ((n ^ 2 : ℝ) : ℂ) = ((exc.amplitude 2 / n : ℝ) : ℂ) := by
  obtain ⟨hl, hwe, -, -, -, hk, hkv, hamp, ha0⟩ := planeWave_ok hp
  have hom : c.omega = exc.wavenumber := by rw [g.omk, hk, hwe]
  have hn := g.pos
  have hw := g.omega
  have t := Real.sin_sq_add_cos_sq exc.theta
  have f := Real.sin_sq_add_cos_sq exc.phi
  obtain ⟨h1, h2, h3, h4⟩ := g.on i hi
  have hcut : gz i = ((n * c.omega * Real.cos exc.theta : ℝ) : ℂ) := by
    rw [h.g_eq i, h3, h4]
    have : ((n ^ 2 : ℝ) : ℂ) * (c.omega : ℂ) ^ 2 - ((exc.wavevector 0 * n : ℝ) : ℂ) ^ 2 -
        ((exc.wavevector 1 * n : ℝ) : ℂ) ^ 2 = (((n * c.omega * Real.cos exc.theta) ^ 2 : ℝ) : ℂ) := by
      rw [hkv, hom]
      norm_cast
      simp
      linear_combination (-n ^ 2 * exc.wavenumber ^ 2 * Real.sin exc.theta ^ 2) * f - n ^ 2 * exc.wavenumber ^ 2 * t
    rw [this, csqrt_ofReal (by positivity), Real.sqrt_sq (by positivity)]
  refine ⟨hcut, ?_⟩
  obtain ⟨e1, e2⟩ := (C02_modal_amplitude_is_magnetic_amplitude wl hwl ang).2 exc hp hcos
  obtain ⟨-, q0⟩ := ha0
  have n1 := congrFun q0 0
  have n2 := congrFun q0 1
  have hsq : Real.sqrt (exc.wavenumber ^ 2 - exc.wavevector 0 ^ 2 - exc.wavevector 1 ^ 2) =
      exc.wavenumber * Real.cos exc.theta := by
    rw [hom] at hw
    rw [show exc.wavenumber ^ 2 - exc.wavevector 0 ^ 2 - exc.wavevector 1 ^ 2 =
      (exc.wavenumber * Real.cos exc.theta) ^ 2 from ?_, Real.sqrt_sq (by positivity)]
    rw [hkv]
    simp
    linear_combination (-exc.wavenumber ^ 2 * Real.sin exc.theta ^ 2) * f - exc.wavenumber ^ 2 * t
  rw [hsq] at n1 n2
  have c0 := congrFun e1 0
  have c1 := congrFun e1 1
  have v2 : exc.wavevector 2 = exc.wavenumber * Real.cos exc.theta := by rw [hkv]; simp
  have vv : exc.wavevector 0 ^ 2 + exc.wavevector 1 ^ 2 + exc.wavevector 2 ^ 2 = exc.wavenumber ^ 2 := by
    rw [hkv]
    simp
    linear_combination (exc.wavenumber ^ 2 * Real.sin exc.theta ^ 2) * f + exc.wavenumber ^ 2 * t
  have vA : exc.wavevector 0 * exc.amplitude 0 + exc.wavevector 1 * exc.amplitude 1 + exc.wavevector 2 * exc.amplitude 2 = 0 := by
    rw [hkv, hamp]
    simp
    linear_combination (exc.wavenumber * Real.sin exc.theta * Real.cos exc.psi * Real.cos exc.theta) * f
  rw [hcut, h1, h2, h3, h4, coefA_real]
  rw [hom] at hw ⊢
  simp only [crossProduct, LinearMap.mk₂_apply] at c0 c1
  rw [v2] at vv vA c0 c1
  generalize exc.wavevector 0 = X at *
  generalize exc.wavevector 1 = Y at *
  generalize exc.wavenumber = w at *
  generalize Real.cos exc.theta = C at *
  generalize exc.amplitude = A at *
  generalize exc.a0 = x at *
  simp [mulVec, dotProduct, Fin.sum_univ_two] at n1 n2 c0 c1
  have hw' := hw.ne'
  have hn' := hn.ne'
  have hC := hcos.ne'
  dsimp only
  refine ⟨?_, ?_, ?_⟩
  · norm_cast
    field_simp
    linear_combination n2
  · norm_cast
    field_simp
    linear_combination -n1
  · norm_cast
    rw [c0, c1]
    field_simp
    linear_combination A 2 * vv - w * C * vA

end Nannos
