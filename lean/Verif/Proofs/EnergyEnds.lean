import Verif.Proofs.EnergyMedium

/-! Power flow in the first and in the last layer (C32, C33). -/

namespace Nannos

open Matrix Spec

variable {E : Ext} {c : Static}

/-! ### One diffraction order in a uniform layer -/

/-- All three numbers are real, or all three are imaginary. -/
def AllReal (α β δ : ℂ) : Prop := α.im = 0 ∧ β.im = 0 ∧ δ.im = 0
/-- See `AllReal`. -/
def AllImag (α β δ : ℂ) : Prop := α.re = 0 ∧ β.re = 0 ∧ δ.re = 0

theorem order_power {α β δ a1 a2 b1 b2 : ℂ}
    (h : AllReal α β δ ∨ (AllImag α β δ ∧ a1 = 0 ∧ a2 = 0)) :
    (star (α * (a1 - b1) + β * (a2 - b2)) * (a1 + b1) + star (β * (a1 - b1) + δ * (a2 - b2)) * (a2 + b2)).re =
      (star (α * a1 + β * a2) * a1 + star (β * a1 + δ * a2) * a2).re -
        (star (α * b1 + β * b2) * b1 + star (β * b1 + δ * b2) * b2).re := by
  rcases h with ⟨h1, h2, h3⟩ | ⟨⟨h1, h2, h3⟩, rfl, rfl⟩ <;> simp [h1, h2, h3] <;> ring

theorem order_cross {α β δ a1 a2 b1 b2 : ℂ}
    (h : AllReal α β δ ∨ (AllImag α β δ ∧ a1 = 0 ∧ a2 = 0)) :
    ((1 / 2) * (star b1 * (α * a1 + β * a2) - star (α * b1 + β * b2) * a1)).re +
      ((1 / 2) * (star b2 * (β * a1 + δ * a2) - star (β * b1 + δ * b2) * a2)).re = 0 := by
  rcases h with ⟨h1, h2, h3⟩ | ⟨⟨h1, h2, h3⟩, rfl, rfl⟩ <;> simp [h1, h2, h3] <;> ring

theorem order_phase {α β δ a1 a2 p : ℂ} (hp : Complex.normSq p = 1) :
    (star (α * (p * a1) + β * (p * a2)) * (p * a1) + star (β * (p * a1) + δ * (p * a2)) * (p * a2)).re =
      (star (α * a1 + β * a2) * a1 + star (β * a1 + δ * a2) * a2).re := by
  have : star (α * (p * a1) + β * (p * a2)) * (p * a1) + star (β * (p * a1) + δ * (p * a2)) * (p * a2) =
      (star p * p) * (star (α * a1 + β * a2) * a1 + star (β * a1 + δ * a2) * a2) := by
    simp only [star_add, star_mul']; ring
  rw [this, RCLike.star_def, ← Complex.normSq_eq_conj_mul_self, hp]
  simp

/-- The quadratic form of one order of a uniform layer. -/
theorem order_form {w e X Y : ℝ} (b1 b2 : ℂ) (s : ℝ) :
    (star ((((w ^ 2 - Y ^ 2 / e) * s : ℝ) : ℂ) * b1 + ((X * Y / e * s : ℝ) : ℂ) * b2) * b1 +
      star (((X * Y / e * s : ℝ) : ℂ) * b1 + (((w ^ 2 - X ^ 2 / e) * s : ℝ) : ℂ) * b2) * b2).re =
    s * (w ^ 2 * (Complex.normSq b1 + Complex.normSq b2) - Complex.normSq (Y * b1 - X * b2) / e) := by
  have key : ∀ α β δ : ℝ, (star ((α : ℂ) * b1 + (β : ℂ) * b2) * b1 + star ((β : ℂ) * b1 + (δ : ℂ) * b2) * b2).re =
      α * (b1.re ^ 2 + b1.im ^ 2) + 2 * β * (b1.re * b2.re + b1.im * b2.im) + δ * (b2.re ^ 2 + b2.im ^ 2) := by
    intro α β δ
    simp
    ring
  rw [key]
  simp [Complex.normSq_apply]
  ring

/-! ### The matrix of the electric field in a uniform layer -/

theorem amat_omega (hom : c.omega ≠ 0) (M : Modes (Idx c.nh)) : M.amat =
    (c.omega : ℂ) • (M.Q * M.phi * diagonal fun k => 1 / ((c.omega : ℂ) * M.q k)) := by
  have h0 : (c.omega : ℂ) ≠ 0 := by exact_mod_cast hom
  ext i j
  rw [amat_apply, Matrix.smul_apply, mul_diagonal, mul_apply, smul_eq_mul]
  field_simp

/-- Coefficients of one order: `g` is the normal wave vector. -/
noncomputable def coefA (w : ℝ) (e : ℂ) (X Y : ℂ) (g : ℂ) : ℂ × ℂ × ℂ :=
  ((w ^ 2 - Y ^ 2 / e) / (w * g), X * Y / e / (w * g), (w ^ 2 - X ^ 2 / e) / (w * g))

theorem uniform_mulVec {e : ℂ} {M : Modes (Idx c.nh)} (hphi : M.phi = 1) {g : Fin c.nh → ℂ}
    (hq : M.q = Sum.elim g g)
    (hQ : M.Q = (c.omega : ℂ) ^ 2 • 1 - kEps c.kx c.ky ((1 / e) • 1)) (x : Idx c.nh → ℂ) (i : Fin c.nh) :
    ((M.Q * M.phi * diagonal fun k => 1 / ((c.omega : ℂ) * M.q k)) *ᵥ x) (.inl i) =
      (coefA c.omega e (c.kx i) (c.ky i) (g i)).1 * x (.inl i) +
        (coefA c.omega e (c.kx i) (c.ky i) (g i)).2.1 * x (.inr i) ∧
    ((M.Q * M.phi * diagonal fun k => 1 / ((c.omega : ℂ) * M.q k)) *ᵥ x) (.inr i) =
      (coefA c.omega e (c.kx i) (c.ky i) (g i)).2.1 * x (.inl i) +
        (coefA c.omega e (c.kx i) (c.ky i) (g i)).2.2 * x (.inr i) := by
  rw [hphi, Matrix.mul_one, ← mulVec_mulVec, hQ, sub_mulVec, kEps_mulVec]
  simp only [smul_mulVec, one_mulVec, Pi.sub_apply, Pi.smul_apply, smul_eq_mul, Sum.elim_inl, Sum.elim_inr,
    mulVec_diagonal, hq, coefA]
  constructor <;> ring

theorem coefA_real {w e X Y : ℝ} {g : ℝ} : coefA w e X Y g =
    ((((w ^ 2 - Y ^ 2 / e) * (1 / (w * g)) : ℝ) : ℂ), ((X * Y / e * (1 / (w * g)) : ℝ) : ℂ),
      (((w ^ 2 - X ^ 2 / e) * (1 / (w * g)) : ℝ) : ℂ)) := by
  unfold coefA
  refine Prod.ext ?_ (Prod.ext ?_ ?_) <;> dsimp only <;> push_cast <;> ring

theorem coefA_imag {w e X Y : ℝ} {g : ℝ} : coefA w e X Y (Complex.I * g) =
    (-Complex.I * (((w ^ 2 - Y ^ 2 / e) * (1 / (w * g)) : ℝ) : ℂ),
      -Complex.I * ((X * Y / e * (1 / (w * g)) : ℝ) : ℂ),
      -Complex.I * (((w ^ 2 - X ^ 2 / e) * (1 / (w * g)) : ℝ) : ℂ)) := by
  have hI : (Complex.I)⁻¹ = -Complex.I := Complex.inv_I
  unfold coefA
  refine Prod.ext ?_ (Prod.ext ?_ ?_) <;> dsimp only <;> push_cast <;>
    simp only [div_eq_mul_inv, mul_inv, hI] <;> ring

/-- The normal wave vector of an order in a medium of real permittivity is real and positive, zero, or
imaginary. -/
theorem csqrt_real_cases (t : ℝ) : (0 < t ∧ csqrt (t : ℂ) = (Real.sqrt t : ℝ)) ∨ t = 0 ∨
    (t < 0 ∧ csqrt (t : ℂ) = Complex.I * (Real.sqrt (-t) : ℝ)) := by
  rcases lt_trichotomy t 0 with h | h | h
  · exact .inr (.inr ⟨h, csqrt_neg_ofReal h⟩)
  · exact .inr (.inl h)
  · exact .inl ⟨h, csqrt_ofReal h.le⟩

/-- The modes of a uniform layer of permittivity `e`; `g` is the normal wave vector. -/
structure UniformFlux (c : Static) (e : ℂ) (M : Modes (Idx c.nh)) (g : Fin c.nh → ℂ) : Prop where
  phi : M.phi = 1
  q : M.q = Sum.elim g g
  Q : M.Q = (c.omega : ℂ) ^ 2 • 1 - kEps c.kx c.ky ((1 / e) • 1)
  g_eq : ∀ i, g i = csqrt (e * (c.omega : ℂ) ^ 2 - c.kx i ^ 2 - c.ky i ^ 2)

theorem UniformFlux.cases {e : ℝ} {M : Modes (Idx c.nh)} {g} (h : UniformFlux c e M g)
    (hkx : ∀ i, star (c.kx i) = c.kx i) (hky : ∀ i, star (c.ky i) = c.ky i)
    (hq : ∀ k, (c.omega : ℂ) * M.q k ≠ 0) (i : Fin c.nh) :
    ∃ X Y s : ℝ, c.kx i = X ∧ c.ky i = Y ∧ 0 < s ∧
      ((0 < e * c.omega ^ 2 - X ^ 2 - Y ^ 2 ∧ s = Real.sqrt (e * c.omega ^ 2 - X ^ 2 - Y ^ 2) ∧ g i = s) ∨
       (e * c.omega ^ 2 - X ^ 2 - Y ^ 2 < 0 ∧ g i = Complex.I * s)) := by
  have hX : c.kx i = ((c.kx i).re : ℂ) := (Complex.conj_eq_iff_re.mp (hkx i)).symm
  have hY : c.ky i = ((c.ky i).re : ℂ) := (Complex.conj_eq_iff_re.mp (hky i)).symm
  have e1 : (e : ℂ) * (c.omega : ℂ) ^ 2 - c.kx i ^ 2 - c.ky i ^ 2 =
      ((e * c.omega ^ 2 - (c.kx i).re ^ 2 - (c.ky i).re ^ 2 : ℝ) : ℂ) := by
    rw [hX, hY]; push_cast; simp
  have hg := h.g_eq i
  rw [e1] at hg
  have hne : g i ≠ 0 := by
    have := hq (.inl i)
    rw [h.q] at this
    exact right_ne_zero_of_mul this
  rcases csqrt_real_cases (e * c.omega ^ 2 - (c.kx i).re ^ 2 - (c.ky i).re ^ 2) with ⟨h1, h2⟩ | h1 | ⟨h1, h2⟩
  · exact ⟨_, _, _, hX, hY, Real.sqrt_pos.mpr h1, .inl ⟨h1, rfl, by rw [hg, h2]⟩⟩
  · rw [h1] at hg
    rw [Complex.ofReal_zero, csqrt_zero] at hg
    exact absurd hg hne
  · exact ⟨_, _, _, hX, hY, Real.sqrt_pos.mpr (neg_pos.mpr h1), .inr ⟨h1, by rw [hg, h2]⟩⟩

theorem allReal_coef {w e X Y s : ℝ} :
    AllReal (coefA w e X Y s).1 (coefA w e X Y s).2.1 (coefA w e X Y s).2.2 := by
  rw [coefA_real]
  exact ⟨Complex.ofReal_im _, Complex.ofReal_im _, Complex.ofReal_im _⟩

theorem allImag_coef {w e X Y s : ℝ} : AllImag (coefA w e X Y (Complex.I * s)).1
    (coefA w e X Y (Complex.I * s)).2.1 (coefA w e X Y (Complex.I * s)).2.2 := by
  rw [coefA_imag]
  refine ⟨?_, ?_, ?_⟩ <;> dsimp only <;>
    rw [neg_mul, Complex.neg_re, Complex.I_mul_re, Complex.ofReal_im] <;> simp

/-- Forward flux of one order. -/
noncomputable def orderFlux (c : Static) (M : Modes (Idx c.nh)) (x : Idx c.nh → ℂ) (i : Fin c.nh) : ℝ :=
  (star (((M.Q * M.phi * diagonal fun k => 1 / ((c.omega : ℂ) * M.q k)) *ᵥ x) (.inl i)) * (M.phi *ᵥ x) (.inl i) +
    star (((M.Q * M.phi * diagonal fun k => 1 / ((c.omega : ℂ) * M.q k)) *ᵥ x) (.inr i)) *
      (M.phi *ᵥ x) (.inr i)).re

theorem poyntingFlux_ok {M : Modes (Idx c.nh)} {a b : Idx c.nh → ℂ} {f}
    (h : poyntingFlux c M a b = .ok f) : ∀ k, (c.omega : ℂ) * M.q k ≠ 0 := by
  unfold poyntingFlux at h
  split at h
  · simp at h
  · rename_i hne
    push Not at hne
    exact hne

/-- Flux with no backward wave. -/
theorem flux_forward {M : Modes (Idx c.nh)} {a : Idx c.nh → ℂ} {f} (h : poyntingFlux c M a 0 = .ok f)
    (i : Fin c.nh) : f.1 i = orderFlux c M a i := by
  have hq := poyntingFlux_ok h
  unfold poyntingFlux at h
  rw [if_neg (by push Not; exact hq)] at h
  simp only [Except.ok.injEq] at h
  subst h
  unfold orderFlux
  simp

theorem power_forward (hom : c.omega ≠ 0) {M : Modes (Idx c.nh)} {a : Idx c.nh → ℂ} :
    power M a 0 0 = c.omega * ∑ i, orderFlux c M a i := by
  unfold power orderFlux
  rw [tanE_top, tanH_top, mulVec_zero, sub_zero, add_zero, amat_omega hom, smul_mulVec]
  rw [show star ((c.omega : ℂ) • ((M.Q * M.phi * diagonal fun k => 1 / ((c.omega : ℂ) * M.q k)) *ᵥ a)) =
    (c.omega : ℂ) • star ((M.Q * M.phi * diagonal fun k => 1 / ((c.omega : ℂ) * M.q k)) *ᵥ a) from by
      rw [star_smul]; simp, smul_dotProduct, smul_eq_mul, Complex.re_ofReal_mul]
  congr 1
  simp only [dotProduct, Fintype.sum_sum_type, Pi.star_apply, ← Finset.sum_add_distrib, Complex.re_sum]

/-- Backward flux of each order in a uniform lossless layer, for an incoming wave in the orders which
propagate. -/
theorem flux_backward {e : ℝ} {M : Modes (Idx c.nh)} {g} (h : UniformFlux c e M g)
    (hkx : ∀ i, star (c.kx i) = c.kx i) (hky : ∀ i, star (c.ky i) = c.ky i) {a b : Idx c.nh → ℂ} {f}
    (hf : poyntingFlux c M a b = .ok f)
    (ha : ∀ i, (g i).im ≠ 0 → a (.inl i) = 0 ∧ a (.inr i) = 0) (i : Fin c.nh) :
    -f.2 i = orderFlux c M b i := by
  have hq := poyntingFlux_ok hf
  unfold poyntingFlux at hf
  rw [if_neg (by push Not; exact hq)] at hf
  simp only [Except.ok.injEq] at hf
  subst hf
  obtain ⟨Aa1, Aa2⟩ := uniform_mulVec h.phi h.q h.Q a i
  obtain ⟨Ab1, Ab2⟩ := uniform_mulVec h.phi h.q h.Q b i
  unfold orderFlux
  dsimp only
  rw [Aa1, Aa2, Ab1, Ab2, h.phi, one_mulVec, one_mulVec]
  have key : AllReal (coefA c.omega e (c.kx i) (c.ky i) (g i)).1 (coefA c.omega e (c.kx i) (c.ky i) (g i)).2.1
      (coefA c.omega e (c.kx i) (c.ky i) (g i)).2.2 ∨
      (AllImag (coefA c.omega e (c.kx i) (c.ky i) (g i)).1 (coefA c.omega e (c.kx i) (c.ky i) (g i)).2.1
      (coefA c.omega e (c.kx i) (c.ky i) (g i)).2.2 ∧ a (.inl i) = 0 ∧ a (.inr i) = 0) := by
    obtain ⟨X, Y, s, hX, hY, hs, ⟨-, -, hg⟩ | ⟨-, hg⟩⟩ := h.cases hkx hky hq i
    · left; rw [hX, hY, hg]; exact allReal_coef
    · right
      refine ⟨by rw [hX, hY, hg]; exact allImag_coef, ha i ?_⟩
      rw [hg]; simp [hs.ne']
  have := order_cross key (b1 := b (.inl i)) (b2 := b (.inr i))
  simp only [Complex.add_re, RCLike.star_def, Complex.conj_re, Complex.neg_re, Complex.ofReal_re] at this ⊢
  linarith

/-- Total power at the bottom of a uniform lossless layer. -/
theorem power_bottom {e : ℝ} (hom : c.omega ≠ 0) {M : Modes (Idx c.nh)} {g} (h : UniformFlux c e M g)
    (hkx : ∀ i, star (c.kx i) = c.kx i) (hky : ∀ i, star (c.ky i) = c.ky i) {a b : Idx c.nh → ℂ}
    (hq : ∀ k, (c.omega : ℂ) * M.q k ≠ 0)
    (ha : ∀ i, (g i).im ≠ 0 → a (.inl i) = 0 ∧ a (.inr i) = 0) :
    power M a b M.z = c.omega * (∑ i, orderFlux c M a i - ∑ i, orderFlux c M b i) := by
  unfold power
  rw [tanE_bottom, tanH_bottom, amat_omega hom, smul_mulVec]
  rw [show ∀ v : Idx c.nh → ℂ, star ((c.omega : ℂ) • v) = (c.omega : ℂ) • star v from
      fun v => by rw [star_smul]; simp, smul_dotProduct, smul_eq_mul, Complex.re_ofReal_mul]
  congr 1
  rw [← Finset.sum_sub_distrib]
  simp only [dotProduct, Fintype.sum_sum_type, Pi.star_apply, ← Finset.sum_add_distrib, Complex.re_sum]
  refine Finset.sum_congr rfl fun i _ => ?_
  obtain ⟨Aa1, Aa2⟩ := uniform_mulVec h.phi h.q h.Q a i
  obtain ⟨Ab1, Ab2⟩ := uniform_mulVec h.phi h.q h.Q b i
  obtain ⟨A1, A2⟩ := uniform_mulVec h.phi h.q h.Q (M.f *ᵥ a - b) i
  unfold orderFlux
  rw [Aa1, Aa2, Ab1, Ab2, A1, A2, h.phi, one_mulVec, one_mulVec, one_mulVec]
  have ph : ∃ p : ℂ, (M.f *ᵥ a) (.inl i) = p * a (.inl i) ∧ (M.f *ᵥ a) (.inr i) = p * a (.inr i) ∧
      ((g i).im = 0 → Complex.normSq p = 1) := by
    refine ⟨Complex.exp (Complex.I * g i * (M.z : ℂ)), ?_, ?_, ?_⟩
    · rw [f_mulVec, h.q]; rfl
    · rw [f_mulVec, h.q]; rfl
    · intro h0
      have : g i = ((g i).re : ℂ) := by
        apply Complex.ext <;> simp [h0]
      rw [this, Complex.normSq_eq_norm_sq, Complex.norm_exp]
      simp
  obtain ⟨p, p1, p2, p3⟩ := ph
  simp only [Pi.sub_apply, Pi.add_apply, p1, p2]
  obtain ⟨X, Y, s, hX, hY, hs, ⟨-, -, hg⟩ | ⟨-, hg⟩⟩ := h.cases hkx hky hq i
  · rw [order_power (.inl (by rw [hX, hY, hg]; exact allReal_coef)),
      order_phase (p3 (by rw [hg]; exact Complex.ofReal_im _))]
  · obtain ⟨h1, h2⟩ := ha i (by rw [hg]; simp [hs.ne'])
    rw [h1, h2, mul_zero, order_power (.inr ⟨by rw [hX, hY, hg]; exact allImag_coef, rfl, rfl⟩)]

theorem order_form_complex {w : ℝ} {e g : ℂ} {X Y : ℝ} (b1 b2 : ℂ) :
    (star ((coefA w e X Y g).1 * b1 + (coefA w e X Y g).2.1 * b2) * b1 +
      star ((coefA w e X Y g).2.1 * b1 + (coefA w e X Y g).2.2 * b2) * b2).re =
    ((w : ℂ) ^ 2 / (w * g)).re * (Complex.normSq b1 + Complex.normSq b2) -
      (1 / e / (w * g)).re * Complex.normSq (Y * b1 - X * b2) := by
  have e1 : (coefA w e X Y g).1 = (w : ℂ) ^ 2 / (w * g) - (Y : ℂ) ^ 2 * (1 / e / (w * g)) := by
    unfold coefA; ring
  have e2 : (coefA w e X Y g).2.1 = (X : ℂ) * Y * (1 / e / (w * g)) := by
    unfold coefA; ring
  have e3 : (coefA w e X Y g).2.2 = (w : ℂ) ^ 2 / (w * g) - (X : ℂ) ^ 2 * (1 / e / (w * g)) := by
    unfold coefA; ring
  rw [e1, e2, e3]
  generalize (w : ℂ) ^ 2 / (w * g) = u
  generalize 1 / e / (w * g) = v
  rw [← Complex.ofReal_pow, ← Complex.ofReal_pow, ← Complex.ofReal_mul]
  simp only [Complex.normSq_apply, RCLike.star_def, map_add, map_sub, map_mul, Complex.add_re, Complex.mul_re,
    Complex.sub_re, Complex.conj_re, Complex.add_im, Complex.mul_im, Complex.sub_im, Complex.conj_im,
    Complex.ofReal_re, Complex.ofReal_im]
  ring

/-- The flux of each order is not negative, whatever the (complex) permittivity. -/
theorem orderFlux_nonneg {e : ℂ} (he : e ≠ 0) (hom : 0 < c.omega) {M : Modes (Idx c.nh)} {g}
    (h : UniformFlux c e M g) (hkx : ∀ i, star (c.kx i) = c.kx i) (hky : ∀ i, star (c.ky i) = c.ky i)
    (hq : ∀ k, (c.omega : ℂ) * M.q k ≠ 0) (b : Idx c.nh → ℂ) (i : Fin c.nh) : 0 ≤ orderFlux c M b i := by
  obtain ⟨Ab1, Ab2⟩ := uniform_mulVec h.phi h.q h.Q b i
  unfold orderFlux
  rw [Ab1, Ab2, h.phi, one_mulVec]
  have hX : c.kx i = ((c.kx i).re : ℂ) := (Complex.conj_eq_iff_re.mp (hkx i)).symm
  have hY : c.ky i = ((c.ky i).re : ℂ) := (Complex.conj_eq_iff_re.mp (hky i)).symm
  have hg := h.g_eq i
  have hgre : 0 ≤ (g i).re := by rw [hg]; exact csqrt_re_nonneg _
  have hgsq : g i ^ 2 = e * (c.omega : ℂ) ^ 2 - c.kx i ^ 2 - c.ky i ^ 2 := by rw [hg]; exact csqrt_sq _
  have hne : g i ≠ 0 := by
    have := hq (.inl i)
    rw [h.q] at this
    exact right_ne_zero_of_mul this
  rw [hX, hY] at hgsq ⊢
  generalize (c.kx i).re = X at *
  generalize (c.ky i).re = Y at *
  generalize g i = z at *
  generalize c.omega = w at *
  rw [order_form_complex]
  have hw : (w : ℂ) ≠ 0 := by exact_mod_cast hom.ne'
  set B := Complex.normSq (b (.inl i)) + Complex.normSq (b (.inr i)) with hB
  set u := Complex.normSq ((Y : ℂ) * b (.inl i) - X * b (.inr i)) with hu
  have hB0 : 0 ≤ B := add_nonneg (Complex.normSq_nonneg _) (Complex.normSq_nonneg _)
  have hu0 : 0 ≤ u := Complex.normSq_nonneg _
  have huB : u ≤ (X ^ 2 + Y ^ 2) * B := by
    have h2 : (X ^ 2 + Y ^ 2) * B - u = Complex.normSq ((X : ℂ) * b (.inl i) + Y * b (.inr i)) := by
      simp [hB, hu, Complex.normSq_apply]; ring
    have := Complex.normSq_nonneg ((X : ℂ) * b (.inl i) + Y * b (.inr i))
    linarith
  have r1 : 0 ≤ ((w : ℂ) ^ 2 / (w * z)).re := by
    rw [show (w : ℂ) ^ 2 / (w * z) = (w : ℂ) * z⁻¹ by field_simp, Complex.re_ofReal_mul, Complex.inv_re]
    exact mul_nonneg hom.le (div_nonneg hgre (Complex.normSq_nonneg _))
  -- the other polarisation
  have r2 : 0 ≤ ((w : ℂ) ^ 2 / (w * z)).re - (X ^ 2 + Y ^ 2) * (1 / e / (w * z)).re := by
    have e1 : ((w : ℂ) ^ 2 / (w * z)) - ((X ^ 2 + Y ^ 2 : ℝ) : ℂ) * (1 / e / (w * z)) =
        ((1 / w : ℝ) : ℂ) * (z * e⁻¹) := by
      push_cast
      field_simp
      linear_combination -hgsq
    have e2 := congrArg Complex.re e1
    rw [Complex.sub_re, Complex.re_ofReal_mul, Complex.re_ofReal_mul] at e2
    rw [e2]
    refine mul_nonneg (by positivity) ?_
    have e3 : e = (z ^ 2 + ((X ^ 2 + Y ^ 2 : ℝ) : ℂ)) * ((1 / w ^ 2 : ℝ) : ℂ) := by
      push_cast
      field_simp
      linear_combination -hgsq
    have e4 : (z * (starRingEnd ℂ) e).re = (z.re * Complex.normSq z + (X ^ 2 + Y ^ 2) * z.re) * (1 / w ^ 2) := by
      rw [e3]
      simp only [map_mul, map_add, map_pow, Complex.conj_ofReal, ← mul_assoc, Complex.re_mul_ofReal]
      congr 1
      simp [Complex.normSq_apply, pow_two]
      ring
    rw [Complex.inv_def, ← mul_assoc, Complex.re_mul_ofReal, e4]
    have := Complex.normSq_nonneg z
    have := Complex.normSq_nonneg e
    positivity
  rcases (by positivity : 0 ≤ X ^ 2 + Y ^ 2).eq_or_lt with h0 | h0
  · have : u = 0 := le_antisymm (by rw [← h0] at huB; linarith) hu0
    rw [this]
    have := mul_nonneg r1 hB0
    linarith
  · have h3 : (X ^ 2 + Y ^ 2) * (((w : ℂ) ^ 2 / (w * z)).re * B - (1 / e / (w * z)).re * u) =
        ((X ^ 2 + Y ^ 2) * B - u) * ((w : ℂ) ^ 2 / (w * z)).re +
        u * (((w : ℂ) ^ 2 / (w * z)).re - (X ^ 2 + Y ^ 2) * (1 / e / (w * z)).re) := by ring
    have h4 : 0 ≤ (X ^ 2 + Y ^ 2) * (((w : ℂ) ^ 2 / (w * z)).re * B - (1 / e / (w * z)).re * u) := by
      rw [h3]
      exact add_nonneg (mul_nonneg (by linarith) r1) (mul_nonneg hu0 r2)
    exact nonneg_of_mul_nonneg_right h4 h0

end Nannos
