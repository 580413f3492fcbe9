import Verif.Proofs.EnergyStack
import Verif.Proofs.Total

/-! Complex amplitudes of the diffraction orders (C34). -/

namespace Nannos

open Matrix Spec

variable {E : Ext} {c : Static}
variable {mats : ℕ → LayerSpec} {A0 A1 : ℕ → LayerAttr c.nh} {res : Except PyErr Unit}

/-- Electric field of order `i` of the wave of amplitudes `x` in a uniform medium: tangential components. -/
noncomputable def tanAmp (c : Static) (M : Modes (Idx c.nh)) (x : Idx c.nh → ℂ) : Idx c.nh → ℂ :=
  (M.Q * M.phi * diagonal fun k => 1 / ((c.omega : ℂ) * M.q k)) *ᵥ x

/-- Squared norm of the electric field of order `i` of a wave of amplitudes `x`. -/
noncomputable def normE (c : Static) (M : Modes (Idx c.nh)) (e : ℂ) (x : Idx c.nh → ℂ) (i : Fin c.nh) : ℝ :=
  Complex.normSq (tanAmp c M x (.inr i)) + Complex.normSq (tanAmp c M x (.inl i)) +
    Complex.normSq ((c.ky i * x (.inl i) - c.kx i * x (.inr i)) / (c.omega : ℂ) / e)

theorem normE_real {w e X Y s : ℝ} (hw : w ≠ 0) (he : e ≠ 0) (hs : s ≠ 0) (h : s ^ 2 = e * w ^ 2 - X ^ 2 - Y ^ 2)
    (a b : ℂ) :
    s / w * (Complex.normSq ((((X * Y / e * (1 / (w * s)) : ℝ) : ℂ)) * a + (((w ^ 2 - X ^ 2 / e) * (1 / (w * s)) : ℝ) : ℂ) * b) +
      Complex.normSq ((((w ^ 2 - Y ^ 2 / e) * (1 / (w * s)) : ℝ) : ℂ) * a + ((X * Y / e * (1 / (w * s)) : ℝ) : ℂ) * b) +
      Complex.normSq (((Y : ℂ) * a - (X : ℂ) * b) / (w : ℂ) / (e : ℂ))) =
    1 / (w * s) * (w ^ 2 * (Complex.normSq a + Complex.normSq b) - Complex.normSq (Y * a - X * b) / e) := by
  obtain ⟨a1, a2⟩ := a
  obtain ⟨b1, b2⟩ := b
  have e1 : ((Y : ℂ) * ⟨a1, a2⟩ - (X : ℂ) * ⟨b1, b2⟩) / (w : ℂ) / (e : ℂ) =
      (((Y * a1 - X * b1) / w / e : ℝ) : ℂ) + (((Y * a2 - X * b2) / w / e : ℝ) : ℂ) * Complex.I := by
    apply Complex.ext <;> simp [Complex.div_ofReal_re, Complex.div_ofReal_im]
  rw [e1]
  generalize hα : (w ^ 2 - Y ^ 2 / e) * (1 / (w * s)) = α
  generalize hβ : X * Y / e * (1 / (w * s)) = β
  generalize hδ : (w ^ 2 - X ^ 2 / e) * (1 / (w * s)) = δ
  have n1 : Complex.normSq ((((Y * a1 - X * b1) / w / e : ℝ) : ℂ) + (((Y * a2 - X * b2) / w / e : ℝ) : ℂ) * Complex.I) =
      ((Y * a1 - X * b1) ^ 2 + (Y * a2 - X * b2) ^ 2) / (w * e) ^ 2 := by
    rw [Complex.normSq_add_mul_I]
    field_simp
  rw [n1]
  simp only [Complex.normSq_apply, Complex.add_re, Complex.add_im, Complex.re_ofReal_mul, Complex.im_ofReal_mul,
    Complex.sub_re, Complex.sub_im]
  subst hα hβ hδ
  have h2 : s ^ 2 ≠ 0 := pow_ne_zero _ hs
  field_simp
  have h4 : s ^ 4 = (e * w ^ 2 - X ^ 2 - Y ^ 2) ^ 2 := by rw [← h]; ring
  linear_combination (((Y * a1 - X * b1) ^ 2 + (Y * a2 - X * b2) ^ 2)) * h

theorem normE_flux {e : ℝ} (he : e ≠ 0) (hom : 0 < c.omega) {M : Modes (Idx c.nh)} {g}
    (h : UniformFlux c (e : ℂ) M g) (hkx : ∀ i, star (c.kx i) = c.kx i) (hky : ∀ i, star (c.ky i) = c.ky i)
    (hq : ∀ k, (c.omega : ℂ) * M.q k ≠ 0) (x : Idx c.nh → ℂ) (i : Fin c.nh) :
    (g i).re / c.omega * normE c M e x i = orderFlux c M x i := by
  obtain ⟨X, Y, s, hX, hY, hs, hg⟩ := h.cases hkx hky hq i
  obtain ⟨Ab1, Ab2⟩ := uniform_mulVec h.phi h.q h.Q x i
  unfold normE orderFlux tanAmp
  rw [Ab1, Ab2, h.phi, one_mulVec, hX, hY]
  rcases hg with ⟨hpos, hs2, hg⟩ | ⟨-, hg⟩
  · rw [hg, coefA_real, order_form, Complex.ofReal_re]
    refine normE_real hom.ne' he hs.ne' ?_ _ _
    rw [hs2, Real.sq_sqrt hpos.le]
  · rw [hg, coefA_imag]
    generalize (c.omega ^ 2 - Y ^ 2 / e) * (1 / (c.omega * s)) = α
    generalize X * Y / e * (1 / (c.omega * s)) = β
    generalize (c.omega ^ 2 - X ^ 2 / e) * (1 / (c.omega * s)) = δ
    generalize x (.inl i) = a
    generalize x (.inr i) = b
    simp
    ring

/-- The incident wave carries the amplitude of the excitation divided by the index. -/
theorem incident_field {exc : PlaneWave} {n : ℝ} (g : GoodSup c exc n) {wl ang}
    (hp : planeWave wl ang = .ok exc) (hcos : 0 < Real.cos exc.theta) (hwl : 0 < wl) {M : Modes (Idx c.nh)}
    {gz} (h : UniformFlux c ((n ^ 2 : ℝ) : ℂ) M gz) (i : Fin c.nh) :
    ((i : ℕ) = c.indexZerothOrder → gz i = ((n * c.omega * Real.cos exc.theta : ℝ) : ℂ)) ∧
    tanAmp c M c.a0 (.inr i) * n = (if (i : ℕ) = c.indexZerothOrder then 1 else 0) * (exc.amplitude 0 : ℂ) ∧
    -tanAmp c M c.a0 (.inl i) * n = (if (i : ℕ) = c.indexZerothOrder then 1 else 0) * (exc.amplitude 1 : ℂ) ∧
    (c.ky i * c.a0 (.inl i) - c.kx i * c.a0 (.inr i)) / (c.omega : ℂ) / ((n ^ 2 : ℝ) : ℂ) * n =
      (if (i : ℕ) = c.indexZerothOrder then 1 else 0) * (exc.amplitude 2 : ℂ) := by
  obtain ⟨hl, hwe, -, -, -, hk, hkv, hamp, ha0⟩ := planeWave_ok hp
  have hom : c.omega = exc.wavenumber := by rw [g.omk, hk, hwe]
  have hn := g.pos
  have hw := g.omega
  have t := Real.sin_sq_add_cos_sq exc.theta
  have f := Real.sin_sq_add_cos_sq exc.phi
  have hcut : (i : ℕ) = c.indexZerothOrder → gz i = ((n * c.omega * Real.cos exc.theta : ℝ) : ℂ) := by
    intro hi
    obtain ⟨-, -, h3, h4⟩ := g.on i hi
    rw [h.g_eq i, h3, h4]
    have : ((n ^ 2 : ℝ) : ℂ) * (c.omega : ℂ) ^ 2 - ((exc.wavevector 0 * n : ℝ) : ℂ) ^ 2 -
        ((exc.wavevector 1 * n : ℝ) : ℂ) ^ 2 = (((n * c.omega * Real.cos exc.theta) ^ 2 : ℝ) : ℂ) := by
      rw [hkv, hom]
      norm_cast
      simp
      linear_combination (-n ^ 2 * exc.wavenumber ^ 2 * Real.sin exc.theta ^ 2) * f - n ^ 2 * exc.wavenumber ^ 2 * t
    rw [this, csqrt_ofReal (by positivity), Real.sqrt_sq (by positivity)]
  refine ⟨hcut, ?_⟩
  obtain ⟨A1, A2⟩ := uniform_mulVec h.phi h.q h.Q c.a0 i
  unfold tanAmp
  rw [A1, A2]
  by_cases hi : (i : ℕ) = c.indexZerothOrder
  · obtain ⟨h1, h2, h3, h4⟩ := g.on i hi
    rw [h1, h2, h3, h4, hcut hi, coefA_real, if_pos hi]
    obtain ⟨e1, e2⟩ := (C02_modal_amplitude_is_magnetic_amplitude wl hwl ang).2 exc hp hcos
    have htr := (C01_plane_wave_is_transverse wl _ exc hp).2.2
    obtain ⟨-, q0⟩ := ha0
    have n1 := congrFun q0 0
    have n2 := congrFun q0 1
    have hsq : Real.sqrt (exc.wavenumber ^ 2 - exc.wavevector 0 ^ 2 - exc.wavevector 1 ^ 2) =
        exc.wavenumber * Real.cos exc.theta := by
      rw [hom] at hw
      rw [show exc.wavenumber ^ 2 - exc.wavevector 0 ^ 2 - exc.wavevector 1 ^ 2 =
        (exc.wavenumber * Real.cos exc.theta) ^ 2 from ?_, Real.sqrt_sq (by positivity)]
      rw [hkv]
      simp
      linear_combination (-exc.wavenumber ^ 2 * Real.sin exc.theta ^ 2) * f - exc.wavenumber ^ 2 * t
    rw [hsq] at n1 n2
    have hnorm : exc.wavevector 0 ^ 2 + exc.wavevector 1 ^ 2 + exc.wavevector 2 ^ 2 = exc.wavenumber ^ 2 := by
      rw [hkv]
      simp
      linear_combination (exc.wavenumber ^ 2 * Real.sin exc.theta ^ 2) * f + exc.wavenumber ^ 2 * t
    have x0 := congrFun e1 0
    have x1 := congrFun e1 1
    rw [hom] at hw ⊢
    simp only [cross_apply] at x0 x1
    simp only [dotProduct, Fin.sum_univ_three] at htr
    generalize exc.wavevector 0 = X at *
    generalize exc.wavevector 1 = Y at *
    generalize exc.wavevector 2 = Z at *
    generalize exc.wavenumber = w at *
    generalize Real.cos exc.theta = C at *
    generalize exc.amplitude = A at *
    generalize exc.a0 = x at *
    simp [mulVec, dotProduct, Fin.sum_univ_two] at n1 n2 x0 x1
    refine ⟨?_, ?_, ?_⟩
    · have : (X * n * (Y * n) / n ^ 2 * (1 / (w * (n * w * C))) * x 0 +
          (w ^ 2 - (X * n) ^ 2 / n ^ 2) * (1 / (w * (n * w * C))) * x 1) * n = A 0 := by
        field_simp
        field_simp at n2
        linear_combination n2
      rw [one_mul, ← this]
      push_cast
      ring
    · have : -((w ^ 2 - (Y * n) ^ 2 / n ^ 2) * (1 / (w * (n * w * C))) * x 0 +
          X * n * (Y * n) / n ^ 2 * (1 / (w * (n * w * C))) * x 1) * n = A 1 := by
        field_simp
        field_simp at n1
        linear_combination -n1
      rw [one_mul, ← this]
      push_cast
      ring
    · have : (Y * n * x 0 - X * n * x 1) / w / n ^ 2 * n = A 2 := by
        rw [x0, x1]
        field_simp
        linear_combination A 2 * hnorm - Z * htr
      rw [one_mul, ← this]
      push_cast
      ring
  · obtain ⟨z1, z2⟩ := g.a0_off i hi
    rw [z1, z2, if_neg hi]
    simp

/-! ### The fields at the top of the first and of the last layer -/

theorem tanE_top_amp (hom : c.omega ≠ 0) (M : Modes (Idx c.nh)) (a b : Idx c.nh → ℂ) (k : Idx c.nh) :
    tanE M a b 0 k / c.omega = tanAmp c M a k - tanAmp c M (M.f *ᵥ b) k := by
  have h0 : (c.omega : ℂ) ≠ 0 := by exact_mod_cast hom
  rw [tanE_top, amat_omega hom, smul_mulVec, mulVec_sub]
  unfold tanAmp
  simp only [Pi.smul_apply, smul_eq_mul, Pi.sub_apply]
  field_simp

theorem normE_phase {e : ℂ} {M : Modes (Idx c.nh)} {g} (hphi : M.phi = 1) (hq : M.q = Sum.elim g g)
    (hQ : M.Q = (c.omega : ℂ) ^ 2 • 1 - kEps c.kx c.ky ((1 / e) • 1)) (x : Idx c.nh → ℂ) (i : Fin c.nh)
    (hi : (g i).im = 0) : normE c M e (M.f *ᵥ x) i = normE c M e x i := by
  obtain ⟨A1, A2⟩ := uniform_mulVec hphi hq hQ (M.f *ᵥ x) i
  obtain ⟨B1, B2⟩ := uniform_mulVec hphi hq hQ x i
  set p := Complex.exp (Complex.I * g i * M.z) with hp
  have hn : Complex.normSq p = 1 := by
    rw [Complex.normSq_eq_norm_sq, hp, Complex.norm_exp]
    simp [hi]
  have f1 : (M.f *ᵥ x) (.inl i) = p * x (.inl i) := by
    unfold Modes.f
    rw [mulVec_diagonal]
    simp only [phasor, hq, Sum.elim_inl]
    rfl
  have f2 : (M.f *ᵥ x) (.inr i) = p * x (.inr i) := by
    unfold Modes.f
    rw [mulVec_diagonal]
    simp only [phasor, hq, Sum.elim_inr]
    rfl
  unfold normE tanAmp
  rw [A1, A2, B1, B2, f1, f2]
  have key : ∀ u v : ℂ, u * (p * x (.inl i)) + v * (p * x (.inr i)) = p * (u * x (.inl i) + v * x (.inr i)) := by
    intros; ring
  rw [key, key, show (c.ky i * (p * x (.inl i)) - c.kx i * (p * x (.inr i))) / (c.omega : ℂ) / e =
    p * ((c.ky i * x (.inl i) - c.kx i * x (.inr i)) / (c.omega : ℂ) / e) by ring]
  rw [map_mul, map_mul, map_mul, hn]
  ring

/-! ### Running `_get_complex_orders` -/

theorem fourier_value (hs : SolveSpec E c mats A0 A1 res) {id : LayerId} {r i} (hg : getLayer c id = .ok (r, i))
    (hres : res = .ok ()) (h : AmpOk c mats A1 res i)
    (hf : ∀ a b z, ∃ F, fieldAt c (mats r) (A1 r) a b z = .ok F) {P : (Idx c.nh → ℂ) × (Idx c.nh → ℂ)}
    (hP : ∀ ab, AmpV c mats A1 res i ab → ab = P) (z : ℝ) :
    Succeeds (Inv E c mats A0 A1 res) (getFieldFourier E c id [z]) (fun Fs d => Inv E c mats A0 A1 res d ∧
      ∃ F, Fs = [F] ∧ fieldAt c (mats r) (A1 r) P.1 P.2 z = .ok F) := by
  intro d hd
  obtain ⟨Fs, d', h1, h2⟩ := succeeds_getFieldFourier hs hg hres h hf [z] d hd
  obtain ⟨-, -, r', i', ab, y3, y4, y5⟩ := yields_getFieldFourier hs id [z] d Fs d' hd h1
  rw [hg] at y3
  obtain ⟨rfl, rfl⟩ := Prod.mk.inj (Except.ok.inj y3)
  rw [hP ab y4] at y5
  obtain ⟨F, Fs', f1, f2, f3⟩ := mapM_ok_cons.mp y5
  obtain rfl : [] = Fs' := by simpa using f2
  exact ⟨Fs, d', h1, h2.1, F, f3, f1⟩

theorem succeeds_complex (hs : SolveSpec E c mats A0 A1 res) {S} (hS : valS c mats A1 res none = .ok S) {r0 rN : ℕ}
    (hr0 : pyGet c.stack 0 = .ok r0) (hrN : pyGet c.stack (-1) = .ok rN) (hlen : 1 < c.stack.length)
    (hrN' : pyGet c.stack ((c.stack.length : ℤ) - 1) = .ok rN)
    (hun : (mats r0).isUniform = true ∧ (mats r0).isAnisotropic = false ∧ (mats rN).isUniform = true ∧
      (mats rN).isAnisotropic = false)
    {nin nout : ℂ} (hnin : nin = csqrt ((mats r0).epsilon.value * (mats r0).mu))
    (hnout : nout = csqrt ((mats rN).epsilon.value * (mats rN).mu)) {g0 : ℂ}
    (hg0 : g0 = csqrt ((c.omega : ℂ) ^ 2 * nin ^ 2 - c.k0para.1 ^ 2 - c.k0para.2 ^ 2)) (hg0' : g0 ≠ 0)
    (ht : ∀ i, 0 ≤ (nin ^ 2 * (csqrt ((c.omega : ℂ) ^ 2 * nout ^ 2 - c.kx i ^ 2 - c.ky i ^ 2) / g0)).re)
    (hr : ∀ i, 0 ≤ (nin ^ 2 * (csqrt ((c.omega : ℂ) ^ 2 * nin ^ 2 - c.kx i ^ 2 - c.ky i ^ 2) / g0)).re)
    (n0 : getLayer c (.name "Superstrate") = .ok (r0, 0))
    (nN : getLayer c (.name "Substrate") = .ok (rN, (c.stack.length : ℤ) - 1))
    (f0 : ∀ a b z, ∃ F, fieldAt c (mats r0) (A1 r0) a b z = .ok F)
    (fN : ∀ a b z, ∃ F, fieldAt c (mats rN) (A1 rN) a b z = .ok F) :
    Succeeds (Inv E c mats A0 A1 res) (complexEfficiencies E c) (fun A _ => ∃ ft fr,
      fieldAt c (mats rN) (A1 rN) (S.s11 *ᵥ c.a0) 0 0 = .ok ft ∧
      fieldAt c (mats r0) (A1 r0) c.a0 (S.s21 *ᵥ c.a0) 0 = .ok fr ∧
      A.t = (fun k i => (![ft.ex, ft.ey, ft.ez] k) i * (Real.sqrt (nin ^ 2 *
        (csqrt ((c.omega : ℂ) ^ 2 * nout ^ 2 - c.kx i ^ 2 - c.ky i ^ 2) / g0)).re : ℂ)) ∧
      A.r = (fun k i => (![fr.ex, fr.ey, fr.ez] k) i * (Real.sqrt (nin ^ 2 *
        (csqrt ((c.omega : ℂ) ^ 2 * nin ^ 2 - c.kx i ^ 2 - c.ky i ^ 2) / g0)).re : ℂ) -
        (if (i : ℕ) = c.indexZerothOrder then 1 else 0) * (c.excitation.amplitude k : ℂ))) := by
  have hres := valS_ok hS
  unfold complexEfficiencies
  refine Succeeds.bind (Q := fun _ d => Inv E c mats A0 A1 res d) ?_ fun _ => ?_
  · unfold ensureS
    refine Succeeds.get_bind fun d hd => ?_
    intro d0 h0
    obtain rfl : d0 = d := h0
    rcases d0.S with _ | T
    · obtain ⟨T, d', h1, h2, -⟩ := succeeds_getS hs hS d0 hd
      dsimp only
      rw [PyM.bind_ok h1]
      exact ⟨_, _, rfl, h2.1⟩
    · exact ⟨_, _, rfl, hd⟩
  unfold complexOrders
  refine Succeeds.get_bind fun d hd => ?_
  rw [hd.mats_eq]
  rintro _ rfl
  rename_i d
  have hl : ∀ {α β : Type} (a : α) (f : α → PyM (Dyn c.nh) β),
      ((PyM.lift (Except.ok a) : PyM (Dyn c.nh) α) >>= f) = f a := fun a f => rfl
  have er : ∀ z : Fin c.nh → ℂ, (∀ i, 0 ≤ (z i).re) → realSqrts z = .ok fun i => Real.sqrt (z i).re := by
    intro z hz
    unfold realSqrts
    rw [if_neg]
    push Not
    exact hz
  rw [hr0, hl, hrN, hl, raiseIf_ok (u := ()).mpr (by simpa using hun), hl]
  dsimp only
  rw [← hnin, ← hnout, ← hg0, raiseIf_ok (u := ()).mpr hg0', hl, er _ ht, hl, er _ hr, hl]
  have a0 : AmpOk c mats A1 res 0 := ⟨⟨r0, hr0⟩, fun _ => ⟨S, hS⟩, fun h => absurd rfl h⟩
  have aN : AmpOk c mats A1 res ((c.stack.length : ℤ) - 1) :=
    ⟨⟨rN, hrN'⟩, fun _ => ⟨S, hS⟩, fun _ h => absurd rfl h⟩
  obtain ⟨Fs, d1, h1, h2, ft, rfl, h3⟩ := fourier_value hs nN hres aN fN (P := (S.s11 *ᵥ c.a0, 0)) (by
    rintro ab ⟨-, ⟨h, -⟩ | ⟨-, -, S', hS', rfl⟩ | ⟨-, h, -⟩⟩
    · omega
    · rw [hS] at hS'; cases hS'; rfl
    · exact absurd rfl h) 0 d hd
  rw [PyM.bind_ok h1]
  obtain ⟨Gs, d2, h4, h5, fr, rfl, h6⟩ := fourier_value hs n0 hres a0 f0 (P := (c.a0, S.s21 *ᵥ c.a0)) (by
    rintro ab ⟨-, ⟨-, S', hS', rfl⟩ | ⟨h, -⟩ | ⟨h, -⟩⟩
    · rw [hS] at hS'; cases hS'; rfl
    · exact absurd rfl h
    · exact absurd rfl h) 0 d1 h2
  rw [PyM.bind_ok h4]
  exact ⟨_, d2, rfl, ft, fr, h3, h6, rfl, rfl⟩

theorem normalE_uniform {L : LayerSpec} {a : LayerAttr c.nh} (hu : L.isUniform = true)
    (he : L.epsilon.value ≠ 0) (dz : Fin c.nh → ℂ) : normalE L a dz = .ok fun i => dz i / L.epsilon.value := by
  unfold normalE
  rw [if_pos hu, if_neg he]

/-- The complex amplitudes an object returns, compared with its efficiencies. -/
theorem complex_match {lats stack exc nh form}
    (hinit : simInit E lats mats stack exc nh form = .ok c) (hw : WellPlaced mats stack)
    (hmu : ∀ r ∈ stack, (mats r).mu = 1) {wl ang} (hp : planeWave wl ang = .ok exc) (hwl : 0 < wl)
    (hcos : 0 < Real.cos exc.theta) (h00 : ((0 : ℤ), (0 : ℤ)) ∈ c.harmonics)
    {e : ℝ} (hpos : 0 < e) (hsup : ∀ r0, stack.head? = some r0 → (mats r0).epsilon.value = (e : ℂ) ∧
      (mats r0).isAnisotropic = false ∧
      (mats r0).name = "Superstrate" ∧ (mats r0).thickness ≠ none)
    {eN : ℝ} (hsub : ∀ rN, stack.getLast? = some rN → (mats rN).epsilon.value = (eN : ℂ) ∧
      (mats rN).isUniform = true ∧ (mats rN).isAnisotropic = false ∧ (mats rN).name = "Substrate" ∧
      (mats rN).thickness ≠ none)
    (hnames : ∀ k r : ℕ, stack[k]? = some r → getLayer c (.name (mats r).name) = .ok (r, (k : ℤ)))
    (hist hist' : List (Call c.nh)) (RT : (Fin c.nh → ℝ) × (Fin c.nh → ℝ))
    (h : (efficienciesByOrder E c (afterCalls E c hist (Dyn.fresh mats (unsolved c.nh)))).1 = .ok RT) :
    ∃ A, (complexEfficiencies E c (afterCalls E c hist' (Dyn.fresh mats (unsolved c.nh)))).1 = .ok A ∧
      ∀ i, ∑ k, Complex.normSq (A.r k i) = RT.1 i ∧ ∑ k, Complex.normSq (A.t k i) = RT.2 i := by
  have hi := simInit_ok hinit
  have hst : c.stack = stack := hi.stack_eq
  have hnd : c.stack.Nodup := hst ▸ hi.nodup
  obtain ⟨A1, res, hs, -⟩ := solveSpec_of_noStale (E := E) (mats := mats) hnd
    (noStale_unsolved (c := c) mats c.stack)
  have h0 : Inv E c mats (unsolved c.nh) A1 res (Dyn.fresh mats (unsolved c.nh)) := inv_fresh _ (.inl rfl)
  have h1 := h0.calls hs hist
  have h1' := h0.calls hs hist'
  generalize afterCalls E c hist (Dyn.fresh mats (unsolved c.nh)) = d at h h1
  generalize afterCalls E c hist' (Dyn.fresh mats (unsolved c.nh)) = d' at h1' ⊢
  obtain ⟨hres, SM, r0, rN, M0, MN, f0, fN, hSM, hr0, hrN, hM0, hMN, hf0, hfN, hne, rfl⟩ :=
    yields_efficiencies hs d RT (efficienciesByOrder E c d).2 h1 (Prod.ext h rfl)
  have hfix := hs.fix hnd hres
  subst hres
  have hlen := stackModes_length c mats A1
  have hpos' : 0 < c.stack.length := List.length_pos_iff.mpr (by
    rintro e; have := pyGet_mem hr0; rw [e] at this; simp at this)
  have hlt : 0 < c.stack.length - 1 := by
    rw [valS_none, valS_solved hfix] at hSM
    have : ((c.stack.length : ℤ) - 1) = (((stackModes c mats A1).length - 1 : ℕ) : ℤ) := by
      rw [hlen]; omega
    rw [this] at hSM
    have := (freshS_ok (i := 0)).mp hSM
    rw [hlen] at this
    exact this.1
  have hr0' : c.stack[0]? = some r0 := (pyGet_nat c.stack 0 r0).mp hr0
  have hrN' : c.stack[c.stack.length - 1]? = some rN := by
    unfold pyGet at hrN
    have e3 : pyIdx c.stack.length (-1) = some (c.stack.length - 1) := by
      unfold pyIdx
      rw [if_neg (by omega), if_pos (by omega)]
      congr 1
      omega
    rw [e3] at hrN
    dsimp only at hrN
    rw [List.getElem?_eq_getElem (by omega)] at hrN
    rw [List.getElem?_eq_getElem (by omega)]
    exact congrArg some (Except.ok.inj hrN)
  have hN1 : ((c.stack.length : ℤ) - 1) = ((c.stack.length - 1 : ℕ) : ℤ) := by omega
  have hhead : stack.head? = some r0 := by rw [← hst, List.head?_eq_getElem?, hr0']
  have hlast : stack.getLast? = some rN := by rw [← hst, List.getLast?_eq_getElem?, hrN']
  have hm0 : r0 ∈ stack := hst ▸ pyGet_mem hr0
  have hmN : rN ∈ stack := hst ▸ pyGet_mem hrN
  obtain ⟨he0, hani0, hname0, hth0⟩ := hsup r0 hhead
  obtain ⟨heN, huN, haniN, hnameN, hthN⟩ := hsub rN hlast
  have hu0 := (hi.sup r0 hhead).1
  have hg := good_sup hi (by rw [(planeWave_ok hp).2.1]; exact hwl) hhead (hmu r0 hm0) he0 hpos h00
  have hom := hg.omega
  have homc : (c.omega : ℂ) ≠ 0 := by exact_mod_cast hom.ne'
  have hc0 : (mats r0).iscopy = false := by
    by_contra hcon
    obtain ⟨⟨j, hj, -⟩, -⟩ := hw 0 r0 (hst ▸ hr0') (by simpa using hcon)
    omega
  have hcN : (mats rN).iscopy = false := by
    by_contra hcon
    obtain ⟨-, hu', -⟩ := hw _ rN (hst ▸ hrN') (by simpa using hcon)
    rw [huN] at hu'
    simp at hu'
  obtain ⟨hne0, g, hu⟩ := uniform_flux (hfix r0 (pyGet_mem hr0)) hc0 hu0 (hmu r0 hm0) hM0
  obtain ⟨hneN, gN, hv⟩ := uniform_flux (hfix rN (pyGet_mem hrN)) hcN huN (hmu rN hmN) hMN
  have hne0' := hne0
  have hneN' := hneN
  rw [he0] at hu hne0'
  rw [heN] at hv hneN'
  have heN0 : eN ≠ 0 := by exact_mod_cast hneN'
  have hq0 := poyntingFlux_ok hf0
  have hqN := poyntingFlux_ok hfN
  set n := Real.sqrt e with hn
  have hnp : 0 < n := hg.pos
  have hn2 : n ^ 2 = e := Real.sq_sqrt hpos.le
  have hsq : ((n ^ 2 : ℝ) : ℂ) = (e : ℂ) := by rw [hn2]
  have hu2 : UniformFlux c ((n ^ 2 : ℝ) : ℂ) M0 g := by rw [hsq]; exact hu
  obtain ⟨hev, -⟩ := incident_flux hg hp hcos hwl hu2 hq0
  have hinc := fun i => incident_field hg hp hcos hwl hu2 i
  have hR := flux_backward hu hg.kxr hg.kyr hf0 hev
  have hT := flux_forward hfN
  -- normalisations
  have hnin : (n : ℂ) = csqrt ((mats r0).epsilon.value * (mats r0).mu) := by
    rw [he0, hmu r0 hm0, mul_one, csqrt_ofReal hpos.le]
  have hnout2 : csqrt ((mats rN).epsilon.value * (mats rN).mu) ^ 2 = (eN : ℂ) := by
    rw [csqrt_sq, heN, hmu rN hmN, mul_one]
  set G : ℝ := n * c.omega * Real.cos exc.theta with hG
  have hGp : 0 < G := by positivity
  have hg0 : (G : ℂ) = csqrt ((c.omega : ℂ) ^ 2 * (n : ℂ) ^ 2 - c.k0para.1 ^ 2 - c.k0para.2 ^ 2) := by
    obtain ⟨i0, hi0⟩ := hg.idx
    rw [← (hinc i0).1 hi0, hu2.g_eq i0]
    obtain ⟨-, -, h3, h4⟩ := hg.on i0 hi0
    obtain ⟨-, -, -, -, hk0⟩ := hi.sup r0 hhead
    rw [hmu r0 hm0, mul_one, he0, csqrt_ofReal hpos.le] at hk0
    rw [h3, h4, hk0]
    congr 1
    simp [k0para]
    ring
  have hgi : ∀ i, csqrt ((c.omega : ℂ) ^ 2 * (n : ℂ) ^ 2 - c.kx i ^ 2 - c.ky i ^ 2) = g i := by
    intro i
    rw [hu2.g_eq i]
    congr 3
    push_cast
    ring
  have hgo : ∀ i, csqrt ((c.omega : ℂ) ^ 2 * csqrt ((mats rN).epsilon.value * (mats rN).mu) ^ 2 - c.kx i ^ 2 -
      c.ky i ^ 2) = gN i := by
    intro i
    rw [hnout2, hv.g_eq i]
    congr 3
    ring
  have hre : ∀ z : ℂ, ((n : ℂ) ^ 2 * (z / G)).re = n ^ 2 / G * z.re := by
    intro z
    rw [show (n : ℂ) ^ 2 * (z / G) = ((n ^ 2 / G : ℝ) : ℂ) * z by push_cast; ring, Complex.re_ofReal_mul]
  have hrg : ∀ i, 0 ≤ (g i).re := fun i => by rw [hu.g_eq i]; exact csqrt_re_nonneg _
  have hrgN : ∀ i, 0 ≤ (gN i).re := fun i => by rw [hv.g_eq i]; exact csqrt_re_nonneg _
  have hcoef : 0 < n ^ 2 / G := by positivity
  -- thicknesses
  have hth : ∀ {r M}, modesOf (mats r) (A1 r) = .ok M → M.thickness = (mats r).thickness := by
    intro r M hM
    unfold modesOf at hM
    rw [bind_eq_ok] at hM
    obtain ⟨ev, -, hM⟩ := hM
    rw [bind_eq_ok] at hM
    obtain ⟨Q, -, hM⟩ := hM
    simp only [except_pure_eq_ok, Except.ok.injEq] at hM
    rw [← hM]
  obtain ⟨t0, ht0⟩ := Option.ne_none_iff_exists'.mp hth0
  obtain ⟨tN, htN⟩ := Option.ne_none_iff_exists'.mp hthN
  obtain ⟨A, d2, a1, ft, fr, a2, a3, a4, a5⟩ := succeeds_complex hs hSM hr0 hrN (by omega)
    (by rw [hN1, pyGet_nat]; exact hrN') ⟨hu0, hani0, huN, haniN⟩ hnin rfl hg0 (by exact_mod_cast hGp.ne')
    (fun i => by rw [hgo, hre]; exact mul_nonneg hcoef.le (hrgN i))
    (fun i => by rw [hgi, hre]; exact mul_nonneg hcoef.le (hrg i))
    (by rw [← hname0]; exact hnames 0 r0 (hst ▸ hr0'))
    (by rw [← hnameN, hN1]; exact hnames _ rN (hst ▸ hrN'))
    (fieldAt_ok hM0 (by rw [hth hM0, ht0]) hq0 fun dz => ⟨_, normalE_uniform hu0 hne0 dz⟩)
    (fieldAt_ok hMN (by rw [hth hMN, htN]) hqN fun dz => ⟨_, normalE_uniform huN hneN dz⟩) d' h1'
  refine ⟨A, by rw [a1], fun i => ?_⟩
  obtain ⟨M0', -, m1, -, -, s0⟩ := fieldAt_spec a3
  obtain ⟨MN', -, m2, -, -, sN⟩ := fieldAt_spec a2
  rw [hM0] at m1
  rw [hMN] at m2
  cases m1
  cases m2
  have z0 := s0.ez
  rw [normalE_uniform hu0 hne0] at z0
  have z0 := congrFun (Except.ok.inj z0) i
  have zN := sN.ez
  rw [normalE_uniform huN hneN] at zN
  have zN := congrFun (Except.ok.inj zN) i
  dsimp only at z0 zN ⊢
  have hex := hi.exc_eq
  constructor
  · rw [hR i, a5, Fin.sum_univ_three]
    simp only [Matrix.cons_val_zero, Matrix.cons_val_one, Matrix.cons_val]
    rw [← z0, s0.ex, s0.ey, s0.hx, s0.hy, tanE_top_amp hom.ne', tanE_top_amp hom.ne', tanH_top, hu.phi, one_mulVec,
      hgi i, hre, hex, he0]
    simp only [Pi.add_apply]
    obtain ⟨i1, i2, i3, i4⟩ := hinc i
    rw [← normE_flux hpos.ne' hom hu hg.kxr hg.kyr hq0, hg.flux]
    rw [hsq] at i4
    rw [← i2, ← i3, ← i4]
    set b := M0.f *ᵥ (SM.s21 *ᵥ c.a0) with hb
    by_cases hgr : (g i).im = 0
    · have hph := normE_phase (c := c) (e := (e : ℂ)) hu.phi hu.q hu.Q (SM.s21 *ᵥ c.a0) i hgr
      rw [← hb] at hph
      rw [← hph]
      by_cases hz : (i : ℕ) = c.indexZerothOrder
      · have : n ^ 2 / G * (g i).re = n ^ 2 := by
          rw [i1 hz, Complex.ofReal_re]
          field_simp
        rw [this, Real.sqrt_sq hnp.le, i1 hz, Complex.ofReal_re]
        unfold normE
        rw [show (tanAmp c M0 c.a0 (.inr i) - tanAmp c M0 b (.inr i)) * (n : ℂ) - tanAmp c M0 c.a0 (.inr i) * n =
            -((n : ℂ) * tanAmp c M0 b (.inr i)) by ring,
          show -(tanAmp c M0 c.a0 (.inl i) - tanAmp c M0 b (.inl i)) * (n : ℂ) - -tanAmp c M0 c.a0 (.inl i) * n =
            (n : ℂ) * tanAmp c M0 b (.inl i) by ring,
          show (c.ky i * (c.a0 (.inl i) + b (.inl i)) - c.kx i * (c.a0 (.inr i) + b (.inr i))) / (c.omega : ℂ) / e * n -
              (c.ky i * c.a0 (.inl i) - c.kx i * c.a0 (.inr i)) / (c.omega : ℂ) / e * n =
            (n : ℂ) * ((c.ky i * b (.inl i) - c.kx i * b (.inr i)) / (c.omega : ℂ) / e) by ring]
        rw [Complex.normSq_neg, map_mul, map_mul, map_mul, Complex.normSq_ofReal, hG]
        field_simp
      · obtain ⟨o1, o2⟩ := hg.a0_off i hz
        rw [if_neg hz, zero_mul] at i2 i3 i4
        have j1 : tanAmp c M0 c.a0 (.inr i) = 0 := by
          rcases mul_eq_zero.mp i2 with h | h
          · exact h
          · exact absurd h (by exact_mod_cast hnp.ne')
        have j2 : tanAmp c M0 c.a0 (.inl i) = 0 := by
          rcases mul_eq_zero.mp i3 with h | h
          · exact neg_eq_zero.mp h
          · exact absurd h (by exact_mod_cast hnp.ne')
        rw [i2, i3, i4, j1, j2, o1, o2]
        have hs2 := Real.mul_self_sqrt (mul_nonneg hcoef.le (hrg i))
        simp only [zero_sub, zero_add, sub_zero, neg_neg]
        rw [map_mul, map_mul, map_mul, Complex.normSq_neg, Complex.normSq_ofReal, hs2, hG]
        unfold normE
        field_simp
    · obtain ⟨o1, o2⟩ := hev i hgr
      have hz : (i : ℕ) ≠ c.indexZerothOrder := by
        intro hz
        rw [i1 hz] at hgr
        exact hgr (Complex.ofReal_im _)
      rw [if_neg hz, zero_mul] at i2 i3 i4
      have hre0 : (g i).re = 0 := by
        obtain ⟨X, Y, s, -, -, -, hgg⟩ := hu.cases hg.kxr hg.kyr hq0 i
        rcases hgg with ⟨-, -, hgg⟩ | ⟨-, hgg⟩
        · rw [hgg] at hgr
          exact absurd (Complex.ofReal_im _) hgr
        · rw [hgg]; simp
      rw [i2, i3, i4, hre0]
      simp
  · rw [hT i, a4, Fin.sum_univ_three]
    simp only [Matrix.cons_val_zero, Matrix.cons_val_one, Matrix.cons_val]
    rw [← zN, sN.ex, sN.ey, sN.hx, sN.hy, tanE_top_amp hom.ne', tanE_top_amp hom.ne', tanH_top, hv.phi, one_mulVec,
      hgo i, hre, heN, mulVec_zero, ← normE_flux heN0 hom hv hg.kxr hg.kyr hqN, hg.flux]
    have hs2 := Real.mul_self_sqrt (mul_nonneg hcoef.le (hrgN i))
    have hz : ∀ k, tanAmp c MN 0 k = 0 := fun k => by unfold tanAmp; rw [mulVec_zero]; rfl
    rw [hz, hz, add_zero, sub_zero, sub_zero, map_mul, map_mul, map_mul, Complex.normSq_neg, Complex.normSq_ofReal,
      hs2, hG]
    unfold normE
    field_simp

end Nannos
