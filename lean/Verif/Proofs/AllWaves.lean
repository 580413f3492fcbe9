import Verif.Proofs.Superpose
import Verif.Proofs.Total
import Verif.Props.Excitation

/-! Waves with the same polar angle: the methods return for all of them or for none. -/

namespace Nannos

open Matrix Spec

variable {E : Ext} {c : Static} {mats : ℕ → LayerSpec}

private theorem key (k θ φ : ℝ) : k ^ 2 - (k * (Real.sin θ * Real.cos φ)) ^ 2 - (k * (Real.sin θ * Real.sin φ)) ^ 2 =
    (k * Real.cos θ) ^ 2 := by
  have t := Real.sin_sq_add_cos_sq θ
  have f := Real.sin_sq_add_cos_sq φ
  linear_combination (-k ^ 2 * Real.sin θ ^ 2) * f - k ^ 2 * t

theorem planeWave_any {l θ φ ψ : ℝ} {e : PlaneWave} (h : planeWave l (θ, φ, ψ) = .ok e) (φ' ψ' : ℝ) :
    ∃ e', planeWave l (θ, φ', ψ') = .ok e' := by
  obtain ⟨hl, -, ht, hf, -, hk, hkv, -, hdet, -⟩ := planeWave_ok h
  have hc : Real.cos (θ * (Real.pi / 180)) ≠ 0 := by
    intro h0
    apply hdet
    rw [Qdet, hkv]
    have := key e.wavenumber e.theta e.phi
    simp only [Matrix.cons_val_zero, Matrix.cons_val_one]
    rw [this, ht]
    simp [h0]
  have hk : (2 * Real.pi * (1 / l)) ≠ 0 := by positivity
  unfold planeWave
  simp only [hl, if_false, powHalf, inv2, Qdet]
  simp only [Matrix.cons_val_zero, Matrix.cons_val_one, key]
  rw [if_neg (not_lt.mpr (sq_nonneg _))]
  simp only [except_bind_ok]
  rw [if_neg (by positivity)]
  exact ⟨_, rfl⟩

/-- Normal incidence: only the sum of azimuth and polarisation angle matters. -/
theorem planeWave_normal {l φ ψ φ0 : ℝ} {e e0 : PlaneWave} (h : planeWave l (0, φ, ψ) = .ok e)
    (h0 : planeWave l (0, φ0, φ + ψ - φ0) = .ok e0) :
    e.wavelength = e0.wavelength ∧ e.theta = e0.theta ∧ e.wavevector = e0.wavevector ∧ e.a0 = e0.a0 := by
  obtain ⟨-, w, t, p, s, k, v, a, q⟩ := planeWave_ok h
  obtain ⟨-, w0, t0, p0, s0, k0, v0, a0, q0⟩ := planeWave_ok h0
  have ht : e.theta = 0 := by rw [t]; simp
  have ht0 : e0.theta = 0 := by rw [t0]; simp
  have hv : e.wavevector = e0.wavevector := by
    rw [v, v0, ht, ht0, k, k0]
    funext i
    fin_cases i <;> simp
  refine ⟨w.trans w0.symm, ht.trans ht0.symm, hv, ?_⟩
  have ha : ∀ i, ![-e.amplitude 1, e.amplitude 0] i = ![-e0.amplitude 1, e0.amplitude 0] i := by
    intro i
    have c1 : e.psi + e.phi = e0.psi + e0.phi := by
      rw [s, p, s0, p0]; ring
    have x1 := congrArg Real.cos c1
    have x2 := congrArg Real.sin c1
    rw [Real.cos_add, Real.cos_add] at x1
    rw [Real.sin_add, Real.sin_add] at x2
    rw [a, a0, ht, ht0]
    fin_cases i
    · simp
      linarith
    · simp
      linarith
  obtain ⟨hd, q⟩ := q
  have q0 := q0.2
  rw [show ![-e0.amplitude 1, e0.amplitude 0] = ![-e.amplitude 1, e.amplitude 0] from funext fun i => (ha i).symm,
    ← hv, show e0.wavenumber = e.wavenumber from k0.trans k.symm, ← q] at q0
  exact Matrix.mulVec_injective_of_isUnit ((isUnit_iff_isUnit_det _).mpr (isUnit_iff_ne_zero.mpr hd)) q0.symm

/-- If the efficiencies are returned for one wave, they are for every wave with the same wave vector. -/
theorem eff_any {lats stack exc nh form} (hinit : simInit E lats mats stack exc nh form = .ok c) {exc0 : PlaneWave}
    {hist0 : List (Call c.nh)} {RT0 : (Fin c.nh → ℝ) × (Fin c.nh → ℝ)}
    (h0 : (efficienciesByOrder E (c.withWave exc0)
        (afterCalls E (c.withWave exc0) hist0 (Dyn.fresh mats (unsolved c.nh)))).1 = .ok RT0) (exc' : PlaneWave) (hist : List (Call c.nh)) :
    ∃ RT : (Fin c.nh → ℝ) × (Fin c.nh → ℝ), (efficienciesByOrder E (c.withWave exc')
        (afterCalls E (c.withWave exc') hist (Dyn.fresh mats (unsolved c.nh)))).1 = .ok RT := by
  have hi := simInit_ok hinit
  have hst : c.stack = stack := hi.stack_eq
  have hnd : c.stack.Nodup := hst ▸ hi.nodup
  obtain ⟨A1, res, hs, -⟩ := solveSpec_of_noStale (E := E) (mats := mats) hnd
    (noStale_unsolved (c := c) mats c.stack)
  have k0 : Inv E (c.withWave exc0) mats (unsolved c.nh) A1 res (Dyn.fresh mats (unsolved c.nh)) := inv_fresh _ (.inl rfl)
  have hv := yields_efficiencies (hs.withWave exc0) _ RT0 _ (k0.calls (hs.withWave exc0) hist0) (Prod.ext h0 rfl)
  obtain ⟨rfl, S, r0, rN, M0, MN, f0, fN, v1, v2, v3, v4, v5, v6, v7, v8, -⟩ := hv
  have k1 : Inv E (c.withWave exc') mats (unsolved c.nh) A1 (.ok ()) (Dyn.fresh mats (unsolved c.nh)) := inv_fresh _ (.inl rfl)
  have hq : ∀ {M : Modes (Idx c.nh)} {a b f}, poyntingFlux (c.withWave exc0) M a b = .ok f → ∀ k, (c.omega : ℂ) * M.q k ≠ 0 := by
    intro M a b f h
    unfold poyntingFlux at h
    split at h
    · simp at h
    · rename_i hh
      push Not at hh
      exact hh
  obtain ⟨RT, d', h1, -⟩ := succeeds_efficiencies (hs.withWave exc') v1 v2 v3 v4 v5 (hq v6) (hq v7) v8 _
    (k1.calls (hs.withWave exc') hist)
  exact ⟨RT, by rw [h1]⟩

/-- The normal component is defined for one vector if and only if it is for all. -/
theorem normalE_any {nh : ℕ} {L : LayerSpec} {a : LayerAttr nh} {dz x} (h : normalE L a dz = .ok x) (dz') :
    ∃ y, normalE L a dz' = .ok y := by
  unfold normalE at h ⊢
  split at h
  · rename_i hu
    rw [if_pos hu]
    split at h
    · simp at h
    · rename_i hv
      rw [if_neg hv]
      exact ⟨_, rfl⟩
  · rename_i hu
    rw [if_neg hu]
    rw [bind_eq_ok] at h
    obtain ⟨p, hp, h⟩ := h
    rw [hp, except_bind_ok]
    exact ⟨_, (linSolveVec_ok _ _ _).mpr ⟨((linSolveVec_ok _ _ _).mp h).1, rfl⟩⟩

/-- If the fields are returned for one wave, they are for every wave with the same wave vector, at all depths. -/
theorem field_any {lats stack exc nh form} (hinit : simInit E lats mats stack exc nh form = .ok c) {exc0 : PlaneWave}
    {hist0 : List (Call c.nh)} {id : LayerId} {z : ℝ} {F : FieldF c.nh}
    (h0 : (getFieldFourier E (c.withWave exc0) id [z]
        (afterCalls E (c.withWave exc0) hist0 (Dyn.fresh mats (unsolved c.nh)))).1 = .ok [F]) (exc' : PlaneWave)
    (hist : List (Call c.nh)) (z' : ℝ) :
    ∃ F' : FieldF c.nh, (getFieldFourier E (c.withWave exc') id [z']
        (afterCalls E (c.withWave exc') hist (Dyn.fresh mats (unsolved c.nh)))).1 = .ok [F'] := by
  have hi := simInit_ok hinit
  have hst : c.stack = stack := hi.stack_eq
  have hnd : c.stack.Nodup := hst ▸ hi.nodup
  obtain ⟨A1, res, hs, -⟩ := solveSpec_of_noStale (E := E) (mats := mats) hnd
    (noStale_unsolved (c := c) mats c.stack)
  have k0 : Inv E (c.withWave exc0) mats (unsolved c.nh) A1 res (Dyn.fresh mats (unsolved c.nh)) := inv_fresh _ (.inl rfl)
  obtain ⟨y1, rfl, r, i, ab, y3, y4, y5⟩ := yields_getFieldFourier (hs.withWave exc0) id [z] _ [F] _
    (k0.calls (hs.withWave exc0) hist0) (Prod.ext h0 rfl)
  obtain ⟨F0, Fs0, f1, -⟩ := mapM_ok_cons.mp y5
  obtain ⟨M, t, m1, m2, m3, m4⟩ := fieldAt_spec f1
  have k1 : Inv E (c.withWave exc') mats (unsolved c.nh) A1 (.ok ()) (Dyn.fresh mats (unsolved c.nh)) := inv_fresh _ (.inl rfl)
  have hamp : AmpOk (c.withWave exc') mats A1 (.ok ()) i := by
    obtain ⟨a1, a2⟩ := y4
    refine ⟨a1, fun hh => ?_, fun g1 g2 g3 => ?_⟩
    · rcases a2 with ⟨-, S, hS, -⟩ | ⟨-, -, S, hS, -⟩ | ⟨b1, b2, b3, -⟩
      · exact ⟨S, hS⟩
      · exact ⟨S, hS⟩
      · rcases hh with hh | hh | hh
        · exact absurd hh b1
        · exact absurd hh b2
        · exact absurd hh b3
    · rcases a2 with ⟨b, -⟩ | ⟨-, b | b, -⟩ | ⟨-, -, -, S, P, b1, b2, b3, -⟩
      · exact absurd b g1
      · exact absurd b g2
      · exact absurd b g3
      · exact ⟨S, P, b1, b2, b3⟩
  obtain ⟨Fs, d', e1, -⟩ := succeeds_getFieldFourier (hs.withWave exc') (id := id) (r := r) (i := i) y3 rfl hamp
    (fieldAt_ok m1 m2 m3 fun dz => normalE_any m4.ez dz) [z'] _ (k1.calls (hs.withWave exc') hist)
  have hF : ∃ F', Fs = [F'] := by
    obtain ⟨-, -, r', i', ab', -, -, w⟩ := yields_getFieldFourier (hs.withWave exc') id [z'] _ Fs _
      (k1.calls (hs.withWave exc') hist) e1
    obtain ⟨G, Gs, -, g2, g3⟩ := mapM_ok_cons.mp w
    simp only [List.mapM_nil, except_pure_eq_ok, Except.ok.injEq] at g2
    exact ⟨G, by rw [g3, ← g2]⟩
  obtain ⟨F', rfl⟩ := hF
  exact ⟨F', by rw [e1]⟩

theorem efficiencies_listed {d : Dyn c.nh} {R T} (h : (efficienciesByOrder E c d).1 = .ok (R, T)) :
    (diffractionEfficiencies E c true d).1 = .ok (.byOrder R T) ∧
    (diffractionEfficiencies E c false d).1 = .ok (.total (∑ i, R i) (∑ i, T i)) := by
  unfold diffractionEfficiencies
  rw [PyM.bind_def]
  rcases hx : efficienciesByOrder E c d with ⟨e | ⟨R', T'⟩, d'⟩
  · rw [hx] at h; simp at h
  · rw [hx] at h
    simp only [Except.ok.injEq, Prod.mk.injEq] at h
    simp [PyM.bind_def, PyM.pure_def, hx, h.1, h.2]

/-- Trigonometry of the quadratic law. -/
theorem quad_const {a b K be : ℝ} (hs : Real.sin be ≠ 0)
    (h : ∀ x, Real.cos (x + be) ^ 2 * a + Real.sin (x + be) ^ 2 * b + Real.cos (x + be) * Real.sin (x + be) * K =
      Real.cos x ^ 2 * a + Real.sin x ^ 2 * b + Real.cos x * Real.sin x * K) : b = a ∧ K = 0 := by
  have h0 := h 0
  have h1 := h (-be)
  have t := Real.sin_sq_add_cos_sq be
  simp only [zero_add, Real.cos_zero, Real.sin_zero, neg_add_cancel, Real.cos_neg, Real.sin_neg] at h0 h1
  have e1 : Real.sin be ^ 2 * (b - a) = 0 := by linear_combination (1 / 2) * h0 - (1 / 2) * h1 - a * t
  have hb : b = a := by
    have := (mul_eq_zero.mp e1).resolve_left (pow_ne_zero 2 hs)
    linarith
  refine ⟨hb, ?_⟩
  subst hb
  have e2 : ∀ x, (Real.cos (x + be) * Real.sin (x + be) - Real.cos x * Real.sin x) * K = 0 := by
    intro x
    have := h x
    have t1 := Real.sin_sq_add_cos_sq x
    have t2 := Real.sin_sq_add_cos_sq (x + be)
    linear_combination this - b * t2 + b * t1
  by_contra hK
  have e3 : ∀ x, Real.cos (x + be) * Real.sin (x + be) = Real.cos x * Real.sin x := fun x =>
    sub_eq_zero.mp ((mul_eq_zero.mp (e2 x)).resolve_right hK)
  have k0 := e3 0
  have k1 := e3 (Real.pi / 4)
  simp only [zero_add, Real.cos_zero, Real.sin_zero, mul_zero] at k0
  have hc : Real.cos be = 0 := (mul_eq_zero.mp k0).resolve_right hs
  rw [Real.cos_add, Real.sin_add, Real.cos_pi_div_four, Real.sin_pi_div_four, hc] at k1
  have h2 := Real.sq_sqrt (show (0 : ℝ) ≤ 2 by norm_num)
  have h3 : Real.sin be ^ 2 = 1 := by rw [hc] at t; linarith
  nlinarith

end Nannos
