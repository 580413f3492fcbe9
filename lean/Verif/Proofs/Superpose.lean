import Verif.Proofs.EnergyStack
import Verif.Proofs.Pixelated
import Verif.Proofs.FieldEqs

/-! Simulations which differ only in the polarisation of the incident wave. -/

namespace Nannos

open Matrix Spec

/-- The simulation with another polarisation of the wave. -/
abbrev Static.withWave (c : Static) (exc : PlaneWave) : Static :=
  { c with
    excitation := exc
    a0 := Sum.elim (fun i => if (i : ℕ) = c.indexZerothOrder then (exc.a0 0 : ℂ) else 0)
      (fun i => if (i : ℕ) = c.indexZerothOrder then (exc.a0 1 : ℂ) else 0) }

variable {E : Ext} {c : Static} {mats : ℕ → LayerSpec}

theorem simInit_withWave {lats stack exc nh form} (h : simInit E lats mats stack exc nh form = .ok c) {exc' : PlaneWave}
    (h1 : exc'.wavelength = exc.wavelength) (h2 : exc'.theta = exc.theta) (h3 : exc'.wavevector = exc.wavevector) :
    simInit E lats mats stack exc' nh form = .ok (c.withWave exc') := by
  unfold simInit at h ⊢
  dsimp only at h ⊢
  split at h
  · simp at h
  rename_i hu
  rw [if_neg hu]
  split at h
  · simp at h
  rename_i r0 tl
  split at h
  · simp at h
  rename_i hl
  rw [if_neg hl]
  split at h
  · simp at h
  rename_i hf
  rw [if_neg hf]
  split at h
  · simp at h
  rename_i hf1
  rw [if_neg hf1]
  rw [bind_eq_ok] at h
  obtain ⟨⟨H, n⟩, e1, h⟩ := h
  rw [e1]
  simp only [bind_eq_ok] at h
  obtain ⟨u1, e2, u2, e3, u3, e4, r, e5, h⟩ := h
  simp only [except_bind_ok, e2, e3, e4, e5, h3]
  simp only [except_pure_eq_ok, Except.ok.injEq] at h ⊢
  subst h
  simp only [Static.withWave, h1, h2]

theorem stepOut_withWave (exc : PlaneWave) (L : LayerSpec) (a : LayerAttr c.nh) :
    stepOut E (c.withWave exc) L a = stepOut E c L a := by
  have h1 : solveUniform L (c.withWave exc).omega (c.withWave exc).kx (c.withWave exc).ky = solveUniform L c.omega c.kx c.ky := rfl
  have h2 : buildPure E (c.withWave exc) L = buildPure E c L := rfl
  unfold stepOut
  rw [h1, h2]
  by_cases h : L.iscopy = true
  · simp only [h, if_true]
    obtain ⟨M, p, Q, ev⟩ := a
    rcases M with _ | M <;> rcases p with _ | p <;> rcases Q with _ | Q <;> try rfl
    dsimp only
    rcases (if L.isUniform = true then solveUniform L c.omega c.kx c.ky else attr ev) with _ | _ <;> rfl
  · simp only [h]
    rcases buildPure E c L with e | (Q | ⟨M, p, Q⟩)
    · rfl
    · rcases solveUniform L c.omega c.kx c.ky with _ | _ <;> rfl
    · dsimp only
      rcases solveEigenproblem E M with _ | _ <;> rfl

theorem solveLayer_withWave (exc : PlaneWave) (r : ℕ) :
    (solveLayer E (c.withWave exc) r : PyM (Dyn c.nh) Unit) = solveLayer E c r := by
  funext d
  refine (solveLayer_eq (c := c.withWave exc) r d).trans (Eq.trans ?_ (solveLayer_eq (c := c) r d).symm)
  rw [stepOut_withWave]

theorem solveAll_withWave (exc : PlaneWave) (rs : List ℕ) :
    (solveAll E (c.withWave exc) rs : PyM (Dyn c.nh) Unit) = solveAll E c rs := by
  induction rs with
  | nil => rfl
  | cons r rs ih =>
    change ((solveLayer E (c.withWave exc) r >>= fun _ => solveAll E (c.withWave exc) rs) : PyM (Dyn c.nh) Unit) =
      (solveLayer E c r >>= fun _ => solveAll E c rs)
    exact congrArg₂ (fun x y => (x >>= fun _ => y : PyM (Dyn c.nh) Unit)) (solveLayer_withWave exc r) ih

theorem SolveSpec.withWave {A0 A1 : ℕ → LayerAttr c.nh} {res} (h : SolveSpec E c mats A0 A1 res) (exc : PlaneWave) :
    SolveSpec E (c.withWave exc) mats A0 A1 res :=
  ⟨fun d hm ha => (congrFun (solveAll_withWave exc c.stack) d).trans (h.run d hm ha)⟩

theorem valS_withWave (A1 : ℕ → LayerAttr c.nh) (res idx) (exc : PlaneWave) :
    valS (c.withWave exc) mats A1 res idx = valS c mats A1 res idx := rfl

/-- Contributions of one tangential component to the two fluxes. -/
noncomputable def fwdPart (p q A B : ℂ) : ℝ :=
  (((star A * p).re : ℂ) + (1 / 2) * (star q * A - star B * p)).re

noncomputable def bwdPart (p q A B : ℂ) : ℝ :=
  (-((star B * q).re : ℂ) + star ((1 / 2) * (star q * A - star B * p))).re

theorem fwdPart_quad (x y : ℝ) (p q A B p' q' A' B' : ℂ) :
    fwdPart (x * p + y * p') (x * q + y * q') (x * A + y * A') (x * B + y * B') =
      x ^ 2 * fwdPart p q A B + y ^ 2 * fwdPart p' q' A' B' +
        x * y * (fwdPart (p + p') (q + q') (A + A') (B + B') - fwdPart p q A B - fwdPart p' q' A' B') := by
  simp [fwdPart]
  ring

theorem bwdPart_quad (x y : ℝ) (p q A B p' q' A' B' : ℂ) :
    bwdPart (x * p + y * p') (x * q + y * q') (x * A + y * A') (x * B + y * B') =
      x ^ 2 * bwdPart p q A B + y ^ 2 * bwdPart p' q' A' B' +
        x * y * (bwdPart (p + p') (q + q') (A + A') (B + B') - bwdPart p q A B - bwdPart p' q' A' B') := by
  simp [bwdPart]
  ring

/-- The flux is a quadratic form of the amplitudes. -/
theorem poyntingFlux_quad (M : Modes (Idx c.nh)) (a b a' b' : Idx c.nh → ℂ) :
    ∃ K K' : Fin c.nh → ℝ, ∀ (x y : ℝ) f f0 f1, poyntingFlux c M (x • a + y • a') (x • b + y • b') = .ok f →
      poyntingFlux c M a b = .ok f0 → poyntingFlux c M a' b' = .ok f1 → ∀ i,
        f.1 i = x ^ 2 * f0.1 i + y ^ 2 * f1.1 i + x * y * K i ∧ f.2 i = x ^ 2 * f0.2 i + y ^ 2 * f1.2 i + x * y * K' i := by
  set A := M.Q * M.phi * diagonal fun k => 1 / ((c.omega : ℂ) * M.q k) with hA
  let Fw : (Idx c.nh → ℂ) → (Idx c.nh → ℂ) → Fin c.nh → ℝ := fun a b i =>
    fwdPart ((M.phi *ᵥ a) (.inl i)) ((M.phi *ᵥ b) (.inl i)) ((A *ᵥ a) (.inl i)) ((A *ᵥ b) (.inl i)) +
      fwdPart ((M.phi *ᵥ a) (.inr i)) ((M.phi *ᵥ b) (.inr i)) ((A *ᵥ a) (.inr i)) ((A *ᵥ b) (.inr i))
  let Bw : (Idx c.nh → ℂ) → (Idx c.nh → ℂ) → Fin c.nh → ℝ := fun a b i =>
    bwdPart ((M.phi *ᵥ a) (.inl i)) ((M.phi *ᵥ b) (.inl i)) ((A *ᵥ a) (.inl i)) ((A *ᵥ b) (.inl i)) +
      bwdPart ((M.phi *ᵥ a) (.inr i)) ((M.phi *ᵥ b) (.inr i)) ((A *ᵥ a) (.inr i)) ((A *ᵥ b) (.inr i))
  have key : ∀ a b f, poyntingFlux c M a b = .ok f → f.1 = Fw a b ∧ f.2 = Bw a b := by
    intro a b f h
    unfold poyntingFlux at h
    split at h
    · simp at h
    · rw [← Except.ok.inj h]
      constructor <;> funext i <;> simp only [Fw, Bw, fwdPart, bwdPart, ← Complex.add_re] <;> rfl
  refine ⟨fun i => Fw (a + a') (b + b') i - Fw a b i - Fw a' b' i,
    fun i => Bw (a + a') (b + b') i - Bw a b i - Bw a' b' i, fun x y f f0 f1 h h0 h1 i => ?_⟩
  have e : ∀ (B : Matrix (Idx c.nh) (Idx c.nh) ℂ) (u v : Idx c.nh → ℂ) k, (B *ᵥ (x • u + y • v)) k = x * (B *ᵥ u) k + y * (B *ᵥ v) k := by
    intro B u v k
    rw [mulVec_add, mulVec_smul, mulVec_smul]
    rfl
  rw [(key _ _ _ h).1, (key _ _ _ h0).1, (key _ _ _ h1).1, (key _ _ _ h).2, (key _ _ _ h0).2, (key _ _ _ h1).2]
  simp only [Fw, Bw, e, mulVec_add, Pi.add_apply, fwdPart_quad, bwdPart_quad]
  constructor <;> ring

/-- Fields are linear in the amplitudes. -/
theorem FieldSpec.lin {L : LayerSpec} {at' : LayerAttr c.nh} {M : Modes (Idx c.nh)} {a b a' b' : Idx c.nh → ℂ} {z x y : ℝ}
    {F F0 F1 : FieldF c.nh} (h : FieldSpec c L at' M (x • a + y • a') (x • b + y • b') z F)
    (h0 : FieldSpec c L at' M a b z F0) (h1 : FieldSpec c L at' M a' b' z F1) :
    (F.ex = x • F0.ex + y • F1.ex ∧ F.ey = x • F0.ey + y • F1.ey ∧ F.ez = x • F0.ez + y • F1.ez) ∧
    (F.hx = x • F0.hx + y • F1.hx ∧ F.hy = x • F0.hy + y • F1.hy ∧ F.hz = x • F0.hz + y • F1.hz) := by
  have tE : ∀ k, tanE M (x • a + y • a') (x • b + y • b') z k = x * tanE M a b z k + y * tanE M a' b' z k := by
    intro k
    simp only [tanE, Finset.mul_sum, ← Finset.sum_add_distrib]
    refine Finset.sum_congr rfl fun j _ => ?_
    simp only [Pi.add_apply, Pi.smul_apply, Complex.real_smul]
    ring
  have tH : ∀ k, tanH M (x • a + y • a') (x • b + y • b') z k = x * tanH M a b z k + y * tanH M a' b' z k := by
    intro k
    simp only [tanH, Finset.mul_sum, ← Finset.sum_add_distrib]
    refine Finset.sum_congr rfl fun j _ => ?_
    simp only [Pi.add_apply, Pi.smul_apply, Complex.real_smul]
    ring
  have ex : F.ex = x • F0.ex + y • F1.ex := by
    funext i
    simp only [Pi.add_apply, Pi.smul_apply, Complex.real_smul, h.ex, h0.ex, h1.ex, tE]
    ring
  have ey : F.ey = x • F0.ey + y • F1.ey := by
    funext i
    simp only [Pi.add_apply, Pi.smul_apply, Complex.real_smul, h.ey, h0.ey, h1.ey, tE]
    ring
  have hx : F.hx = x • F0.hx + y • F1.hx := by
    funext i
    simp only [Pi.add_apply, Pi.smul_apply, Complex.real_smul, h.hx, h0.hx, h1.hx, tH]
  have hy : F.hy = x • F0.hy + y • F1.hy := by
    funext i
    simp only [Pi.add_apply, Pi.smul_apply, Complex.real_smul, h.hy, h0.hy, h1.hy, tH]
  have hz : F.hz = x • F0.hz + y • F1.hz := by
    funext i
    simp only [Pi.add_apply, Pi.smul_apply, Complex.real_smul, h.hz, h0.hz, h1.hz, ex, ey]
    ring
  refine ⟨⟨ex, ey, ?_⟩, hx, hy, hz⟩
  have e0 := h.ez
  have e1 := h0.ez
  have e2 := h1.ez
  have hd : (fun i => (c.ky i * F.hx i - c.kx i * F.hy i) / (c.omega : ℂ)) =
      x • (fun i => (c.ky i * F0.hx i - c.kx i * F0.hy i) / (c.omega : ℂ)) +
        y • fun i => (c.ky i * F1.hx i - c.kx i * F1.hy i) / (c.omega : ℂ) := by
    funext i
    simp only [Pi.add_apply, Pi.smul_apply, Complex.real_smul, hx, hy]
    ring
  rw [hd] at e0
  revert e0 e1 e2
  generalize (fun i => (c.ky i * F0.hx i - c.kx i * F0.hy i) / (c.omega : ℂ)) = d0
  generalize (fun i => (c.ky i * F1.hx i - c.kx i * F1.hy i) / (c.omega : ℂ)) = d1
  intro e0 e1 e2
  unfold normalE at e0 e1 e2
  split at e0
  · rename_i hu
    rw [if_pos hu] at e1 e2
    split at e0
    · simp at e0
    · rename_i hv
      rw [if_neg hv] at e1 e2
      rw [← Except.ok.inj e0, ← Except.ok.inj e1, ← Except.ok.inj e2]
      funext i
      simp only [Pi.add_apply, Pi.smul_apply, Complex.real_smul]
      ring
  · rename_i hu
    rw [if_neg hu] at e1 e2
    rcases hp : attr at'.pat with e | p
    · rw [hp] at e0
      exact absurd e0 (by simp [bind, Except.bind])
    · rw [hp, except_bind_ok, linSolveVec_ok] at e0 e1 e2
      rw [e0.2, e1.2, e2.2, mulVec_add, mulVec_smul, mulVec_smul]

/-- Two waves which differ only in the polarisation angle. -/
theorem planeWave_same {l θ φ ψ ψ' : ℝ} {e e' : PlaneWave} (h : planeWave l (θ, φ, ψ) = .ok e)
    (h' : planeWave l (θ, φ, ψ') = .ok e') :
    e'.wavelength = e.wavelength ∧ e'.theta = e.theta ∧ e'.wavevector = e.wavevector := by
  obtain ⟨-, w, t, p, -, k, v, -⟩ := planeWave_ok h
  obtain ⟨-, w', t', p', -, k', v', -⟩ := planeWave_ok h'
  refine ⟨w'.trans w.symm, t'.trans t.symm, ?_⟩
  rw [v, v', t, t', p, p', k, k']

/-- The amplitude of the wave in terms of the two waves with polarisation angles 0 and 90. -/
theorem planeWave_lin {l θ φ ψ : ℝ} {e e0 e1 : PlaneWave} (h : planeWave l (θ, φ, ψ) = .ok e)
    (h0 : planeWave l (θ, φ, 0) = .ok e0) (h1 : planeWave l (θ, φ, 90) = .ok e1) :
    e.a0 = Real.cos (ψ * (Real.pi / 180)) • e0.a0 + Real.sin (ψ * (Real.pi / 180)) • e1.a0 := by
  obtain ⟨-, w, t, p, s, k, v, a, q⟩ := planeWave_ok h
  obtain ⟨-, w0, t0, p0, s0, k0, v0, a0, q0⟩ := planeWave_ok h0
  obtain ⟨-, w1, t1, p1, s1, k1, v1, a1, q1⟩ := planeWave_ok h1
  have hs0 : e0.psi = 0 := by rw [s0]; simp
  have hs1 : e1.psi = Real.pi / 2 := by rw [s1]; simp only; ring
  dsimp only at q q0 q1
  have kk0 : e0.wavenumber = e.wavenumber := k0.trans k.symm
  have kk1 : e1.wavenumber = e.wavenumber := k1.trans k.symm
  have vv0 := (planeWave_same h h0).2.2
  have vv1 := (planeWave_same h h1).2.2
  have tt0 := t0.trans t.symm
  have tt1 := t1.trans t.symm
  have pp0 := p0.trans p.symm
  have pp1 := p1.trans p.symm
  rw [kk0, vv0] at q0
  rw [kk1, vv1] at q1
  obtain ⟨hd, q⟩ := q
  have q0 := q0.2
  have q1 := q1.2
  set Q := e.wavenumber ^ 2 • (1 : Matrix (Fin 2) (Fin 2) ℝ) -
      !![e.wavevector 1 ^ 2, -e.wavevector 0 * e.wavevector 1;
        -e.wavevector 0 * e.wavevector 1, e.wavevector 0 ^ 2]
  have hQ := isUnit_iff_ne_zero.mpr hd
  have inj : ∀ u v : Fin 2 → ℝ, Q *ᵥ u = Q *ᵥ v → u = v := by
    intro u v huv
    have := congrArg (Q⁻¹ *ᵥ ·) huv
    simpa only [mulVec_mulVec, nonsing_inv_mul _ hQ, one_mulVec] using this
  apply inj
  rw [mulVec_add, mulVec_smul, mulVec_smul, q, q0, q1, smul_comm _ (e.wavenumber * _), smul_comm _ (e.wavenumber * _),
    ← smul_add]
  congr 1
  rw [a, a0, a1, hs0, hs1, tt0, tt1, pp0, pp1, s]
  funext i
  fin_cases i <;> simp <;> ring

theorem a0_lin {e e0 e1 : PlaneWave} {x y : ℝ} (h : e.a0 = x • e0.a0 + y • e1.a0) :
    (c.withWave e).a0 = x • (c.withWave e0).a0 + y • (c.withWave e1).a0 := by
  funext k
  rcases k with i | i <;> simp only [Static.withWave, Sum.elim_inl, Sum.elim_inr, Pi.add_apply, Pi.smul_apply] <;>
    split_ifs <;> simp [h]

/-- One set of layer attributes describes the simulations with all polarisations. -/
theorem eff_withWave {lats stack exc nh form} (hinit : simInit E lats mats stack exc nh form = .ok c) :
    ∃ A1 : ℕ → LayerAttr c.nh, ∀ (exc' : PlaneWave) (hist : List (Call c.nh)) (RT : (Fin c.nh → ℝ) × (Fin c.nh → ℝ)),
      (efficienciesByOrder E (c.withWave exc')
        (afterCalls E (c.withWave exc') hist (Dyn.fresh mats (unsolved c.nh)))).1 = .ok RT →
      EffV (c.withWave exc') mats A1 (.ok ()) RT := by
  have hi := simInit_ok hinit
  have hst : c.stack = stack := hi.stack_eq
  have hnd : c.stack.Nodup := hst ▸ hi.nodup
  obtain ⟨A1, res, hs, -⟩ := solveSpec_of_noStale (E := E) (mats := mats) hnd
    (noStale_unsolved (c := c) mats c.stack)
  refine ⟨A1, fun exc' hist RT h => ?_⟩
  have hs' := hs.withWave exc'
  have h0 : Inv E (c.withWave exc') mats (unsolved c.nh) A1 res (Dyn.fresh mats (unsolved c.nh)) := inv_fresh _ (.inl rfl)
  have h1 := h0.calls hs' hist
  have hv := yields_efficiencies hs' _ RT _ h1 (Prod.ext h rfl)
  have hres := hv.1
  subst hres
  exact hv

theorem poyntingFlux_withWave (e : PlaneWave) (M : Modes (Idx c.nh)) (a b : Idx c.nh → ℂ) :
    poyntingFlux (c.withWave e) M a b = poyntingFlux c M a b := by
  unfold poyntingFlux
  split <;> rfl

/-- The efficiencies are a quadratic form of the amplitude of the wave. -/
theorem eff_quad {A1 : ℕ → LayerAttr c.nh} {e0 e1 : PlaneWave} {RT0 RT1 : (Fin c.nh → ℝ) × (Fin c.nh → ℝ)}
    (h0 : EffV (c.withWave e0) mats A1 (.ok ()) RT0) (h1 : EffV (c.withWave e1) mats A1 (.ok ()) RT1) :
    ∃ K K' : Fin c.nh → ℝ, ∀ (e : PlaneWave) (x y : ℝ) (RT : (Fin c.nh → ℝ) × (Fin c.nh → ℝ)), e.a0 = x • e0.a0 + y • e1.a0 →
      EffV (c.withWave e) mats A1 (.ok ()) RT → ∀ i,
        RT.1 i = x ^ 2 * RT0.1 i + y ^ 2 * RT1.1 i + x * y * K i ∧
        RT.2 i = x ^ 2 * RT0.2 i + y ^ 2 * RT1.2 i + x * y * K' i := by
  obtain ⟨-, S, r0, rN, M0, MN, f0, fN, v1, v2, v3, v4, v5, v6, v7, v8, rfl⟩ := h0
  obtain ⟨-, S', r0', rN', M0', MN', f0', fN', w1, w2, w3, w4, w5, w6, w7, w8, rfl⟩ := h1
  obtain rfl : S = S' := Except.ok.inj (v1.symm.trans w1)
  obtain rfl : r0 = r0' := Except.ok.inj (v2.symm.trans w2)
  obtain rfl : rN = rN' := Except.ok.inj (v3.symm.trans w3)
  obtain rfl : M0 = M0' := Except.ok.inj (v4.symm.trans w4)
  obtain rfl : MN = MN' := Except.ok.inj (v5.symm.trans w5)
  rw [poyntingFlux_withWave] at v6 v7 w6 w7
  obtain ⟨_, KR, hR⟩ := poyntingFlux_quad (c := c) M0 (c.withWave e0).a0 (S.s21 *ᵥ (c.withWave e0).a0)
    (c.withWave e1).a0 (S.s21 *ᵥ (c.withWave e1).a0)
  obtain ⟨KT, _, hT⟩ := poyntingFlux_quad (c := c) MN (S.s11 *ᵥ (c.withWave e0).a0) 0 (S.s11 *ᵥ (c.withWave e1).a0) 0
  refine ⟨fun i => -KR i / c.incidentFlux, fun i => KT i / c.incidentFlux, ?_⟩
  rintro e x y RT he ⟨-, S', r0', rN', M0', MN', f, g, u1, u2, u3, u4, u5, u6, u7, u8, rfl⟩ i
  obtain rfl : S = S' := Except.ok.inj (v1.symm.trans u1)
  obtain rfl : r0 = r0' := Except.ok.inj (v2.symm.trans u2)
  obtain rfl : rN = rN' := Except.ok.inj (v3.symm.trans u3)
  obtain rfl : M0 = M0' := Except.ok.inj (v4.symm.trans u4)
  obtain rfl : MN = MN' := Except.ok.inj (v5.symm.trans u5)
  rw [poyntingFlux_withWave] at u6 u7
  have ha := a0_lin (c := c) he
  have e6 : poyntingFlux c M0 (x • (c.withWave e0).a0 + y • (c.withWave e1).a0)
      (x • (S.s21 *ᵥ (c.withWave e0).a0) + y • (S.s21 *ᵥ (c.withWave e1).a0)) = .ok f := by
    rw [← mulVec_smul, ← mulVec_smul, ← mulVec_add]
    exact ha ▸ u6
  have e7 : poyntingFlux c MN (x • (S.s11 *ᵥ (c.withWave e0).a0) + y • (S.s11 *ᵥ (c.withWave e1).a0))
      (x • 0 + y • 0) = .ok g := by
    rw [← mulVec_smul, ← mulVec_smul, ← mulVec_add, smul_zero, smul_zero, add_zero]
    exact ha ▸ u7
  have q1 := (hR x y f f0 f0' e6 v6 w6 i).2
  have q2 := (hT x y g fN fN' e7 v7 w7 i).1
  dsimp only
  constructor
  · rw [q1]
    ring
  · rw [q2]
    ring

/-- The amplitudes of a layer are linear in the amplitude of the wave. -/
theorem amp_lin {A1 : ℕ → LayerAttr c.nh} {e e0 e1 : PlaneWave} {x y : ℝ} {i : ℤ} {ab ab0 ab1 : (Idx c.nh → ℂ) × (Idx c.nh → ℂ)}
    (he : e.a0 = x • e0.a0 + y • e1.a0) (h : AmpV (c.withWave e) mats A1 (.ok ()) i ab)
    (h0 : AmpV (c.withWave e0) mats A1 (.ok ()) i ab0) (h1 : AmpV (c.withWave e1) mats A1 (.ok ()) i ab1) :
    ab.1 = x • ab0.1 + y • ab1.1 ∧ ab.2 = x • ab0.2 + y • ab1.2 := by
  have ha := a0_lin (c := c) he
  obtain ⟨-, h⟩ := h
  obtain ⟨-, h0⟩ := h0
  obtain ⟨-, h1⟩ := h1
  have hst : ∀ e : PlaneWave, (c.withWave e).stack = c.stack := fun _ => rfl
  have hv : ∀ (e : PlaneWave) idx, valS (c.withWave e) mats A1 (.ok ()) idx = valS c mats A1 (.ok ()) idx := fun _ _ => rfl
  rw [hst] at h h0 h1
  simp only [hv] at h h0 h1
  rcases h with ⟨z, S, hS, rfl⟩ | ⟨z, z', S, hS, rfl⟩ | ⟨z, z', z'', S, P, hS, hP, hd, hb, hb'⟩
  · rcases h0 with ⟨-, S0, hS0, rfl⟩ | ⟨z0, -⟩ | ⟨z0, -⟩
    · rcases h1 with ⟨-, S1, hS1, rfl⟩ | ⟨z0, -⟩ | ⟨z0, -⟩
      · rw [hS] at hS0 hS1
        cases hS0
        cases hS1
        refine ⟨ha, ?_⟩
        change S.s21 *ᵥ (c.withWave e).a0 = x • (S.s21 *ᵥ (c.withWave e0).a0) + y • (S.s21 *ᵥ (c.withWave e1).a0)
        rw [ha, mulVec_add, mulVec_smul, mulVec_smul]
      · exact absurd z z0
      · exact absurd z z0
    · exact absurd z z0
    · exact absurd z z0
  · rcases h0 with ⟨z0, -⟩ | ⟨-, -, S0, hS0, rfl⟩ | ⟨-, y1, y2, -⟩
    · exact absurd z0 z
    · rcases h1 with ⟨z0, -⟩ | ⟨-, -, S1, hS1, rfl⟩ | ⟨-, y1, y2, -⟩
      · exact absurd z0 z
      · rw [hS] at hS0 hS1
        cases hS0
        cases hS1
        refine ⟨?_, by simp⟩
        change S.s11 *ᵥ (c.withWave e).a0 = x • (S.s11 *ᵥ (c.withWave e0).a0) + y • (S.s11 *ᵥ (c.withWave e1).a0)
        rw [ha, mulVec_add, mulVec_smul, mulVec_smul]
      · rcases z' with z' | z' <;> contradiction
    · rcases z' with z' | z' <;> contradiction
  · rcases h0 with ⟨z0, -⟩ | ⟨-, z0, -⟩ | ⟨-, -, -, S0, P0, hS0, hP0, -, hb0, hb0'⟩
    · exact absurd z0 z
    · rcases z0 with z0 | z0 <;> contradiction
    · rcases h1 with ⟨z0, -⟩ | ⟨-, z0, -⟩ | ⟨-, -, -, S1, P1, hS1, hP1, -, hb1, hb1'⟩
      · exact absurd z0 z
      · rcases z0 with z0 | z0 <;> contradiction
      · rw [hS] at hS0 hS1
        cases hS0
        cases hS1
        rw [hP] at hP0 hP1
        cases hP0
        cases hP1
        have q1 : ab.1 = x • ab0.1 + y • ab1.1 := by
          rw [hb, hb0, hb1]
          change _ *ᵥ (S.s11 *ᵥ (c.withWave e).a0) = x • (_ *ᵥ (S.s11 *ᵥ (c.withWave e0).a0)) +
            y • (_ *ᵥ (S.s11 *ᵥ (c.withWave e1).a0))
          rw [ha, mulVec_add, mulVec_smul, mulVec_smul, mulVec_add, mulVec_smul, mulVec_smul]
        refine ⟨q1, ?_⟩
        rw [hb', hb0', hb1', q1, mulVec_add, mulVec_smul, mulVec_smul]

theorem fieldAt_withWave (e : PlaneWave) (L : LayerSpec) (at' : LayerAttr c.nh) (a b : Idx c.nh → ℂ) (z : ℝ) :
    (fieldAt (c.withWave e) L at' a b z : Except PyErr (FieldF c.nh)) = fieldAt c L at' a b z := rfl

/-- See `eff_withWave`. -/
theorem field_withWave {lats stack exc nh form} (hinit : simInit E lats mats stack exc nh form = .ok c) :
    ∃ A1 : ℕ → LayerAttr c.nh, ∀ (exc' : PlaneWave) (hist : List (Call c.nh)) id (z : ℝ) (F : FieldF c.nh),
      (getFieldFourier E (c.withWave exc') id [z]
        (afterCalls E (c.withWave exc') hist (Dyn.fresh mats (unsolved c.nh)))).1 = .ok [F] →
      ∃ r i ab, getLayer c id = .ok (r, i) ∧ AmpV (c.withWave exc') mats A1 (.ok ()) i ab ∧
        fieldAt c (mats r) (A1 r) ab.1 ab.2 z = .ok F := by
  have hi := simInit_ok hinit
  have hst : c.stack = stack := hi.stack_eq
  have hnd : c.stack.Nodup := hst ▸ hi.nodup
  obtain ⟨A1, res, hs, -⟩ := solveSpec_of_noStale (E := E) (mats := mats) hnd
    (noStale_unsolved (c := c) mats c.stack)
  refine ⟨A1, fun exc' hist id z F h => ?_⟩
  have hs' := hs.withWave exc'
  have h0 : Inv E (c.withWave exc') mats (unsolved c.nh) A1 res (Dyn.fresh mats (unsolved c.nh)) := inv_fresh _ (.inl rfl)
  have h1 := h0.calls hs' hist
  obtain ⟨y1, y2, r, i, ab, y3, y4, y5⟩ := yields_getFieldFourier hs' id [z] _ [F] _ h1 (Prod.ext h rfl)
  subst y2
  refine ⟨r, i, ab, y3, y4, ?_⟩
  obtain ⟨F0, Fs0, f1, f2, f3⟩ := mapM_ok_cons.mp y5
  simp only [List.cons.injEq] at f3
  rw [f3.1]
  exact (fieldAt_withWave ..).symm.trans f1

end Nannos
