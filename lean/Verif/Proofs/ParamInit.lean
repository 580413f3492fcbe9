import Verif.Proofs.ParamGrid
import Verif.Proofs.Superpose
import Verif.Proofs.AllWaves
import Mathlib.Analysis.SpecialFunctions.Trigonometric.Deriv
import Mathlib.Analysis.SpecialFunctions.Sqrt

/-! Smoothness of the attributes of a simulation as functions of the wave and of the superstrate (C89). -/

namespace Nannos

open Matrix Spec Topology

variable {V : Type} [NormedAddCommGroup V] [NormedSpace ℝ V] {n : WithTop ℕ∞} {x0 : V}

/-- The wave depends smoothly on the parameters. -/
structure SmPW (n : WithTop ℕ∞) (x0 : V) (e : V → PlaneWave) : Prop where
  wl0 : (e x0).wavelength ≠ 0
  wl : ContDiffAt ℝ n (fun x => (e x).wavelength) x0
  theta : ContDiffAt ℝ n (fun x => (e x).theta) x0
  k : ∀ i, ContDiffAt ℝ n (fun x => (e x).wavevector i) x0
  a0 : ∀ i, ContDiffAt ℝ n (fun x => (e x).a0 i) x0

section wave

theorem waveKey (k θ φ : ℝ) : k ^ 2 - (k * (Real.sin θ * Real.cos φ)) ^ 2 - (k * (Real.sin θ * Real.sin φ)) ^ 2 =
    (k * Real.cos θ) ^ 2 := by
  have t := Real.sin_sq_add_cos_sq θ
  have f := Real.sin_sq_add_cos_sq φ
  linear_combination (-k ^ 2 * Real.sin θ ^ 2) * f - k ^ 2 * t

/-- `planeWave` where it succeeds. -/
noncomputable def waveOf (wl : ℝ) (ang : ℝ × ℝ × ℝ) : PlaneWave :=
  let theta := ang.1 * (Real.pi / 180)
  let phi := ang.2.1 * (Real.pi / 180)
  let psi := ang.2.2 * (Real.pi / 180)
  let k0 := 2 * Real.pi * (1 / wl)
  let kt : Fin 3 → ℝ := fun i => k0 *
    ![Real.sin theta * Real.cos phi, Real.sin theta * Real.sin phi, Real.cos theta] i
  let cx := Real.cos psi * Real.cos theta * Real.cos phi - Real.sin psi * Real.sin phi
  let cy := Real.cos psi * Real.cos theta * Real.sin phi + Real.sin psi * Real.cos phi
  let cz := -Real.cos psi * Real.sin theta
  let K : Matrix (Fin 2) (Fin 2) ℝ := !![kt 1 ^ 2, -kt 0 * kt 1; -kt 0 * kt 1, kt 0 ^ 2]
  let Q := k0 ^ 2 • (1 : Matrix (Fin 2) (Fin 2) ℝ) - K
  { wavelength := wl, theta := theta, phi := phi, psi := psi, wavenumber := k0,
    wavevector := kt, amplitude := ![cx, cy, cz],
    a0 := ((k0 * Real.sqrt (k0 ^ 2 - kt 0 ^ 2 - kt 1 ^ 2)) • Q⁻¹) *ᵥ ![-cy, cx] }

theorem waveOf_eq {wl : ℝ} {ang : ℝ × ℝ × ℝ} {e : PlaneWave} (h : planeWave wl ang = .ok e) : e = waveOf wl ang := by
  unfold planeWave at h
  by_cases hl : wl = 0
  · simp [hl] at h
  simp only [hl, if_false, powHalf, inv2] at h
  split at h
  · simp at h
  · simp only [except_bind_ok] at h
    split at h
    · simp at h
    · simp only [except_bind_ok, except_pure_eq_ok, Except.ok.injEq] at h
      exact h.symm

theorem waveOf_ok {wl : ℝ} {ang : ℝ × ℝ × ℝ} (hl : wl ≠ 0) (hc : Real.cos (ang.1 * (Real.pi / 180)) ≠ 0) :
    planeWave wl ang = .ok (waveOf wl ang) := by
  have : ∃ e, planeWave wl ang = .ok e := by
    have hk : (2 * Real.pi * (1 / wl)) ≠ 0 := by positivity
    unfold planeWave
    simp only [hl, if_false, powHalf, inv2, Qdet]
    simp only [Matrix.cons_val_zero, Matrix.cons_val_one, waveKey]
    rw [if_neg (not_lt.mpr (sq_nonneg _))]
    simp only [except_bind_ok]
    rw [if_neg (by positivity)]
    exact ⟨_, rfl⟩
  obtain ⟨e, he⟩ := this
  rw [he, waveOf_eq he]

theorem waveOf_cos {wl : ℝ} {ang : ℝ × ℝ × ℝ} {e : PlaneWave} (h : planeWave wl ang = .ok e) :
    wl ≠ 0 ∧ Real.cos (ang.1 * (Real.pi / 180)) ≠ 0 := by
  obtain ⟨hl, -, ht, hf, -, hk, hkv, -, hdet, -⟩ := planeWave_ok h
  refine ⟨hl, fun h0 => ?_⟩
  apply hdet
  rw [Qdet, hkv]
  have := waveKey e.wavenumber e.theta e.phi
  simp only [Matrix.cons_val_zero, Matrix.cons_val_one]
  rw [this, ht]
  simp [h0]

theorem smE_planeWave {wl : V → ℝ} {ang : V → ℝ × ℝ × ℝ} (hwl : ContDiffAt ℝ n wl x0) (hang : ContDiffAt ℝ n ang x0) :
    SmE (SmPW n x0) x0 fun x => planeWave (wl x) (ang x) := by
  intro e he
  obtain ⟨hl, hc⟩ := waveOf_cos he
  have h1 : ContDiffAt ℝ n (fun x => (ang x).1) x0 := hang.fst
  have h2 : ContDiffAt ℝ n (fun x => (ang x).2.1) x0 := hang.snd.fst
  have h3 : ContDiffAt ℝ n (fun x => (ang x).2.2) x0 := hang.snd.snd
  have ht : ContDiffAt ℝ n (fun x => (ang x).1 * (Real.pi / 180)) x0 := h1.mul contDiffAt_const
  have hp : ContDiffAt ℝ n (fun x => (ang x).2.1 * (Real.pi / 180)) x0 := h2.mul contDiffAt_const
  have hs : ContDiffAt ℝ n (fun x => (ang x).2.2 * (Real.pi / 180)) x0 := h3.mul contDiffAt_const
  have hk0 : ContDiffAt ℝ n (fun x => 2 * Real.pi * (1 / wl x)) x0 := by
    simp only [one_div]
    exact contDiffAt_const.mul (hwl.inv hl)
  have hk : ∀ i, ContDiffAt ℝ n (fun x => (waveOf (wl x) (ang x)).wavevector i) x0 := by
    intro i
    unfold waveOf
    dsimp only
    refine hk0.mul ?_
    fin_cases i
    · exact ht.sin.mul hp.cos
    · exact ht.sin.mul hp.sin
    · exact ht.cos
  refine ⟨fun x => waveOf (wl x) (ang x), ⟨hl, hwl, ht, hk, fun i => ?_⟩, ?_⟩
  · have hcx : ContDiffAt ℝ n (fun x => (waveOf (wl x) (ang x)).amplitude 0) x0 :=
      ((hs.cos.mul ht.cos).mul hp.cos).sub (hs.sin.mul hp.sin)
    have hcy : ContDiffAt ℝ n (fun x => (waveOf (wl x) (ang x)).amplitude 1) x0 :=
      ((hs.cos.mul ht.cos).mul hp.sin).add (hs.sin.mul hp.cos)
    have hq : ContDiffAt ℝ n (fun x => Real.sqrt ((2 * Real.pi * (1 / wl x)) ^ 2 - (waveOf (wl x) (ang x)).wavevector 0 ^ 2 -
        (waveOf (wl x) (ang x)).wavevector 1 ^ 2)) x0 := by
      refine ((((hk0.pow 2).sub ((hk 0).pow 2)).sub ((hk 1).pow 2))).sqrt ?_
      unfold waveOf
      simp only [Matrix.cons_val_zero, Matrix.cons_val_one, waveKey]
      have hk : (2 * Real.pi * (1 / wl x0)) ≠ 0 := by positivity
      positivity
    have hd : ContDiffAt ℝ n (fun x => (2 * Real.pi * (1 / wl x)) ^ 2 * ((2 * Real.pi * (1 / wl x)) ^ 2 -
        (waveOf (wl x) (ang x)).wavevector 0 ^ 2 - (waveOf (wl x) (ang x)).wavevector 1 ^ 2)) x0 :=
      (hk0.pow 2).mul (((hk0.pow 2).sub ((hk 0).pow 2)).sub ((hk 1).pow 2))
    have hd0 : (2 * Real.pi * (1 / wl x0)) ^ 2 * ((2 * Real.pi * (1 / wl x0)) ^ 2 -
        (waveOf (wl x0) (ang x0)).wavevector 0 ^ 2 - (waveOf (wl x0) (ang x0)).wavevector 1 ^ 2) ≠ 0 := by
      unfold waveOf
      simp only [Matrix.cons_val_zero, Matrix.cons_val_one, waveKey]
      have hk : (2 * Real.pi * (1 / wl x0)) ≠ 0 := by positivity
      positivity
    have e0 : ∀ x, (waveOf (wl x) (ang x)).a0 = ((2 * Real.pi * (1 / wl x) * Real.sqrt ((2 * Real.pi * (1 / wl x)) ^ 2 -
        (waveOf (wl x) (ang x)).wavevector 0 ^ 2 - (waveOf (wl x) (ang x)).wavevector 1 ^ 2)) •
        ((2 * Real.pi * (1 / wl x)) ^ 2 • (1 : Matrix (Fin 2) (Fin 2) ℝ) -
          !![(waveOf (wl x) (ang x)).wavevector 1 ^ 2, -(waveOf (wl x) (ang x)).wavevector 0 * (waveOf (wl x) (ang x)).wavevector 1;
            -(waveOf (wl x) (ang x)).wavevector 0 * (waveOf (wl x) (ang x)).wavevector 1,
            (waveOf (wl x) (ang x)).wavevector 0 ^ 2])⁻¹) *ᵥ
          ![-(waveOf (wl x) (ang x)).amplitude 1, (waveOf (wl x) (ang x)).amplitude 0] := fun x => rfl
    simp only [e0, Matrix.inv_def, Qdet, adjugate_fin_two, Ring.inverse_eq_inv', smul_smul, smul_mulVec, Pi.smul_apply,
      smul_eq_mul]
    refine ((hk0.mul hq).mul (hd.inv hd0)).mul ?_
    fin_cases i
    · refine ((((hk0.pow 2).sub ((hk 0).pow 2)).mul hcy).neg.add
        (((hk 0).mul (hk 1)).neg.mul hcx)).congr_of_eventuallyEq (Filter.Eventually.of_forall fun x => ?_)
      simp [mulVec, dotProduct, Fin.sum_univ_two]
    · refine ((((hk 0).mul (hk 1)).mul hcy).add
        (((hk0.pow 2).sub ((hk 1).pow 2)).mul hcx)).congr_of_eventuallyEq (Filter.Eventually.of_forall fun x => ?_)
      simp [mulVec, dotProduct, Fin.sum_univ_two]
  · have hcc : ContinuousAt (fun x => Real.cos ((ang x).1 * (Real.pi / 180))) x0 := ht.cos.continuousAt
    filter_upwards [hwl.continuousAt.eventually_ne hl, hcc.eventually_ne hc] with x a b
    exact waveOf_ok a b

end wave

/-- What depends on the wave and on the superstrate. -/
structure Waves (c : Static) where
  e : PlaneWave
  w : ℝ
  f : ℝ
  k0 : ℂ × ℂ
  kx : Fin c.nh → ℂ
  ky : Fin c.nh → ℂ
  a0 : Idx c.nh → ℂ

/-- The simulation with another wave and superstrate. -/
abbrev Static.vary (c : Static) (W : Waves c) : Static :=
  { c with
    excitation := W.e
    omega := W.w
    incidentFlux := W.f
    k0para := W.k0
    kx := W.kx
    ky := W.ky
    a0 := W.a0 }

/-- Smooth dependence. -/
structure SmW {c : Static} (n : WithTop ℕ∞) (x0 : V) (W : V → Waves c) : Prop where
  w0 : (W x0).w ≠ 0
  w : ContDiffAt ℝ n (fun x => (W x).w) x0
  f : ContDiffAt ℝ n (fun x => (W x).f) x0
  kx : SmV n x0 fun x => (W x).kx
  ky : SmV n x0 fun x => (W x).ky
  a0 : SmV n x0 fun x => (W x).a0

theorem value_smooth {s : List ℕ} {d : V → List ℕ → ℂ} (hd : ∀ idx, ContDiffAt ℝ n (fun x => d x idx) x0) :
    ContDiffAt ℝ n (fun x => NdArr.value ⟨s, d x⟩) x0 := by
  unfold NdArr.value
  rcases s with _ | ⟨a, s⟩
  · exact hd _
  · exact hd _

theorem csqrt_real {v : ℂ} (h : v.im = 0) (hp : 0 < v.re) : (csqrt v).im = 0 := by
  have : v = ((v.re : ℝ) : ℂ) := Complex.ext rfl (by simpa using h)
  rw [this, csqrt_ofReal hp.le]
  exact Complex.ofReal_im _

theorem kxOf_im {r : Matrix (Fin 2) (Fin 2) ℝ} {k0 : ℂ × ℂ} (h : k0.1.im = 0) (g : ℤ × ℤ) : (kxOf r k0 g).im = 0 := by
  simp [kxOf, h]

theorem kyOf_im {r : Matrix (Fin 2) (Fin 2) ℝ} {k0 : ℂ × ℂ} (h : k0.2.im = 0) (g : ℤ × ℤ) : (kyOf r k0 g).im = 0 := by
  simp [kyOf, h]

variable {E : Ext} {c : Static} {mats : ℕ → LayerSpec} {th : V → ℕ → ℝ} {eps : V → ℕ → List ℕ → ℂ}

theorem simInit_vary {lats : ℕ → Lattice} {stack : List ℕ} {e : V → PlaneWave} {nh : ℤ} {form : String}
    (he : SmPW n x0 e) (h : simInit E lats (withMaterials mats (th x0) (eps x0)) stack (e x0) nh form = .ok c)
    (heps : ∀ r ∈ stack, ∀ idx, ContDiffAt ℝ n (fun x => eps x r idx) x0) (hmu : ∀ r ∈ stack, (mats r).mu = 1)
    (hsup : ∀ r, stack.head? = some r → ∀ᶠ x in 𝓝 x0, (withMaterials mats (th x) (eps x) r).epsilon.value.im = 0 ∧
      0 < (withMaterials mats (th x) (eps x) r).epsilon.value.re) :
    ∃ W : V → Waves c, SmW n x0 W ∧ ∀ᶠ x in 𝓝 x0,
      simInit E lats (withMaterials mats (th x) (eps x)) stack (e x) nh form = .ok (c.vary (W x)) ∧
      ∀ i, ((W x).kx i).im = 0 ∧ ((W x).ky i).im = 0 := by
  have hnames : ∀ x, (stack.map fun r => (withMaterials mats (th x) (eps x) r).name) =
      stack.map fun r => (mats r).name := fun x => rfl
  have huni : ∀ x, (stack.all fun r => (withMaterials mats (th x) (eps x) r).isUniform) =
      stack.all fun r => (mats r).isUniform := fun x => rfl
  unfold simInit at h ⊢
  dsimp only at h ⊢
  simp only [hnames] at h ⊢
  split at h
  · simp at h
  rename_i hu
  simp only [if_neg hu]
  rcases stack with _ | ⟨r0, tl⟩
  · simp at h
  dsimp only at h ⊢
  have hlat : ∀ x r, (withMaterials mats (th x) (eps x) r).lattice = (mats r).lattice := fun x r => rfl
  simp only [hlat, huni] at h ⊢
  split at h
  · simp at h
  rename_i hl
  simp only [if_neg hl]
  split at h
  · simp at h
  rename_i hf
  simp only [if_neg hf]
  split at h
  · simp at h
  rename_i hf1
  simp only [if_neg hf1]
  rw [bind_eq_ok] at h
  obtain ⟨⟨H, nn⟩, e1, h⟩ := h
  simp only [e1, except_bind_ok]
  simp only [bind_eq_ok] at h
  obtain ⟨u1, e2, u2, e3, u3, e4, r, e5, h⟩ := h
  simp only [except_pure_eq_ok, Except.ok.injEq] at h
  subst h
  have e3' : ∀ x, raiseIf (¬ ((withMaterials mats (th x) (eps x) r0).isUniform = true ∧
      (withMaterials mats (th x) (eps x) r0).isAnisotropic = false)) PyErr.unmodelled = .ok u2 := fun x => e3
  have hm0 : (mats r0).mu = 1 := hmu r0 (by simp)
  have hm0' : ∀ x, (withMaterials mats (th x) (eps x) r0).mu = 1 := fun x => hm0
  have hs0 := hsup r0 rfl
  have hv : ContDiffAt ℝ n (fun x => (withMaterials mats (th x) (eps x) r0).epsilon.value) x0 :=
    value_smooth (heps r0 (by simp))
  have hslit : (withMaterials mats (th x0) (eps x0) r0).epsilon.value ∈ Complex.slitPlane := by
    rw [Complex.mem_slitPlane_iff]
    exact .inl hs0.self_of_nhds.2
  have hn := contDiffAt_csqrt hv hslit
  have hn0 : csqrt (withMaterials mats (th x0) (eps x0) r0).epsilon.value ≠ 0 := by
    intro h0
    have := csqrt_sq (withMaterials mats (th x0) (eps x0) r0).epsilon.value
    rw [h0] at this
    have h2 := hs0.self_of_nhds.2
    rw [← this] at h2
    simp at h2
  have hk : ∀ i, ContDiffAt ℝ n (fun x => ((e x).wavevector i : ℂ) * csqrt (withMaterials mats (th x) (eps x) r0).epsilon.value) x0 :=
    fun i => (contDiffAt_ofReal (he.k i)).mul hn
  let K : V → ℂ × ℂ := fun x => k0para (e x).wavevector (csqrt ((withMaterials mats (th x) (eps x) r0).epsilon.value * 1))
  have hK1 : ContDiffAt ℝ n (fun x => (K x).1) x0 := by simp only [K, k0para, mul_one]; exact hk 0
  have hK2 : ContDiffAt ℝ n (fun x => (K x).2) x0 := by simp only [K, k0para, mul_one]; exact hk 1
  refine ⟨fun x => ⟨e x, 2 * Real.pi * (1 / (e x).wavelength),
    ((Real.cos (e x).theta : ℂ) / csqrt ((withMaterials mats (th x) (eps x) r0).epsilon.value * 1)).re, K x,
    fun i => kxOf r (K x) (H.get i), fun i => kyOf r (K x) (H.get i),
    Sum.elim (fun i => if (i : ℕ) = zerothIndex H then ((e x).a0 0 : ℂ) else 0)
      (fun i => if (i : ℕ) = zerothIndex H then ((e x).a0 1 : ℂ) else 0)⟩, ⟨?_, ?_, ?_, ?_, ?_, ?_⟩, ?_⟩
  · have := he.wl0
    positivity
  · simp only [one_div]
    exact contDiffAt_const.mul (he.wl.inv he.wl0)
  · simp only [mul_one, div_eq_mul_inv]
    exact Complex.reCLM.contDiff.contDiffAt.comp x0 ((contDiffAt_ofReal he.theta.cos).mul (hn.inv hn0))
  · intro i
    exact (hK1.add contDiffAt_const).add contDiffAt_const
  · intro i
    exact (hK2.add contDiffAt_const).add contDiffAt_const
  · rintro (i | i)
    · simp only [Sum.elim_inl]
      split_ifs
      · exact contDiffAt_ofReal (he.a0 0)
      · exact contDiffAt_const
    · simp only [Sum.elim_inr]
      split_ifs
      · exact contDiffAt_ofReal (he.a0 1)
      · exact contDiffAt_const
  · filter_upwards [hs0] with x hx
    have hne : (withMaterials mats (th x) (eps x) r0).epsilon.value * (withMaterials mats (th x) (eps x) r0).mu ≠ 0 := by
      rw [hm0', mul_one]
      intro h0
      rw [h0] at hx
      simp at hx
    have hreal : ∀ i, (((e x).wavevector i : ℂ) * csqrt ((withMaterials mats (th x) (eps x) r0).epsilon.value * 1)).im = 0 := by
      intro i
      rw [mul_one, Complex.im_ofReal_mul, csqrt_real hx.1 hx.2, mul_zero]
    refine ⟨?_, fun i => ⟨kxOf_im (hreal 0) _, kyOf_im (hreal 1) _⟩⟩
    simp only [e2, e3', e5, except_bind_ok]
    rw [(raiseIf_ok (u := ())).mpr hne]
    simp only [hm0', except_bind_ok, K]
    rfl

end Nannos
