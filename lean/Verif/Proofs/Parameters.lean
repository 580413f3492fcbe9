import Verif.Proofs.ParamFormula
import Verif.Proofs.ParamMedium

/-! Results as smooth functions of materials, thicknesses, wavelength and angles (C89). -/

namespace Nannos

open Matrix Spec Topology

/-! ### Formulas for one simulation -/

section one
variable {E : Ext} {c : Static} {mats : ℕ → LayerSpec} {A : ℕ → LayerAttr c.nh}

theorem valS_full (hf : ∀ r ∈ c.stack, LayerFix E c mats A r) {S} (h : valS c mats A (.ok ()) none = .ok S) :
    loopS (stackModes c mats A) (0 : ℕ) (((stackModes c mats A).length - 1 : ℕ) : ℤ) = .ok S := by
  have h2 := (steps_of_valS hf h).1
  rw [valS_none, valS_solved hf] at h
  have hl := stackModes_length c mats A
  have : ((c.stack.length : ℤ) - 1) = (((stackModes c mats A).length - 1 : ℕ) : ℤ) := by omega
  rw [this] at h
  exact ((freshS_ok (i := 0)).mp h).2

variable {P : ℕ → Matrix (Idx c.nh) (Idx c.nh) ℂ} {e : ℕ → Matrix (Fin c.nh) (Fin c.nh) ℂ} {z : ℕ → ℝ} {r0 rN : ℕ}

/-- The efficiencies, from the media of the layers. -/
theorem eff_formula (hom : c.omega ≠ 0) (hmu : ∀ r ∈ c.stack, (mats r).mu = 1) (hE : EigContract E)
    (hw : WellPlaced mats c.stack) (hf : ∀ r ∈ c.stack, LayerFix E c mats A r)
    (hP : ∀ (k r : ℕ), c.stack[k]? = some r → Medium E c mats r (P k) (e k))
    (hz : ∀ (k r : ℕ), c.stack[k]? = some r → (mats r).thickness.getD 0 = z k)
    (h0 : c.stack[0]? = some r0) (hN : c.stack[c.stack.length - 1]? = some rN) (hu0 : (mats r0).isUniform = true)
    (huN : (mats rN).isUniform = true) {RT} (hv : EffV c mats A (.ok ()) RT) :
    Formula c mats P e z r0 rN ∧ c.incidentFlux ≠ 0 ∧ ∃ f0 fN,
      poyntingFlux c (outer c (mats r0)) c.a0 (fun i => outgoing c mats P e z r0 rN (.inl i)) = .ok f0 ∧
      poyntingFlux c (outer c (mats rN)) (fun i => outgoing c mats P e z r0 rN (.inr i)) 0 = .ok fN ∧
      RT = (fun i => -f0.2 i / c.incidentFlux, fun i => fN.1 i / c.incidentFlux) := by
  obtain ⟨-, S, r0', rN', M0, MN, f0, fN, hS, hr0, hrN, hM0, hMN, hf0, hfN, hne, rfl⟩ := hv
  obtain rfl : r0' = r0 := Option.some.inj (((pyGet_nat c.stack 0 r0').mp hr0).symm.trans h0)
  obtain rfl : rN' = rN := Option.some.inj ((SameMedia.pyGet_last hrN).symm.trans hN)
  have st := steps_of_valS hf hS
  obtain ⟨amp, a1, a2, a3, a4⟩ := solution_ext c.a0 (valS_full hf hS)
  have hlen := stackModes_length c mats A
  rw [hlen] at a3 a4
  obtain ⟨g1, g2, g3, -⟩ := formula_of_solution hom hmu hE hw hf hP hz h0 hN hu0 huN st a1 a4
  rw [a2] at g2
  rw [a3] at g3
  have hm0 := List.mem_of_getElem? h0
  have hmN := List.mem_of_getElem? hN
  have e0 : M0 = outer c (mats r0') := by
    rw [(hf _ hm0).form.modesD] at hM0
    rw [← Except.ok.inj hM0]
    exact (modesD_outer (hf _ hm0) (not_copy hw h0 hu0) hu0 (hmu _ hm0)).1
  have eN : MN = outer c (mats rN') := by
    rw [(hf _ hmN).form.modesD] at hMN
    rw [← Except.ok.inj hMN]
    exact (modesD_outer (hf _ hmN) (not_copy hw hN huN) huN (hmu _ hmN)).1
  rw [e0, g2] at hf0
  rw [eN, g3] at hfN
  exact ⟨g1, hne, f0, fN, hf0, hfN, rfl⟩

/-- The fields of a harmonic vector `v` of tangential fields. -/
noncomputable def fieldOf (c : Static) (e : Matrix (Fin c.nh) (Fin c.nh) ℂ) (v : Idx c.nh ⊕ Idx c.nh → ℂ) : FieldF c.nh :=
  ⟨fun i => v (.inl (.inr i)) / c.omega, fun i => -(v (.inl (.inl i)) / c.omega),
    e⁻¹ *ᵥ fun i => (c.ky i * v (.inr (.inl i)) - c.kx i * v (.inr (.inr i))) / c.omega,
    fun i => v (.inr (.inl i)), fun i => v (.inr (.inr i)),
    fun i => (c.kx i * -(v (.inl (.inl i)) / c.omega) - c.ky i * (v (.inl (.inr i)) / c.omega)) / c.omega⟩

/-- Tangential fields at depth `t` of the layer at position `k`. -/
noncomputable def tangential (c : Static) (mats : ℕ → LayerSpec) (P : ℕ → Matrix (Idx c.nh) (Idx c.nh) ℂ)
    (e : ℕ → Matrix (Fin c.nh) (Fin c.nh) ℂ) (z : ℕ → ℝ) (r0 rN k : ℕ) (t : ℝ) : Idx c.nh ⊕ Idx c.nh → ℂ :=
  propag ((c.omega : ℂ) ^ 2 • 1 - kEps c.kx c.ky (e k)⁻¹) (P k - ((c.omega : ℂ) ^ 2)⁻¹ • kMu c.kx c.ky) t *ᵥ
    (through (fun k => (c.omega : ℂ) ^ 2 • 1 - kEps c.kx c.ky (e k)⁻¹)
      (fun k => P k - ((c.omega : ℂ) ^ 2)⁻¹ • kMu c.kx c.ky) z k *ᵥ
      fieldVec (outer c (mats r0)) c.a0 (fun i => outgoing c mats P e z r0 rN (.inl i)) 0)

/-- The fields, from the media of the layers. -/
theorem field_formula (hom : c.omega ≠ 0) (hmu : ∀ r ∈ c.stack, (mats r).mu = 1) (hE : EigContract E)
    (hw : WellPlaced mats c.stack) (hf : ∀ r ∈ c.stack, LayerFix E c mats A r)
    (hP : ∀ (k r : ℕ), c.stack[k]? = some r → Medium E c mats r (P k) (e k))
    (hz : ∀ (k r : ℕ), c.stack[k]? = some r → (mats r).thickness.getD 0 = z k)
    (h0 : c.stack[0]? = some r0) (hN : c.stack[c.stack.length - 1]? = some rN) (hu0 : (mats r0).isUniform = true)
    (huN : (mats rN).isUniform = true) {r : ℕ} {i : ℤ} (hr : pyGet c.stack i = .ok r) {ab}
    (hv : AmpV c mats A (.ok ()) i ab) {t F} (hF : fieldAt c (mats r) (A r) ab.1 ab.2 t = .ok F) :
    Formula c mats P e z r0 rN ∧ ∃ k, pyIdx c.stack.length i = some k ∧ c.stack[k]? = some r ∧ (e k).det ≠ 0 ∧
      F = fieldOf c (e k) (tangential c mats P e z r0 rN k t) := by
  have st := steps_of_ampV hf hv
  obtain ⟨k, u1, amp, v1, v2, v3⟩ := ampV_solution hf hv
  have hk : c.stack[k]? = some r := by
    unfold pyGet at hr
    rw [u1] at hr
    dsimp only at hr
    rcases hc : c.stack[k]? with _ | s
    · rw [hc] at hr; simp at hr
    · rw [hc] at hr; exact congrArg some (Except.ok.inj hr)
  have hrm := List.mem_of_getElem? hk
  obtain ⟨g1, -, -, g4⟩ := formula_of_solution hom hmu hE hw hf hP hz h0 hN hu0 huN st v1 v3
  obtain ⟨P', e', m1, m2⟩ := solved_medium (stack := c.stack) hmu hE hw hf k r hk
  obtain ⟨rfl, rfl⟩ := Medium.unique m1 (hP k r hk)
  refine ⟨g1, k, u1, hk, m2.det, ?_⟩
  obtain ⟨M, d, hM, -, -, hS⟩ := fieldAt_spec hF
  have hMd : modesD (mats r) (A r) = M := by
    rw [(hf _ hrm).form.modesD] at hM
    exact Except.ok.inj hM
  have ht := g4 k r t hk
  rw [hMd, v2] at ht
  have ht' : fieldVec M ab.1 ab.2 t = tangential c mats P e z r0 rN k t := ht
  rw [← ht']
  have hx : F.hx = fun i => tanH M ab.1 ab.2 t (.inl i) := funext hS.hx
  have hy : F.hy = fun i => tanH M ab.1 ab.2 t (.inr i) := funext hS.hy
  have ex : F.ex = fun i => tanE M ab.1 ab.2 t (.inr i) / c.omega := funext hS.ex
  have ey : F.ey = fun i => -(tanE M ab.1 ab.2 t (.inl i) / c.omega) := funext hS.ey
  have hz' : F.hz = fun i => (c.kx i * F.ey i - c.ky i * F.ex i) / c.omega := funext hS.hz
  have ez := m2.normal _ _ hS.ez
  have ez' : F.ez = (e k)⁻¹ *ᵥ fun i => (c.ky i * F.hx i - c.kx i * F.hy i) / c.omega := by
    rw [← ez, mulVec_mulVec, nonsing_inv_mul _ (det_unit m2.det), one_mulVec]
  rw [ex, ey] at hz'
  rw [hx, hy] at ez'
  rcases F with ⟨⟩
  simp only at hx hy ex ey hz' ez'
  subst hx hy ex ey hz' ez'
  rfl

end one

/-! ### Smoothness -/

section smooth
variable {V : Type} [NormedAddCommGroup V] [NormedSpace ℝ V] {n : WithTop ℕ∞} {x0 : V}
variable {E : Ext} {c : Static} {W : V → Waves c} {mats : ℕ → LayerSpec} {th : V → ℕ → ℝ} {eps : V → ℕ → List ℕ → ℂ}

theorem SmM.kEps {m : ℕ} {kx ky : V → Fin m → ℂ} (hx : SmV n x0 kx) (hy : SmV n x0 ky)
    {eta : V → Matrix (Fin m) (Fin m) ℂ} (he : SmM n x0 eta) : SmM n x0 fun x => Spec.kEps (kx x) (ky x) (eta x) := by
  rintro (i | i) (j | j)
  · exact ((hy i).mul (he i j)).mul (hy j)
  · exact (((hy i).mul (he i j)).mul (hx j)).neg
  · exact (((hx i).mul (he i j)).mul (hy j)).neg
  · exact ((hx i).mul (he i j)).mul (hx j)

theorem SmM.kMu {m : ℕ} {kx ky : V → Fin m → ℂ} (hx : SmV n x0 kx) (hy : SmV n x0 ky) :
    SmM n x0 fun x => Spec.kMu (kx x) (ky x) := by
  have hite : ∀ (i j : Fin m) (f : V → ℂ), ContDiffAt ℝ n f x0 → ContDiffAt ℝ n (fun x => if i = j then f x else 0) x0 := by
    intro i j f hf
    by_cases h : i = j
    · simpa [h] using hf
    · simpa [h] using contDiffAt_const
  rintro (i | i) (j | j)
  · exact hite i j _ ((hx i).mul (hx j))
  · exact hite i j _ ((hx i).mul (hy j))
  · exact hite i j _ ((hy i).mul (hx j))
  · exact hite i j _ ((hy i).mul (hy j))

theorem SmW.w2 (hW : SmW n x0 W) : ContDiffAt ℝ n (fun x => ((W x).w : ℂ) ^ 2) x0 := (contDiffAt_ofReal hW.w).pow 2

theorem SmW.w2i (hW : SmW n x0 W) : ContDiffAt ℝ n (fun x => (((W x).w : ℂ) ^ 2)⁻¹) x0 :=
  hW.w2.inv (pow_ne_zero 2 (by exact_mod_cast hW.w0))

theorem SmM.Qmat (hW : SmW n x0 W) {e : V → Matrix (Fin c.nh) (Fin c.nh) ℂ} (he : SmM n x0 e) :
    SmM n x0 fun x => ((W x).w : ℂ) ^ 2 • (1 : Matrix (Idx c.nh) (Idx c.nh) ℂ) - Spec.kEps (W x).kx (W x).ky (e x) :=
  (SmM.smul hW.w2 (SmM.const 1)).sub (SmM.kEps hW.kx hW.ky he)

theorem SmM.Bmat (hW : SmW n x0 W) {P : V → Matrix (Idx c.nh) (Idx c.nh) ℂ} (hP : SmM n x0 P) :
    SmM n x0 fun x => P x - (((W x).w : ℂ) ^ 2)⁻¹ • Spec.kMu (W x).kx (W x).ky :=
  hP.sub (SmM.smul hW.w2i (SmM.kMu hW.kx hW.ky))

theorem smooth_thickness {r : ℕ} (hth : ContDiffAt ℝ n (fun x => th x r) x0) :
    ContDiffAt ℝ n (fun x => (withMaterials mats (th x) (eps x) r).thickness.getD 0) x0 := by
  show ContDiffAt ℝ n (fun x => ((mats r).thickness.map fun _ => th x r).getD 0) x0
  rcases (mats r).thickness with _ | d
  · exact contDiffAt_const
  · exact hth

/-- The modes of an outer layer. -/
theorem smooth_outer (hW : SmW n x0 W) (hre : ∀ᶠ x in 𝓝 x0, ∀ i, ((W x).kx i).im = 0 ∧ ((W x).ky i).im = 0) {r : ℕ}
    (heps : ∀ idx, ContDiffAt ℝ n (fun x => eps x r idx) x0) (hth : ContDiffAt ℝ n (fun x => th x r) x0)
    (him : ∀ᶠ x in 𝓝 x0, 0 ≤ (withMaterials mats (th x) (eps x) r).epsilon.value.im)
    (h0 : (withMaterials mats (th x0) (eps x0) r).epsilon.value ≠ 0)
    (hq : ∀ k, (outer (c.vary (W x0)) (withMaterials mats (th x0) (eps x0) r)).q k ≠ 0) :
    SmMd (m := Idx c.nh) n x0 fun x => outer (c.vary (W x)) (withMaterials mats (th x) (eps x) r) := by
  have hv : ContDiffAt ℝ n (fun x => (withMaterials mats (th x) (eps x) r).epsilon.value) x0 := value_smooth heps
  have hs : ∀ i : Fin c.nh, ContDiffAt ℝ n (fun x => csqrt ((withMaterials mats (th x) (eps x) r).epsilon.value *
      ((W x).w : ℂ) ^ 2 - (W x).kx i ^ 2 - (W x).ky i ^ 2)) x0 := by
    intro i
    obtain ⟨s, s1, s2⟩ := csqrt_branch (((hv.mul hW.w2).sub ((hW.kx i).pow 2)).sub ((hW.ky i).pow 2)) (by
      intro h
      refine hq (.inl i) ?_
      show csqrt _ = 0
      exact (congrArg csqrt h).trans csqrt_zero) (by
      filter_upwards [hre, him] with x x1 x2
      obtain ⟨y1, y2⟩ := x1 i
      have z1 : (((W x).kx i) ^ 2).im = 0 := by simp [sq, y1]
      have z2 : (((W x).ky i) ^ 2).im = 0 := by simp [sq, y2]
      have z3 : ((withMaterials mats (th x) (eps x) r).epsilon.value * ((W x).w : ℂ) ^ 2).im =
          (withMaterials mats (th x) (eps x) r).epsilon.value.im * (W x).w ^ 2 := by
        have : ((W x).w : ℂ) ^ 2 = (((W x).w ^ 2 : ℝ) : ℂ) := by push_cast; rfl
        rw [this, Complex.mul_im, Complex.ofReal_re, Complex.ofReal_im]
        ring
      rw [Complex.sub_im, Complex.sub_im, z1, z2, z3]
      have := mul_nonneg x2 (sq_nonneg (W x).w)
      linarith)
    exact s1.congr_of_eventuallyEq s2
  refine ⟨?_, SmM.const (1 : Matrix (Idx c.nh) (Idx c.nh) ℂ), ?_, ?_⟩
  · rintro (i | i)
    · exact hs i
    · exact hs i
  · have hi : ContDiffAt ℝ n (fun x => ((withMaterials mats (th x) (eps x) r).epsilon.value)⁻¹) x0 := hv.inv h0
    have hm : SmM n x0 fun x => (1 / (withMaterials mats (th x) (eps x) r).epsilon.value) •
        (1 : Matrix (Fin c.nh) (Fin c.nh) ℂ) := by
      simp only [one_div]
      exact SmM.smul hi (SmM.const 1)
    exact SmM.Qmat hW hm
  · exact smooth_thickness (mats := mats) (eps := eps) hth

/-- The flux, as a function of the parameters. -/
theorem smE_flux (hW : SmW n x0 W) {M : V → Modes (Idx c.nh)} (hM : SmMd n x0 M) {a b : V → Idx c.nh → ℂ}
    (ha : SmV n x0 a) (hb : SmV n x0 b) (hq : ∀ k, (M x0).q k ≠ 0) :
    ∃ f : V → (Fin c.nh → ℝ) × (Fin c.nh → ℝ),
      (∀ i, ContDiffAt ℝ n (fun x => (f x).1 i) x0 ∧ ContDiffAt ℝ n (fun x => (f x).2 i) x0) ∧
      ∀ x g, poyntingFlux (c.vary (W x)) (M x) (a x) (b x) = .ok g → g = f x := by
  have hre : ∀ {f : V → ℂ}, ContDiffAt ℝ n f x0 → ContDiffAt ℝ n (fun x => (f x).re) x0 := fun hf =>
    Complex.reCLM.contDiff.contDiffAt.comp x0 hf
  have hst : ∀ {f : V → ℂ}, ContDiffAt ℝ n f x0 → ContDiffAt ℝ n (fun x => star (f x)) x0 := fun hf =>
    Complex.conjCLE.contDiff.contDiffAt.comp x0 hf
  have pa := hM.phi.mulVec ha
  have pb := hM.phi.mulVec hb
  have hd : SmM n x0 fun x => diagonal fun k => 1 / (((W x).w : ℂ) * (M x).q k) := by
    refine SmM.diagonal fun k => ?_
    have hne : ((W x0).w : ℂ) * (M x0).q k ≠ 0 := mul_ne_zero (by exact_mod_cast hW.w0) (hq k)
    have : ContDiffAt ℝ n (fun x => (((W x).w : ℂ) * (M x).q k)⁻¹) x0 := ((contDiffAt_ofReal hW.w).mul (hM.q k)).inv hne
    simp only [one_div]
    exact this
  have hA := (hM.Q.mul hM.phi).mul hd
  have qa := hA.mulVec ha
  have qb := hA.mulVec hb
  refine ⟨fun x =>
    let A := (M x).Q * (M x).phi * diagonal fun k => 1 / (((W x).w : ℂ) * (M x).q k)
    let phia := (M x).phi *ᵥ a x
    let phib := (M x).phi *ᵥ b x
    let Aa := A *ᵥ a x
    let Ab := A *ᵥ b x
    let cross : Idx c.nh → ℂ := fun k => (1 / 2) * (star (phib k) * Aa k - star (Ab k) * phia k)
    let fwd : Idx c.nh → ℂ := fun k => ((star (Aa k) * phia k).re : ℂ) + cross k
    let bwd : Idx c.nh → ℂ := fun k => -((star (Ab k) * phib k).re : ℂ) + star (cross k)
    (fun i => (fwd (Sum.inl i) + fwd (Sum.inr i)).re, fun i => (bwd (Sum.inl i) + bwd (Sum.inr i)).re), ?_, ?_⟩
  · refine fun i => ⟨?_, ?_⟩
    · have := fun k => (contDiffAt_ofReal (hre ((hst (qa k)).mul (pa k)))).add
        (contDiffAt_const (c := (1 / 2 : ℂ)).mul (((hst (pb k)).mul (qa k)).sub ((hst (qb k)).mul (pa k))))
      exact hre ((this (.inl i)).add (this (.inr i)))
    · have := fun k => (contDiffAt_ofReal (hre ((hst (qb k)).mul (pb k)))).neg.add
        (hst (contDiffAt_const (c := (1 / 2 : ℂ)).mul (((hst (pb k)).mul (qa k)).sub ((hst (qb k)).mul (pa k)))))
      exact hre ((this (.inl i)).add (this (.inr i)))
  · intro x g hg
    unfold poyntingFlux at hg
    split at hg
    · cases hg
    · exact (Except.ok.inj hg).symm

/-- The data of a family of structures around `x0`. -/
structure Family (n : WithTop ℕ∞) (x0 : V) (c : Static) (W : V → Waves c) (mats : ℕ → LayerSpec) (th : V → ℕ → ℝ)
    (eps : V → ℕ → List ℕ → ℂ) (P : V → ℕ → Matrix (Idx c.nh) (Idx c.nh) ℂ) (e : V → ℕ → Matrix (Fin c.nh) (Fin c.nh) ℂ)
    (z : V → ℕ → ℝ) (r0 rN : ℕ) : Prop where
  sW : SmW n x0 W
  sP : ∀ k < c.stack.length, SmM n x0 fun x => P x k
  se : ∀ k < c.stack.length, SmM n x0 fun x => e x k
  d : ∀ k < c.stack.length, (e x0 k).det ≠ 0
  sz : ∀ k < c.stack.length, ContDiffAt ℝ n (fun x => z x k) x0
  m0 : SmMd (m := Idx c.nh) n x0 fun x => outer (c.vary (W x)) (withMaterials mats (th x) (eps x) r0)
  mN : SmMd (m := Idx c.nh) n x0 fun x => outer (c.vary (W x)) (withMaterials mats (th x) (eps x) rN)
  f : Formula (c.vary (W x0)) (withMaterials mats (th x0) (eps x0)) (P x0) (e x0) (z x0) r0 rN

variable {P : V → ℕ → Matrix (Idx c.nh) (Idx c.nh) ℂ} {e : V → ℕ → Matrix (Fin c.nh) (Fin c.nh) ℂ} {z : V → ℕ → ℝ}
  {r0 rN : ℕ}

theorem Family.through (h : Family n x0 c W mats th eps P e z r0 rN) {k : ℕ} (hk : k < c.stack.length) :
    SmM n x0 fun x => Nannos.through (fun k => ((W x).w : ℂ) ^ 2 • 1 - Spec.kEps (W x).kx (W x).ky (e x k)⁻¹)
      (fun k => P x k - (((W x).w : ℂ) ^ 2)⁻¹ • Spec.kMu (W x).kx (W x).ky) (z x) k :=
  SmM.through (Q := fun x k => ((W x).w : ℂ) ^ 2 • 1 - Spec.kEps (W x).kx (W x).ky (e x k)⁻¹)
    (B := fun x k => P x k - (((W x).w : ℂ) ^ 2)⁻¹ • Spec.kMu (W x).kx (W x).ky) (z := z) k fun j hj =>
      ⟨SmM.Qmat h.sW (SmM.inv (h.se j (by omega)) (h.d j (by omega))), SmM.Bmat h.sW (h.sP j (by omega)), h.sz j (by omega)⟩

theorem SmV.neg {a : Type} [Fintype a] {A : V → a → ℂ} (hA : SmV n x0 A) : SmV n x0 fun x => -A x := fun i => (hA i).neg

theorem Family.outgoing (h : Family n x0 c W mats th eps P e z r0 rN) :
    SmV (a := Idx c.nh ⊕ Idx c.nh) n x0 fun x => Nannos.outgoing (c.vary (W x)) (withMaterials mats (th x) (eps x)) (P x) (e x) (z x) r0 rN := by
  have hl : c.stack.length - 1 < c.stack.length := by
    have := (List.getElem?_eq_some_iff.mp h.f.head).1
    have : 0 < c.stack.length := this
    omega
  have hT := h.through hl
  have hs := SmM.sysMat hT h.m0 h.mN h.f.q0 h.f.qN
  have hi := SmM.inv hs h.f.det
  refine hi.mulVec (SmV.neg (hT.mulVec ((h.m0.M h.f.q0).mulVec ?_)))
  rintro (i | i)
  · exact h.sW.a0 i
  · exact contDiffAt_const

theorem SmMd.start {m : Type} [Fintype m] [DecidableEq m] {L : V → Modes m} (h : SmMd n x0 L) (hq : ∀ k, (L x0).q k ≠ 0)
    {a b : V → m → ℂ} (ha : SmV n x0 a) (hb : SmV n x0 b) : SmV n x0 fun x => fieldVec (L x) (a x) (b x) 0 := by
  simp only [fieldVec_top]
  refine (h.M hq).mulVec ?_
  have := h.f.mulVec hb
  rintro (i | i)
  · exact ha i
  · exact this i

/-- The efficiencies. -/
theorem Family.efficiencies (h : Family n x0 c W mats th eps P e z r0 rN) (hf : (W x0).f ≠ 0) :
    ∃ R T : Fin c.nh → V → ℝ, (∀ i, ContDiffAt ℝ n (R i) x0 ∧ ContDiffAt ℝ n (T i) x0) ∧
      ∀ x f0 fN, poyntingFlux (c.vary (W x)) (outer (c.vary (W x)) (withMaterials mats (th x) (eps x) r0)) (W x).a0
          (fun i => Nannos.outgoing (c.vary (W x)) (withMaterials mats (th x) (eps x)) (P x) (e x) (z x) r0 rN (.inl i)) = .ok f0 →
        poyntingFlux (c.vary (W x)) (outer (c.vary (W x)) (withMaterials mats (th x) (eps x) rN))
          (fun i => Nannos.outgoing (c.vary (W x)) (withMaterials mats (th x) (eps x)) (P x) (e x) (z x) r0 rN (.inr i)) 0 = .ok fN →
        ∀ i, -f0.2 i / (W x).f = R i x ∧ fN.1 i / (W x).f = T i x := by
  have ho := h.outgoing
  obtain ⟨F0, s0, k0⟩ := smE_flux h.sW h.m0 h.sW.a0 (b := fun x i => Nannos.outgoing (c.vary (W x))
    (withMaterials mats (th x) (eps x)) (P x) (e x) (z x) r0 rN (.inl i)) (fun i => ho (.inl i)) h.f.q0
  obtain ⟨FN, sN, kN⟩ := smE_flux h.sW h.mN (a := fun x i => Nannos.outgoing (c.vary (W x))
    (withMaterials mats (th x) (eps x)) (P x) (e x) (z x) r0 rN (.inr i)) (fun i => ho (.inr i)) (SmV.const 0) h.f.qN
  refine ⟨fun i x => -(F0 x).2 i / (W x).f, fun i x => (FN x).1 i / (W x).f, fun i =>
    ⟨(s0 i).2.neg.div h.sW.f hf, (sN i).1.div h.sW.f hf⟩, fun x f0 fN h0 hN i => ?_⟩
  rw [k0 x f0 h0, kN x fN hN]
  exact ⟨rfl, rfl⟩

/-- The fields. -/
theorem Family.fields (h : Family n x0 c W mats th eps P e z r0 rN) {k : ℕ} (hk : k < c.stack.length) {t : V → ℝ}
    (ht : ContDiffAt ℝ n t x0) :
    SmoothField (nh := c.nh) n x0 fun x => fieldOf (c.vary (W x)) (e x k)
      (tangential (c.vary (W x)) (withMaterials mats (th x) (eps x)) (P x) (e x) (z x) r0 rN k (t x)) := by
  have ho := h.outgoing
  have he := SmM.inv (h.se k hk) (h.d k hk)
  have hv : SmV (a := Idx c.nh ⊕ Idx c.nh) n x0 fun x => tangential (c.vary (W x)) (withMaterials mats (th x) (eps x)) (P x) (e x) (z x) r0 rN k (t x) := by
    have h1 := SmM.propag (SmM.Qmat h.sW he) (SmM.Bmat h.sW (h.sP k hk)) ht
    have h2 := h.through hk
    have h3 : SmV (a := Idx c.nh ⊕ Idx c.nh) n x0 fun x => fieldVec (outer (c.vary (W x)) (withMaterials mats (th x) (eps x) r0))
        (W x).a0 (fun i => Nannos.outgoing (c.vary (W x)) (withMaterials mats (th x) (eps x)) (P x) (e x) (z x) r0 rN (.inl i)) 0 := by
      exact SmMd.start h.m0 h.f.q0 h.sW.a0 (fun i => ho (.inl i))
    have h4 := h1.mulVec (h2.mulVec h3)
    unfold tangential
    exact h4
  have hw : ∀ {f : V → ℂ}, ContDiffAt ℝ n f x0 → ContDiffAt ℝ n (fun x => f x / ((W x).w : ℂ)) x0 := by
    intro f hf
    have : ContDiffAt ℝ n (fun x => ((W x).w : ℂ)⁻¹) x0 := (contDiffAt_ofReal h.sW.w).inv (by exact_mod_cast h.sW.w0)
    simp only [div_eq_mul_inv]
    exact hf.mul this
  have ex := fun i : Fin c.nh => hw (hv (.inl (.inr i)))
  have ey := fun i : Fin c.nh => (hw (hv (.inl (.inl i)))).neg
  have hd : SmV n x0 fun x (i : Fin c.nh) => ((W x).ky i *
      tangential (c.vary (W x)) (withMaterials mats (th x) (eps x)) (P x) (e x) (z x) r0 rN k (t x) (.inr (.inl i)) - (W x).kx i *
      tangential (c.vary (W x)) (withMaterials mats (th x) (eps x)) (P x) (e x) (z x) r0 rN k (t x) (.inr (.inr i))) / ((W x).w : ℂ) :=
    fun i => hw (((h.sW.ky i).mul (hv (.inr (.inl i)))).sub ((h.sW.kx i).mul (hv (.inr (.inr i)))))
  exact fun i => ⟨ex i, ey i, he.mulVec hd i, hv (.inr (.inl i)), hv (.inr (.inr i)),
    hw (((h.sW.kx i).mul (ey i)).sub ((h.sW.ky i).mul (ex i)))⟩

end smooth

end Nannos
