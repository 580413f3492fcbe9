import Verif.Proofs.AllForms
import Verif.Spec.Magnetic

/-! Layers with a permeability: modes, Maxwell's equations, power (C79, C80). -/

namespace Nannos

open Matrix Spec

variable {E : Ext} {c : Static}
variable {mats : ℕ → LayerSpec} {A : ℕ → LayerAttr c.nh}

/-- `MediumModes` with a permeability `m`. -/
structure MagModes (c : Static) (L : LayerSpec) (a : LayerAttr c.nh) (m : ℂ)
    (P : Matrix (Idx c.nh) (Idx c.nh) ℂ) (e : Matrix (Fin c.nh) (Fin c.nh) ℂ) : Prop where
  det : e.det ≠ 0
  Q : a.Qeps = some (((c.omega : ℂ) ^ 2 * m) • 1 - kEps c.kx c.ky e⁻¹)
  eig : ∃ ev, a.eig = some ev ∧
    (((c.omega : ℂ) ^ 2 * m) • P - P * kEps c.kx c.ky e⁻¹ - kMu c.kx c.ky) * ev.2 =
      ev.2 * diagonal (fun k => ev.1 k ^ 2)
  normal : ∀ dz x, normalE L a dz = .ok x → e *ᵥ x = dz

theorem magWave_factor {nh : ℕ} {omega : ℝ} (h : omega ≠ 0) {m : ℂ} (hm : m ≠ 0) (kx ky : Fin nh → ℂ)
    (P : Matrix (Idx nh) (Idx nh) ℂ) (eta : Matrix (Fin nh) (Fin nh) ℂ) :
    ((omega : ℂ) ^ 2 * m) • P - P * kEps kx ky eta - kMu kx ky =
      (P - ((omega : ℂ) ^ 2 * m)⁻¹ • kMu kx ky) * (((omega : ℂ) ^ 2 * m) • 1 - kEps kx ky eta) := by
  have h2 : ((omega : ℂ) ^ 2 * m) ≠ 0 := mul_ne_zero (by simpa using h) hm
  rw [Matrix.sub_mul, Matrix.mul_sub, Matrix.mul_sub, Matrix.smul_mul, Matrix.smul_mul, kMu_mul_kEps]
  simp only [Matrix.mul_smul, Matrix.mul_one, smul_smul, inv_mul_cancel₀ h2, one_smul, smul_zero, sub_zero]

theorem uniform_magWave (omega : ℝ) {nh : ℕ} (kx ky : Fin nh → ℂ) {e : ℂ} (he : e ≠ 0) (m : ℂ) :
    ((omega : ℂ) ^ 2 * m) • (e • (1 : Matrix (Idx nh) (Idx nh) ℂ)) -
      (e • (1 : Matrix (Idx nh) (Idx nh) ℂ)) * kEps kx ky ((1 / e) • 1) - kMu kx ky =
      diagonal (fun k => e * m * (omega : ℂ) ^ 2 - (Sum.elim kx kx k) ^ 2 - (Sum.elim ky ky k) ^ 2) := by
  have h1 : e * (1 / e) = 1 := by field_simp
  ext a b
  simp only [Matrix.sub_apply, Matrix.smul_apply, Matrix.smul_mul, Matrix.one_mul]
  rcases a with i | i <;> rcases b with j | j <;> by_cases h : i = j <;>
    simp [kEps, kMu, diagonal, h, one_apply]
  · field_simp; ring
  · field_simp; ring
  · field_simp; ring
  · field_simp

theorem MagModes.of_uniform {L : LayerSpec} {a : LayerAttr c.nh} {Q ev}
    (hb : buildPure E c L = .ok (.uniform Q)) (he : solveUniform L c.omega c.kx c.ky = .ok ev)
    (hQ : a.Qeps = some Q) (ha : a.eig = some ev) :
    MagModes c L a L.mu (L.epsilon.value • 1) (L.epsilon.value • 1) := by
  obtain ⟨h1, h2, h3, h4⟩ := buildPure_uniform_parts hb
  obtain ⟨-, e1, e2⟩ := solveUniform_ok he
  refine ⟨?_, ?_, ⟨ev, ha, ?_⟩, ?_⟩
  · rw [det_smul]; simp [h3]
  · rw [hQ, h4, smul_one_inv h3]
  · rw [smul_one_inv h3, uniform_magWave _ _ _ h3, e1, Matrix.mul_one, Matrix.one_mul]
    congr 1
    funext k
    rw [e2]
    rcases k with i | i <;> simp [csqrt_sq]
  · intro dz x hx
    unfold normalE at hx
    simp only [h1, if_true, h3, if_false, Except.ok.injEq] at hx
    subst hx
    funext i
    simp only [Matrix.smul_mulVec, Matrix.one_mulVec, Pi.smul_apply, smul_eq_mul]
    field_simp

theorem MagModes.of_patterned {L : LayerSpec} {a : LayerAttr c.nh} (hE : EigContract E)
    {M p Q ev} (hb : buildPure E c L = .ok (.patterned M p Q)) (he : solveEigenproblem E M = .ok ev)
    (ha : a = ⟨some M, some p, some Q, some ev⟩) :
    MagModes c L a L.mu p.Peps p.epsHat := by
  obtain ⟨h1, h2, h3, h4, h5, -⟩ := buildPure_patterned_parts hb
  obtain ⟨e1, -, -⟩ := solveEigenproblem_ok he hE
  refine ⟨h2, ?_, ⟨ev, by rw [ha], ?_⟩, ?_⟩
  · rw [ha, h4, h3]
  · rw [← h3, ← h5, e1]
  · intro dz x hx
    unfold normalE at hx
    simp only [h1, Bool.false_eq_true, if_false, ha, attr, except_bind_ok] at hx
    rw [linSolveVec_ok] at hx
    rw [hx.2, Matrix.mulVec_mulVec, Matrix.mul_nonsing_inv _ (det_unit h2), Matrix.one_mulVec]

/-- Every layer of a solved stack has the modes of its medium. -/
theorem solved_magnetic {stack : List ℕ} (hmu : Magnetic mats stack) (hE : EigContract E)
    (hw : WellPlaced mats stack) (hf : ∀ r ∈ stack, LayerFix E c mats A r) :
    ∀ (k r : ℕ), stack[k]? = some r →
      ∃ P e, Medium E c mats r P e ∧ MagModes c (mats r) (A r) (mats r).mu P e := by
  intro k
  induction k using Nat.strong_induction_on with
  | _ k ih =>
    intro r hr
    have hrm : r ∈ stack := List.mem_of_getElem? hr
    cases (hf r hrm).form with
    | uniform Q ev hc hb he hQ ha =>
      obtain ⟨h1, h2, h3, h4⟩ := buildPure_uniform_parts hb
      exact ⟨_, _, .uniform r hc h1 h2, .of_uniform hb he hQ ha⟩
    | patterned M p Q ev hc hb he ha =>
      exact ⟨_, _, .patterned r M p Q hc hb, .of_patterned hE hb he ha⟩
    | copyUniform M p Q ev hc hu hM hp hQ he ha =>
      exact absurd hu (by rw [(hw k r hr hc).2.1]; simp)
    | copyPatterned M p Q ev hc hu ho ha =>
      obtain ⟨⟨j, hj, hj'⟩, -, h3⟩ := hw k r hr hc
      obtain ⟨P, e, h4, h5⟩ := ih j hj _ hj'
      refine ⟨P, e, .copy r P e hc h4, ?_⟩
      have hao : A r = A (mats r).original := by rw [ha, ho]
      rw [hao, (hmu r hrm).2 hc]
      refine ⟨h5.det, h5.Q, h5.eig, ?_⟩
      intro dz x hx
      refine h5.normal dz x ?_
      have hu' : (mats (mats r).original).isUniform = false := by
        unfold LayerSpec.isUniform at hu ⊢
        rw [← h3]; exact hu
      unfold normalE at hx ⊢
      simpa only [hu, hu', Bool.false_eq_true, if_false] using hx

/-- The fields of one layer satisfy Maxwell's equations, if the normal magnetic field is divided by the
permeability. -/
theorem magnetic_of_spec {L : LayerSpec} {a : LayerAttr c.nh} {m P e} (hmu : m ≠ 0) (hm : MagModes c L a m P e)
    {M : Modes (Idx c.nh)} (hM : modesOf L a = .ok M) (hq : ∀ k, (c.omega : ℂ) * M.q k ≠ 0)
    {ai bi : Idx c.nh → ℂ} {F : ℝ → FieldF c.nh} (hF : ∀ z, FieldSpec c L a M ai bi z (F z)) :
    MagneticMaxwell c.omega c.kx c.ky m P e fun z => FieldF.divHz m (F z) := by
  obtain ⟨ev, hev, hw⟩ := hm.eig
  have hMe : M = ⟨ev.1, ev.2, ((c.omega : ℂ) ^ 2 * m) • 1 - kEps c.kx c.ky e⁻¹, L.thickness⟩ := by
    unfold modesOf at hM
    rw [hev, hm.Q] at hM
    simpa [attr] using hM.symm
  have hq0 : ∀ k, M.q k ≠ 0 := fun k h => hq k (by rw [h, mul_zero])
  have hom : ∀ _ : Fin c.nh, c.omega ≠ 0 := fun i h => hq (.inl i) (by rw [h]; simp)
  have hQ : M.Q = ((c.omega : ℂ) ^ 2 * m) • 1 - kEps c.kx c.ky e⁻¹ := by rw [hMe]
  have hR : c.omega ≠ 0 → (P - ((c.omega : ℂ) ^ 2 * m)⁻¹ • kMu c.kx c.ky) * M.Q * M.phi =
      M.phi * diagonal (fun k => M.q k ^ 2) := by
    intro h0
    rw [hQ, ← magWave_factor h0 hmu, hMe]
    exact hw
  have hU := det_unit hm.det
  have ez : ∀ z, (F z).ez = e⁻¹ *ᵥ fun i => (c.ky i * (F z).hx i - c.kx i * (F z).hy i) / c.omega := by
    intro z
    have := hm.normal _ _ (hF z).ez
    rw [← this, mulVec_mulVec, nonsing_inv_mul _ hU, one_mulVec]
  have ez' : ∀ z (i : Fin c.nh), (e⁻¹ *ᵥ fun j => c.ky j * tanH M ai bi z (.inl j) -
      c.kx j * tanH M ai bi z (.inr j)) i = c.omega * (F z).ez i := by
    intro z i
    have h0 : (c.omega : ℂ) ≠ 0 := by exact_mod_cast hom i
    rw [ez z]
    simp only [mulVec, dotProduct, Finset.mul_sum]
    refine Finset.sum_congr rfl fun j _ => ?_
    rw [(hF z).hx, (hF z).hy]
    field_simp
  refine ⟨?_, ?_, ?_, ?_, ?_, ?_⟩ <;> dsimp only [FieldF.divHz]
  · intro z i
    have h0 : (c.omega : ℂ) ≠ 0 := by exact_mod_cast hom i
    have hd := ((tanE_deriv M hq0 ai bi z (.inl i)).div_const (c.omega : ℂ)).neg
    have : (fun z => (F z).ey i) = fun z => -(tanE M ai bi z (.inl i) / c.omega) :=
      funext fun z => (hF z).ey i
    rw [this]
    refine HasDerivAt.congr_deriv hd ?_
    symm
    rw [hQ, sub_mulVec, kEps_mulVec]
    simp only [smul_mulVec, one_mulVec, Pi.sub_apply, Pi.smul_apply, smul_eq_mul, Sum.elim_inl]
    rw [ez' z i, (hF z).hx]
    field_simp
    ring
  · intro z i
    have h0 : (c.omega : ℂ) ≠ 0 := by exact_mod_cast hom i
    have hd := ((tanE_deriv M hq0 ai bi z (.inr i)).div_const (c.omega : ℂ))
    have : (fun z => (F z).ex i) = fun z => (tanE M ai bi z (.inr i) / c.omega) :=
      funext fun z => (hF z).ex i
    rw [this]
    refine HasDerivAt.congr_deriv hd ?_
    symm
    rw [hQ, sub_mulVec, kEps_mulVec]
    simp only [smul_mulVec, one_mulVec, Pi.sub_apply, Pi.smul_apply, smul_eq_mul, Sum.elim_inr]
    rw [ez' z i, (hF z).hy]
    field_simp
    ring
  · intro z i
    have h0 : (c.omega : ℂ) ≠ 0 := by exact_mod_cast hom i
    rw [(hF z).hz]; field_simp
  · intro z i
    have h0 : (c.omega : ℂ) ≠ 0 := by exact_mod_cast hom i
    have hd := tanH_deriv M (hR (hom i)) hq0 ai bi z (.inr i)
    have : (fun z => (F z).hy i) = fun z => tanH M ai bi z (.inr i) := funext fun z => (hF z).hy i
    rw [this]
    refine HasDerivAt.congr_deriv hd ?_
    symm
    rw [sub_mulVec, smul_mulVec, kMu_mulVec]
    simp only [Pi.sub_apply, Pi.smul_apply, smul_eq_mul, Sum.elim_inr]
    rw [tanE_inl (hF z) (hom i), tanE_inr (hF z) (hom i), (hF z).hz]
    have e1 : (P *ᵥ tanE M ai bi z) (.inr i) = c.omega * dispX P (F z).ex (F z).ey i := by
      simp only [mulVec, dotProduct, dispX, Fintype.sum_sum_type, ← Finset.sum_add_distrib, Finset.mul_sum]
      refine Finset.sum_congr rfl fun j _ => ?_
      rw [tanE_inl (hF z) (hom i), tanE_inr (hF z) (hom i)]; ring
    rw [e1]
    field_simp
    ring
  · intro z i
    have h0 : (c.omega : ℂ) ≠ 0 := by exact_mod_cast hom i
    have hd := tanH_deriv M (hR (hom i)) hq0 ai bi z (.inl i)
    have : (fun z => (F z).hx i) = fun z => tanH M ai bi z (.inl i) := funext fun z => (hF z).hx i
    rw [this]
    refine HasDerivAt.congr_deriv hd ?_
    symm
    rw [sub_mulVec, smul_mulVec, kMu_mulVec]
    simp only [Pi.sub_apply, Pi.smul_apply, smul_eq_mul, Sum.elim_inl]
    rw [tanE_inl (hF z) (hom i), tanE_inr (hF z) (hom i), (hF z).hz]
    have e1 : (P *ᵥ tanE M ai bi z) (.inl i) = -(c.omega * dispY P (F z).ex (F z).ey i) := by
      simp only [mulVec, dotProduct, dispY, Fintype.sum_sum_type, ← Finset.sum_add_distrib, mul_neg, neg_neg,
        Finset.mul_sum]
      refine Finset.sum_congr rfl fun j _ => ?_
      rw [tanE_inl (hF z) (hom i), tanE_inr (hF z) (hom i)]; ring
    rw [e1]
    field_simp
    ring
  · intro z i
    have h0 : (c.omega : ℂ) ≠ 0 := by exact_mod_cast hom i
    rw [hm.normal _ _ (hF z).ez]
    field_simp
    ring

/-! ### Power -/

section
variable {S : Set ℝ} {D : ℝ → Prop}

theorem form_Q_mu (hS : LossCone S D) {nh : ℕ} {omega : ℝ} {kx ky : Fin nh → ℂ} (hkx : ∀ i, star (kx i) = kx i)
    (hky : ∀ i, star (ky i) = ky i) {m : ℂ} (hm : m.im ∈ S) {e : Matrix (Fin nh) (Fin nh) ℂ} (he : e.det ≠ 0)
    (hf : Form S e) :
    Form S (((omega : ℂ) ^ 2 * m) • (1 : Matrix (Idx nh) (Idx nh) ℂ) - kEps kx ky e⁻¹) := by
  intro h
  have h1 := form_Q (omega := 0) hkx hky he hf h
  have h2 : (star h ⬝ᵥ (((omega : ℂ) ^ 2 * m) • (1 : Matrix (Idx nh) (Idx nh) ℂ)) *ᵥ h).im ∈ S := by
    refine form_smul_one hS ?_ h
    rw [← Complex.ofReal_pow, Complex.im_ofReal_mul]
    exact hS.smul (by positivity) hm
  have := hS.add h2 h1
  rw [← Complex.add_im, ← dotProduct_add, ← add_mulVec] at this
  simpa [sub_eq_add_neg] using this

theorem form_R_mu (hS : LossCone S D) {nh : ℕ} {omega : ℝ} {kx ky : Fin nh → ℂ} (hkx : ∀ i, star (kx i) = kx i)
    (hky : ∀ i, star (ky i) = ky i) {m : ℂ} (hm : m.im ∈ S) {P : Matrix (Idx nh) (Idx nh) ℂ} (hf : Form S P) :
    Form S (P - ((omega : ℂ) ^ 2 * m)⁻¹ • kMu kx ky) := by
  intro h
  have e1 : star h ⬝ᵥ kMu kx ky *ᵥ h =
      ((∑ i, Complex.normSq (kx i * h (.inl i) + ky i * h (.inr i)) : ℝ) : ℂ) := by
    rw [kMu_mulVec]
    simp only [dotProduct, Fintype.sum_sum_type, Sum.elim_inl, Sum.elim_inr, Pi.star_apply,
      ← Finset.sum_add_distrib, Complex.ofReal_sum]
    refine Finset.sum_congr rfl fun i _ => ?_
    rw [Complex.normSq_eq_conj_mul_self, ← RCLike.star_def, star_add, star_mul', star_mul', hkx, hky]
    ring
  rw [sub_mulVec, dotProduct_sub, Complex.sub_im, smul_mulVec, dotProduct_smul, e1, smul_eq_mul,
    Complex.im_mul_ofReal, sub_eq_add_neg]
  refine hS.add (hf h) ?_
  have : -((((omega : ℂ) ^ 2 * m)⁻¹).im * ∑ i, Complex.normSq (kx i * h (.inl i) + ky i * h (.inr i))) =
      ((omega ^ 2)⁻¹ * (Complex.normSq m)⁻¹ * ∑ i, Complex.normSq (kx i * h (.inl i) + ky i * h (.inr i))) * m.im := by
    rw [mul_inv, ← Complex.ofReal_pow, ← Complex.ofReal_inv, Complex.im_ofReal_mul, Complex.inv_im]
    ring
  rw [this]
  refine hS.smul (mul_nonneg (mul_nonneg (by positivity) (inv_nonneg.mpr (Complex.normSq_nonneg _))) ?_) hm
  exact Finset.sum_nonneg fun i _ => Complex.normSq_nonneg _

/-- The power lost between the top and the bottom of a layer. -/
theorem magnetic_loss (hS : LossCone S D) (hom : c.omega ≠ 0) (hkx : ∀ i, star (c.kx i) = c.kx i)
    (hky : ∀ i, star (c.ky i) = c.ky i) {L : LayerSpec} {a : LayerAttr c.nh} {m P e} (hmu : m ≠ 0)
    (hmS : m.im ∈ S) (hm : MagModes c L a m P e) (hP : Form S P) (he : Form S e)
    {M : Modes (Idx c.nh)} (hM : modesOf L a = .ok M) (hq : ∀ k, M.q k ≠ 0) (ai bi : Idx c.nh → ℂ) {d : ℝ}
    (hd : D d) : power M ai bi 0 - power M ai bi d ∈ S := by
  obtain ⟨ev, hev, hw⟩ := hm.eig
  have hMe : M = ⟨ev.1, ev.2, ((c.omega : ℂ) ^ 2 * m) • 1 - kEps c.kx c.ky e⁻¹, L.thickness⟩ := by
    unfold modesOf at hM
    rw [hev, hm.Q] at hM
    simpa [attr] using hM.symm
  have hQ : M.Q = ((c.omega : ℂ) ^ 2 * m) • 1 - kEps c.kx c.ky e⁻¹ := by rw [hMe]
  have hR : (P - ((c.omega : ℂ) ^ 2 * m)⁻¹ • kMu c.kx c.ky) * M.Q * M.phi =
      M.phi * diagonal (fun k => M.q k ^ 2) := by
    rw [hQ, ← magWave_factor hom hmu, hMe]
    exact hw
  refine hS.int _ _ d (power_deriv M hR hq ai bi) (fun z => hS.add ?_ ?_) hd
  · rw [hQ]; exact form_Q_mu hS hkx hky hmS hm.det he _
  · exact form_R_mu hS hkx hky hmS hP _

/-! ### The first and the last layer: a layer of permeability `m` has the modes of a layer of permittivity
`m eps`, with the electric field multiplied by `m` -/

/-- The electric field multiplied by `s`. -/
noncomputable def Modes.scaleE {m : Type} (M : Modes m) (s : ℝ) : Modes m := { M with Q := (s : ℂ) • M.Q }

variable {M : Modes (Idx c.nh)} {s : ℝ}

theorem scaleE_A : (M.scaleE s).Q * (M.scaleE s).phi * (diagonal fun k => 1 / ((c.omega : ℂ) * (M.scaleE s).q k)) =
    (s : ℂ) • (M.Q * M.phi * diagonal fun k => 1 / ((c.omega : ℂ) * M.q k)) := by
  unfold Modes.scaleE
  simp only [Matrix.smul_mul]

theorem orderFlux_scaleE (x : Idx c.nh → ℂ) (i) : orderFlux c (M.scaleE s) x i = s * orderFlux c M x i := by
  unfold orderFlux
  rw [scaleE_A]
  have h1 : (M.scaleE s).phi = M.phi := rfl
  rw [h1, smul_mulVec]
  generalize ((M.Q * M.phi * diagonal fun k => 1 / ((c.omega : ℂ) * M.q k)) *ᵥ x) = y
  generalize M.phi *ᵥ x = u
  rw [← Complex.re_ofReal_mul]
  congr 1
  simp
  ring

theorem tanE_scaleE (a b : Idx c.nh → ℂ) (z : ℝ) : tanE (M.scaleE s) a b z = (s : ℂ) • tanE M a b z := by
  funext i
  unfold tanE Modes.scaleE
  simp only [Pi.smul_apply, smul_eq_mul, Finset.mul_sum, Matrix.smul_apply]
  refine Finset.sum_congr rfl fun j _ => ?_
  rw [show ∑ k, (s : ℂ) * M.Q i k * M.phi k j = s * ∑ k, M.Q i k * M.phi k j by
    rw [Finset.mul_sum]; exact Finset.sum_congr rfl fun k _ => by ring]
  simp only [Modes.z]
  ring

theorem tanH_scaleE (a b : Idx c.nh → ℂ) (z : ℝ) : tanH (M.scaleE s) a b z = tanH M a b z := rfl

theorem power_scaleE (a b : Idx c.nh → ℂ) (z : ℝ) : power (M.scaleE s) a b z = s * power M a b z := by
  unfold power
  rw [tanE_scaleE, tanH_scaleE, star_smul, smul_dotProduct]
  have : star (s : ℂ) = s := Complex.conj_ofReal _
  rw [this, smul_eq_mul, Complex.re_ofReal_mul]

theorem poyntingFlux_scaleE {a b : Idx c.nh → ℂ} {f} (h : poyntingFlux c (M.scaleE s) a b = .ok f) :
    ∃ f', poyntingFlux c M a b = .ok f' ∧ ∀ i, f.2 i = s * f'.2 i := by
  have hq := poyntingFlux_ok h
  unfold poyntingFlux at h ⊢
  rw [if_neg (by push Not; exact hq)] at h
  rw [if_neg (by push Not; exact hq)]
  simp only [Except.ok.injEq] at h
  refine ⟨_, rfl, fun i => ?_⟩
  subst h
  dsimp only
  rw [scaleE_A]
  have h1 : (M.scaleE s).phi = M.phi := rfl
  rw [h1, smul_mulVec, smul_mulVec]
  simp
  ring

/-- A uniform layer with a real permeability. -/
theorem magnetic_flux {A1 : ℕ → LayerAttr c.nh} {r : ℕ} (hf : LayerFix E c mats A1 r) (hc : (mats r).iscopy = false)
    (hu : (mats r).isUniform = true) {m : ℝ} (hmu : (mats r).mu = m) (hm : m ≠ 0) {M : Modes (Idx c.nh)}
    (hM : modesOf (mats r) (A1 r) = .ok M) :
    (mats r).epsilon.value ≠ 0 ∧ ∃ N g, M = N.scaleE m ∧ UniformFlux c ((mats r).epsilon.value * m) N g := by
  have hmc : (m : ℂ) ≠ 0 := by exact_mod_cast hm
  cases hf.form with
  | uniform Q ev _ hb he hQ ha =>
    obtain ⟨-, -, h3, h4⟩ := buildPure_uniform_parts hb
    obtain ⟨-, h5, h6⟩ := solveUniform_ok he
    unfold modesOf at hM
    rw [ha, hQ] at hM
    obtain rfl : (⟨ev.1, ev.2, Q, (mats r).thickness⟩ : Modes (Idx c.nh)) = M := by simpa [attr] using hM
    refine ⟨h3, ⟨ev.1, ev.2, (m : ℂ)⁻¹ • Q, (mats r).thickness⟩,
      fun i => csqrt ((mats r).epsilon.value * (mats r).mu * (c.omega : ℂ) ^ 2 - c.kx i ^ 2 - c.ky i ^ 2), ?_,
      h5, h6, ?_, fun i => by rw [hmu]⟩
    · unfold Modes.scaleE
      rw [smul_smul, mul_inv_cancel₀ hmc, one_smul]
    · dsimp only
      rw [h4, hmu, smul_sub, smul_smul]
      congr 1
      · congr 1; field_simp
      · ext a b
        rcases a with i | i <;> rcases b with j | j <;> by_cases h : i = j <;>
          simp [kEps, h] <;> ring
  | patterned M p Q ev _ hb he ha =>
    have := (buildPure_patterned_parts hb).1
    rw [hu] at this
    simp at this
  | copyUniform M p Q ev hc' => rw [hc] at hc'; simp at hc'
  | copyPatterned M p Q ev hc' => rw [hc] at hc'; simp at hc'

/-- Energy balance of the efficiencies an object returns, after any history: the incident power is `m` times
the number by which the code divides, `m` the permeability of the first layer. -/
theorem magnetic_balance (hS : LossCone S D) {lats stack exc nh form}
    (hinit : simInit E lats mats stack exc nh form = .ok c) (hE : EigContract E) (hw : WellPlaced mats stack)
    (hmu : Magnetic mats stack) {wl ang} (hp : planeWave wl ang = .ok exc) (hwl : 0 < wl)
    (hcos : 0 < Real.cos exc.theta) (h00 : ((0 : ℤ), (0 : ℤ)) ∈ c.harmonics)
    (hform : form = "original" ∨ c.lattice.is1D = true ∨ (c.harmonics.Nodup ∧ ∀ r ∈ stack, (mats r).isUniform = false →
      (mats r).isAnisotropic = false ∧ ConstantVectorsUsed E c (mats r))) {e m : ℝ} (hpos : 0 < e) (hmpos : 0 < m)
    (hsup : ∀ r0, stack.head? = some r0 → (mats r0).epsilon.value = (e : ℂ) ∧ (mats r0).mu = (m : ℂ))
    (hin : ∀ k r, 0 < k → k + 1 < stack.length → stack[k]? = some r →
      LossIn S (mats r) ∧ (mats r).mu.im ∈ S ∧ ∀ t, (mats r).thickness = some t → D t)
    (hist : List (Call c.nh)) (RT : (Fin c.nh → ℝ) × (Fin c.nh → ℝ))
    (h : (efficienciesByOrder E c (afterCalls E c hist (Dyn.fresh mats (unsolved c.nh)))).1 = .ok RT) :
    (∃ κ : ℝ, 0 < κ ∧ κ * (m - ∑ i, RT.1 i - ∑ i, RT.2 i) ∈ S) ∧ (∀ i, 0 ≤ RT.1 i) ∧
    ∀ rN, stack.getLast? = some rN → (mats rN).isUniform = true → ∀ mN : ℝ, 0 < mN → (mats rN).mu = (mN : ℂ) →
      ∀ i, 0 ≤ RT.2 i := by
  have hi := simInit_ok hinit
  have hst : c.stack = stack := hi.stack_eq
  have hnd : c.stack.Nodup := hst ▸ hi.nodup
  obtain ⟨A1, res, hs, -⟩ := solveSpec_of_noStale (E := E) (mats := mats) hnd
    (noStale_unsolved (c := c) mats c.stack)
  have h0 : Inv E c mats (unsolved c.nh) A1 res (Dyn.fresh mats (unsolved c.nh)) := inv_fresh _ (.inl rfl)
  have h1 := h0.calls hs hist
  generalize afterCalls E c hist (Dyn.fresh mats (unsolved c.nh)) = d at h h1
  obtain ⟨hres, SM, r0, rN, M0, MN, f0, fN, hSM, hr0, hrN, hM0, hMN, hf0, hfN, hne, rfl⟩ :=
    yields_efficiencies hs d RT (efficienciesByOrder E c d).2 h1 (Prod.ext h rfl)
  have hfix := hs.fix hnd hres
  subst hres
  -- the stack
  have hlen := stackModes_length c mats A1
  have hpos' : 0 < c.stack.length := List.length_pos_iff.mpr (by
    rintro e; have := pyGet_mem hr0; rw [e] at this; simp at this)
  have hfull : 0 < c.stack.length - 1 ∧
      loopS (stackModes c mats A1) (0 : ℕ) (((stackModes c mats A1).length - 1 : ℕ) : ℤ) = .ok SM := by
    rw [valS_none, valS_solved hfix] at hSM
    have : ((c.stack.length : ℤ) - 1) = (((stackModes c mats A1).length - 1 : ℕ) : ℤ) := by
      rw [hlen]; omega
    rw [this] at hSM
    have := (freshS_ok (i := 0)).mp hSM
    rw [hlen] at this ⊢
    exact this
  obtain ⟨hlt, hloop⟩ := hfull
  obtain ⟨amp, ⟨hcons, ha0, hbN⟩, hb0, haN, -⟩ := solution_ext c.a0 hloop
  have hqs := loopS_q hloop (by rw [hlen]; exact hlt)
  have hr0' : c.stack[0]? = some r0 := (pyGet_nat c.stack 0 r0).mp hr0
  have hrN' : c.stack[c.stack.length - 1]? = some rN := by
    unfold pyGet at hrN
    have e3 : pyIdx c.stack.length (-1) = some (c.stack.length - 1) := by
      unfold pyIdx
      rw [if_neg (by omega), if_pos (by omega)]
      congr 1
      omega
    rw [e3] at hrN
    dsimp only at hrN
    rw [List.getElem?_eq_getElem (by omega)] at hrN
    rw [List.getElem?_eq_getElem (by omega)]
    exact congrArg some (Except.ok.inj hrN)
  have hmd : ∀ (k r : ℕ) (M), c.stack[k]? = some r → modesOf (mats r) (A1 r) = .ok M →
      (stackModes c mats A1)[k]? = some M := by
    intro k r M hk hM
    have hs := hfix r (List.mem_of_getElem? hk)
    rw [hs.form.modesD] at hM
    unfold stackModes
    rw [List.getElem?_map, hk, ← Except.ok.inj hM]
    rfl
  have hL0 := hmd 0 r0 M0 hr0' hM0
  have hLN := hmd _ rN MN hrN' hMN
  have hhead : stack.head? = some r0 := by rw [← hst, List.head?_eq_getElem?, hr0']
  have hm0 : r0 ∈ stack := hst ▸ pyGet_mem hr0
  have hmc : (m : ℂ) ≠ 0 := by exact_mod_cast hmpos.ne'
  have hem : 0 < e * m := mul_pos hpos hmpos
  have hg := good_sup_mu hi (by rw [(planeWave_ok hp).2.1]; exact hwl) hhead (e := e * m)
    (by rw [(hsup r0 hhead).1, (hsup r0 hhead).2]; push_cast; rfl) hem h00
  have hom := hg.omega
  have hc0 : (mats r0).iscopy = false := by
    by_contra hcon
    obtain ⟨⟨j, hj, -⟩, -⟩ := hw 0 r0 (hst ▸ hr0') (by simpa using hcon)
    omega
  obtain ⟨-, N0, g, rfl, hu⟩ := magnetic_flux (hfix r0 (pyGet_mem hr0)) hc0 (hi.sup r0 hhead).1 (hsup r0 hhead).2
    hmpos.ne' hM0
  rw [(hsup r0 hhead).1, ← Complex.ofReal_mul] at hu
  have hsq : ((Real.sqrt (e * m) ^ 2 : ℝ) : ℂ) = ((e * m : ℝ) : ℂ) := by rw [Real.sq_sqrt hem.le]
  have hq0 : ∀ k, (c.omega : ℂ) * N0.q k ≠ 0 := by
    intro k
    exact poyntingFlux_ok hf0 k
  obtain ⟨hev, hinc⟩ := incident_flux hg hp hcos hwl (gz := g) (by rw [hsq]; exact hu) hq0
  obtain ⟨f0', hf0', hff⟩ := poyntingFlux_scaleE hf0
  have hR : ∀ i, -f0.2 i = m * orderFlux c N0 (SM.s21 *ᵥ c.a0) i := by
    intro i
    rw [hff, ← flux_backward hu hg.kxr hg.kyr hf0' hev i]; ring
  have hT := flux_forward hfN
  have pT := power_forward (c := c) hom.ne' (M := MN) (a := SM.s11 *ᵥ c.a0)
  have pB := power_bottom hom.ne' hu hg.kxr hg.kyr (b := SM.s21 *ᵥ c.a0) hq0 hev
  rw [hinc] at pB
  have hz0 : (N0.scaleE m).z = N0.z := rfl
  -- the inner layers
  have hmed := solved_magnetic (stack := c.stack) (by rw [hst]; exact hmu) hE (by rw [hst]; exact hw) hfix
  obtain ⟨n, hn⟩ : ∃ n, c.stack.length - 1 = n + 1 := ⟨c.stack.length - 2, by omega⟩
  have hloss := stack_loss hS (amp := amp) hL0 n (by rw [hlen]; omega)
    (by rw [hlen, hn] at hcons; exact hcons) (by
      intro k L hk0 hkn hL
      obtain ⟨r, hr⟩ : ∃ r, c.stack[k]? = some r := ⟨_, List.getElem?_eq_getElem (by omega)⟩
      obtain ⟨P, ee, m1, m2⟩ := hmed k r hr
      have hrm := List.mem_of_getElem? hr
      obtain ⟨i1, i3, i2⟩ := hin k r hk0 (by rw [← hst]; omega) (hst ▸ hr)
      obtain ⟨FP, Fe⟩ := all_forms hS hinit hw hform (hst ▸ hrm) i1 m1
      have hMk := (hfix r hrm).form.modesD
      have hLk := hmd k r _ hr hMk
      rw [hL] at hLk
      obtain rfl := Option.some.inj hLk
      refine magnetic_loss hS hom.ne' hg.kxr hg.kyr (hmu r (hst ▸ hrm)).1 i3 m2 FP Fe hMk
        (hqs k _ (by rw [hlen]; omega) hL) (amp k).1 (amp k).2 ?_
      unfold Modes.z modesD
      dsimp only
      rcases ht : (mats r).thickness with _ | t
      · exact hS.zeroD
      · exact i2 t ht) MN (by rw [← hn]; exact hLN)
  rw [ha0, hb0, hz0, power_scaleE, pB, ← hn, ← hlen, haN, hbN, pT] at hloss
  have hinc0 : 0 < c.incidentFlux := by rw [hg.flux]; exact div_pos hcos hg.pos
  refine ⟨⟨c.omega * c.incidentFlux, mul_pos hom hinc0, ?_⟩, ?_, ?_⟩
  · convert hloss using 1
    dsimp only
    rw [← Finset.sum_div, ← Finset.sum_div, Finset.sum_congr rfl fun i _ => hR i,
      Finset.sum_congr rfl fun i _ => hT i, ← Finset.mul_sum]
    field_simp
  · intro i
    dsimp only
    rw [hR i]
    exact div_nonneg (mul_nonneg hmpos.le (orderFlux_nonneg (by exact_mod_cast hem.ne') hom hu hg.kxr hg.kyr hq0 _ i))
      hinc0.le
  · intro rN' hlast hun mN hmN0 hmuN i
    have hrr : rN' = rN := by
      rw [← hst, List.getLast?_eq_getElem?, hrN'] at hlast
      exact (Option.some.inj hlast).symm
    subst hrr
    have hcN : (mats rN').iscopy = false := by
      by_contra hcon
      obtain ⟨-, hu', -⟩ := hw _ rN' (hst ▸ hrN') (by simpa using hcon)
      rw [hun] at hu'
      simp at hu'
    obtain ⟨heN, NN, gN, rfl, huN⟩ := magnetic_flux (hfix rN' (pyGet_mem hrN)) hcN hun hmuN hmN0.ne' hMN
    have hqN : ∀ k, (c.omega : ℂ) * NN.q k ≠ 0 := by
      intro k
      exact poyntingFlux_ok hfN k
    dsimp only
    rw [hT i, orderFlux_scaleE]
    exact div_nonneg (mul_nonneg hmN0.le (orderFlux_nonneg (mul_ne_zero heN (by exact_mod_cast hmN0.ne')) hom huN
      hg.kxr hg.kyr hqN _ i)) hinc0.le

end

end Nannos
