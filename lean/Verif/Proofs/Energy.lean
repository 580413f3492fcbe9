import Verif.Proofs.FieldEqs
import Verif.Spec.Energy
import Verif.Props.Excitation
import Mathlib.Analysis.Calculus.Deriv.Star
import Mathlib.Analysis.Calculus.Deriv.MeanValue

/-! Power flow through a stack (C32, C33). -/

namespace Nannos

open Matrix Spec

/-! ### Signs of dissipation -/

/-- A set of admissible losses, with the thicknesses through which it can be integrated. -/
structure LossCone (S : Set ℝ) (D : ℝ → Prop) : Prop where
  zero : (0 : ℝ) ∈ S
  add : ∀ {x y}, x ∈ S → y ∈ S → x + y ∈ S
  smul : ∀ {t x}, 0 ≤ t → x ∈ S → t * x ∈ S
  int : ∀ (p p' : ℝ → ℝ) (d : ℝ), (∀ z, HasDerivAt p (-p' z) z) → (∀ z, p' z ∈ S) → D d → p 0 - p d ∈ S
  zeroD : D 0

theorem lossCone_zero : LossCone {0} (fun _ => True) where
  zero := rfl
  add := by rintro x y rfl rfl; simp
  smul := by rintro t x - rfl; simp
  int := by
    intro p p' d h1 h2 _
    have h3 : ∀ z, p' z = 0 := h2
    have : ∀ z, deriv p z = 0 := fun z => by rw [(h1 z).deriv, h3, neg_zero]
    have hd : Differentiable ℝ p := fun z => (h1 z).differentiableAt
    rw [Set.mem_singleton_iff, is_const_of_deriv_eq_zero hd this 0 d, sub_self]
  zeroD := trivial

theorem lossCone_nonneg : LossCone (Set.Ici 0) (fun d => 0 ≤ d) where
  zero := le_refl (0 : ℝ)
  add := by intro x y hx hy; exact add_nonneg (α := ℝ) hx hy
  smul := by intro t x ht hx; exact mul_nonneg ht hx
  int := by
    intro p p' d h1 h2 hd
    have hd' : Differentiable ℝ p := fun z => (h1 z).differentiableAt
    have := antitone_of_deriv_nonpos hd' (fun z => by rw [(h1 z).deriv]; exact neg_nonpos.mpr (h2 z))
    exact sub_nonneg.mpr (this hd)
  zeroD := le_refl _

theorem LossCone.sum {S D} (hS : LossCone S D) {α : Type} (s : Finset α) (f : α → ℝ)
    (h : ∀ i ∈ s, f i ∈ S) : ∑ i ∈ s, f i ∈ S := by
  classical
  induction s using Finset.induction_on with
  | empty => simpa using hS.zero
  | insert a s ha ih =>
    rw [Finset.sum_insert ha]
    exact hS.add (h a (by simp)) (ih fun i hi => h i (by simp [hi]))

/-- The imaginary part of the quadratic form of `A` lies in `S`. -/
def Form {m : Type} [Fintype m] (S : Set ℝ) (A : Matrix m m ℂ) : Prop :=
  ∀ v : m → ℂ, (star v ⬝ᵥ A *ᵥ v).im ∈ S

section
variable {m : Type} [Fintype m] [DecidableEq m] {S : Set ℝ} {D : ℝ → Prop}

omit [DecidableEq m] in
theorem im_star_dot (u v : m → ℂ) : (star u ⬝ᵥ v).im = -(star v ⬝ᵥ u).im := by
  have : star u ⬝ᵥ v = star (star v ⬝ᵥ u) := by
    rw [star_dotProduct]
  rw [this]; simp

theorem form_inv_neg {A : Matrix m m ℂ} (hA : A.det ≠ 0) (h : Form S A) (v : m → ℂ) :
    -(star v ⬝ᵥ A⁻¹ *ᵥ v).im ∈ S := by
  have hv : A *ᵥ (A⁻¹ *ᵥ v) = v := by rw [mulVec_mulVec, mul_nonsing_inv _ (det_unit hA), one_mulVec]
  have := h (A⁻¹ *ᵥ v)
  rw [hv, im_star_dot] at this
  exact this

theorem form_inv {A : Matrix m m ℂ} (hA : A.det ≠ 0) (h : ∀ v, -(star v ⬝ᵥ A *ᵥ v).im ∈ S) :
    Form S A⁻¹ := by
  intro v
  have hv : A *ᵥ (A⁻¹ *ᵥ v) = v := by rw [mulVec_mulVec, mul_nonsing_inv _ (det_unit hA), one_mulVec]
  have := h (A⁻¹ *ᵥ v)
  rw [hv, im_star_dot, neg_neg] at this
  exact this

theorem form_smul_one (hS : LossCone S D) {e : ℂ} (he : e.im ∈ S) : Form S (e • (1 : Matrix m m ℂ)) := by
  intro v
  rw [smul_mulVec, one_mulVec, dotProduct_smul, smul_eq_mul]
  have : star v ⬝ᵥ v = ((∑ i, Complex.normSq (v i) : ℝ) : ℂ) := by
    simp only [dotProduct, Pi.star_apply, RCLike.star_def, Complex.ofReal_sum]
    exact Finset.sum_congr rfl fun i _ => by rw [← Complex.normSq_eq_conj_mul_self]
  rw [this, Complex.mul_im, Complex.ofReal_re, Complex.ofReal_im, mul_zero, zero_add, mul_comm]
  exact hS.smul (Finset.sum_nonneg fun i _ => Complex.normSq_nonneg _) he

omit [DecidableEq m] in
theorem form_blocks (hS : LossCone S D) {A B : Matrix m m ℂ} (hA : Form S A) (hB : Form S B) :
    Form S (fromBlocks A 0 0 B) := by
  intro v
  have : star v ⬝ᵥ fromBlocks A 0 0 B *ᵥ v = star (v ∘ Sum.inl) ⬝ᵥ A *ᵥ (v ∘ Sum.inl) +
      star (v ∘ Sum.inr) ⬝ᵥ B *ᵥ (v ∘ Sum.inr) := by
    rw [fromBlocks_mulVec]
    simp [dotProduct, Fintype.sum_sum_type]
  rw [this, Complex.add_im]
  exact hS.add (hA _) (hB _)

/-! ### Power flow in one layer -/

/-- `omega` times the power flux at depth `z`. -/
noncomputable def power (L : Modes m) (a b : m → ℂ) (z : ℝ) : ℝ := (star (tanE L a b z) ⬝ᵥ tanH L a b z).re

theorem power_deriv (M : Modes m) {R : Matrix m m ℂ}
    (hR : R * M.Q * M.phi = M.phi * diagonal (fun k => M.q k ^ 2)) (hq : ∀ k, M.q k ≠ 0) (a b : m → ℂ)
    (z : ℝ) : HasDerivAt (power M a b)
      (-((star (tanH M a b z) ⬝ᵥ M.Q *ᵥ tanH M a b z).im +
        (star (tanE M a b z) ⬝ᵥ R *ᵥ tanE M a b z).im)) z := by
  have h1 : HasDerivAt (fun z => ∑ k, star (tanE M a b z k) * tanH M a b z k)
      (∑ k, (star (Complex.I * (M.Q *ᵥ tanH M a b z) k) * tanH M a b z k +
        star (tanE M a b z k) * (Complex.I * (R *ᵥ tanE M a b z) k))) z :=
    HasDerivAt.fun_sum fun k _ => ((tanE_deriv M hq a b z k).star).mul (tanH_deriv M hR hq a b z k)
  have h2 := Complex.reCLM.hasFDerivAt.comp_hasDerivAt z h1
  refine HasDerivAt.congr_deriv h2 ?_
  have e1 : ∑ k, (star (Complex.I * (M.Q *ᵥ tanH M a b z) k) * tanH M a b z k +
        star (tanE M a b z k) * (Complex.I * (R *ᵥ tanE M a b z) k)) =
      -Complex.I * (star (M.Q *ᵥ tanH M a b z) ⬝ᵥ tanH M a b z) +
        Complex.I * (star (tanE M a b z) ⬝ᵥ R *ᵥ tanE M a b z) := by
    simp only [dotProduct, Finset.mul_sum, ← Finset.sum_add_distrib, Pi.star_apply]
    refine Finset.sum_congr rfl fun k _ => ?_
    simp
    ring
  rw [e1, Complex.reCLM_apply, im_star_dot]
  simp
  ring

end

/-! ### The operators of a layer -/

variable {E : Ext} {c : Static} {S : Set ℝ} {D : ℝ → Prop}

theorem form_Q {nh : ℕ} {omega : ℝ} {kx ky : Fin nh → ℂ} (hkx : ∀ i, star (kx i) = kx i)
    (hky : ∀ i, star (ky i) = ky i) {e : Matrix (Fin nh) (Fin nh) ℂ} (he : e.det ≠ 0) (hf : Form S e) :
    Form S ((omega : ℂ) ^ 2 • (1 : Matrix (Idx nh) (Idx nh) ℂ) - kEps kx ky e⁻¹) := by
  intro h
  set v : Fin nh → ℂ := fun j => ky j * h (.inl j) - kx j * h (.inr j) with hv
  have e1 : star h ⬝ᵥ kEps kx ky e⁻¹ *ᵥ h = star v ⬝ᵥ e⁻¹ *ᵥ v := by
    rw [kEps_mulVec, ← hv]
    simp only [dotProduct, Fintype.sum_sum_type, Sum.elim_inl, Sum.elim_inr, Pi.star_apply,
      ← Finset.sum_add_distrib]
    refine Finset.sum_congr rfl fun i _ => ?_
    have : star (v i) = ky i * star (h (.inl i)) - kx i * star (h (.inr i)) := by
      rw [hv, star_sub, star_mul', star_mul', hkx, hky]
    rw [this]; ring
  have e2 : (star h ⬝ᵥ ((omega : ℂ) ^ 2 • (1 : Matrix (Idx nh) (Idx nh) ℂ)) *ᵥ h).im = 0 :=
    form_smul_one lossCone_zero (by rw [← Complex.ofReal_pow, Set.mem_singleton_iff, Complex.ofReal_im]) h
  rw [sub_mulVec, dotProduct_sub, Complex.sub_im, e2, e1, zero_sub]
  exact form_inv_neg he hf v

theorem form_R {nh : ℕ} {omega : ℝ} {kx ky : Fin nh → ℂ} (hkx : ∀ i, star (kx i) = kx i)
    (hky : ∀ i, star (ky i) = ky i) {P : Matrix (Idx nh) (Idx nh) ℂ} (hf : Form S P) :
    Form S (P - ((omega : ℂ) ^ 2)⁻¹ • kMu kx ky) := by
  intro h
  have e1 : star h ⬝ᵥ kMu kx ky *ᵥ h =
      ((∑ i, Complex.normSq (kx i * h (.inl i) + ky i * h (.inr i)) : ℝ) : ℂ) := by
    rw [kMu_mulVec]
    simp only [dotProduct, Fintype.sum_sum_type, Sum.elim_inl, Sum.elim_inr, Pi.star_apply,
      ← Finset.sum_add_distrib, Complex.ofReal_sum]
    refine Finset.sum_congr rfl fun i _ => ?_
    rw [Complex.normSq_eq_conj_mul_self, ← RCLike.star_def, star_add, star_mul', star_mul', hkx, hky]
    ring
  rw [sub_mulVec, dotProduct_sub, Complex.sub_im, smul_mulVec, dotProduct_smul, e1, smul_eq_mul]
  have : (((omega : ℂ) ^ 2)⁻¹ *
      ((∑ i, Complex.normSq (kx i * h (.inl i) + ky i * h (.inr i)) : ℝ) : ℂ)).im = 0 := by
    rw [← Complex.ofReal_pow, ← Complex.ofReal_inv, ← Complex.ofReal_mul, Complex.ofReal_im]
  rw [this, sub_zero]
  exact hf h

/-- The power lost between the top and the bottom of a layer. -/
theorem power_loss (hS : LossCone S D) (hom : c.omega ≠ 0) (hkx : ∀ i, star (c.kx i) = c.kx i)
    (hky : ∀ i, star (c.ky i) = c.ky i) {L : LayerSpec} {a : LayerAttr c.nh} {P e}
    (hm : MediumModes c L a P e) (hP : Form S P) (he : Form S e)
    {M : Modes (Idx c.nh)} (hM : modesOf L a = .ok M) (hq : ∀ k, M.q k ≠ 0) (ai bi : Idx c.nh → ℂ) {d : ℝ}
    (hd : D d) : power M ai bi 0 - power M ai bi d ∈ S := by
  obtain ⟨ev, hev, hw⟩ := hm.eig
  have hMe : M = ⟨ev.1, ev.2, (c.omega : ℂ) ^ 2 • 1 - kEps c.kx c.ky e⁻¹, L.thickness⟩ := by
    unfold modesOf at hM
    rw [hev, hm.Q] at hM
    simpa [attr] using hM.symm
  have hQ : M.Q = (c.omega : ℂ) ^ 2 • 1 - kEps c.kx c.ky e⁻¹ := by rw [hMe]
  have hR : (P - ((c.omega : ℂ) ^ 2)⁻¹ • kMu c.kx c.ky) * M.Q * M.phi =
      M.phi * diagonal (fun k => M.q k ^ 2) := by
    rw [hQ, ← waveMatrix_factor hom, hMe]
    exact hw
  refine hS.int _ _ d (power_deriv M hR hq ai bi) (fun z => hS.add ?_ ?_) hd
  · rw [hQ]; exact form_Q hkx hky hm.det he _
  · exact form_R hkx hky hP _

end Nannos
