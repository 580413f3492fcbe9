import Verif.Model.Stress
import Verif.Spec.Stress
import Verif.Proofs.EnergyMedium
import Mathlib.LinearAlgebra.Matrix.Hermitian

/-! Momentum flux: lemmas for C61. -/

namespace Nannos

open Matrix Spec

variable {E : Ext} {c : Static}

/-- `get_z_stress_tensor_integral` uses the permittivity of the layer. -/
theorem stressDisp_eq {L : LayerSpec} {a : LayerAttr c.nh} {P e} (hm : MediumModes c L a P e) {dz x : Fin c.nh → ℂ}
    (hn : normalE L a dz = .ok x) (ex ey : Fin c.nh → ℂ) : stressDisp L a ex ey = .ok (e *ᵥ ex, e *ᵥ ey) := by
  unfold stressDisp
  unfold normalE at hn
  split at hn
  · rename_i hu
    split at hn
    · simp at hn
    rename_i h0
    rw [if_pos hu]
    have key : ∀ v : Fin c.nh → ℂ, e *ᵥ v = fun i => v i * L.epsilon.value := by
      intro v
      refine hm.normal _ _ ?_
      unfold normalE
      rw [if_pos hu, if_neg h0]
      congr 1
      funext i
      exact mul_div_cancel_right₀ _ h0
    rw [key, key]
  · rename_i hu
    rw [if_neg hu]
    rcases hp : a.pat with _ | p
    · rw [hp] at hn
      simp [attr] at hn
    rw [hp] at hn
    simp only [attr, except_bind_ok] at hn ⊢
    unfold linSolveVec at hn
    split at hn
    · simp at hn
    rename_i hdet
    have key : ∀ v : Fin c.nh → ℂ, e *ᵥ v = p.epsHat *ᵥ v := by
      intro v
      refine hm.normal _ _ ?_
      unfold normalE
      rw [if_neg hu, hp]
      simp only [attr, except_bind_ok]
      unfold linSolveVec
      rw [if_neg hdet, mulVec_mulVec, nonsing_inv_mul _ (det_unit hdet), one_mulVec]
    simp only [except_pure_eq_ok, Except.ok.injEq, Prod.mk.injEq]
    constructor
    · funext i
      rw [key, fromBlocks_mulVec]
      simp [mulVec, dotProduct]
    · funext i
      rw [key, fromBlocks_mulVec]
      simp [mulVec, dotProduct]

theorem stressOf_eq {L : LayerSpec} {a : LayerAttr c.nh} {P e} (hm : MediumModes c L a P e) {M : Modes (Idx c.nh)}
    {ai bi : Idx c.nh → ℂ} {z : ℝ} {F : FieldF c.nh} (h : FieldSpec c L a M ai bi z F) :
    stressOf c L a F = .ok (stress e F) := by
  unfold stressOf
  rw [stressDisp_eq hm h.ez]
  simp only [except_bind_ok, except_pure_eq_ok, Except.ok.injEq]
  have hd := hm.normal _ _ h.ez
  unfold stress
  rw [hd]
  simp only [Complex.re_sum, Prod.mk.injEq, true_and]
  congr 1
  refine Finset.sum_congr rfl fun i _ => ?_
  congr 1
  ring

section
variable {nh : ℕ} {omega : ℝ} {kx ky : Fin nh → ℂ} {P : Matrix (Idx nh) (Idx nh) ℂ}
  {e : Matrix (Fin nh) (Fin nh) ℂ} {F : ℝ → FieldF nh}

/-- The lateral momentum flux is carried by the orders in proportion to their energy flux. -/
theorem stress_lateral (hkx : ∀ i, star (kx i) = kx i) (hky : ∀ i, star (ky i) = ky i) (hom : omega ≠ 0)
    (hF : Maxwell omega kx ky P e F) (z : ℝ) :
    (stress e (F z)).1 = -∑ i, (kx i).re / omega * orderFlux (F z) i ∧
    (stress e (F z)).2.1 = -∑ i, (ky i).re / omega * orderFlux (F z) i := by
  have hx : ∀ i, ∃ x : ℝ, kx i = x := fun i => ⟨_, (Complex.conj_eq_iff_re.mp (hkx i)).symm⟩
  have hy : ∀ i, ∃ x : ℝ, ky i = x := fun i => ⟨_, (Complex.conj_eq_iff_re.mp (hky i)).symm⟩
  choose X hX using hx
  choose Y hY using hy
  have hom' : (omega : ℂ) ≠ 0 := by exact_mod_cast hom
  have hz : ∀ i, (F z).hz i = (X i * (F z).ey i - Y i * (F z).ex i) / omega := by
    intro i
    have := hF.curlEz z i
    rw [hX, hY] at this
    rw [this]; field_simp
  have dz : ∀ i, (e *ᵥ (F z).ez) i = (Y i * (F z).hx i - X i * (F z).hy i) / omega := by
    intro i
    have := hF.curlHz z i
    rw [hX, hY] at this
    field_simp
    linear_combination this
  have conj1 : ∀ (x y : ℝ) (u v : ℂ), star ((x * u - y * v) / (omega : ℂ)) = (x * star u - y * star v) / omega := by
    intro x y u v
    simp [Complex.star_def]
  constructor
  · unfold stress orderFlux
    dsimp only
    rw [← Finset.sum_neg_distrib]
    refine Finset.sum_congr rfl fun i _ => ?_
    rw [hz, dz, conj1, conj1, hX]
    simp only [mul_div_assoc', ← add_div, ← Complex.ofReal_div, Complex.div_ofReal_re]
    simp [Complex.mul_re, Complex.mul_im]
    field_simp
    ring
  · unfold stress orderFlux
    dsimp only
    rw [← Finset.sum_neg_distrib]
    refine Finset.sum_congr rfl fun i _ => ?_
    rw [hz, dz, conj1, conj1, hY]
    simp only [mul_div_assoc', ← add_div, ← Complex.ofReal_div, Complex.div_ofReal_re]
    simp [Complex.mul_re, Complex.mul_im]
    field_simp
    ring

/-- In a uniform medium without losses every order carries a constant energy flux. -/
theorem orderFlux_deriv (hkx : ∀ i, star (kx i) = kx i) (hky : ∀ i, star (ky i) = ky i) {eps : ℝ}
    (hF : Maxwell omega kx ky ((eps : ℂ) • 1) ((eps : ℂ) • 1) F) (i : Fin nh) (z : ℝ) :
    HasDerivAt (fun z => orderFlux (F z) i) 0 z := by
  obtain ⟨X, hX⟩ : ∃ x : ℝ, kx i = x := ⟨_, (Complex.conj_eq_iff_re.mp (hkx i)).symm⟩
  obtain ⟨Y, hY⟩ : ∃ x : ℝ, ky i = x := ⟨_, (Complex.conj_eq_iff_re.mp (hky i)).symm⟩
  have h1 := hF.curlEx z i
  have h2 := hF.curlEy z i
  have h3 := hF.curlEz z i
  have h4 := hF.curlHx z i
  have h5 := hF.curlHy z i
  have h6 := hF.curlHz z i
  have dx : dispX ((eps : ℂ) • 1) (F z).ex (F z).ey i = eps * (F z).ex i := by
    simp [dispX, one_apply, Finset.sum_add_distrib]
  have dy : dispY ((eps : ℂ) • 1) (F z).ex (F z).ey i = eps * (F z).ey i := by
    simp [dispY, one_apply, Finset.sum_add_distrib]
  have de : (((eps : ℂ) • (1 : Matrix (Fin nh) (Fin nh) ℂ)) *ᵥ (F z).ez) i = eps * (F z).ez i := by
    simp [smul_mulVec]
  rw [dx] at h4
  rw [dy] at h5
  rw [de] at h6
  rw [hX, hY] at *
  have := (((h2.star.mul h4).sub (h1.star.mul h5)) : HasDerivAt _ _ z)
  have key := Complex.reCLM.hasFDerivAt.comp_hasDerivAt z this
  refine HasDerivAt.congr_deriv key ?_
  · simp only [Complex.reCLM_apply]
    have r3 := congrArg Complex.re h3
    have i3 := congrArg Complex.im h3
    have r6 := congrArg Complex.re h6
    have i6 := congrArg Complex.im h6
    simp [Complex.mul_re, Complex.mul_im] at r3 i3 r6 i6 ⊢
    generalize (F z).ex i = ex at *
    generalize (F z).ey i = ey at *
    generalize (F z).ez i = ez at *
    generalize (F z).hx i = hx at *
    generalize (F z).hy i = hy at *
    generalize (F z).hz i = hz at *
    linear_combination hz.im * r3 - hz.re * i3 + ez.re * i6 - ez.im * r6

theorem herm_dot {m : Type} [Fintype m] {A : Matrix m m ℂ} (hA : A.IsHermitian) (u v : m → ℂ) :
    ∑ i, u i * star ((A *ᵥ v) i) = ∑ i, (A *ᵥ u) i * star (v i) := by
  have h : ∀ i j, star (A i j) = A j i := fun i j => congrFun (congrFun hA j) i
  simp only [mulVec, dotProduct, star_sum, star_mul', Finset.mul_sum, Finset.sum_mul, h]
  rw [Finset.sum_comm]
  refine Finset.sum_congr rfl fun i _ => Finset.sum_congr rfl fun j _ => ?_
  ring

/-- In a medium whose permittivity operators are Hermitian, the normal momentum flux is constant, if the displacement is
computed with these operators. -/
theorem stress_normal_deriv (hkx : ∀ i, star (kx i) = kx i) (hky : ∀ i, star (ky i) = ky i) (hom : omega ≠ 0)
    (hP : P.IsHermitian) (he : e.IsHermitian) (hdet : e.det ≠ 0)
    (hF : Maxwell omega kx ky P e F) (z : ℝ) :
    HasDerivAt (fun z => (stress e (F z)).2.2 + 1 / 2 * tangentialEnergy (fromBlocks e 0 0 e) (F z)
      - 1 / 2 * tangentialEnergy P (F z)) 0 z := by
  have hom' : (omega : ℂ) ≠ 0 := by exact_mod_cast hom
  have form : (fun z => (stress e (F z)).2.2 + 1 / 2 * tangentialEnergy (fromBlocks e 0 0 e) (F z)
      - 1 / 2 * tangentialEnergy P (F z)) = fun z => 1 / 2 * ∑ i, ((F z).ez i * star ((e *ᵥ (F z).ez) i) +
        (F z).hz i * star ((F z).hz i) - ((F z).ex i * star (dispX P (F z).ex (F z).ey i) +
        (F z).ey i * star (dispY P (F z).ex (F z).ey i) + (F z).hx i * star ((F z).hx i) +
        (F z).hy i * star ((F z).hy i))).re := by
    funext z
    have dispx : dispX (fromBlocks e 0 0 e) (F z).ex (F z).ey = e *ᵥ (F z).ex := by
      funext i; simp [dispX, mulVec, dotProduct]
    have dispy : dispY (fromBlocks e 0 0 e) (F z).ex (F z).ey = e *ᵥ (F z).ey := by
      funext i; simp [dispY, mulVec, dotProduct]
    unfold stress tangentialEnergy
    rw [dispx, dispy]
    dsimp only
    rw [← mul_add, ← mul_sub, Complex.re_sum, Complex.re_sum, ← Finset.sum_add_distrib, ← Finset.sum_sub_distrib]
    congr 1
    refine Finset.sum_congr rfl fun i _ => ?_
    simp only [Complex.add_re, Complex.sub_re]
    ring
  rw [form]
  -- derivatives
  have dex := fun i => hF.curlEy z i
  have dey := fun i => hF.curlEx z i
  have dhx := fun i => hF.curlHy z i
  have dhy := fun i => hF.curlHx z i
  have hhz : ∀ z i, (F z).hz i = (kx i * (F z).ey i - ky i * (F z).ex i) / omega := by
    intro z i; rw [hF.curlEz]; field_simp
  have hdz : ∀ z i, (e *ᵥ (F z).ez) i = (ky i * (F z).hx i - kx i * (F z).hy i) / omega := by
    intro z i
    have := hF.curlHz z i
    field_simp
    linear_combination this
  have dhz : ∀ i, HasDerivAt (fun z => (F z).hz i)
      (-Complex.I * (kx i * (F z).hx i + ky i * (F z).hy i)) z := by
    intro i
    have := (((dey i).const_mul (kx i)).sub ((dex i).const_mul (ky i))).div_const (omega : ℂ)
    rw [show (fun z => (F z).hz i) = fun z => (kx i * (F z).ey i - ky i * (F z).ex i) / omega from
      funext fun z => hhz z i]
    refine this.congr_deriv ?_
    field_simp
    ring
  have ddz : ∀ i, HasDerivAt (fun z => (e *ᵥ (F z).ez) i)
      (-Complex.I * (kx i * dispX P (F z).ex (F z).ey i + ky i * dispY P (F z).ex (F z).ey i)) z := by
    intro i
    have := (((dhx i).const_mul (ky i)).sub ((dhy i).const_mul (kx i))).div_const (omega : ℂ)
    rw [show (fun z => (e *ᵥ (F z).ez) i) = fun z => (ky i * (F z).hx i - kx i * (F z).hy i) / omega from
      funext fun z => hdz z i]
    refine this.congr_deriv ?_
    field_simp
    ring
  have lin : ∀ (A : Matrix (Fin nh) (Fin nh) ℂ) (f : ℝ → Fin nh → ℂ) (f' : Fin nh → ℂ),
      (∀ i, HasDerivAt (fun z => f z i) (f' i) z) → ∀ i, HasDerivAt (fun z => (A *ᵥ f z) i) ((A *ᵥ f') i) z := by
    intro A f f' h i
    simp only [mulVec, dotProduct]
    exact HasDerivAt.fun_sum fun j _ => (h j).const_mul _
  set dz' : Fin nh → ℂ := fun i => -Complex.I * (kx i * dispX P (F z).ex (F z).ey i + ky i * dispY P (F z).ex (F z).ey i)
    with hdz'
  have dez : ∀ i, HasDerivAt (fun z => (F z).ez i) ((e⁻¹ *ᵥ dz') i) z := by
    intro i
    have := lin e⁻¹ (fun z => e *ᵥ (F z).ez) dz' ddz i
    simpa [mulVec_mulVec, nonsing_inv_mul _ (det_unit hdet)] using this
  set ex' : Fin nh → ℂ := fun i => Complex.I * kx i * (F z).ez i + Complex.I * omega * (F z).hy i with hex'
  set ey' : Fin nh → ℂ := fun i => Complex.I * ky i * (F z).ez i - Complex.I * omega * (F z).hx i with hey'
  have ddx : ∀ i, HasDerivAt (fun z => dispX P (F z).ex (F z).ey i) (dispX P ex' ey' i) z := fun i =>
    HasDerivAt.fun_sum fun j _ => ((dey j).neg.const_mul _).add ((dex j).const_mul _)
  have ddy : ∀ i, HasDerivAt (fun z => dispY P (F z).ex (F z).ey i) (dispY P ex' ey' i) z := fun i =>
    (HasDerivAt.fun_sum fun j _ => ((dey j).neg.const_mul _).add ((dex j).const_mul _)).neg
  have pr : ∀ {f g : ℝ → ℂ} {f' g' : ℂ}, HasDerivAt f f' z → HasDerivAt g g' z →
      HasDerivAt (fun z => f z * star (g z)) (f' * star (g z) + f z * star g') z := by
    intro f g f' g' hf hg
    exact hf.mul hg.star
  have tot := fun i => ((pr (dez i) (ddz i)).add (pr (dhz i) (dhz i))).sub
    ((((pr (dex i) (ddx i)).add (pr (dey i) (ddy i))).add (pr (dhx i) (dhx i))).add (pr (dhy i) (dhy i)))
  have tot' := fun i => Complex.reCLM.hasFDerivAt.comp_hasDerivAt z (tot i)
  have S := (HasDerivAt.fun_sum (u := Finset.univ) fun i _ => tot' i).const_mul (1 / 2 : ℝ)
  refine HasDerivAt.congr_deriv S ?_
  simp only [Complex.reCLM_apply]
  rw [← Complex.re_sum]
  have hmul : e *ᵥ (e⁻¹ *ᵥ dz') = dz' := by
    rw [mulVec_mulVec, mul_nonsing_inv _ (det_unit hdet), one_mulVec]
  have hx : ∀ i, ∃ x : ℝ, kx i = x := fun i => ⟨_, (Complex.conj_eq_iff_re.mp (hkx i)).symm⟩
  have hy : ∀ i, ∃ x : ℝ, ky i = x := fun i => ⟨_, (Complex.conj_eq_iff_re.mp (hky i)).symm⟩
  choose X hX using hx
  choose Y hY using hy
  have e1 := herm_dot he (e⁻¹ *ᵥ dz') (F z).ez
  rw [hmul] at e1
  have disp : ∀ a b : Fin nh → ℂ, P *ᵥ Sum.elim (fun i => -b i) a = Sum.elim (fun i => -dispY P a b i) (dispX P a b) := by
    intro a b
    funext k
    rcases k with i | i <;> simp [mulVec, dotProduct, dispX, dispY, Finset.sum_add_distrib, Finset.sum_neg_distrib] <;> ring
  have e2 := herm_dot hP (Sum.elim (fun i => -(F z).ey i) (F z).ex) (Sum.elim (fun i => -ey' i) ex')
  rw [disp, disp] at e2
  simp only [Fintype.sum_sum_type, Sum.elim_inl, Sum.elim_inr, star_neg, neg_mul_neg] at e2
  have key : ∑ i, ((e⁻¹ *ᵥ dz') i * star ((e *ᵥ (F z).ez) i) + (F z).ez i * star (dz' i) +
      (-Complex.I * (kx i * (F z).hx i + ky i * (F z).hy i) * star ((F z).hz i) +
        (F z).hz i * star (-Complex.I * (kx i * (F z).hx i + ky i * (F z).hy i))) -
      (ex' i * star (dispX P (F z).ex (F z).ey i) + (F z).ex i * star (dispX P ex' ey' i) +
        (ey' i * star (dispY P (F z).ex (F z).ey i) + (F z).ey i * star (dispY P ex' ey' i)) +
        ((Complex.I * kx i * (F z).hz i - Complex.I * omega * dispY P (F z).ex (F z).ey i) * star ((F z).hx i) +
          (F z).hx i * star (Complex.I * kx i * (F z).hz i - Complex.I * omega * dispY P (F z).ex (F z).ey i)) +
        ((Complex.I * ky i * (F z).hz i + Complex.I * omega * dispX P (F z).ex (F z).ey i) * star ((F z).hy i) +
          (F z).hy i * star (Complex.I * ky i * (F z).hz i + Complex.I * omega * dispX P (F z).ex (F z).ey i)))) =
      ∑ i, (dz' i * star ((F z).ez i) + (F z).ez i * star (dz' i) +
      (-Complex.I * (kx i * (F z).hx i + ky i * (F z).hy i) * star ((F z).hz i) +
        (F z).hz i * star (-Complex.I * (kx i * (F z).hx i + ky i * (F z).hy i))) -
      (ex' i * star (dispX P (F z).ex (F z).ey i) + dispX P (F z).ex (F z).ey i * star (ex' i) +
        (ey' i * star (dispY P (F z).ex (F z).ey i) + dispY P (F z).ex (F z).ey i * star (ey' i)) +
        ((Complex.I * kx i * (F z).hz i - Complex.I * omega * dispY P (F z).ex (F z).ey i) * star ((F z).hx i) +
          (F z).hx i * star (Complex.I * kx i * (F z).hz i - Complex.I * omega * dispY P (F z).ex (F z).ey i)) +
        ((Complex.I * ky i * (F z).hz i + Complex.I * omega * dispX P (F z).ex (F z).ey i) * star ((F z).hy i) +
          (F z).hy i * star (Complex.I * ky i * (F z).hz i + Complex.I * omega * dispX P (F z).ex (F z).ey i)))) := by
    simp only [Finset.sum_sub_distrib, Finset.sum_add_distrib, e1]
    linear_combination -e2
  rw [key, Complex.re_sum, Finset.sum_eq_zero, mul_zero]
  intro i _
  rw [hdz', hex', hey']
  dsimp only
  rw [hX, hY]
  simp [Complex.mul_re, Complex.mul_im]
  ring

end

end Nannos
