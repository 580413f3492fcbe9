import Verif.Proofs.Medium
import Verif.Spec.Fields
import Mathlib.Analysis.SpecialFunctions.ExpDeriv
import Mathlib.Analysis.Calculus.Deriv.Add
import Mathlib.Analysis.Calculus.Deriv.Mul

/-! Helper lemmas on the fields (C29-C31). -/

namespace Nannos

open Matrix Spec

variable {E : Ext} {c : Static}

/-- What a successful field evaluation returned. -/
structure FieldSpec (c : Static) (L : LayerSpec) (a : LayerAttr c.nh) (M : Modes (Idx c.nh))
    (ai bi : Idx c.nh → ℂ) (z : ℝ) (F : FieldF c.nh) : Prop where
  hx : ∀ i, F.hx i = tanH M ai bi z (.inl i)
  hy : ∀ i, F.hy i = tanH M ai bi z (.inr i)
  ex : ∀ i, F.ex i = tanE M ai bi z (.inr i) / c.omega
  ey : ∀ i, F.ey i = -(tanE M ai bi z (.inl i) / c.omega)
  hz : ∀ i, F.hz i = (c.kx i * F.ey i - c.ky i * F.ex i) / c.omega
  ez : normalE L a (fun i => (c.ky i * F.hx i - c.kx i * F.hy i) / c.omega) = .ok F.ez

theorem field_tanH (M : Modes (Idx c.nh)) (d : ℝ) (hd : M.thickness = some d) (ai bi : Idx c.nh → ℂ)
    (z : ℝ) : M.phi *ᵥ ((fun k => ai k * phasor M.q z k) + fun k => bi k * phasor M.q (d - z) k) =
      tanH M ai bi z := by
  funext i
  have hz : M.z = d := by simp [Modes.z, hd]
  simp only [mulVec, dotProduct, tanH, Pi.add_apply, phasor, hz]

theorem field_tanE (M : Modes (Idx c.nh)) (d : ℝ) (hd : M.thickness = some d) (ai bi : Idx c.nh → ℂ)
    (z : ℝ) (om : ℂ) : M.Q *ᵥ (M.phi *ᵥ fun k => (ai k * phasor M.q z k - bi k * phasor M.q (d - z) k) /
      (om * M.q k)) = fun i => tanE M ai bi z i / om := by
  funext i
  have hz : M.z = d := by simp [Modes.z, hd]
  rw [mulVec_mulVec]
  simp only [mulVec, dotProduct, tanE, phasor, hz, mul_apply]
  rw [Finset.sum_div]
  refine Finset.sum_congr rfl fun j _ => ?_
  rw [mul_div_assoc', div_mul_eq_mul_div, div_div, mul_comm om]

theorem fieldAt_spec {L : LayerSpec} {a : LayerAttr c.nh} {ai bi : Idx c.nh → ℂ} {z : ℝ} {F : FieldF c.nh}
    (h : fieldAt c L a ai bi z = .ok F) :
    ∃ M d, modesOf L a = .ok M ∧ M.thickness = some d ∧ (∀ k, (c.omega : ℂ) * M.q k ≠ 0) ∧
      FieldSpec c L a M ai bi z F := by
  unfold fieldAt at h
  rw [bind_eq_ok] at h
  obtain ⟨M, hM, h⟩ := h
  rw [bind_eq_ok] at h
  obtain ⟨⟨x, y⟩, ht, h⟩ := h
  unfold translateAmplitudes at ht
  split at ht
  · simp at ht
  rename_i d hd
  simp only [Except.ok.injEq, Prod.mk.injEq] at ht
  obtain ⟨rfl, rfl⟩ := ht
  dsimp only at h
  rw [bind_eq_ok] at h
  obtain ⟨u, hr, h⟩ := h
  rw [raiseIf_ok] at hr
  push Not at hr
  rw [field_tanH M d hd, field_tanE M d hd] at h
  rw [bind_eq_ok] at h
  obtain ⟨ez, he, h⟩ := h
  simp only [except_pure_eq_ok, Except.ok.injEq] at h
  subst h
  exact ⟨M, d, hM, hd, hr, ⟨fun _ => rfl, fun _ => rfl, fun _ => rfl, fun _ => rfl, fun _ => rfl, he⟩⟩

/-- The outcome of a field evaluation (success or exception) is the same at every depth. -/
theorem fieldAt_all {L : LayerSpec} {a : LayerAttr c.nh} {ai bi : Idx c.nh → ℂ} {z : ℝ} {F : FieldF c.nh}
    (h : fieldAt c L a ai bi z = .ok F) (z' : ℝ) : ∃ F', fieldAt c L a ai bi z' = .ok F' := by
  obtain ⟨M, d, hM, hd, hr, hs⟩ := fieldAt_spec h
  unfold fieldAt
  rw [hM]
  simp only [except_bind_ok, translateAmplitudes, hd]
  rw [raiseIf_ok (u := ()).mpr (by push Not; exact hr)]
  simp only [except_bind_ok]
  have hn : ∀ dz, ∃ x, normalE L a dz = .ok x := by
    intro dz
    have he := hs.ez
    unfold normalE at he ⊢
    split
    · rename_i hu
      simp only [hu, if_true] at he
      split
      · rename_i h0; simp [h0] at he
      · exact ⟨_, rfl⟩
    · rename_i hu
      simp only [hu, Bool.false_eq_true, if_false] at he
      rw [bind_eq_ok] at he
      obtain ⟨p, hp, he⟩ := he
      rw [linSolveVec_ok] at he
      rw [hp]
      exact ⟨_, (linSolveVec_ok _ _ _).mpr ⟨he.1, rfl⟩⟩
  obtain ⟨x, hx⟩ := hn _
  rw [hx]
  exact ⟨_, rfl⟩

/-! ### Derivatives with respect to the depth -/

theorem hasDeriv_exp (q : ℂ) (z : ℝ) :
    HasDerivAt (fun z : ℝ => Complex.exp (Complex.I * q * z)) (Complex.I * q * Complex.exp (Complex.I * q * z)) z := by
  have h1 : HasDerivAt (fun z : ℝ => Complex.I * q * (z : ℂ)) (Complex.I * q) z := by
    simpa using (Complex.ofRealCLM.hasDerivAt (x := z)).const_mul (Complex.I * q)
  have h2 := h1.cexp
  rwa [mul_comm (Complex.exp _)] at h2

theorem hasDeriv_exp_rev (q : ℂ) (d z : ℝ) :
    HasDerivAt (fun z : ℝ => Complex.exp (Complex.I * q * ((d - z : ℝ) : ℂ)))
      (-(Complex.I * q * Complex.exp (Complex.I * q * ((d - z : ℝ) : ℂ)))) z := by
  have h1 : HasDerivAt (fun z : ℝ => Complex.I * q * ((d - z : ℝ) : ℂ)) (-(Complex.I * q)) z := by
    have h0 : HasDerivAt (fun z : ℝ => d - z) (-1) z := by
      simpa using (hasDerivAt_id z).const_sub d
    have := (h0.ofReal_comp).const_mul (Complex.I * q)
    simpa using this
  have h2 := h1.cexp
  convert h2 using 1
  ring

variable {m : Type} [Fintype m] [DecidableEq m]

/-- `dH/dz = i R E` where `E` is `tanE` and `R Q phi = phi q^2`. -/
theorem tanH_deriv (M : Modes m) {R : Matrix m m ℂ}
    (hR : R * M.Q * M.phi = M.phi * diagonal (fun k => M.q k ^ 2)) (hq : ∀ k, M.q k ≠ 0) (a b : m → ℂ)
    (z : ℝ) (i : m) :
    HasDerivAt (fun z => tanH M a b z i) (Complex.I * (R *ᵥ tanE M a b z) i) z := by
  have hd : HasDerivAt (fun z => tanH M a b z i)
      (∑ j, M.phi i j * (a j * (Complex.I * M.q j * Complex.exp (Complex.I * M.q j * z)) +
        b j * (-(Complex.I * M.q j * Complex.exp (Complex.I * M.q j * ((M.z - z : ℝ) : ℂ)))))) z := by
    unfold tanH
    refine HasDerivAt.fun_sum fun j _ => ?_
    exact (((hasDeriv_exp _ z).const_mul _).add ((hasDeriv_exp_rev _ M.z z).const_mul _)).const_mul _
  convert hd using 1
  have e1 : ∀ j, ∑ k, R i k * (∑ l, M.Q k l * M.phi l j) = M.phi i j * M.q j ^ 2 := by
    intro j
    have := congrFun (congrFun hR i) j
    rw [Matrix.mul_assoc, mul_apply, mul_diagonal] at this
    simpa only [mul_apply] using this
  unfold tanE mulVec dotProduct
  simp only [Finset.mul_sum]
  rw [Finset.sum_comm]
  refine Finset.sum_congr rfl fun j _ => ?_
  have h0 := hq j
  have : ∀ X : ℂ, ∑ k, Complex.I * (R i k * ((∑ l, M.Q k l * M.phi l j) / M.q j * X)) =
      Complex.I * (M.phi i j * M.q j ^ 2) / M.q j * X := by
    intro X
    rw [← e1 j, Finset.mul_sum, Finset.sum_div, Finset.sum_mul]
    refine Finset.sum_congr rfl fun k _ => ?_
    ring
  rw [this]
  field_simp
  ring

omit [DecidableEq m] in
/-- `dE/dz = i Q H`. -/
theorem tanE_deriv (M : Modes m) (hq : ∀ k, M.q k ≠ 0) (a b : m → ℂ) (z : ℝ) (i : m) :
    HasDerivAt (fun z => tanE M a b z i) (Complex.I * (M.Q *ᵥ tanH M a b z) i) z := by
  have hd : HasDerivAt (fun z => tanE M a b z i)
      (∑ j, (∑ k, M.Q i k * M.phi k j) / M.q j *
        (a j * (Complex.I * M.q j * Complex.exp (Complex.I * M.q j * z)) -
        b j * (-(Complex.I * M.q j * Complex.exp (Complex.I * M.q j * ((M.z - z : ℝ) : ℂ)))))) z := by
    unfold tanE
    refine HasDerivAt.fun_sum fun j _ => ?_
    exact (((hasDeriv_exp _ z).const_mul _).sub ((hasDeriv_exp_rev _ M.z z).const_mul _)).const_mul _
  convert hd using 1
  unfold tanH mulVec dotProduct
  simp only [Finset.mul_sum]
  rw [Finset.sum_comm]
  refine Finset.sum_congr rfl fun j _ => ?_
  have h0 := hq j
  rw [Finset.sum_div, Finset.sum_mul]
  refine Finset.sum_congr rfl fun k _ => ?_
  field_simp
  ring

end Nannos
