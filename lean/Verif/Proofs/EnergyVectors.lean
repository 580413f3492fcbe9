import Verif.Proofs.EnergyStack
import Verif.Proofs.Pixelated
import Verif.Spec.Vectors

/-! Dissipation in the formulations with vector fields, for constant vectors. -/

namespace Nannos

open Matrix Spec

variable {E : Ext} {c : Static} {S : Set ℝ} {D : ℝ → Prop}

/-- The convolution matrix of a constant. -/
theorem toep_const_nodup (hnd : c.harmonics.Nodup) {Nx Ny : ℕ} {v : ℂ} {A} (h : c.toep ⟨Nx, Ny, fun _ _ => v⟩ = .ok A) :
    A = v • 1 := by
  unfold Static.toep at h
  dsimp only at h
  ext i j
  obtain ⟨h1, h2⟩ := toep_pos h i
  haveI : NeZero Nx := ⟨h1⟩
  haveI : NeZero Ny := ⟨h2⟩
  obtain ⟨hb, rfl⟩ := toeplitz_ok h
  rw [Matrix.of_apply, coeff_const, Matrix.smul_apply, one_apply, smul_eq_mul]
  by_cases hij : i = j
  · subst hij; simp
  · have b1 := hb i j
    have b2 := hb j i
    rw [if_neg hij, if_neg, mul_zero]
    rintro ⟨d1, d2⟩
    apply hij
    have e1 : (c.harmonics.get i).1 - (c.harmonics.get j).1 = 0 :=
      Int.eq_zero_of_abs_lt_dvd d1 (by rw [abs_lt]; omega)
    have e2 : (c.harmonics.get i).2 - (c.harmonics.get j).2 = 0 :=
      Int.eq_zero_of_abs_lt_dvd d2 (by rw [abs_lt]; omega)
    exact List.nodup_iff_injective_get.mp hnd (Prod.ext (by omega) (by omega))

theorem form_add (hS : LossCone S D) {m : Type} [Fintype m] {x y : ℝ} {A B : Matrix m m ℂ} (hx : 0 ≤ x) (hy : 0 ≤ y)
    (hA : Form S A) (hB : Form S B) (u v : m → ℂ) :
    (x * (star u ⬝ᵥ A *ᵥ u) + y * (star v ⬝ᵥ B *ᵥ v)).im ∈ S := by
  rw [Complex.add_im, Complex.im_ofReal_mul, Complex.im_ofReal_mul]
  exact hS.add (hS.smul hx (hA u)) (hS.smul hy (hB v))

/-- `eps (1 - w w*) + nu w w*`, for a vector `w` shorter than one. -/
theorem form_project (hS : LossCone S D) {n : ℕ} {A B : Matrix (Fin n) (Fin n) ℂ} (hA : Form S A) (hB : Form S B) {a b : ℂ} {s : ℝ}
    (hs : Complex.normSq a + Complex.normSq b ≤ s) (hs0 : 0 < s) :
    Form S (diag2 A - (diag2 A - diag2 B) *
      fromBlocks ((b * star b / (s : ℂ)) • 1) ((b * star a / (s : ℂ)) • 1) ((a * star b / (s : ℂ)) • 1) ((a * star a / (s : ℂ)) • 1)) := by
  have hs' : (s : ℂ) ≠ 0 := by exact_mod_cast hs0.ne'
  intro v
  obtain ⟨x, y, rfl⟩ : ∃ x y, v = Sum.elim x y := ⟨v ∘ Sum.inl, v ∘ Sum.inr, by ext i; cases i <;> rfl⟩
  have hv : star (Sum.elim x y) = Sum.elim (star x) (star y) := by ext i; cases i <;> rfl
  have hd : diag2 A - (diag2 A - diag2 B) * fromBlocks ((b * star b / (s : ℂ)) • 1) ((b * star a / (s : ℂ)) • 1)
      ((a * star b / (s : ℂ)) • 1) ((a * star a / (s : ℂ)) • 1) =
      fromBlocks (A - (b * star b / (s : ℂ)) • (A - B)) (-((b * star a / (s : ℂ)) • (A - B)))
        (-((a * star b / (s : ℂ)) • (A - B))) (A - (a * star a / (s : ℂ)) • (A - B)) := by
    unfold diag2
    have sub : ∀ A B C D A' B' C' D' : Matrix (Fin n) (Fin n) ℂ, fromBlocks A B C D - fromBlocks A' B' C' D' =
        fromBlocks (A - A') (B - B') (C - C') (D - D') := by
      intro A B C D A' B' C' D'
      simp only [sub_eq_add_neg, fromBlocks_neg, fromBlocks_add]
    rw [sub, fromBlocks_multiply, sub]
    simp
  have key : star (Sum.elim x y) ⬝ᵥ (diag2 A - (diag2 A - diag2 B) *
      fromBlocks ((b * star b / (s : ℂ)) • 1) ((b * star a / (s : ℂ)) • 1)
        ((a * star b / (s : ℂ)) • 1) ((a * star a / (s : ℂ)) • 1)) *ᵥ Sum.elim x y =
      star x ⬝ᵥ A *ᵥ x + star y ⬝ᵥ A *ᵥ y
      - (b * star b / s * (star x ⬝ᵥ A *ᵥ x - star x ⬝ᵥ B *ᵥ x) + b * star a / s * (star x ⬝ᵥ A *ᵥ y - star x ⬝ᵥ B *ᵥ y)
        + a * star b / s * (star y ⬝ᵥ A *ᵥ x - star y ⬝ᵥ B *ᵥ x) + a * star a / s * (star y ⬝ᵥ A *ᵥ y - star y ⬝ᵥ B *ᵥ y)) := by
    rw [hd, hv, fromBlocks_mulVec, sumElim_dotProduct_sumElim]
    simp only [Sum.elim_comp_inl, Sum.elim_comp_inr, sub_mulVec, neg_mulVec, smul_mulVec, dotProduct_add, dotProduct_sub,
      dotProduct_neg, dotProduct_smul, smul_eq_mul]
    ring
  have quad : ∀ (C : Matrix (Fin n) (Fin n) ℂ) (f g : ℂ), star (f • x + g • y) ⬝ᵥ C *ᵥ (f • x + g • y) =
      star f * f * (star x ⬝ᵥ C *ᵥ x) + star f * g * (star x ⬝ᵥ C *ᵥ y) + star g * f * (star y ⬝ᵥ C *ᵥ x)
        + star g * g * (star y ⬝ᵥ C *ᵥ y) := by
    intro C f g
    simp only [star_add, star_smul, mulVec_add, mulVec_smul, add_dotProduct, dotProduct_add, smul_dotProduct, dotProduct_smul,
      smul_eq_mul]
    ring
  rw [key]
  set lam : ℝ := Complex.normSq a + Complex.normSq b with hlam
  have hl : (lam : ℂ) = a * star a + b * star b := by
    rw [hlam, Complex.ofReal_add, Complex.normSq_eq_conj_mul_self, Complex.normSq_eq_conj_mul_self]
    simp only [RCLike.star_def]; ring
  by_cases h0 : lam = 0
  · have ha : a = 0 := by
      have := Complex.normSq_nonneg b; have h' := Complex.normSq_nonneg a
      exact Complex.normSq_eq_zero.mp (by linarith)
    have hb : b = 0 := by
      have := Complex.normSq_nonneg b; have h' := Complex.normSq_nonneg a
      exact Complex.normSq_eq_zero.mp (by linarith)
    have := form_add hS zero_le_one zero_le_one hA hA x y
    simpa [ha, hb] using this
  · have hl0 : 0 < lam := lt_of_le_of_ne (add_nonneg (Complex.normSq_nonneg _) (Complex.normSq_nonneg _)) (Ne.symm h0)
    have hlc : (lam : ℂ) ≠ 0 := by exact_mod_cast h0
    have h1 := form_add hS (sub_nonneg.mpr (one_div_le_one_div_of_le hl0 hs)) (one_div_pos.mpr hl0).le hA hA
      (star b • x + star a • y) (a • x + (-b) • y)
    have h2 := form_add hS (one_div_pos.mpr hs0).le le_rfl hB hB (star b • x + star a • y) 0
    have h3 := hS.add h1 h2
    rw [← Complex.add_im] at h3
    convert h3 using 2
    simp only [quad, star_star, star_neg, Complex.ofReal_sub, Complex.ofReal_div, Complex.ofReal_one, star_zero, zero_dotProduct,
      mul_zero, add_zero]
    have e1 : (1 : ℂ) = (a * star a + b * star b) * (1 / (lam : ℂ)) := by rw [← hl]; field_simp
    linear_combination (star x ⬝ᵥ A *ᵥ x + star y ⬝ᵥ A *ᵥ y) * e1

theorem normPt_sq (a b : ℂ) : Complex.normSq a + Complex.normSq b ≤ |normPt a b| ^ 2 ∧ 0 < |normPt a b| ^ 2 := by
  have h0 : 0 ≤ Complex.normSq a + Complex.normSq b := add_nonneg (Complex.normSq_nonneg _) (Complex.normSq_nonneg _)
  have h1 := Real.sqrt_nonneg (Complex.normSq a + Complex.normSq b)
  have h2 : (0 : ℝ) < 1 / 2 ^ 52 := by positivity
  unfold normPt
  rw [abs_of_pos (by linarith)]
  refine ⟨?_, by positivity⟩
  calc Complex.normSq a + Complex.normSq b = Real.sqrt (Complex.normSq a + Complex.normSq b) ^ 2 := (Real.sq_sqrt h0).symm
    _ ≤ _ := by gcongr; linarith

theorem getPeps_const (hS : LossCone S D) (hnd : c.harmonics.Nodup) {A B : Matrix (Fin c.nh) (Fin c.nh) ℂ} (hA : Form S A)
    (hB : Form S B) {Nx Ny : ℕ} {a b : ℂ} {P} (h : getPeps c (diag2 A) (diag2 B) ⟨Nx, Ny, fun _ _ => a, fun _ _ => b⟩ = .ok P) :
    Form S P := by
  unfold getPeps projField at h
  simp only [bind_eq_ok] at h
  obtain ⟨Pxx, h1, Pyy, h2, Pxy, h3, Pyx, h4, h⟩ := h
  simp only [except_pure_eq_ok, Except.ok.injEq] at h
  rw [← h, toep_const_nodup hnd h1, toep_const_nodup hnd h2, toep_const_nodup hnd h3, toep_const_nodup hnd h4]
  exact form_project hS hA hB (normPt_sq a b).1 (normPt_sq a b).2

/-- All formulations, with vectors which are constant, from any source. -/
theorem medium_form_used (hS : LossCone S D) (hnd : c.harmonics.Nodup)
    (hf : c.formulation = "original" ∨ c.formulation = "tangent" ∨ c.formulation = "jones" ∨ c.formulation = "pol")
    (hf1 : c.lattice.is1D = true → c.formulation = "original" ∨ c.formulation = "tangent")
    {mats : ℕ → LayerSpec} {stack : List ℕ} (hw : WellPlaced mats stack)
    (hc : ∀ r ∈ stack, (mats r).isUniform = false → (mats r).isAnisotropic = false ∧ ConstantVectorsUsed E c (mats r))
    {r P e} (hm : Medium E c mats r P e) (hr : r ∈ stack) (hl : LossIn S (mats r)) : Form S P ∧ Form S e := by
  by_cases hform : c.formulation = "original" ∨ c.lattice.is1D = true
  · exact medium_form hS hform hf1 hw hm hr hl
  push Not at hform
  obtain ⟨hor, h1d⟩ := hform
  induction hm with
  | uniform r hc hu ha =>
    have := lossIn_value hl ha hu
    exact ⟨form_smul_one hS this, form_smul_one hS this⟩
  | patterned r M p Q hcp hb =>
    obtain ⟨hu, -, -, -, -, -, -, -, zz, para, eph, Ht, n, h1, h2, h3, h4, hH, h5⟩ :=
      buildPure_patterned_parts hb
    obtain ⟨hiso, hk⟩ := hc r hr hu
    have he : Form S p.epsHat := form_toep hS (u := zz.g) h2 (lossIn_zz hl h1)
    refine ⟨?_, he⟩
    unfold paraOf at h3
    rw [hiso] at h3
    simp only [Bool.false_eq_true, if_false, except_pure_eq_ok, Except.ok.injEq] at h3
    subst h3
    simp only [epsParaHatOf, except_pure_eq_ok, Except.ok.injEq] at h4
    subst h4
    have hzz : (mats r).epsilon.toGrid = .ok zz := by
      rw [hiso] at h1
      simpa using h1
    have hgt : ∀ {s}, getTangentField E (mats r) zz Ht (c.formulation == "tangent") = .ok s →
        ∃ Nx Ny a b, s = ⟨Nx, Ny, fun _ _ => a, fun _ _ => b⟩ := by
      intro s hs
      refine hk zz s hzz ?_
      unfold getTangentField at hs
      split at hs
      · rename_i t ht
        obtain rfl := Except.ok.inj hs
        exact .inl ht
      · rename_i ht
        split at hs
        · exact .inr ⟨ht, Ht, n, hH, hs⟩
        · cases hs
    unfold pepsOf at h5
    dsimp only at h5
    rw [if_neg hor] at h5
    simp only [h1d] at h5
    have fin : ∀ (Nx Ny : ℕ) (a b : ℂ) (nu : Except PyErr (Matrix (Idx c.nh) (Idx c.nh) ℂ)),
        nu = (do let n ← nuHatInvIso c zz; pure (diag2 n)) →
        (do let nu ← nu; getPeps c (diag2 p.epsHat) nu ⟨Nx, Ny, fun _ _ => a, fun _ _ => b⟩) = .ok p.Peps → Form S p.Peps := by
      intro Nx Ny a b nu hnu h
      subst hnu
      simp only [bind_eq_ok] at h
      obtain ⟨nu, ⟨n', hn', hnu⟩, h⟩ := h
      simp only [except_pure_eq_ok, Except.ok.injEq] at hnu
      subst hnu
      exact getPeps_const hS hnd he (form_nu hS (lossIn_zz hl h1) hn') h
    by_cases htan : c.formulation = "tangent"
    · rw [if_pos htan, if_neg (by simp), bind_eq_ok] at h5
      obtain ⟨s, hs, h5⟩ := h5
      obtain ⟨Nx, Ny, a, b, rfl⟩ := hgt (by rw [htan]; exact hs)
      exact fin Nx Ny a b _ rfl h5
    · have hb : (c.formulation == "tangent") = false := by simpa using htan
      rw [hb] at hgt
      rw [if_neg htan] at h5
      by_cases hj : c.formulation = "jones"
      · rw [if_pos hj, bind_eq_ok] at h5
        obtain ⟨s, hs, h5⟩ := h5
        obtain ⟨Nx, Ny, a, b, rfl⟩ := hgt hs
        rw [bind_eq_ok] at h5
        obtain ⟨J, hJ, h5⟩ := h5
        unfold jonesField at hJ
        split at hJ
        · simp at hJ
        · obtain rfl := Except.ok.inj hJ
          exact fin Nx Ny (jonesPt a.re b.re).1 (jonesPt a.re b.re).2 _ rfl h5
      · rw [if_neg hj, bind_eq_ok] at h5
        obtain ⟨s, hs, h5⟩ := h5
        obtain ⟨Nx, Ny, a, b, rfl⟩ := hgt hs
        exact fin Nx Ny a b _ rfl h5
  | copy r P e hcp ho ih =>
    obtain ⟨k, hk⟩ := List.getElem?_of_mem hr
    obtain ⟨⟨j, -, hj⟩, -, h3⟩ := hw k r hk hcp
    refine ih (List.mem_of_getElem? hj) ?_
    unfold LossIn LayerSpec.isAnisotropic at hl ⊢
    rw [← h3]; exact hl

theorem Spec.ConstantVectors.used {L : LayerSpec} (h : ConstantVectors L) : ConstantVectorsUsed E c L := by
  obtain ⟨Nx, Ny, a, b, h⟩ := h
  rintro w s - (hs | ⟨hs, -⟩)
  · rw [h] at hs
    obtain rfl := Option.some.inj hs
    exact ⟨Nx, Ny, a, b, rfl⟩
  · rw [h] at hs
    cases hs

end Nannos
