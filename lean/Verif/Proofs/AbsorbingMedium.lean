import Verif.Proofs.Absorbing
import Verif.Proofs.Pixelated
import Verif.Proofs.EnergyVectors
import Verif.Spec.Absorbing

/-! Permittivity operators of materials which absorb everywhere (C85). -/

namespace Nannos

open Matrix Spec

variable {E : Ext} {c : Static}

section
variable {m : Type} [Fintype m] [DecidableEq m]

theorem dot_self (v : m → ℂ) : star v ⬝ᵥ v = ((∑ i, Complex.normSq (v i) : ℝ) : ℂ) := by
  simp only [dotProduct, Pi.star_apply, RCLike.star_def, Complex.ofReal_sum]
  exact Finset.sum_congr rfl fun i _ => by rw [← Complex.normSq_eq_conj_mul_self]

theorem Absorbs.form {A : Matrix m m ℂ} (h : Absorbs A) : Form (Set.Ici 0) A := by
  intro v
  by_cases h0 : v = 0
  · rw [h0, mulVec_zero, dotProduct_zero]
    exact le_refl (0 : ℝ)
  · exact (h v h0).le

theorem Absorbs.det {A : Matrix m m ℂ} (h : Absorbs A) : A.det ≠ 0 := by
  intro h0
  obtain ⟨v, hv, hv0⟩ := Matrix.exists_mulVec_eq_zero_iff.mpr h0
  have := h v hv
  rw [hv0, dotProduct_zero] at this
  exact lt_irrefl _ this

theorem absorbs_smul_one {e : ℂ} (he : 0 < e.im) : Absorbs (e • (1 : Matrix m m ℂ)) := by
  intro v hv
  rw [smul_mulVec, one_mulVec, dotProduct_smul, smul_eq_mul, dot_self, Complex.mul_im, Complex.ofReal_re, Complex.ofReal_im,
    mul_zero, zero_add]
  obtain ⟨i, hi⟩ := Function.ne_iff.mp hv
  exact mul_pos he (Finset.sum_pos' (fun i _ => Complex.normSq_nonneg _) ⟨i, Finset.mem_univ _, Complex.normSq_pos.mpr hi⟩)

theorem sum_elim_ne {v : m ⊕ m → ℂ} (hv : v ≠ 0) : v ∘ Sum.inl ≠ 0 ∨ v ∘ Sum.inr ≠ 0 := by
  by_contra hc
  push Not at hc
  refine hv (funext fun x => ?_)
  rcases x with i | i
  · exact congrFun hc.1 i
  · exact congrFun hc.2 i

theorem absorbs_blocks {A B : Matrix m m ℂ} (hA : Absorbs A) (hB : Absorbs B) : Absorbs (fromBlocks A 0 0 B) := by
  intro v hv
  have : star v ⬝ᵥ fromBlocks A 0 0 B *ᵥ v = star (v ∘ Sum.inl) ⬝ᵥ A *ᵥ (v ∘ Sum.inl) +
      star (v ∘ Sum.inr) ⬝ᵥ B *ᵥ (v ∘ Sum.inr) := by
    rw [fromBlocks_mulVec]
    simp [dotProduct, Fintype.sum_sum_type]
  rw [this, Complex.add_im]
  rcases sum_elim_ne hv with h | h
  · exact add_pos_of_pos_of_nonneg (hA _ h) (hB.form _)
  · exact add_pos_of_nonneg_of_pos (hA.form _) (hB _ h)

theorem absorbs_inv {A : Matrix m m ℂ} (hA : A.det ≠ 0) (h : ∀ v, v ≠ 0 → 0 < -(star v ⬝ᵥ A *ᵥ v).im) : Absorbs A⁻¹ := by
  intro v hv0
  have hv : A *ᵥ (A⁻¹ *ᵥ v) = v := by rw [mulVec_mulVec, mul_nonsing_inv _ (det_unit hA), one_mulVec]
  have := h (A⁻¹ *ᵥ v) (fun h0 => hv0 (by rw [← hv, h0, mulVec_zero]))
  rw [hv, im_star_dot, neg_neg] at this
  exact this

end

/-- A field with distinct orders within the range of the grid is not zero on all the pixels. -/
theorem series_ne {nh Nx Ny : ℕ} [NeZero Nx] [NeZero Ny] {H : Fin nh → ℤ × ℤ} (hH : Function.Injective H) {u : Grid Nx Ny}
    {A : Matrix (Fin nh) (Fin nh) ℂ} (hA : toeplitz H u = .ok A) {v : Fin nh → ℂ} (hv : v ≠ 0) :
    ∃ x y, series H v Nx Ny x y ≠ 0 := by
  obtain ⟨b, -⟩ := toeplitz_ok hA
  obtain ⟨B, hB⟩ := toeplitz_exists (fun (_ : Fin Nx) (_ : Fin Ny) => (1 : ℂ)) b
  have hB1 : B = 1 := by
    rw [(toeplitz_ok hB).2]
    ext i j
    rw [of_apply, coeff_const]
    by_cases hij : i = j
    · subst hij; simp
    · rw [if_neg, one_apply_ne hij]
      rintro ⟨d1, d2⟩
      have b1 := b i j
      have b2 := b j i
      have e1 := Int.eq_zero_of_abs_lt_dvd d1 (by rw [abs_lt]; omega)
      have e2 := Int.eq_zero_of_abs_lt_dvd d2 (by rw [abs_lt]; omega)
      exact hij (hH (Prod.ext (by omega) (by omega)))
  have h := toep_dot hB v v
  rw [hB1, one_mulVec, dot_self] at h
  by_contra hc
  push Not at hc
  have h0 : (∑ i, Complex.normSq (v i) : ℝ) = 0 := by
    have : ((∑ i, Complex.normSq (v i) : ℝ) : ℂ) = 0 := by
      rw [h]
      exact Finset.sum_eq_zero fun x _ => Finset.sum_eq_zero fun y _ => by rw [hc x y]; simp
    exact_mod_cast this
  refine hv (funext fun i => ?_)
  exact Complex.normSq_eq_zero.mp
    ((Finset.sum_eq_zero_iff_of_nonneg fun i _ => Complex.normSq_nonneg (v i)).mp h0 i (Finset.mem_univ _))

theorem absorbs_toep {nh Nx Ny : ℕ} {H : Fin nh → ℤ × ℤ} (hH : Function.Injective H) {u : Grid Nx Ny}
    {A : Matrix (Fin nh) (Fin nh) ℂ} (hA : toeplitz H u = .ok A) (hu : ∀ x y, 0 < (u x y).im) : Absorbs A := by
  intro v hv
  obtain ⟨i0, -⟩ := Function.ne_iff.mp hv
  obtain ⟨h1, h2⟩ := toep_pos hA i0
  have : NeZero Nx := ⟨h1⟩
  have : NeZero Ny := ⟨h2⟩
  have hN : 0 < ((Nx : ℝ) * Ny)⁻¹ := by
    have : 0 < (Nx : ℝ) := by exact_mod_cast Nat.pos_of_ne_zero h1
    have : 0 < (Ny : ℝ) := by exact_mod_cast Nat.pos_of_ne_zero h2
    positivity
  obtain ⟨x0, y0, hne⟩ := series_ne hH hA hv
  have key : ∀ x y, (((((Nx : ℝ) * Ny)⁻¹ : ℝ) : ℂ) * (star (series H v Nx Ny x y) * u x y * series H v Nx Ny x y)).im =
      ((Nx : ℝ) * Ny)⁻¹ * (Complex.normSq (series H v Nx Ny x y) * (u x y).im) := by
    intro x y
    rw [Complex.im_ofReal_mul]
    congr 1
    generalize series H v Nx Ny x y = V
    simp [Complex.normSq_apply]; ring
  have hnn : ∀ x y, 0 ≤ ((Nx : ℝ) * Ny)⁻¹ * (Complex.normSq (series H v Nx Ny x y) * (u x y).im) := fun x y =>
    mul_nonneg hN.le (mul_nonneg (Complex.normSq_nonneg _) (hu x y).le)
  rw [toep_dot hA, Complex.im_sum]
  simp only [Complex.im_sum, key]
  refine Finset.sum_pos' (fun x _ => Finset.sum_nonneg fun y _ => hnn x y) ⟨x0, Finset.mem_univ _, ?_⟩
  exact Finset.sum_pos' (fun y _ => hnn x0 y) ⟨y0, Finset.mem_univ _, mul_pos hN (mul_pos (Complex.normSq_pos.mpr hne) (hu _ _))⟩

/-- The same for the blocks of a tensor. -/
theorem absorbs_toep4 {nh Nx Ny : ℕ} {H : Fin nh → ℤ × ℤ} (hH : Function.Injective H) {xx xy yx yy : Grid Nx Ny}
    {A B C F : Matrix (Fin nh) (Fin nh) ℂ} (hA : toeplitz H xx = .ok A) (hB : toeplitz H xy = .ok B)
    (hC : toeplitz H yx = .ok C) (hF : toeplitz H yy = .ok F)
    (hu : ∀ x y, ∀ p q : ℂ, (p ≠ 0 ∨ q ≠ 0) → 0 < (star p * xx x y * p + star p * xy x y * q + star q * yx x y * p +
      star q * yy x y * q).im) : Absorbs (fromBlocks A B C F) := by
  intro v hv
  obtain ⟨i0⟩ : Nonempty (Fin nh) := by
    obtain ⟨i | i, -⟩ := Function.ne_iff.mp hv <;> exact ⟨i⟩
  obtain ⟨h1, h2⟩ := toep_pos hA i0
  have : NeZero Nx := ⟨h1⟩
  have : NeZero Ny := ⟨h2⟩
  have hN : 0 < ((Nx : ℝ) * Ny)⁻¹ := by
    have : 0 < (Nx : ℝ) := by exact_mod_cast Nat.pos_of_ne_zero h1
    have : 0 < (Ny : ℝ) := by exact_mod_cast Nat.pos_of_ne_zero h2
    positivity
  have e : star v ⬝ᵥ fromBlocks A B C F *ᵥ v = star (v ∘ Sum.inl) ⬝ᵥ A *ᵥ (v ∘ Sum.inl) +
      star (v ∘ Sum.inl) ⬝ᵥ B *ᵥ (v ∘ Sum.inr) + star (v ∘ Sum.inr) ⬝ᵥ C *ᵥ (v ∘ Sum.inl) +
      star (v ∘ Sum.inr) ⬝ᵥ F *ᵥ (v ∘ Sum.inr) := by
    rw [fromBlocks_mulVec]
    simp [dotProduct, Fintype.sum_sum_type, mul_add, Finset.sum_add_distrib]
    ring
  rw [e, toep_dot hA, toep_dot hB, toep_dot hC, toep_dot hF]
  simp only [← Finset.sum_add_distrib, ← mul_add]
  simp only [Complex.im_sum, Complex.im_ofReal_mul]
  have hnn : ∀ x y, 0 ≤ ((Nx : ℝ) * Ny)⁻¹ * (star (series H (v ∘ Sum.inl) Nx Ny x y) * xx x y * series H (v ∘ Sum.inl) Nx Ny x y +
      star (series H (v ∘ Sum.inl) Nx Ny x y) * xy x y * series H (v ∘ Sum.inr) Nx Ny x y +
      star (series H (v ∘ Sum.inr) Nx Ny x y) * yx x y * series H (v ∘ Sum.inl) Nx Ny x y +
      star (series H (v ∘ Sum.inr) Nx Ny x y) * yy x y * series H (v ∘ Sum.inr) Nx Ny x y).im := by
    intro x y
    refine mul_nonneg hN.le ?_
    by_cases h : series H (v ∘ Sum.inl) Nx Ny x y ≠ 0 ∨ series H (v ∘ Sum.inr) Nx Ny x y ≠ 0
    · exact (hu x y _ _ h).le
    · push Not at h
      rw [h.1, h.2]; simp
  obtain ⟨x0, y0, hne⟩ : ∃ x y, series H (v ∘ Sum.inl) Nx Ny x y ≠ 0 ∨ series H (v ∘ Sum.inr) Nx Ny x y ≠ 0 := by
    rcases sum_elim_ne hv with h | h
    · obtain ⟨x, y, h⟩ := series_ne hH hA h
      exact ⟨x, y, .inl h⟩
    · obtain ⟨x, y, h⟩ := series_ne hH hA h
      exact ⟨x, y, .inr h⟩
  refine Finset.sum_pos' (fun x _ => Finset.sum_nonneg fun y _ => hnn x y) ⟨x0, Finset.mem_univ _, ?_⟩
  exact Finset.sum_pos' (fun y _ => hnn x0 y) ⟨y0, Finset.mem_univ _, mul_pos hN (hu x0 y0 _ _ hne)⟩

theorem absorbing_iso {L : LayerSpec} (h : Absorbing L) (ha : L.isAnisotropic = false) {g : PGrid}
    (hg : L.epsilon.toGrid = .ok g) (x y) : 0 < (g.g x y).im := by
  obtain ⟨h1, h2⟩ := toGrid_ok hg
  unfold Absorbing at h
  rw [if_neg (by simp [ha])] at h
  rw [h2]
  exact h _ (h1 ▸ forall2_pixel x y)

theorem absorbing_aniso {L : LayerSpec} (h : Absorbing L) (ha : L.isAnisotropic = true) {i j : ℕ} {g : PGrid}
    (hg : (L.epsilon.comp i j).toGrid = .ok g) (x : Fin g.Nx) (y : Fin g.Ny) (w : Fin 3 → ℂ) (hw : w ≠ 0) :
    0 < (∑ i : Fin 3, ∑ j : Fin 3, star (w i) *
      L.epsilon.data ((i : ℕ) :: (j : ℕ) :: [(x : ℕ), (y : ℕ)]) * w j).im := by
  obtain ⟨h1, h2⟩ := toGrid_ok hg
  unfold Absorbing at h
  rw [if_pos ha] at h
  refine h _ ?_ w hw
  have : (L.epsilon.comp i j).shape = L.epsilon.shape.drop 2 := rfl
  rw [← this, h1]
  exact forall2_pixel x y

theorem absorbing_zz {L : LayerSpec} (h : Absorbing L) {g : PGrid}
    (hg : (if L.isAnisotropic then L.epsilon.comp 2 2 else L.epsilon).toGrid = .ok g) (x y) :
    0 < (g.g x y).im := by
  cases ha : L.isAnisotropic with
  | false =>
    rw [ha] at hg
    exact absorbing_iso h ha hg x y
  | true =>
    rw [ha, if_pos rfl] at hg
    have := absorbing_aniso h ha hg x y ![0, 0, 1] (fun h0 => by have := congrFun h0 2; simp at this)
    rw [(toGrid_ok hg).2]
    simpa [Fin.sum_univ_three, NdArr.comp] using this

theorem absorbing_value {L : LayerSpec} (h : Absorbing L) (ha : L.isAnisotropic = false)
    (hu : L.isUniform = true) : 0 < L.epsilon.value.im := by
  unfold Absorbing at h
  rw [if_neg (by simp [ha])] at h
  unfold LayerSpec.isUniform Nannos.isUniform at hu
  unfold LayerSpec.isAnisotropic at ha
  rw [if_neg (by simp [ha])] at hu
  unfold NdArr.value
  rcases hs : L.epsilon.shape with _ | ⟨n, _ | ⟨n', l⟩⟩
  · exact h [] (by rw [hs]; exact .nil)
  · rw [hs] at hu
    simp at hu
    subst hu
    exact h [0] (by rw [hs]; exact .cons Nat.one_pos .nil)
  · rw [hs] at hu
    simp at hu

theorem absorbs_nu (hH : Function.Injective c.harmonics.get) {g : PGrid} (hg : ∀ x y, 0 < (g.g x y).im)
    {n : Matrix (Fin c.nh) (Fin c.nh) ℂ} (h : nuHatInvIso c g = .ok n) : Absorbs n := by
  unfold nuHatInvIso at h
  rw [bind_eq_ok] at h
  obtain ⟨nu, h1, h⟩ := h
  rw [bind_eq_ok] at h
  obtain ⟨A, h2, h⟩ := h
  rw [linInv_ok] at h
  rw [h.2]
  refine absorbs_inv h.1 fun v hv => ?_
  have h2' : toeplitz c.harmonics.get nu.g = .ok A := h2
  obtain ⟨b, hb⟩ : ∃ B, toeplitz c.harmonics.get (fun x y => -nu.g x y) = .ok B := by
    rcases Nat.eq_zero_or_pos c.nh with h0 | hn
    · exact toeplitz_exists _ fun i => absurd i.isLt (by have : c.harmonics.length = 0 := h0; omega)
    obtain ⟨p1, p2⟩ := toep_pos h2' ⟨0, hn⟩
    have : NeZero nu.Nx := ⟨p1⟩
    have : NeZero nu.Ny := ⟨p2⟩
    exact toeplitz_exists _ (toeplitz_ok h2').1
  have hneg := absorbs_toep hH hb (fun x y => by
    unfold recipGrid at h1
    split at h1
    · simp at h1
    simp only [Except.ok.injEq] at h1
    subst h1
    have e0 : g.g x y ≠ 0 := fun h0 => by have := hg x y; rw [h0] at this; exact lt_irrefl _ this
    have : (-((1 : ℂ) / g.g x y)).im = (Complex.normSq (g.g x y))⁻¹ * (g.g x y).im := by
      rw [one_div, Complex.neg_im, Complex.inv_im]; ring
    rw [this]
    exact mul_pos (inv_pos.mpr (Complex.normSq_pos.mpr e0)) (hg x y)) v hv
  obtain ⟨i0, -⟩ := Function.ne_iff.mp hv
  obtain ⟨p1, p2⟩ := toep_pos h2' i0
  have : NeZero nu.Nx := ⟨p1⟩
  have : NeZero nu.Ny := ⟨p2⟩
  rw [toep_dot hb] at hneg
  rw [toep_dot h2', ← Complex.neg_im]
  convert hneg using 2
  rw [← Finset.sum_neg_distrib]
  refine Finset.sum_congr rfl fun x _ => ?_
  rw [← Finset.sum_neg_distrib]
  refine Finset.sum_congr rfl fun y _ => ?_
  ring

/-- `eps (1 - w w*) + nu w w*`, for a vector `w` shorter than one. -/
theorem absorbs_project {n : ℕ} {A B : Matrix (Fin n) (Fin n) ℂ} (hA : Absorbs A) (hB : Absorbs B) {a b : ℂ} {s : ℝ}
    (hs : Complex.normSq a + Complex.normSq b ≤ s) (hs0 : 0 < s) :
    Absorbs (diag2 A - (diag2 A - diag2 B) *
      fromBlocks ((b * star b / (s : ℂ)) • 1) ((b * star a / (s : ℂ)) • 1) ((a * star b / (s : ℂ)) • 1) ((a * star a / (s : ℂ)) • 1)) := by
  have hs' : (s : ℂ) ≠ 0 := by exact_mod_cast hs0.ne'
  intro v hv0
  obtain ⟨x, y, rfl⟩ : ∃ x y, v = Sum.elim x y := ⟨v ∘ Sum.inl, v ∘ Sum.inr, by ext i; cases i <;> rfl⟩
  have hxy : x ≠ 0 ∨ y ≠ 0 := by simpa using sum_elim_ne hv0
  have hv : star (Sum.elim x y) = Sum.elim (star x) (star y) := by ext i; cases i <;> rfl
  have hd : diag2 A - (diag2 A - diag2 B) * fromBlocks ((b * star b / (s : ℂ)) • 1) ((b * star a / (s : ℂ)) • 1)
      ((a * star b / (s : ℂ)) • 1) ((a * star a / (s : ℂ)) • 1) =
      fromBlocks (A - (b * star b / (s : ℂ)) • (A - B)) (-((b * star a / (s : ℂ)) • (A - B)))
        (-((a * star b / (s : ℂ)) • (A - B))) (A - (a * star a / (s : ℂ)) • (A - B)) := by
    unfold diag2
    have sub : ∀ A B C D A' B' C' D' : Matrix (Fin n) (Fin n) ℂ, fromBlocks A B C D - fromBlocks A' B' C' D' =
        fromBlocks (A - A') (B - B') (C - C') (D - D') := by
      intro A B C D A' B' C' D'
      simp only [sub_eq_add_neg, fromBlocks_neg, fromBlocks_add]
    rw [sub, fromBlocks_multiply, sub]
    simp
  have key : star (Sum.elim x y) ⬝ᵥ (diag2 A - (diag2 A - diag2 B) *
      fromBlocks ((b * star b / (s : ℂ)) • 1) ((b * star a / (s : ℂ)) • 1)
        ((a * star b / (s : ℂ)) • 1) ((a * star a / (s : ℂ)) • 1)) *ᵥ Sum.elim x y =
      star x ⬝ᵥ A *ᵥ x + star y ⬝ᵥ A *ᵥ y
      - (b * star b / s * (star x ⬝ᵥ A *ᵥ x - star x ⬝ᵥ B *ᵥ x) + b * star a / s * (star x ⬝ᵥ A *ᵥ y - star x ⬝ᵥ B *ᵥ y)
        + a * star b / s * (star y ⬝ᵥ A *ᵥ x - star y ⬝ᵥ B *ᵥ x) + a * star a / s * (star y ⬝ᵥ A *ᵥ y - star y ⬝ᵥ B *ᵥ y)) := by
    rw [hd, hv, fromBlocks_mulVec, sumElim_dotProduct_sumElim]
    simp only [Sum.elim_comp_inl, Sum.elim_comp_inr, sub_mulVec, neg_mulVec, smul_mulVec, dotProduct_add, dotProduct_sub,
      dotProduct_neg, dotProduct_smul, smul_eq_mul]
    ring
  have quad : ∀ (C : Matrix (Fin n) (Fin n) ℂ) (f g : ℂ), star (f • x + g • y) ⬝ᵥ C *ᵥ (f • x + g • y) =
      star f * f * (star x ⬝ᵥ C *ᵥ x) + star f * g * (star x ⬝ᵥ C *ᵥ y) + star g * f * (star y ⬝ᵥ C *ᵥ x)
        + star g * g * (star y ⬝ᵥ C *ᵥ y) := by
    intro C f g
    simp only [star_add, star_smul, mulVec_add, mulVec_smul, add_dotProduct, dotProduct_add, smul_dotProduct, dotProduct_smul,
      smul_eq_mul]
    ring
  rw [key]
  set lam : ℝ := Complex.normSq a + Complex.normSq b with hlam
  have hl : (lam : ℂ) = a * star a + b * star b := by
    rw [hlam, Complex.ofReal_add, Complex.normSq_eq_conj_mul_self, Complex.normSq_eq_conj_mul_self]
    simp only [RCLike.star_def]; ring
  by_cases h0 : lam = 0
  · have ha : a = 0 := by
      have := Complex.normSq_nonneg b; have h' := Complex.normSq_nonneg a
      exact Complex.normSq_eq_zero.mp (by linarith)
    have hb : b = 0 := by
      have := Complex.normSq_nonneg b; have h' := Complex.normSq_nonneg a
      exact Complex.normSq_eq_zero.mp (by linarith)
    have : 0 < (star x ⬝ᵥ A *ᵥ x + star y ⬝ᵥ A *ᵥ y).im := by
      rw [Complex.add_im]
      rcases hxy with h | h
      · exact add_pos_of_pos_of_nonneg (hA _ h) (hA.form _)
      · exact add_pos_of_nonneg_of_pos (hA.form _) (hA _ h)
    simpa [ha, hb] using this
  · have hl0 : 0 < lam := lt_of_le_of_ne (add_nonneg (Complex.normSq_nonneg _) (Complex.normSq_nonneg _)) (Ne.symm h0)
    have hlc : (lam : ℂ) ≠ 0 := by exact_mod_cast h0
    -- the components along the vector and across it
    have huw : star b • x + star a • y ≠ 0 ∨ a • x + (-b) • y ≠ 0 := by
      by_contra hc
      push Not at hc
      obtain ⟨c1, c2⟩ := hc
      have ex : (lam : ℂ) • x = 0 := by
        have : (lam : ℂ) • x = b • (star b • x + star a • y) + star a • (a • x + (-b) • y) := by
          rw [hl]; module
        rw [this, c1, c2, smul_zero, smul_zero, add_zero]
      have ey : (lam : ℂ) • y = 0 := by
        have : (lam : ℂ) • y = a • (star b • x + star a • y) - star b • (a • x + (-b) • y) := by
          rw [hl]; module
        rw [this, c1, c2, smul_zero, smul_zero, sub_zero]
      rcases hxy with h | h
      · exact h ((smul_eq_zero.mp ex).resolve_left hlc)
      · exact h ((smul_eq_zero.mp ey).resolve_left hlc)
    have e1 : (1 : ℂ) = (a * star a + b * star b) * (1 / (lam : ℂ)) := by rw [← hl]; field_simp
    have hsplit : star x ⬝ᵥ A *ᵥ x + star y ⬝ᵥ A *ᵥ y
        - (b * star b / s * (star x ⬝ᵥ A *ᵥ x - star x ⬝ᵥ B *ᵥ x) + b * star a / s * (star x ⬝ᵥ A *ᵥ y - star x ⬝ᵥ B *ᵥ y)
          + a * star b / s * (star y ⬝ᵥ A *ᵥ x - star y ⬝ᵥ B *ᵥ x) + a * star a / s * (star y ⬝ᵥ A *ᵥ y - star y ⬝ᵥ B *ᵥ y)) =
        ((1 / lam - 1 / s : ℝ) : ℂ) * (star (star b • x + star a • y) ⬝ᵥ A *ᵥ (star b • x + star a • y)) +
        ((1 / lam : ℝ) : ℂ) * (star (a • x + (-b) • y) ⬝ᵥ A *ᵥ (a • x + (-b) • y)) +
        ((1 / s : ℝ) : ℂ) * (star (star b • x + star a • y) ⬝ᵥ B *ᵥ (star b • x + star a • y)) := by
      simp only [quad, star_star, star_neg, Complex.ofReal_sub, Complex.ofReal_div, Complex.ofReal_one]
      linear_combination (star x ⬝ᵥ A *ᵥ x + star y ⬝ᵥ A *ᵥ y) * e1
    rw [hsplit, Complex.add_im, Complex.add_im, Complex.im_ofReal_mul, Complex.im_ofReal_mul, Complex.im_ofReal_mul]
    have n1 : 0 ≤ (1 / lam - 1 / s) * (star (star b • x + star a • y) ⬝ᵥ A *ᵥ (star b • x + star a • y)).im :=
      mul_nonneg (sub_nonneg.mpr (one_div_le_one_div_of_le hl0 hs)) (hA.form _)
    have n2 : 0 ≤ 1 / lam * (star (a • x + (-b) • y) ⬝ᵥ A *ᵥ (a • x + (-b) • y)).im :=
      mul_nonneg (one_div_pos.mpr hl0).le (hA.form _)
    have n3 : 0 ≤ 1 / s * (star (star b • x + star a • y) ⬝ᵥ B *ᵥ (star b • x + star a • y)).im :=
      mul_nonneg (one_div_pos.mpr hs0).le (hB.form _)
    rcases huw with h | h
    · have := mul_pos (one_div_pos.mpr hs0) (hB _ h)
      linarith
    · have := mul_pos (one_div_pos.mpr hl0) (hA _ h)
      linarith

theorem getPeps_absorbs (hnd : c.harmonics.Nodup) {A B : Matrix (Fin c.nh) (Fin c.nh) ℂ} (hA : Absorbs A) (hB : Absorbs B)
    {Nx Ny : ℕ} {a b : ℂ} {P} (h : getPeps c (diag2 A) (diag2 B) ⟨Nx, Ny, fun _ _ => a, fun _ _ => b⟩ = .ok P) :
    Absorbs P := by
  unfold getPeps projField at h
  simp only [bind_eq_ok] at h
  obtain ⟨Pxx, h1, Pyy, h2, Pxy, h3, Pyx, h4, h⟩ := h
  simp only [except_pure_eq_ok, Except.ok.injEq] at h
  rw [← h, toep_const_nodup hnd h1, toep_const_nodup hnd h2, toep_const_nodup hnd h3, toep_const_nodup hnd h4]
  exact absorbs_project hA hB (normPt_sq a b).1 (normPt_sq a b).2

/-- In the formulation `original`, for one period, or with vectors which are constant, from any source. -/
theorem medium_absorbs {mats : ℕ → LayerSpec} {stack : List ℕ}
    (hform : c.formulation = "original" ∨ c.lattice.is1D = true ∨ ∀ r ∈ stack, (mats r).isUniform = false →
      (mats r).isAnisotropic = false ∧ ConstantVectorsUsed E c (mats r))
    (hf1 : c.lattice.is1D = true → c.formulation = "original" ∨ c.formulation = "tangent")
    (hw : WellPlaced mats stack)
    {r P e} (hm : Medium E c mats r P e) : r ∈ stack → Absorbing (mats r) → Absorbs P ∧ Absorbs e := by
  induction hm with
  | uniform r hc hu ha =>
    intro _ hl
    have := absorbing_value hl ha hu
    exact ⟨absorbs_smul_one this, absorbs_smul_one this⟩
  | patterned r M p Q hc hb =>
    intro hr hl
    obtain ⟨hu, hdet, -, -, -, -, -, -, zz, para, eph, Ht, n, h1, h2, h3, h4, hHt, h5⟩ :=
      buildPure_patterned_parts hb
    have hH : Function.Injective c.harmonics.get := by
      intro i j hij
      by_contra hne
      refine hdet (det_zero_of_row_eq hne ?_)
      obtain ⟨p1, p2⟩ := toep_pos (u := zz.g) h2 i
      have : NeZero zz.Nx := ⟨p1⟩
      have : NeZero zz.Ny := ⟨p2⟩
      funext k
      rw [(toeplitz_ok (u := zz.g) h2).2]
      simp only [of_apply, hij]
    have he : Absorbs p.epsHat := absorbs_toep hH (u := zz.g) h2 (absorbing_zz hl h1)
    refine ⟨?_, he⟩
    have hpara : Absorbs eph := by
      unfold paraOf at h3
      unfold epsParaHatOf at h4
      split at h3
      · rename_i ha
        rw [bind_eq_ok] at h3
        obtain ⟨t, h3, h6⟩ := h3
        simp only [except_pure_eq_ok, Except.ok.injEq] at h6
        subst h6
        dsimp only at h4
        rw [bind_eq_ok] at h4
        obtain ⟨T, h4, h6⟩ := h4
        simp only [except_pure_eq_ok, Except.ok.injEq] at h6
        subst h6
        unfold Trans4.mapM at h3 h4
        simp only [bind_eq_ok, except_pure_eq_ok, Except.ok.injEq] at h3 h4
        obtain ⟨a, a1, b, b1, cc, c1, d, d1, rfl⟩ := h3
        obtain ⟨A, A1, B, B1, C, C1, F, F1, rfl⟩ := h4
        dsimp only at A1 B1 C1 F1
        unfold NdArr.trans at a1 b1 c1 d1
        dsimp only at a1 b1 c1 d1
        have sh : ∀ {i j g}, (NdArr.comp (mats r).epsilon i j).toGrid = .ok g →
            (mats r).epsilon.shape.drop 2 = [g.Nx, g.Ny] ∧
            ∀ x y, g.g x y = (mats r).epsilon.data (i :: j :: [(x : ℕ), (y : ℕ)]) := by
          intro i j g hg
          obtain ⟨k1, k2⟩ := toGrid_ok hg
          exact ⟨k1, k2⟩
        obtain ⟨a2, a3⟩ := sh a1
        obtain ⟨b2, b3⟩ := sh b1
        obtain ⟨c2, c3⟩ := sh c1
        obtain ⟨d2, d3⟩ := sh d1
        obtain ⟨ax, ay, ag⟩ := a
        obtain ⟨bx, by', bg⟩ := b
        obtain ⟨cx, cy, cg⟩ := cc
        obtain ⟨dx, dy, dg⟩ := d
        simp only [a2, List.cons.injEq, and_true] at b2 c2 d2
        obtain ⟨rfl, rfl⟩ := b2
        obtain ⟨rfl, rfl⟩ := c2
        obtain ⟨rfl, rfl⟩ := d2
        refine absorbs_toep4 hH A1 B1 C1 F1 fun x y p q hpq => ?_
        have := absorbing_aniso hl ha a1 x y ![p, q, 0] (fun h0 => by
          have k0 := congrFun h0 0
          have k1 := congrFun h0 1
          simp at k0 k1
          rcases hpq with h | h
          · exact h k0
          · exact h k1)
        dsimp only
        rw [show ag x y = _ from a3 x y, show bg x y = _ from b3 x y, show cg x y = _ from c3 x y,
          show dg x y = _ from d3 x y]
        have e : (∑ i : Fin 3, ∑ j : Fin 3, star ((![p, q, 0] : Fin 3 → ℂ) i) *
            (mats r).epsilon.data ((i : ℕ) :: (j : ℕ) :: [(x : ℕ), (y : ℕ)]) * (![p, q, 0] : Fin 3 → ℂ) j) =
            star p * (mats r).epsilon.data [0, 0, (x : ℕ), (y : ℕ)] * p +
            star p * (mats r).epsilon.data [0, 1, (x : ℕ), (y : ℕ)] * q +
            star q * (mats r).epsilon.data [1, 0, (x : ℕ), (y : ℕ)] * p +
            star q * (mats r).epsilon.data [1, 1, (x : ℕ), (y : ℕ)] * q := by
          simp [Fin.sum_univ_three]; ring
        rw [e] at this
        exact this
      · simp only [except_pure_eq_ok, Except.ok.injEq] at h3
        subst h3
        simp only [except_pure_eq_ok, Except.ok.injEq] at h4
        rw [← h4]
        exact absorbs_blocks he he
    unfold pepsOf at h5
    dsimp only at h5
    by_cases hor : c.formulation = "original"
    · rw [if_pos hor] at h5
      simp only [except_pure_eq_ok, Except.ok.injEq] at h5
      rw [← h5]; exact hpara
    · by_cases h1d : c.lattice.is1D = true
      swap
      · obtain ⟨hiso, hk⟩ := ((hform.resolve_left hor).resolve_left h1d) r hr hu
        have hnd : c.harmonics.Nodup := List.nodup_iff_injective_get.mpr hH
        unfold paraOf at h3
        rw [hiso] at h3
        simp only [Bool.false_eq_true, if_false, except_pure_eq_ok, Except.ok.injEq] at h3
        subst h3
        have hzz : (mats r).epsilon.toGrid = .ok zz := by
          rw [hiso] at h1
          simpa using h1
        have hgt : ∀ {s}, getTangentField E (mats r) zz Ht (c.formulation == "tangent") = .ok s →
            ∃ Nx Ny a b, s = ⟨Nx, Ny, fun _ _ => a, fun _ _ => b⟩ := by
          intro s hs
          refine hk zz s hzz ?_
          unfold getTangentField at hs
          split at hs
          · rename_i t ht
            obtain rfl := Except.ok.inj hs
            exact .inl ht
          · rename_i ht
            split at hs
            · exact .inr ⟨ht, Ht, n, hHt, hs⟩
            · cases hs
        simp only [epsParaHatOf, except_pure_eq_ok, Except.ok.injEq] at h4
        subst h4
        rw [if_neg hor] at h5
        simp only [h1d] at h5
        have fin : ∀ (Nx Ny : ℕ) (a b : ℂ) (nu : Except PyErr (Matrix (Idx c.nh) (Idx c.nh) ℂ)),
            nu = (do let n ← nuHatInvIso c zz; pure (diag2 n)) →
            (do let nu ← nu; getPeps c (diag2 p.epsHat) nu ⟨Nx, Ny, fun _ _ => a, fun _ _ => b⟩) = .ok p.Peps →
            Absorbs p.Peps := by
          intro Nx Ny a b nu hnu h
          subst hnu
          simp only [bind_eq_ok] at h
          obtain ⟨nu, ⟨n', hn', hnu⟩, h⟩ := h
          simp only [except_pure_eq_ok, Except.ok.injEq] at hnu
          subst hnu
          exact getPeps_absorbs hnd he (absorbs_nu hH (absorbing_zz hl h1) hn') h
        by_cases htan : c.formulation = "tangent"
        · rw [if_pos htan, if_neg (by simp), bind_eq_ok] at h5
          obtain ⟨s, hs, h5⟩ := h5
          obtain ⟨Nx, Ny, a, b, rfl⟩ := hgt (by rw [htan]; exact hs)
          exact fin Nx Ny a b _ rfl h5
        · have hb : (c.formulation == "tangent") = false := by simpa using htan
          rw [hb] at hgt
          rw [if_neg htan] at h5
          by_cases hj : c.formulation = "jones"
          · rw [if_pos hj, bind_eq_ok] at h5
            obtain ⟨s, hs, h5⟩ := h5
            obtain ⟨Nx, Ny, a, b, rfl⟩ := hgt hs
            rw [bind_eq_ok] at h5
            obtain ⟨J, hJ, h5⟩ := h5
            unfold jonesField at hJ
            split at hJ
            · simp at hJ
            · obtain rfl := Except.ok.inj hJ
              exact fin Nx Ny (jonesPt a.re b.re).1 (jonesPt a.re b.re).2 _ rfl h5
          · rw [if_neg hj, bind_eq_ok] at h5
            obtain ⟨s, hs, h5⟩ := h5
            obtain ⟨Nx, Ny, a, b, rfl⟩ := hgt hs
            exact fin Nx Ny a b _ rfl h5
      have htan := (hf1 h1d).resolve_left hor
      rw [if_neg hor, if_pos htan, if_pos h1d] at h5
      unfold paraOf at h3
      split at h3
      · rw [bind_eq_ok] at h3
        obtain ⟨t, -, h6⟩ := h3
        simp only [except_pure_eq_ok, Except.ok.injEq] at h6
        subst h6
        dsimp only at h5
        rw [bind_eq_ok] at h5
        obtain ⟨_, -, h5⟩ := h5
        simp at h5
      · rename_i ha
        simp only [except_pure_eq_ok, Except.ok.injEq] at h3
        subst h3
        dsimp only at h5
        rw [bind_eq_ok] at h5
        obtain ⟨n', hn', h5⟩ := h5
        simp only [except_pure_eq_ok, Except.ok.injEq] at h5
        rw [← h5]
        exact absorbs_blocks he (absorbs_nu hH (absorbing_zz hl h1) hn')
  | copy r P e hc ho ih =>
    intro hr hl
    obtain ⟨k, hk⟩ := List.getElem?_of_mem hr
    obtain ⟨⟨j, -, hj⟩, -, h3⟩ := hw k r hk hc
    refine ih (List.mem_of_getElem? hj) ?_
    unfold Absorbing LayerSpec.isAnisotropic at hl ⊢
    rw [← h3]; exact hl

end Nannos
