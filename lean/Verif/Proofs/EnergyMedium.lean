import Verif.Proofs.Energy
import Verif.Proofs.Fourier

/-! Dissipation of the permittivity operators (C32, C33). -/

namespace Nannos

open Matrix Spec

variable {E : Ext} {c : Static} {S : Set ℝ} {D : ℝ → Prop}

theorem toep_dot {nh Nx Ny : ℕ} [NeZero Nx] [NeZero Ny] {H : Fin nh → ℤ × ℤ} {u : Grid Nx Ny}
    {A : Matrix (Fin nh) (Fin nh) ℂ} (hA : toeplitz H u = .ok A) (v w : Fin nh → ℂ) :
    star v ⬝ᵥ A *ᵥ w = ∑ x, ∑ y, ((((Nx : ℝ) * Ny)⁻¹ : ℝ) : ℂ) *
      (star (series H v Nx Ny x y) * u x y * series H w Nx Ny x y) := by
  obtain ⟨-, rfl⟩ := toeplitz_ok hA
  have e : ∀ (a b : Fin nh) (x : Fin Nx) (y : Fin Ny),
      Complex.exp (-(2 * Real.pi * Complex.I * ((((H a).1 - (H b).1 : ℤ) : ℂ) * x / Nx +
        (((H a).2 - (H b).2 : ℤ) : ℂ) * y / Ny))) =
      star (Complex.exp (2 * Real.pi * Complex.I * ((H a).1 * x / Nx + (H a).2 * y / Ny))) *
        Complex.exp (2 * Real.pi * Complex.I * ((H b).1 * x / Nx + (H b).2 * y / Ny)) := by
    intro a b x y
    rw [RCLike.star_def, ← Complex.exp_conj, ← Complex.exp_add]
    congr 1
    simp only [map_mul, map_add, map_div₀, Complex.conj_I, Complex.conj_ofReal, map_ofNat, map_intCast,
      map_natCast]
    push_cast
    ring
  simp only [dotProduct, mulVec, of_apply, coeff, series, star_sum, Pi.star_apply, Finset.mul_sum,
    Finset.sum_mul, Finset.sum_div, e]
  rw [Finset.sum_comm]
  refine (Finset.sum_congr rfl fun b _ => Finset.sum_comm).trans ?_
  rw [Finset.sum_comm]
  refine Finset.sum_congr rfl fun x _ => ?_
  refine (Finset.sum_congr rfl fun b _ => Finset.sum_comm).trans ?_
  rw [Finset.sum_comm]
  refine Finset.sum_congr rfl fun y _ => ?_
  refine Finset.sum_congr rfl fun b _ => Finset.sum_congr rfl fun a _ => ?_
  rw [star_mul']
  push_cast
  field_simp

theorem toep_pos {nh Nx Ny : ℕ} {H : Fin nh → ℤ × ℤ} {u : Grid Nx Ny} {A : Matrix (Fin nh) (Fin nh) ℂ}
    (hA : toeplitz H u = .ok A) (i : Fin nh) : Nx ≠ 0 ∧ Ny ≠ 0 := by
  unfold toeplitz at hA
  dsimp only at hA
  split at hA
  · simp at hA
  rename_i hne
  push Not at hne
  obtain ⟨h1, h2⟩ := hne i i
  rw [sub_self] at h1 h2
  constructor
  · rintro rfl
    exact h1 (pyFin_none.mpr (by omega))
  · rintro rfl
    exact h2 (pyFin_none.mpr (by omega))

theorem form_toep (hS : LossCone S D) {nh Nx Ny : ℕ} {H : Fin nh → ℤ × ℤ} {u : Grid Nx Ny}
    {A : Matrix (Fin nh) (Fin nh) ℂ} (hA : toeplitz H u = .ok A) (hu : ∀ x y, (u x y).im ∈ S) : Form S A := by
  intro v
  rcases Nat.eq_zero_or_pos nh with rfl | hn
  · simpa [dotProduct] using hS.zero
  obtain ⟨h1, h2⟩ := toep_pos hA ⟨0, hn⟩
  have : NeZero Nx := ⟨h1⟩
  have : NeZero Ny := ⟨h2⟩
  rw [toep_dot hA, Complex.im_sum]
  refine hS.sum _ _ fun x _ => ?_
  rw [Complex.im_sum]
  refine hS.sum _ _ fun y _ => ?_
  rw [Complex.im_ofReal_mul]
  refine hS.smul (by positivity) ?_
  generalize series H v Nx Ny x y = V
  have : (star V * u x y * V).im = Complex.normSq V * (u x y).im := by
    simp [Complex.normSq_apply]; ring
  rw [this]
  exact hS.smul (Complex.normSq_nonneg _) (hu x y)

/-- The same for the blocks of a tensor. -/
theorem form_toep4 (hS : LossCone S D) {nh Nx Ny : ℕ} {H : Fin nh → ℤ × ℤ} {xx xy yx yy : Grid Nx Ny}
    {A B C F : Matrix (Fin nh) (Fin nh) ℂ} (hA : toeplitz H xx = .ok A) (hB : toeplitz H xy = .ok B)
    (hC : toeplitz H yx = .ok C) (hF : toeplitz H yy = .ok F)
    (hu : ∀ x y, ∀ p q : ℂ, (star p * xx x y * p + star p * xy x y * q + star q * yx x y * p +
      star q * yy x y * q).im ∈ S) : Form S (fromBlocks A B C F) := by
  intro v
  rcases Nat.eq_zero_or_pos nh with rfl | hn
  · simpa [dotProduct] using hS.zero
  obtain ⟨h1, h2⟩ := toep_pos hA ⟨0, hn⟩
  have : NeZero Nx := ⟨h1⟩
  have : NeZero Ny := ⟨h2⟩
  have e : star v ⬝ᵥ fromBlocks A B C F *ᵥ v = star (v ∘ Sum.inl) ⬝ᵥ A *ᵥ (v ∘ Sum.inl) +
      star (v ∘ Sum.inl) ⬝ᵥ B *ᵥ (v ∘ Sum.inr) + star (v ∘ Sum.inr) ⬝ᵥ C *ᵥ (v ∘ Sum.inl) +
      star (v ∘ Sum.inr) ⬝ᵥ F *ᵥ (v ∘ Sum.inr) := by
    rw [fromBlocks_mulVec]
    simp [dotProduct, Fintype.sum_sum_type, mul_add, Finset.sum_add_distrib]
    ring
  rw [e, toep_dot hA, toep_dot hB, toep_dot hC, toep_dot hF]
  simp only [← Finset.sum_add_distrib, ← mul_add]
  rw [Complex.im_sum]
  refine hS.sum _ _ fun x _ => ?_
  rw [Complex.im_sum]
  refine hS.sum _ _ fun y _ => ?_
  rw [Complex.im_ofReal_mul]
  exact hS.smul (by positivity) (hu x y _ _)

theorem toGrid_ok {a : NdArr} {g : PGrid} (h : a.toGrid = .ok g) :
    a.shape = [g.Nx, g.Ny] ∧ ∀ x y, g.g x y = a.data [(x : ℕ), (y : ℕ)] := by
  unfold NdArr.toGrid at h
  split at h
  · rename_i Nx Ny hs
    simp only [Except.ok.injEq] at h
    subst h
    exact ⟨hs, fun _ _ => rfl⟩
  all_goals simp at h

theorem forall2_pixel {g : PGrid} (x : Fin g.Nx) (y : Fin g.Ny) :
    List.Forall₂ (· < ·) [(x : ℕ), (y : ℕ)] [g.Nx, g.Ny] :=
  .cons x.isLt (.cons y.isLt .nil)

theorem lossIn_iso {L : LayerSpec} (h : LossIn S L) (ha : L.isAnisotropic = false) {g : PGrid}
    (hg : L.epsilon.toGrid = .ok g) (x y) : (g.g x y).im ∈ S := by
  obtain ⟨h1, h2⟩ := toGrid_ok hg
  unfold LossIn at h
  rw [if_neg (by simp [ha])] at h
  rw [h2]
  exact h _ (h1 ▸ forall2_pixel x y)

theorem lossIn_aniso {L : LayerSpec} (h : LossIn S L) (ha : L.isAnisotropic = true) {i j : ℕ} {g : PGrid}
    (hg : (L.epsilon.comp i j).toGrid = .ok g) (x : Fin g.Nx) (y : Fin g.Ny) (w : Fin 3 → ℂ) :
    (∑ i : Fin 3, ∑ j : Fin 3, star (w i) *
      L.epsilon.data ((i : ℕ) :: (j : ℕ) :: [(x : ℕ), (y : ℕ)]) * w j).im ∈ S := by
  obtain ⟨h1, h2⟩ := toGrid_ok hg
  unfold LossIn at h
  rw [if_pos ha] at h
  refine h _ ?_ w
  have : (L.epsilon.comp i j).shape = L.epsilon.shape.drop 2 := rfl
  rw [← this, h1]
  exact forall2_pixel x y

theorem lossIn_zz {L : LayerSpec} (h : LossIn S L) {g : PGrid}
    (hg : (if L.isAnisotropic then L.epsilon.comp 2 2 else L.epsilon).toGrid = .ok g) (x y) :
    (g.g x y).im ∈ S := by
  cases ha : L.isAnisotropic with
  | false =>
    rw [ha] at hg
    exact lossIn_iso h ha hg x y
  | true =>
    rw [ha, if_pos rfl] at hg
    have := lossIn_aniso h ha hg x y ![0, 0, 1]
    rw [(toGrid_ok hg).2]
    simpa [Fin.sum_univ_three, NdArr.comp] using this

theorem lossIn_value {L : LayerSpec} (h : LossIn S L) (ha : L.isAnisotropic = false)
    (hu : L.isUniform = true) : L.epsilon.value.im ∈ S := by
  unfold LossIn at h
  rw [if_neg (by simp [ha])] at h
  unfold LayerSpec.isUniform Nannos.isUniform at hu
  unfold LayerSpec.isAnisotropic at ha
  rw [if_neg (by simp [ha])] at hu
  unfold NdArr.value
  rcases hs : L.epsilon.shape with _ | ⟨n, _ | ⟨n', l⟩⟩
  · exact h [] (by rw [hs]; exact .nil)
  · rw [hs] at hu
    simp at hu
    subst hu
    exact h [0] (by rw [hs]; exact .cons Nat.one_pos .nil)
  · rw [hs] at hu
    simp at hu

theorem recipGrid_im {e n : PGrid} (h : recipGrid e = .ok n) (he : ∀ x y, (e.g x y).im ∈ S)
    (hS : LossCone S D) : ∀ x y, -(n.g x y).im ∈ S := by
  unfold recipGrid at h
  split at h
  · simp at h
  rename_i hne
  simp only [Except.ok.injEq] at h
  subst h
  intro x y
  have : -((1 : ℂ) / e.g x y).im = (Complex.normSq (e.g x y))⁻¹ * (e.g x y).im := by
    rw [one_div, Complex.inv_im]; ring
  rw [this]
  exact hS.smul (inv_nonneg.mpr (Complex.normSq_nonneg _)) (he x y)

/-- `S` reflected. -/
theorem lossCone_neg (hS : LossCone S D) : LossCone {x | -x ∈ S} (fun d => D (-d) ∧ False ∨ d = 0) where
  zero := by simpa using hS.zero
  add := by intro x y hx hy; have := hS.add hx hy; simpa [add_comm] using this
  smul := by intro t x ht hx; have := hS.smul ht hx; simpa using this
  int := by
    rintro p p' d - - (⟨-, h⟩ | rfl)
    · exact h.elim
    · simpa using hS.zero
  zeroD := .inr rfl

theorem form_nu (hS : LossCone S D) {g : PGrid} (hg : ∀ x y, (g.g x y).im ∈ S)
    {n : Matrix (Fin c.nh) (Fin c.nh) ℂ} (h : nuHatInvIso c g = .ok n) : Form S n := by
  unfold nuHatInvIso at h
  rw [bind_eq_ok] at h
  obtain ⟨nu, h1, h⟩ := h
  rw [bind_eq_ok] at h
  obtain ⟨A, h2, h⟩ := h
  rw [linInv_ok] at h
  rw [h.2]
  refine form_inv h.1 fun v => ?_
  exact form_toep (lossCone_neg hS) (u := nu.g) h2 (fun x y => recipGrid_im h1 hg hS x y) v

theorem medium_form (hS : LossCone S D) (hform : c.formulation = "original" ∨ c.lattice.is1D = true)
    (hf1 : c.lattice.is1D = true → c.formulation = "original" ∨ c.formulation = "tangent")
    {mats : ℕ → LayerSpec} {stack : List ℕ} (hw : WellPlaced mats stack)
    {r P e} (hm : Medium E c mats r P e) : r ∈ stack → LossIn S (mats r) → Form S P ∧ Form S e := by
  induction hm with
  | uniform r hc hu ha =>
    intro _ hl
    have := lossIn_value hl ha hu
    exact ⟨form_smul_one hS this, form_smul_one hS this⟩
  | patterned r M p Q hc hb =>
    intro hr hl
    obtain ⟨-, -, -, -, -, -, -, -, zz, para, eph, Ht, n, h1, h2, h3, h4, -, h5⟩ :=
      buildPure_patterned_parts hb
    have he : Form S p.epsHat := form_toep hS (u := zz.g) h2 (lossIn_zz hl h1)
    refine ⟨?_, he⟩
    have hpara : Form S eph := by
      unfold paraOf at h3
      unfold epsParaHatOf at h4
      split at h3
      · rename_i ha
        rw [bind_eq_ok] at h3
        obtain ⟨t, h3, h6⟩ := h3
        simp only [except_pure_eq_ok, Except.ok.injEq] at h6
        subst h6
        dsimp only at h4
        rw [bind_eq_ok] at h4
        obtain ⟨T, h4, h6⟩ := h4
        simp only [except_pure_eq_ok, Except.ok.injEq] at h6
        subst h6
        unfold Trans4.mapM at h3 h4
        simp only [bind_eq_ok, except_pure_eq_ok, Except.ok.injEq] at h3 h4
        obtain ⟨a, a1, b, b1, cc, c1, d, d1, rfl⟩ := h3
        obtain ⟨A, A1, B, B1, C, C1, F, F1, rfl⟩ := h4
        dsimp only at A1 B1 C1 F1
        unfold NdArr.trans at a1 b1 c1 d1
        dsimp only at a1 b1 c1 d1
        have sh : ∀ {i j g}, (NdArr.comp (mats r).epsilon i j).toGrid = .ok g →
            (mats r).epsilon.shape.drop 2 = [g.Nx, g.Ny] ∧
            ∀ x y, g.g x y = (mats r).epsilon.data (i :: j :: [(x : ℕ), (y : ℕ)]) := by
          intro i j g hg
          obtain ⟨k1, k2⟩ := toGrid_ok hg
          exact ⟨k1, k2⟩
        obtain ⟨a2, a3⟩ := sh a1
        obtain ⟨b2, b3⟩ := sh b1
        obtain ⟨c2, c3⟩ := sh c1
        obtain ⟨d2, d3⟩ := sh d1
        obtain ⟨ax, ay, ag⟩ := a
        obtain ⟨bx, by', bg⟩ := b
        obtain ⟨cx, cy, cg⟩ := cc
        obtain ⟨dx, dy, dg⟩ := d
        simp only [a2, List.cons.injEq, and_true] at b2 c2 d2
        obtain ⟨rfl, rfl⟩ := b2
        obtain ⟨rfl, rfl⟩ := c2
        obtain ⟨rfl, rfl⟩ := d2
        refine form_toep4 hS A1 B1 C1 F1 fun x y p q => ?_
        have := lossIn_aniso hl ha a1 x y ![p, q, 0]
        dsimp only
        rw [show ag x y = _ from a3 x y, show bg x y = _ from b3 x y, show cg x y = _ from c3 x y,
          show dg x y = _ from d3 x y]
        have e : (∑ i : Fin 3, ∑ j : Fin 3, star ((![p, q, 0] : Fin 3 → ℂ) i) *
            (mats r).epsilon.data ((i : ℕ) :: (j : ℕ) :: [(x : ℕ), (y : ℕ)]) * (![p, q, 0] : Fin 3 → ℂ) j) =
            star p * (mats r).epsilon.data [0, 0, (x : ℕ), (y : ℕ)] * p +
            star p * (mats r).epsilon.data [0, 1, (x : ℕ), (y : ℕ)] * q +
            star q * (mats r).epsilon.data [1, 0, (x : ℕ), (y : ℕ)] * p +
            star q * (mats r).epsilon.data [1, 1, (x : ℕ), (y : ℕ)] * q := by
          simp [Fin.sum_univ_three]; ring
        rw [e] at this
        exact this
      · simp only [except_pure_eq_ok, Except.ok.injEq] at h3
        subst h3
        simp only [except_pure_eq_ok, Except.ok.injEq] at h4
        rw [← h4]
        exact form_blocks hS he he
    unfold pepsOf at h5
    dsimp only at h5
    by_cases hor : c.formulation = "original"
    · rw [if_pos hor] at h5
      simp only [except_pure_eq_ok, Except.ok.injEq] at h5
      rw [← h5]; exact hpara
    · have h1d : c.lattice.is1D = true := hform.resolve_left hor
      have htan := (hf1 h1d).resolve_left hor
      rw [if_neg hor, if_pos htan, if_pos h1d] at h5
      unfold paraOf at h3
      split at h3
      · rw [bind_eq_ok] at h3
        obtain ⟨t, -, h6⟩ := h3
        simp only [except_pure_eq_ok, Except.ok.injEq] at h6
        subst h6
        dsimp only at h5
        rw [bind_eq_ok] at h5
        obtain ⟨_, -, h5⟩ := h5
        simp at h5
      · rename_i ha
        simp only [except_pure_eq_ok, Except.ok.injEq] at h3
        subst h3
        dsimp only at h5
        rw [bind_eq_ok] at h5
        obtain ⟨n', hn', h5⟩ := h5
        simp only [except_pure_eq_ok, Except.ok.injEq] at h5
        rw [← h5]
        exact form_blocks hS he (form_nu hS (lossIn_zz hl h1) hn')
  | copy r P e hc ho ih =>
    intro hr hl
    obtain ⟨k, hk⟩ := List.getElem?_of_mem hr
    obtain ⟨⟨j, -, hj⟩, -, h3⟩ := hw k r hk hc
    refine ih (List.mem_of_getElem? hj) ?_
    unfold LossIn LayerSpec.isAnisotropic at hl ⊢
    rw [← h3]; exact hl

end Nannos
