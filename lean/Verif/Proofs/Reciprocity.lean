import Verif.Proofs.EnergyVectors
import Verif.Spec.Reciprocity
import Verif.Proofs.SimilarInit

/-! Reciprocity (C72, C73): the reaction of two solutions with opposite tangential wave vectors. -/

namespace Nannos

open Matrix Spec

/-! ### One layer -/

section
variable {m m' : Type} [Fintype m] [DecidableEq m] [Fintype m'] [DecidableEq m']

/-- The reaction of two fields at the depths `z` and `z'`; the sign `s` is `-1` when the second field belongs to the stack
turned upside down. -/
noncomputable def react (s : ℂ) (σ : m ≃ m') (L : Modes m) (L' : Modes m') (a b : m → ℂ) (a' b' : m' → ℂ)
    (z z' : ℝ) : ℂ :=
  ∑ k, (tanE L a b z k * tanH L' a' b' z' (σ k) - s * (tanE L' a' b' z' (σ k) * tanH L a b z k))

omit [DecidableEq m] [DecidableEq m'] in
theorem dot_transposed {σ : m ≃ m'} {A : Matrix m m ℂ} {A' : Matrix m' m' ℂ} (h : A'.submatrix σ σ = Aᵀ)
    (x : m → ℂ) (y : m' → ℂ) : ∑ k, (A *ᵥ x) k * y (σ k) = ∑ k, (A' *ᵥ y) (σ k) * x k := by
  have e : ∀ k l, A' (σ k) (σ l) = A l k := fun k l => congrFun (congrFun h k) l
  simp only [mulVec, dotProduct, Finset.sum_mul]
  rw [Finset.sum_comm]
  refine Finset.sum_congr rfl fun k _ => ?_
  rw [← Equiv.sum_comp σ]
  refine Finset.sum_congr rfl fun l _ => ?_
  rw [e]; ring

theorem react_deriv {σ : m ≃ m'} {M : Modes m} {M' : Modes m'} {R : Matrix m m ℂ} {R' : Matrix m' m' ℂ}
    (hR : R * M.Q * M.phi = M.phi * diagonal (fun k => M.q k ^ 2)) (hq : ∀ k, M.q k ≠ 0)
    (hR' : R' * M'.Q * M'.phi = M'.phi * diagonal (fun k => M'.q k ^ 2)) (hq' : ∀ k, M'.q k ≠ 0)
    (hQ : M'.Q.submatrix σ σ = M.Qᵀ) (hRt : R'.submatrix σ σ = Rᵀ) (a b : m → ℂ) (a' b' : m' → ℂ)
    {s : ℝ} (hs : s * s = 1) (t z : ℝ) :
    HasDerivAt (fun z => react s σ M M' a b a' b' z (t + s * z)) 0 z := by
  have hz : HasDerivAt (fun z : ℝ => t + s * z) s z := by
    simpa using (hasDerivAt_id z).const_mul s |>.const_add t
  have dE' : ∀ k, HasDerivAt (fun z => tanE M' a' b' (t + s * z) (σ k))
      (s • (Complex.I * (M'.Q *ᵥ tanH M' a' b' (t + s * z)) (σ k))) z := fun k =>
    HasDerivAt.scomp (g₁ := fun w => tanE M' a' b' w (σ k)) z (tanE_deriv M' hq' a' b' (t + s * z) (σ k)) hz
  have dH' : ∀ k, HasDerivAt (fun z => tanH M' a' b' (t + s * z) (σ k))
      (s • (Complex.I * (R' *ᵥ tanE M' a' b' (t + s * z)) (σ k))) z := fun k =>
    HasDerivAt.scomp (g₁ := fun w => tanH M' a' b' w (σ k)) z (tanH_deriv M' hR' hq' a' b' (t + s * z) (σ k)) hz
  have h1 := HasDerivAt.fun_sum (u := Finset.univ) (A := fun k z =>
      tanE M a b z k * tanH M' a' b' (t + s * z) (σ k) - (s : ℂ) * (tanE M' a' b' (t + s * z) (σ k) * tanH M a b z k))
    (x := z) fun k _ => ((tanE_deriv M hq a b z k).mul (dH' k)).sub
      (((dE' k).mul (tanH_deriv M hR hq a b z k)).const_mul (s : ℂ))
  refine HasDerivAt.congr_deriv h1 ?_
  have e1 := dot_transposed hQ (tanH M a b z) (tanH M' a' b' (t + s * z))
  have e2 := dot_transposed hRt (tanE M a b z) (tanE M' a' b' (t + s * z))
  have hs' : (s : ℂ) * s = 1 := by exact_mod_cast hs
  have e3 : ∀ k, Complex.I * (M.Q *ᵥ tanH M a b z) k * tanH M' a' b' (t + s * z) (σ k) +
        tanE M a b z k * s • (Complex.I * (R' *ᵥ tanE M' a' b' (t + s * z)) (σ k)) -
      s * (s • (Complex.I * (M'.Q *ᵥ tanH M' a' b' (t + s * z)) (σ k)) * tanH M a b z k +
        tanE M' a' b' (t + s * z) (σ k) * (Complex.I * (R *ᵥ tanE M a b z) k)) =
      Complex.I * ((M.Q *ᵥ tanH M a b z) k * tanH M' a' b' (t + s * z) (σ k) -
        (M'.Q *ᵥ tanH M' a' b' (t + s * z)) (σ k) * tanH M a b z k) -
      s * Complex.I * ((R *ᵥ tanE M a b z) k * tanE M' a' b' (t + s * z) (σ k) -
        (R' *ᵥ tanE M' a' b' (t + s * z)) (σ k) * tanE M a b z k) := by
    intro k
    simp only [Complex.real_smul]
    linear_combination (-(Complex.I * (M'.Q *ᵥ tanH M' a' b' (t + s * z)) (σ k) * tanH M a b z k)) * hs'
  rw [Finset.sum_congr rfl fun k _ => e3 k, Finset.sum_sub_distrib, ← Finset.mul_sum, ← Finset.mul_sum,
    Finset.sum_sub_distrib, Finset.sum_sub_distrib, e1, e2, sub_self, sub_self]
  simp

theorem react_const {σ : m ≃ m'} {M : Modes m} {M' : Modes m'} {R : Matrix m m ℂ} {R' : Matrix m' m' ℂ}
    (hR : R * M.Q * M.phi = M.phi * diagonal (fun k => M.q k ^ 2)) (hq : ∀ k, M.q k ≠ 0)
    (hR' : R' * M'.Q * M'.phi = M'.phi * diagonal (fun k => M'.q k ^ 2)) (hq' : ∀ k, M'.q k ≠ 0)
    (hQ : M'.Q.submatrix σ σ = M.Qᵀ) (hRt : R'.submatrix σ σ = Rᵀ) (a b : m → ℂ) (a' b' : m' → ℂ)
    {s : ℝ} (hs : s * s = 1) (t z : ℝ) :
    react s σ M M' a b a' b' 0 t = react s σ M M' a b a' b' z (t + s * z) := by
  have h := react_deriv hR hq hR' hq' hQ hRt a b a' b' hs t
  have hd : Differentiable ℝ (fun z => react s σ M M' a b a' b' z (t + s * z)) := fun z => (h z).differentiableAt
  have := is_const_of_deriv_eq_zero hd (fun z => (h z).deriv) 0 z
  simpa using this

omit [DecidableEq m] [DecidableEq m'] in
theorem react_match {σ : m ≃ m'} {s : ℂ} {L N : Modes m} {L' N' : Modes m'} {a b x y a' b' x' y'} {z w z' w' : ℝ}
    (h1 : tanE L a b z = tanE N x y w) (h2 : tanH L a b z = tanH N x y w)
    (h3 : tanE L' a' b' z' = tanE N' x' y' w') (h4 : tanH L' a' b' z' = tanH N' x' y' w') :
    react s σ L L' a b a' b' z z' = react s σ N N' x y x' y' w w' := by
  unfold react
  rw [h1, h2, h3, h4]

end

/-! ### The operators of a layer -/

variable {E : Ext} {c c' : Static}

/-- Two simulations of the same wavelength with opposite tangential wave vectors; `σ` sends an order to the opposite
one. -/
structure Opposite (c c' : Static) (σ : Fin c.nh ≃ Fin c'.nh) : Prop where
  omega : c'.omega = c.omega
  kx : ∀ i, c'.kx (σ i) = -c.kx i
  ky : ∀ i, c'.ky (σ i) = -c.ky i
  harm : ∀ i, c'.harmonics.get (σ i) = (-(c.harmonics.get i).1, -(c.harmonics.get i).2)
  form : c'.formulation = c.formulation
  oneD : c'.lattice.is1D = c.lattice.is1D

theorem Opposite.nodup {σ : Fin c.nh ≃ Fin c'.nh} (h : Opposite c c' σ) (hnd : c.harmonics.Nodup) : c'.harmonics.Nodup := by
  rw [List.nodup_iff_injective_get] at hnd ⊢
  intro i j hij
  obtain ⟨i, rfl⟩ := σ.surjective i
  obtain ⟨j, rfl⟩ := σ.surjective j
  have hij : c'.harmonics.get (σ i) = c'.harmonics.get (σ j) := hij
  rw [h.harm, h.harm, Prod.mk.injEq, neg_inj, neg_inj] at hij
  rw [hnd (Prod.ext hij.1 hij.2)]

/-- The numbering of the components of the transverse fields. -/
def twice {n n' : ℕ} (σ : Fin n ≃ Fin n') : Idx n ≃ Idx n' := Equiv.sumCongr σ σ

@[simp] theorem twice_inl {n n' : ℕ} (σ : Fin n ≃ Fin n') (i : Fin n) : twice σ (.inl i) = .inl (σ i) := rfl
@[simp] theorem twice_inr {n n' : ℕ} (σ : Fin n ≃ Fin n') (i : Fin n) : twice σ (.inr i) = .inr (σ i) := rfl

theorem dbl_blocks {n n' : ℕ} {σ : Fin n ≃ Fin n'} {A B C D : Matrix (Fin n) (Fin n) ℂ}
    {A' B' C' D' : Matrix (Fin n') (Fin n') ℂ} (hA : A'.submatrix σ σ = Aᵀ) (hB : B'.submatrix σ σ = Cᵀ)
    (hC : C'.submatrix σ σ = Bᵀ) (hD : D'.submatrix σ σ = Dᵀ) :
    (fromBlocks A' B' C' D').submatrix (twice σ) (twice σ) = (fromBlocks A B C D)ᵀ := by
  rw [fromBlocks_transpose, ← hA, ← hB, ← hC, ← hD]
  ext k l
  rcases k with i | i <;> rcases l with j | j <;> rfl

theorem transposed_inv {m m' : Type} [Fintype m] [DecidableEq m] [Fintype m'] [DecidableEq m'] {σ : m ≃ m'}
    {A : Matrix m m ℂ} {A' : Matrix m' m' ℂ} (h : A'.submatrix σ σ = Aᵀ) : A'⁻¹.submatrix σ σ = (A⁻¹)ᵀ := by
  rw [← inv_submatrix_equiv, h, transpose_nonsing_inv]

theorem toep_opposite {σ : Fin c.nh ≃ Fin c'.nh} (h : Opposite c c' σ) {u : PGrid} {A A'} (hA : c.toep u = .ok A)
    (hA' : c'.toep u = .ok A') : A'.submatrix σ σ = Aᵀ := by
  unfold Static.toep at hA hA'
  ext i j
  obtain ⟨h1, h2⟩ := toep_pos hA i
  have : NeZero u.Nx := ⟨h1⟩
  have : NeZero u.Ny := ⟨h2⟩
  obtain ⟨-, rfl⟩ := toeplitz_ok hA
  obtain ⟨-, rfl⟩ := toeplitz_ok hA'
  simp only [submatrix_apply, of_apply, transpose_apply, h.harm]
  congr 1 <;> ring

theorem kEps_opposite {σ : Fin c.nh ≃ Fin c'.nh} (h : Opposite c c' σ) {e e'} (he : e'.submatrix σ σ = eᵀ) :
    (kEps c'.kx c'.ky e').submatrix (twice σ) (twice σ) = (kEps c.kx c.ky e)ᵀ := by
  have e1 : ∀ i j, e' (σ i) (σ j) = e j i := fun i j => congrFun (congrFun he i) j
  ext k l
  rcases k with i | i <;> rcases l with j | j <;>
    simp only [submatrix_apply, transpose_apply, twice_inl, twice_inr, kEps, of_apply, e1, h.kx, h.ky] <;> ring

theorem kMu_opposite {σ : Fin c.nh ≃ Fin c'.nh} (h : Opposite c c' σ) :
    (kMu c'.kx c'.ky).submatrix (twice σ) (twice σ) = (kMu c.kx c.ky)ᵀ := by
  ext k l
  rcases k with i | i <;> rcases l with j | j <;>
    simp only [submatrix_apply, transpose_apply, twice_inl, twice_inr, kMu, of_apply, h.kx, h.ky, σ.injective.eq_iff,
      neg_mul_neg, eq_comm (a := j)] <;> split <;> first | rfl | (rename_i hij; subst hij; ring)

theorem one_opposite {n n' : ℕ} (σ : Fin n ≃ Fin n') : (1 : Matrix (Idx n') (Idx n') ℂ).submatrix (twice σ) (twice σ) =
    (1 : Matrix (Idx n) (Idx n) ℂ)ᵀ := by
  rw [submatrix_one_equiv, transpose_one]

theorem blocks_trans4 {σ : Fin c.nh ≃ Fin c'.nh} (h : Opposite c c' σ) {L : LayerSpec} (hrec : Reciprocal L)
    (ha : L.isAnisotropic = true) {t : Trans4 PGrid} (ht : L.epsilon.trans.mapM NdArr.toGrid = .ok t)
    {T : Trans4 (Matrix (Fin c.nh) (Fin c.nh) ℂ)} {T' : Trans4 (Matrix (Fin c'.nh) (Fin c'.nh) ℂ)}
    (hT : t.mapM c.toep = .ok T) (hT' : t.mapM c'.toep = .ok T') :
    (fromBlocks T'.xx T'.xy T'.yx T'.yy).submatrix (twice σ) (twice σ) = (fromBlocks T.xx T.xy T.yx T.yy)ᵀ := by
  unfold Trans4.mapM at ht hT hT'
  simp only [bind_eq_ok, except_pure_eq_ok, Except.ok.injEq] at ht hT hT'
  obtain ⟨a, a1, b, b1, d, d1, f, f1, rfl⟩ := ht
  obtain ⟨A, A1, B, B1, D, D1, F, F1, rfl⟩ := hT
  obtain ⟨A', A1', B', B1', D', D1', F', F1', rfl⟩ := hT'
  dsimp only at *
  have hbd : b = d := by
    unfold NdArr.trans at b1 d1
    dsimp only at b1 d1
    obtain ⟨k1, k2⟩ := toGrid_ok b1
    obtain ⟨l1, l2⟩ := toGrid_ok d1
    obtain ⟨bx, by', bg⟩ := b
    obtain ⟨dx, dy, dg⟩ := d
    have k3 : (NdArr.comp L.epsilon 0 1).shape = L.epsilon.shape.drop 2 := rfl
    have l3 : (NdArr.comp L.epsilon 1 0).shape = L.epsilon.shape.drop 2 := rfl
    rw [k3] at k1
    rw [l3, k1] at l1
    simp only [List.cons.injEq, and_true] at l1
    obtain ⟨rfl, rfl⟩ := l1
    congr 1
    funext x y
    rw [show bg x y = _ from k2 x y, show dg x y = _ from l2 x y]
    exact hrec ha _ (by rw [k1]; exact .cons x.isLt (.cons y.isLt .nil)) 0 (by norm_num) 1 (by norm_num)
  subst hbd
  rw [B1] at D1
  rw [B1'] at D1'
  cases D1
  cases D1'
  exact dbl_blocks (toep_opposite h A1 A1') (toep_opposite h B1 B1') (toep_opposite h B1 B1') (toep_opposite h F1 F1')

theorem nu_opposite {σ : Fin c.nh ≃ Fin c'.nh} (h : Opposite c c' σ) {g : PGrid} {n n'}
    (hn : nuHatInvIso c g = .ok n) (hn' : nuHatInvIso c' g = .ok n') : n'.submatrix σ σ = nᵀ := by
  unfold nuHatInvIso at hn hn'
  rw [bind_eq_ok] at hn hn'
  obtain ⟨nu, h1, hn⟩ := hn
  obtain ⟨nu', h1', hn'⟩ := hn'
  rw [bind_eq_ok] at hn hn'
  obtain ⟨A, h2, hn⟩ := hn
  obtain ⟨A', h2', hn'⟩ := hn'
  rw [h1] at h1'
  cases h1'
  rw [linInv_ok] at hn hn'
  rw [hn.2, hn'.2]
  exact transposed_inv (toep_opposite h h2 h2')

/-- The projections on one real vector. -/
theorem getPeps_opposite {σ : Fin c.nh ≃ Fin c'.nh} (h : Opposite c c' σ) (hnd : c.harmonics.Nodup)
    {A B : Matrix (Fin c.nh) (Fin c.nh) ℂ} {A' B' : Matrix (Fin c'.nh) (Fin c'.nh) ℂ} (hA : A'.submatrix σ σ = Aᵀ)
    (hB : B'.submatrix σ σ = Bᵀ) {Nx Ny : ℕ} {a b : ℝ} {P P'}
    (hP : getPeps c (diag2 A) (diag2 B) ⟨Nx, Ny, fun _ _ => (a : ℂ), fun _ _ => (b : ℂ)⟩ = .ok P)
    (hP' : getPeps c' (diag2 A') (diag2 B') ⟨Nx, Ny, fun _ _ => (a : ℂ), fun _ _ => (b : ℂ)⟩ = .ok P') :
    P'.submatrix (twice σ) (twice σ) = Pᵀ := by
  have hnd' : c'.harmonics.Nodup := h.nodup hnd
  unfold getPeps projField at hP hP'
  simp only [bind_eq_ok] at hP hP'
  obtain ⟨Pxx, h1, Pyy, h2, Pxy, h3, Pyx, h4, hP⟩ := hP
  obtain ⟨Pxx', h1', Pyy', h2', Pxy', h3', Pyx', h4', hP'⟩ := hP'
  simp only [except_pure_eq_ok, Except.ok.injEq] at hP hP'
  rw [← hP, ← hP', toep_const_nodup hnd h1, toep_const_nodup hnd h2, toep_const_nodup hnd h3, toep_const_nodup hnd h4,
    toep_const_nodup hnd' h1', toep_const_nodup hnd' h2', toep_const_nodup hnd' h3', toep_const_nodup hnd' h4']
  have hd : ∀ {n : ℕ} (A B : Matrix (Fin n) (Fin n) ℂ) (x y z w : ℂ),
      diag2 A - (diag2 A - diag2 B) * fromBlocks (x • 1) (y • 1) (z • 1) (w • 1) =
        fromBlocks (A - x • (A - B)) (-(y • (A - B))) (-(z • (A - B))) (A - w • (A - B)) := by
    intro n A B x y z w
    unfold diag2
    have sub : ∀ A B C D A' B' C' D' : Matrix (Fin n) (Fin n) ℂ, fromBlocks A B C D - fromBlocks A' B' C' D' =
        fromBlocks (A - A') (B - B') (C - C') (D - D') := by
      intro A B C D A' B' C' D'
      simp only [sub_eq_add_neg, fromBlocks_neg, fromBlocks_add]
    rw [sub, fromBlocks_multiply, sub]
    simp
  rw [hd, hd]
  have hD : (A' - B').submatrix σ σ = (A - B)ᵀ := by
    rw [submatrix_sub, Pi.sub_apply, Pi.sub_apply, hA, hB, transpose_sub]
  have hx : ∀ x : ℂ, (A' - x • (A' - B')).submatrix σ σ = (A - x • (A - B))ᵀ := by
    intro x
    rw [submatrix_sub, Pi.sub_apply, Pi.sub_apply, submatrix_smul, Pi.smul_apply, Pi.smul_apply, hD, hA, transpose_sub A (x • (A - B)), transpose_smul]
  have hy : ∀ x y : ℂ, x = y → (-(x • (A' - B'))).submatrix σ σ = (-(y • (A - B)))ᵀ := by
    rintro x _ rfl
    rw [submatrix_neg, Pi.neg_apply, Pi.neg_apply, submatrix_smul, Pi.smul_apply, Pi.smul_apply, hD, transpose_neg, transpose_smul]
  have hab : ∀ s : ℂ, (b : ℂ) * star (a : ℂ) / s = (a : ℂ) * star (b : ℂ) / s := by
    intro s
    simp only [RCLike.star_def, Complex.conj_ofReal]
    ring
  exact dbl_blocks (hx _) (hy _ _ (hab _)) (hy _ _ (hab _).symm) (hx _)

/-- The operators of a layer in the two simulations are transposes of each other. -/
theorem medium_opposite {σ : Fin c.nh ≃ Fin c'.nh} (h : Opposite c c' σ)
    (hnd : c.harmonics.Nodup) (hf1 : c.lattice.is1D = true → c.formulation = "original" ∨ c.formulation = "tangent")
    {mats : ℕ → LayerSpec} {stack : List ℕ} (hform : ∀ r ∈ stack, SymmetricFormulation c.formulation c.lattice.is1D (mats r))
    (hw : WellPlaced mats stack) (hmu : ∀ r ∈ stack, (mats r).mu = 1)
    {r P e} (hm : Medium E c mats r P e) : r ∈ stack → Reciprocal (mats r) → ∀ P' e', Medium E c' mats r P' e' →
      P'.submatrix (twice σ) (twice σ) = Pᵀ ∧ e'.submatrix σ σ = eᵀ := by
  induction hm with
  | uniform r hc hu ha =>
    intro hr hl P' e' hm'
    cases hm' with
    | uniform r hc' hu' ha' =>
      constructor
      · rw [submatrix_smul, Pi.smul_apply, Pi.smul_apply, submatrix_one_equiv, transpose_smul, transpose_one]
      · rw [submatrix_smul, Pi.smul_apply, Pi.smul_apply, submatrix_one_equiv, transpose_smul, transpose_one]
    | patterned r M p Q hc' hb =>
      have := (buildPure_patterned_ok (hmu r hr) hb).1
      rw [hu] at this
      simp at this
    | copy r P e hc' ho => rw [hc] at hc'; simp at hc'
  | patterned r M p Q hc hb =>
    intro hr hl P' e' hm'
    obtain ⟨hnu, -, -, -, -, -, -, zz, para, eph, Ht, n, h1, h2, h3, h4, -, h5⟩ :=
      buildPure_patterned_ok (hmu r hr) hb
    cases hm' with
    | uniform r hc' hu' ha' => rw [hu'] at hnu; simp at hnu
    | copy r P e hc' ho => rw [hc] at hc'; simp at hc'
    | patterned r M' p' Q' hc' hb' =>
    obtain ⟨-, -, -, -, -, -, -, zz', para', eph', Ht', n', h1', h2', h3', h4', -, h5'⟩ :=
      buildPure_patterned_ok (hmu r hr) hb'
    rw [h1] at h1'
    cases h1'
    have he : p'.epsHat.submatrix σ σ = p.epsHatᵀ := toep_opposite h h2 h2'
    refine ⟨?_, he⟩
    rw [h3] at h3'
    cases h3'
    have hpara : eph'.submatrix (twice σ) (twice σ) = ephᵀ := by
      unfold paraOf at h3
      unfold epsParaHatOf at h4 h4'
      split at h3
      · rename_i ha
        rw [bind_eq_ok] at h3
        obtain ⟨t, h3, h6⟩ := h3
        simp only [except_pure_eq_ok, Except.ok.injEq] at h6
        subst h6
        dsimp only at h4 h4'
        rw [bind_eq_ok] at h4 h4'
        obtain ⟨T, h4, h6⟩ := h4
        obtain ⟨T', h4', h6'⟩ := h4'
        simp only [except_pure_eq_ok, Except.ok.injEq] at h6 h6'
        subst h6
        subst h6'
        exact blocks_trans4 h hl ha h3 h4 h4'
      · simp only [except_pure_eq_ok, Except.ok.injEq] at h3
        subst h3
        simp only [except_pure_eq_ok, Except.ok.injEq] at h4 h4'
        rw [← h4, ← h4']
        exact dbl_blocks he (by simp) (by simp) he
    unfold pepsOf at h5 h5'
    dsimp only at h5 h5'
    rw [h.form, h.oneD] at h5'
    by_cases hor : c.formulation = "original"
    · rw [if_pos hor] at h5 h5'
      simp only [except_pure_eq_ok, Except.ok.injEq] at h5 h5'
      rw [← h5, ← h5']; exact hpara
    · rw [if_neg hor] at h5 h5'
      by_cases h1d : c.lattice.is1D = true
      swap
      · obtain ⟨hj, hiso, Nx, Ny, a, b, hab⟩ := (((hform r hr).resolve_left hor).resolve_left h1d).resolve_left (by rw [hnu]; simp)
        unfold paraOf at h3
        rw [hiso] at h3
        simp only [Bool.false_eq_true, if_false, except_pure_eq_ok, Except.ok.injEq] at h3
        subst h3
        simp only [epsParaHatOf, except_pure_eq_ok, Except.ok.injEq] at h4 h4'
        subst h4
        subst h4'
        dsimp only at h5 h5'
        have hT : ∀ H b', getTangentField E (mats r) zz H b' = .ok ⟨Nx, Ny, fun _ _ => (a : ℂ), fun _ _ => (b : ℂ)⟩ := by
          intro H b'
          unfold getTangentField
          rw [hab]
        rw [if_neg h1d, if_neg hj, hT, hT, ite_self, except_bind_ok] at h5 h5'
        simp only [bind_eq_ok] at h5 h5'
        obtain ⟨nu, ⟨n1, hn1, e1⟩, h5⟩ := h5
        obtain ⟨nu', ⟨n1', hn1', e1'⟩, h5'⟩ := h5'
        simp only [except_pure_eq_ok, Except.ok.injEq] at e1 e1'
        subst e1
        subst e1'
        exact getPeps_opposite h hnd he (nu_opposite h hn1 hn1') h5 h5'
      have htan := (hf1 h1d).resolve_left hor
      rw [if_pos htan, if_pos h1d] at h5 h5'
      unfold paraOf at h3
      split at h3
      · rw [bind_eq_ok] at h3
        obtain ⟨t, -, h6⟩ := h3
        simp only [except_pure_eq_ok, Except.ok.injEq] at h6
        subst h6
        dsimp only at h5
        rw [bind_eq_ok] at h5
        obtain ⟨_, -, h5⟩ := h5
        simp at h5
      · rename_i ha
        simp only [except_pure_eq_ok, Except.ok.injEq] at h3
        subst h3
        dsimp only at h5 h5'
        rw [bind_eq_ok] at h5 h5'
        obtain ⟨n1, hn1, h5⟩ := h5
        obtain ⟨n2, hn2, h5'⟩ := h5'
        simp only [except_pure_eq_ok, Except.ok.injEq] at h5 h5'
        rw [← h5, ← h5']
        exact dbl_blocks he (by simp) (by simp) (nu_opposite h hn1 hn2)
  | copy r P e hc ho ih =>
    intro hr hl P' e' hm'
    cases hm' with
    | uniform r hc' hu' ha' => rw [hc] at hc'; simp at hc'
    | patterned r M' p' Q' hc' hb' => rw [hc] at hc'; simp at hc'
    | copy r P e hc' ho' =>
    obtain ⟨k, hk⟩ := List.getElem?_of_mem hr
    obtain ⟨⟨j, -, hj⟩, -, h3⟩ := hw k r hk hc
    refine ih (List.mem_of_getElem? hj) ?_ _ _ ho'
    unfold Reciprocal LayerSpec.isAnisotropic at hl ⊢
    rw [← h3]; exact hl

/-- The reaction does not change through a layer. -/
theorem layer_react {σ : Fin c.nh ≃ Fin c'.nh} (h : Opposite c c' σ) (hom : c.omega ≠ 0) {L : LayerSpec}
    {a : LayerAttr c.nh} {a' : LayerAttr c'.nh} {P e P' e'} (hm : MediumModes c L a P e) (hm' : MediumModes c' L a' P' e')
    (hP : P'.submatrix (twice σ) (twice σ) = Pᵀ) (he : e'.submatrix σ σ = eᵀ)
    {M : Modes (Idx c.nh)} (hM : modesOf L a = .ok M) (hq : ∀ k, M.q k ≠ 0)
    {M' : Modes (Idx c'.nh)} (hM' : modesOf L a' = .ok M') (hq' : ∀ k, M'.q k ≠ 0)
    (x y : Idx c.nh → ℂ) (x' y' : Idx c'.nh → ℂ) {s : ℝ} (hs : s * s = 1) (t z : ℝ) :
    react s (twice σ) M M' x y x' y' 0 t = react s (twice σ) M M' x y x' y' z (t + s * z) := by
  have hom' : c'.omega ≠ 0 := by rw [h.omega]; exact hom
  obtain ⟨ev, hev, hw⟩ := hm.eig
  obtain ⟨ev', hev', hw'⟩ := hm'.eig
  have hMe : M = ⟨ev.1, ev.2, (c.omega : ℂ) ^ 2 • 1 - kEps c.kx c.ky e⁻¹, L.thickness⟩ := by
    unfold modesOf at hM
    rw [hev, hm.Q] at hM
    simpa [attr] using hM.symm
  have hMe' : M' = ⟨ev'.1, ev'.2, (c'.omega : ℂ) ^ 2 • 1 - kEps c'.kx c'.ky e'⁻¹, L.thickness⟩ := by
    unfold modesOf at hM'
    rw [hev', hm'.Q] at hM'
    simpa [attr] using hM'.symm
  have hQ : M.Q = (c.omega : ℂ) ^ 2 • 1 - kEps c.kx c.ky e⁻¹ := by rw [hMe]
  have hQ' : M'.Q = (c'.omega : ℂ) ^ 2 • 1 - kEps c'.kx c'.ky e'⁻¹ := by rw [hMe']
  refine react_const (R := P - ((c.omega : ℂ) ^ 2)⁻¹ • kMu c.kx c.ky)
    (R' := P' - ((c'.omega : ℂ) ^ 2)⁻¹ • kMu c'.kx c'.ky) ?_ hq ?_ hq' ?_ ?_ x y x' y' hs t z
  · rw [hQ, ← waveMatrix_factor hom, hMe]
    exact hw
  · rw [hQ', ← waveMatrix_factor hom', hMe']
    exact hw'
  · rw [hQ, hQ', submatrix_sub, Pi.sub_apply, Pi.sub_apply, submatrix_smul, Pi.smul_apply, Pi.smul_apply,
      kEps_opposite h (transposed_inv he), one_opposite, h.omega, transpose_sub, transpose_smul]
  · rw [submatrix_sub, Pi.sub_apply, Pi.sub_apply, submatrix_smul, Pi.smul_apply, Pi.smul_apply,
      kMu_opposite h, hP, h.omega, transpose_sub, transpose_smul]

end Nannos
