import Verif.Proofs.Similar
import Verif.Proofs.Pixelated

/-! Simulations related by a change of the unit of length, a rotation or reflection of the transverse axes, a
renumbering of the orders and phases of the orders (C63-C66). -/

namespace Nannos

open Matrix Spec

/-- A change of components acting on each order. -/
structure OrderMap (n n' : ℕ) where
  σ : Fin n ≃ Fin n'
  p : Fin n → ℂ
  hp : ∀ i, star (p i) * p i = 1
  x : ℝ
  y : ℝ
  d : ℝ
  hxy : x ^ 2 + y ^ 2 = 1
  hd : d ^ 2 = 1
  s : ℝ
  pos : 0 < s

namespace OrderMap
variable {n n' : ℕ} (g : OrderMap n n')

theorem p_ne (i : Fin n) : g.p i ≠ 0 := by
  intro h
  have := g.hp i
  rw [h] at this
  simp at this

theorem hxyC : (g.x : ℂ) ^ 2 + (g.y : ℂ) ^ 2 = 1 := by exact_mod_cast congrArg (fun t : ℝ => (t : ℂ)) g.hxy

theorem hdC : (g.d : ℂ) ^ 2 = 1 := by exact_mod_cast congrArg (fun t : ℝ => (t : ℂ)) g.hd

/-- Renumbering and phases. -/
def D : Matrix (Fin n') (Fin n) ℂ := of fun i' i => if i' = g.σ i then g.p i else 0

/-- Its inverse. -/
def D' : Matrix (Fin n) (Fin n') ℂ := of fun i i' => if i' = g.σ i then star (g.p i) else 0

theorem D_D' : g.D * g.D' = 1 := by
  ext i' j'
  obtain ⟨i, rfl⟩ := g.σ.surjective i'
  obtain ⟨j, rfl⟩ := g.σ.surjective j'
  simp only [mul_apply, D, D', of_apply, EmbeddingLike.apply_eq_iff_eq]
  rw [Finset.sum_eq_single i (by intro b _ hb; simp [Ne.symm hb]) (by simp)]
  by_cases h : i = j
  · subst h; simpa [mul_comm] using g.hp i
  · simp [Ne.symm h, one_apply_ne (g.σ.injective.ne h)]

theorem D'_D : g.D' * g.D = 1 := by
  ext i j
  simp only [mul_apply, D, D', of_apply]
  rw [Finset.sum_eq_single (g.σ i) (by intro b _ hb; simp [hb]) (by simp)]
  by_cases h : i = j
  · subst h; simpa using g.hp i
  · simp [h, one_apply_ne h]

/-- The change of the tangential components. -/
noncomputable def U : Matrix (Idx n') (Idx n) ℂ :=
  fromBlocks ((g.x : ℂ) • g.D) ((-(g.d * g.y) : ℂ) • g.D) ((g.y : ℂ) • g.D) ((g.d * g.x : ℂ) • g.D)

/-- Its inverse. -/
noncomputable def V : Matrix (Idx n) (Idx n') ℂ :=
  fromBlocks ((g.x : ℂ) • g.D') ((g.y : ℂ) • g.D') ((-(g.d * g.y) : ℂ) • g.D') ((g.d * g.x : ℂ) • g.D')

theorem UV : g.U * g.V = 1 := by
  have h1 := g.hxyC
  have h2 := g.hdC
  unfold U V
  rw [fromBlocks_multiply, ← fromBlocks_one]
  simp only [Matrix.smul_mul, Matrix.mul_smul, smul_smul, g.D_D', ← add_smul]
  congr 1
  · rw [show (g.x * g.x + -(g.d * g.y) * -(g.d * g.y) : ℂ) = 1 by linear_combination h1 + (g.y : ℂ) ^ 2 * h2, one_smul]
  · rw [show (g.y * g.x + (g.d * g.x) * -(g.d * g.y) : ℂ) = 0 by linear_combination -(g.x : ℂ) * g.y * h2, zero_smul]
  · rw [show (g.x * g.y + -(g.d * g.y) * (g.d * g.x) : ℂ) = 0 by linear_combination -(g.x : ℂ) * g.y * h2, zero_smul]
  · rw [show (g.y * g.y + (g.d * g.x) * (g.d * g.x) : ℂ) = 1 by linear_combination h1 + (g.x : ℂ) ^ 2 * h2, one_smul]

theorem VU : g.V * g.U = 1 := by
  have h1 := g.hxyC
  have h2 := g.hdC
  unfold U V
  rw [fromBlocks_multiply, ← fromBlocks_one]
  simp only [Matrix.smul_mul, Matrix.mul_smul, smul_smul, g.D'_D, ← add_smul]
  congr 1
  · rw [show (g.x * g.x + g.y * g.y : ℂ) = 1 by linear_combination h1, one_smul]
  · rw [show (-(g.d * g.y) * g.x + (g.d * g.x) * g.y : ℂ) = 0 by ring, zero_smul]
  · rw [show (g.x * -(g.d * g.y) + g.y * (g.d * g.x) : ℂ) = 0 by ring, zero_smul]
  · rw [show (-(g.d * g.y) * -(g.d * g.y) + (g.d * g.x) * (g.d * g.x) : ℂ) = 1 by
      linear_combination (g.d : ℂ) ^ 2 * h1 + h2, one_smul]

/-- As a change of components. -/
noncomputable def change : Change (Idx n) (Idx n') :=
  ⟨g.U, g.V, g.UV, g.VU, Equiv.sumCongr g.σ g.σ, g.s, g.pos⟩

theorem D_mulVec (v : Fin n → ℂ) (i : Fin n) : (g.D *ᵥ v) (g.σ i) = g.p i * v i := by
  simp only [mulVec, dotProduct, D, of_apply, EmbeddingLike.apply_eq_iff_eq]
  rw [Finset.sum_eq_single i (by intro b _ hb; simp [Ne.symm hb]) (by simp)]
  simp

theorem U_inl (v : Idx n → ℂ) (i : Fin n) :
    (g.U *ᵥ v) (.inl (g.σ i)) = g.p i * (g.x * v (.inl i) - g.d * g.y * v (.inr i)) := by
  unfold U
  rw [fromBlocks_mulVec]
  simp only [Sum.elim_inl, Pi.add_apply, smul_mulVec, Pi.smul_apply, smul_eq_mul, D_mulVec, Function.comp]
  ring

theorem U_inr (v : Idx n → ℂ) (i : Fin n) :
    (g.U *ᵥ v) (.inr (g.σ i)) = g.p i * (g.y * v (.inl i) + g.d * g.x * v (.inr i)) := by
  unfold U
  rw [fromBlocks_mulVec]
  simp only [Sum.elim_inr, Pi.add_apply, smul_mulVec, Pi.smul_apply, smul_eq_mul, D_mulVec, Function.comp]
  ring

/-- The product of two fields of one order is unchanged. -/
theorem U_dot (u v : Idx n → ℂ) (i : Fin n) :
    star ((g.U *ᵥ u) (.inl (g.σ i))) * (g.U *ᵥ v) (.inl (g.σ i)) +
      star ((g.U *ᵥ u) (.inr (g.σ i))) * (g.U *ᵥ v) (.inr (g.σ i)) =
    star (u (.inl i)) * v (.inl i) + star (u (.inr i)) * v (.inr i) := by
  have h1 := g.hxyC
  have h2 := g.hdC
  have h3 := g.hp i
  rw [g.U_inl, g.U_inl, g.U_inr, g.U_inr]
  simp only [star_mul', star_add, star_sub, Complex.star_def, Complex.conj_ofReal] at h3 ⊢
  linear_combination ((starRingEnd ℂ) (u (.inl i)) * v (.inl i) + (starRingEnd ℂ) (u (.inr i)) * v (.inr i)) * h3 +
    (starRingEnd ℂ) (g.p i) * g.p i * ((starRingEnd ℂ) (u (.inl i)) * v (.inl i) +
      (starRingEnd ℂ) (u (.inr i)) * v (.inr i) * g.d ^ 2) * h1 +
    (starRingEnd ℂ) (g.p i) * g.p i * (starRingEnd ℂ) (u (.inr i)) * v (.inr i) * h2

/-- Matrices of one simulation turned into those of the other. -/
theorem intertwine {M' : Matrix (Idx n') (Idx n') ℂ} {M : Matrix (Idx n) (Idx n) ℂ} {k : ℂ}
    (h : ∀ i j,
      g.p j * (g.x * M' (.inl (g.σ i)) (.inl (g.σ j)) + g.y * M' (.inl (g.σ i)) (.inr (g.σ j))) =
        k * (g.p i * (g.x * M (.inl i) (.inl j) - g.d * g.y * M (.inr i) (.inl j))) ∧
      g.p j * (-g.d * g.y * M' (.inl (g.σ i)) (.inl (g.σ j)) + g.d * g.x * M' (.inl (g.σ i)) (.inr (g.σ j))) =
        k * (g.p i * (g.x * M (.inl i) (.inr j) - g.d * g.y * M (.inr i) (.inr j))) ∧
      g.p j * (g.x * M' (.inr (g.σ i)) (.inl (g.σ j)) + g.y * M' (.inr (g.σ i)) (.inr (g.σ j))) =
        k * (g.p i * (g.y * M (.inl i) (.inl j) + g.d * g.x * M (.inr i) (.inl j))) ∧
      g.p j * (-g.d * g.y * M' (.inr (g.σ i)) (.inl (g.σ j)) + g.d * g.x * M' (.inr (g.σ i)) (.inr (g.σ j))) =
        k * (g.p i * (g.y * M (.inl i) (.inr j) + g.d * g.x * M (.inr i) (.inr j)))) :
    M' * g.U = k • (g.U * M) := by
  have hcol : ∀ (N : Matrix (Fin n') (Fin n') ℂ) i' j, (N * g.D) i' j = g.p j * N i' (g.σ j) := by
    intro N i' j
    simp only [mul_apply, D, of_apply]
    rw [Finset.sum_eq_single (g.σ j) (by intro b _ hb; simp [hb]) (by simp)]
    simp [mul_comm]
  have hrow : ∀ (N : Matrix (Fin n) (Fin n) ℂ) i j, (g.D * N) (g.σ i) j = g.p i * N i j := by
    intro N i j
    simp only [mul_apply, D, of_apply, EmbeddingLike.apply_eq_iff_eq]
    rw [Finset.sum_eq_single i (by intro b _ hb; simp [Ne.symm hb]) (by simp)]
    simp
  rw [← fromBlocks_toBlocks M', ← fromBlocks_toBlocks M]
  unfold U
  rw [fromBlocks_multiply, fromBlocks_multiply, fromBlocks_smul]
  congr 1
  all_goals
    ext i' j
    obtain ⟨i, rfl⟩ := g.σ.surjective i'
    obtain ⟨h1, h2, h3, h4⟩ := h i j
    simp only [Matrix.mul_smul, Matrix.smul_mul, Matrix.add_apply, Matrix.smul_apply, smul_eq_mul, hcol, hrow]
    simp only [toBlocks₁₁, toBlocks₁₂, toBlocks₂₁, toBlocks₂₂, of_apply]
  · linear_combination h1
  · linear_combination h2
  · linear_combination h3
  · linear_combination h4

/-- Matrices acting on one component. -/
theorem intertwine1 {M' : Matrix (Fin n') (Fin n') ℂ} {M : Matrix (Fin n) (Fin n) ℂ} :
    M' * g.D = g.D * M ↔ ∀ i j, g.p j * M' (g.σ i) (g.σ j) = g.p i * M i j := by
  have hcol : ∀ i' j, (M' * g.D) i' j = g.p j * M' i' (g.σ j) := by
    intro i' j
    simp only [mul_apply, D, of_apply]
    rw [Finset.sum_eq_single (g.σ j) (by intro b _ hb; simp [hb]) (by simp)]
    simp [mul_comm]
  have hrow : ∀ i j, (g.D * M) (g.σ i) j = g.p i * M i j := by
    intro i j
    simp only [mul_apply, D, of_apply, EmbeddingLike.apply_eq_iff_eq]
    rw [Finset.sum_eq_single i (by intro b _ hb; simp [Ne.symm hb]) (by simp)]
    simp
  constructor
  · intro h i j
    rw [← hcol, ← hrow, h]
  · intro h
    ext i' j
    obtain ⟨i, rfl⟩ := g.σ.surjective i'
    rw [hcol, hrow, h]

theorem intertwine_inv {M' : Matrix (Fin n') (Fin n') ℂ} {M : Matrix (Fin n) (Fin n) ℂ}
    (h : M' * g.D = g.D * M) (hM' : M'.det ≠ 0) (hM : M.det ≠ 0) : M'⁻¹ * g.D = g.D * M⁻¹ := by
  have e := congrArg (fun X => M'⁻¹ * X * M⁻¹) h
  rw [← Matrix.mul_assoc, nonsing_inv_mul _ (det_unit hM'), Matrix.one_mul, Matrix.mul_assoc M'⁻¹, Matrix.mul_assoc g.D,
    mul_nonsing_inv _ (det_unit hM), Matrix.mul_one] at e
  exact e.symm

/-- The wave vectors of the two simulations. -/
structure Waves (kx ky : Fin n → ℂ) (kx' ky' : Fin n' → ℂ) : Prop where
  hkx : ∀ i, (g.s : ℂ) * kx' (g.σ i) = g.d * g.x * kx i - g.y * ky i
  hky : ∀ i, (g.s : ℂ) * ky' (g.σ i) = g.d * g.y * kx i + g.x * ky i

theorem ne : (g.s : ℂ) ≠ 0 := by exact_mod_cast g.pos.ne'

variable {g} {kx ky : Fin n → ℂ} {kx' ky' : Fin n' → ℂ}

theorem Waves.eqx (h : g.Waves kx ky kx' ky') (i : Fin n) :
    kx' (g.σ i) = (g.s : ℂ)⁻¹ * (g.d * g.x * kx i - g.y * ky i) := by
  have := g.ne
  rw [← h.hkx i]; field_simp

theorem Waves.eqy (h : g.Waves kx ky kx' ky') (i : Fin n) :
    ky' (g.σ i) = (g.s : ℂ)⁻¹ * (g.d * g.y * kx i + g.x * ky i) := by
  have := g.ne
  rw [← h.hky i]; field_simp

theorem Waves.sq (h : g.Waves kx ky kx' ky') (i : Fin n) :
    (g.s : ℂ) ^ 2 * (kx' (g.σ i) ^ 2 + ky' (g.σ i) ^ 2) = kx i ^ 2 + ky i ^ 2 := by
  have h1 := g.hxyC
  have h2 := g.hdC
  have e : (g.s : ℂ) ^ 2 * (kx' (g.σ i) ^ 2 + ky' (g.σ i) ^ 2) =
    (g.s * kx' (g.σ i)) ^ 2 + (g.s * ky' (g.σ i)) ^ 2 := by ring
  rw [e, h.hkx, h.hky]
  linear_combination (g.d : ℂ) ^ 2 * kx i ^ 2 * h1 + kx i ^ 2 * h2 + ky i ^ 2 * h1

theorem Waves.kEps (h : g.Waves kx ky kx' ky') {eta : Matrix (Fin n) (Fin n) ℂ} {eta' : Matrix (Fin n') (Fin n') ℂ}
    (he : eta' * g.D = g.D * eta) :
    kEps kx' ky' eta' * g.U = ((g.s : ℂ) ^ 2)⁻¹ • (g.U * kEps kx ky eta) := by
  have h1 := g.hxyC
  have h2 := g.hdC
  have h0 := g.ne
  refine g.intertwine fun i j => ?_
  have e := (g.intertwine1.mp he) i j
  simp only [Spec.kEps, of_apply]
  rw [h.eqx, h.eqx, h.eqy, h.eqy, show ((g.s : ℂ) ^ 2)⁻¹ = (g.s : ℂ)⁻¹ * (g.s : ℂ)⁻¹ by rw [pow_two, mul_inv]]
  generalize (g.s : ℂ)⁻¹ = t
  generalize eta' (g.σ i) (g.σ j) = w at e ⊢
  generalize g.p j = pj at e ⊢
  generalize g.p i = pi at e ⊢
  generalize (g.x : ℂ) = x at h1 ⊢
  generalize (g.y : ℂ) = y at h1 ⊢
  generalize (g.d : ℂ) = d at h2 ⊢
  generalize eta i j = v at e ⊢
  generalize kx i = a
  generalize ky i = b
  generalize kx j = a'
  generalize ky j = b'
  refine ⟨?_, ?_, ?_, ?_⟩
  · linear_combination t ^ 2 * (d * y * a + x * b) * b' * e + t ^ 2 * pj * w * (d * y * a + x * b) * b' * h1
  · linear_combination -t ^ 2 * (d * y * a + x * b) * a' * e - t ^ 2 * pj * w * (d * y * a + x * b) * a' * (d ^ 2 * h1 + h2)
  · linear_combination -t ^ 2 * (d * x * a - y * b) * b' * e - t ^ 2 * pj * w * (d * x * a - y * b) * b' * h1
  · linear_combination t ^ 2 * (d * x * a - y * b) * a' * e + t ^ 2 * pj * w * (d * x * a - y * b) * a' * (d ^ 2 * h1 + h2)

theorem Waves.kMu (h : g.Waves kx ky kx' ky') : kMu kx' ky' * g.U = ((g.s : ℂ) ^ 2)⁻¹ • (g.U * kMu kx ky) := by
  have h1 := g.hxyC
  have h2 := g.hdC
  have h0 := g.ne
  refine g.intertwine fun i j => ?_
  simp only [Spec.kMu, of_apply, EmbeddingLike.apply_eq_iff_eq]
  by_cases hij : i = j
  · subst hij
    simp only [if_true]
    rw [h.eqx, h.eqy, show ((g.s : ℂ) ^ 2)⁻¹ = (g.s : ℂ)⁻¹ * (g.s : ℂ)⁻¹ by rw [pow_two, mul_inv]]
    generalize (g.s : ℂ)⁻¹ = t
    generalize g.p i = pi
    generalize (g.x : ℂ) = x at h1 ⊢
    generalize (g.y : ℂ) = y at h1 ⊢
    generalize (g.d : ℂ) = d at h2 ⊢
    generalize kx i = a
    generalize ky i = b
    refine ⟨?_, ?_, ?_, ?_⟩
    · linear_combination pi * t ^ 2 * (d * x * a - y * b) * d * a * h1 + pi * t ^ 2 * a * (x * a) * h2
    · linear_combination pi * t ^ 2 * (d * x * a - y * b) * d * b * h1 + pi * t ^ 2 * b * (x * a) * h2
    · linear_combination pi * t ^ 2 * (d * y * a + x * b) * d * a * h1 + pi * t ^ 2 * a * (y * a) * h2
    · linear_combination pi * t ^ 2 * (d * y * a + x * b) * d * b * h1 + pi * t ^ 2 * b * (y * a) * h2
  · simp [hij]

theorem Waves.wave (h : g.Waves kx ky kx' ky') {om om' : ℝ} (hom : om = g.s * om')
    {eta : Matrix (Fin n) (Fin n) ℂ} {eta' : Matrix (Fin n') (Fin n') ℂ} (he : eta' * g.D = g.D * eta)
    {P : Matrix (Idx n) (Idx n) ℂ} {P' : Matrix (Idx n') (Idx n') ℂ} (hP : P' * g.U = g.U * P) :
    waveMatrix om' kx' ky' P' eta' * g.U = ((g.s : ℂ) ^ 2)⁻¹ • (g.U * waveMatrix om kx ky P eta) ∧
    ((om' : ℂ) ^ 2 • 1 - Spec.kEps kx' ky' eta') * g.U =
      ((g.s : ℂ) ^ 2)⁻¹ • (g.U * ((om : ℂ) ^ 2 • 1 - Spec.kEps kx ky eta)) := by
  have h0 := g.ne
  have e : (om' : ℂ) ^ 2 = ((g.s : ℂ) ^ 2)⁻¹ * (om : ℂ) ^ 2 := by
    rw [hom]; push_cast; field_simp
  constructor
  · unfold waveMatrix
    rw [Matrix.sub_mul, Matrix.sub_mul, h.kMu, Matrix.mul_assoc, h.kEps he, Matrix.smul_mul, hP, Matrix.mul_smul, ← Matrix.mul_assoc, hP,
      Matrix.mul_sub, Matrix.mul_sub, smul_sub, smul_sub, Matrix.mul_smul, smul_smul, e, Matrix.mul_assoc]
  · rw [Matrix.sub_mul, h.kEps he, Matrix.smul_mul, Matrix.one_mul, Matrix.mul_sub, smul_sub, Matrix.mul_smul, Matrix.mul_one, smul_smul, e]

end OrderMap

/-! ### Square roots -/

theorem csqrt_scale {r : ℝ} (hr : 0 < r) (w : ℂ) : csqrt ((r : ℂ) ^ 2 * w) = r * csqrt w := by
  have h1 : csqrt ((r : ℂ) ^ 2 * w) ^ 2 = (r * csqrt w) ^ 2 := by rw [csqrt_sq, mul_pow, csqrt_sq]
  rcases sq_eq_sq_iff_eq_or_eq_neg.mp h1 with h2 | h2
  · exact h2
  -- both have a nonnegative real part
  have h3 := csqrt_re_nonneg ((r : ℂ) ^ 2 * w)
  have h4 := csqrt_re_nonneg w
  rw [h2, Complex.neg_re, Complex.re_ofReal_mul] at h3
  have h5 : (csqrt w).re = 0 := by
    have := mul_nonneg hr.le h4
    have h6 : r * (csqrt w).re = 0 := by linarith
    exact (mul_eq_zero.mp h6).resolve_left hr.ne'
  -- then `w` is a nonpositive real number
  have h6 : w = ((-((csqrt w).im ^ 2) : ℝ) : ℂ) := by
    have : csqrt w = Complex.I * (csqrt w).im := by
      apply Complex.ext <;> simp [h5]
    calc w = csqrt w ^ 2 := (csqrt_sq w).symm
      _ = _ := by rw [this, mul_pow, Complex.I_sq]; simp
  have h7 : 0 ≤ (csqrt w).im := csqrt_im_nonneg (by rw [h6, Complex.ofReal_im])
  have h8 : 0 ≤ (csqrt ((r : ℂ) ^ 2 * w)).im := csqrt_im_nonneg (by
    rw [h6, ← Complex.ofReal_pow, ← Complex.ofReal_mul, Complex.ofReal_im])
  rw [h2, Complex.neg_im, Complex.im_ofReal_mul] at h8
  have h9 : (csqrt w).im = 0 := by
    have := mul_nonneg hr.le h7
    have h6 : r * (csqrt w).im = 0 := by linarith
    exact (mul_eq_zero.mp h6).resolve_left hr.ne'
  have : csqrt w = 0 := Complex.ext h5 h9
  rw [h2, this]
  simp

theorem modeSqrt_scale {r : ℝ} (hr : 0 < r) (w : ℂ) : modeSqrt ((r : ℂ) ^ 2 * w) = r * modeSqrt w := by
  unfold modeSqrt
  rw [csqrt_scale hr, Complex.im_ofReal_mul]
  have : r * (csqrt w).im < 0 ↔ (csqrt w).im < 0 := by
    constructor
    · intro h
      by_contra h0
      push Not at h0
      have := mul_nonneg hr.le h0
      linarith
    · exact fun h => mul_neg_of_pos_of_neg hr h
  simp only [this]
  split <;> ring

/-! ### Simulations -/

variable {E E' : Ext} {c c' : Static} {mats mats' : ℕ → LayerSpec} {A : ℕ → LayerAttr c.nh} {A' : ℕ → LayerAttr c'.nh}

/-- What is required of the two simulations. -/
structure SimilarMedia (g : OrderMap c.nh c'.nh) (E E' : Ext) (mats mats' : ℕ → LayerSpec) : Prop where
  mu : ∀ r ∈ c.stack, (mats r).mu = 1
  mu' : ∀ r ∈ c.stack, (mats' r).mu = 1
  eigc : EigContract E
  eigc' : EigContract E'
  stack : c'.stack = c.stack
  placed : WellPlaced mats c.stack
  placed' : WellPlaced mats' c.stack
  omega : c.omega = g.s * c'.omega
  waves : g.Waves c.kx c.ky c'.kx c'.ky
  thick : ∀ r ∈ c.stack, (mats' r).thickness.getD 0 = g.s * (mats r).thickness.getD 0
  med : ∀ r ∈ c.stack, ∀ P e P' e', Medium E c mats r P e → Medium E' c' mats' r P' e' →
    P' * g.U = g.U * P ∧ e' * g.D = g.D * e
  head : ∀ r, c.stack.head? = some r → (mats r).isUniform = true ∧ (mats' r).isUniform = true ∧
    (mats' r).epsilon.value = (mats r).epsilon.value
  last : ∀ r, c.stack.getLast? = some r → (mats' r).isUniform = (mats r).isUniform
  a0 : c'.a0 = g.U *ᵥ c.a0
  flux : c'.incidentFlux = c.incidentFlux

theorem head_modes {c : Static} {A : ℕ → LayerAttr c.nh} {r : ℕ} (hf : LayerFix E c mats A r) (hc : (mats r).iscopy = false)
    (hu : (mats r).isUniform = true) : (modesD (mats r) (A r)).phi = 1 ∧
      (modesD (mats r) (A r)).q = Sum.elim
        (fun i => csqrt ((mats r).epsilon.value * (mats r).mu * (c.omega : ℂ) ^ 2 - c.kx i ^ 2 - c.ky i ^ 2))
        (fun i => csqrt ((mats r).epsilon.value * (mats r).mu * (c.omega : ℂ) ^ 2 - c.kx i ^ 2 - c.ky i ^ 2)) := by
  cases hf.form with
  | uniform Q ev _ hb he hQ ha =>
    obtain ⟨-, h5, h6⟩ := solveUniform_ok he
    unfold modesD
    rw [ha]
    exact ⟨h5, h6⟩
  | patterned M p Q ev _ hb => rw [buildPure_patterned hb] at hu; simp at hu
  | copyUniform M p Q ev hc' => rw [hc] at hc'; simp at hc'
  | copyPatterned M p Q ev hc' => rw [hc] at hc'; simp at hc'

theorem OrderMap.U_ne {n n' : ℕ} (g : OrderMap n n') {i : Idx n} {i' : Idx n'} (h : g.U i' i ≠ 0) :
    ∃ j : Fin n, (i = .inl j ∨ i = .inr j) ∧ (i' = .inl (g.σ j) ∨ i' = .inr (g.σ j)) := by
  have hD : ∀ (a' : Fin n') (a : Fin n) (k : ℂ), (k • g.D) a' a ≠ 0 → a' = g.σ a := by
    intro a' a k hk
    by_contra hne
    apply hk
    simp [OrderMap.D, hne]
  rcases i with i | i <;> rcases i' with i' | i' <;> refine ⟨i, by simp, ?_⟩ <;>
    simp only [OrderMap.U, fromBlocks_apply₁₁, fromBlocks_apply₁₂, fromBlocks_apply₂₁, fromBlocks_apply₂₂] at h <;>
    simp [hD _ _ _ h]

theorem SimilarMedia.similar {g : OrderMap c.nh c'.nh} (h : SimilarMedia g E E' mats mats')
    (hf : ∀ r ∈ c.stack, LayerFix E c mats A r) (hf' : ∀ r ∈ c'.stack, LayerFix E' c' mats' A' r)
    (hs : Steps (stackModes c mats A)) (hs' : Steps (stackModes c' mats' A')) :
    SimilarStack g.change (stackModes c mats A) (stackModes c' mats' A') := by
  have hlen := stackModes_length c mats A
  have hlen' := stackModes_length c' mats' A'
  have hst := h.stack
  rw [hst] at hlen' hf'
  have hm := solved_medium (stack := c.stack) h.mu h.eigc h.placed hf
  have hm' := solved_medium (stack := c.stack) h.mu' h.eigc' h.placed' hf'
  have hget : ∀ (k : ℕ) L, (stackModes c mats A)[k]? = some L → ∃ r, c.stack[k]? = some r ∧
      L = modesD (mats r) (A r) := by
    intro k L hL
    unfold stackModes at hL
    rw [List.getElem?_map] at hL
    rcases hr : c.stack[k]? with _ | r
    · rw [hr] at hL; simp at hL
    · rw [hr] at hL; exact ⟨r, rfl, by simpa using hL.symm⟩
  have hget' : ∀ (k r : ℕ) L, c.stack[k]? = some r → (stackModes c' mats' A')[k]? = some L →
      L = modesD (mats' r) (A' r) := by
    intro k r L hr hL
    unfold stackModes at hL
    rw [hst, List.getElem?_map, hr] at hL
    simpa using hL.symm
  have hz : ∀ {n : ℕ} (L : LayerSpec) (a : LayerAttr n), (modesD L a).z = L.thickness.getD 0 := by
    intro n L a
    unfold Modes.z modesD
    dsimp only
  have omC : (c.omega : ℂ) = g.s * c'.omega := by rw [h.omega]; push_cast; rfl
  refine ⟨by omega, hs, hs', ?_, ?_, ?_⟩
  · intro L L' hL hL'
    obtain ⟨r, hr, rfl⟩ := hget 0 L hL
    obtain rfl := hget' 0 r L' hr hL'
    have hrm := List.mem_of_getElem? hr
    obtain ⟨u1, u2, u3⟩ := h.head r (by rw [List.head?_eq_getElem?]; exact hr)
    have hc0 : (mats r).iscopy = false := by
      by_contra hcon
      obtain ⟨⟨j, hj, -⟩, -⟩ := h.placed 0 r hr (by simpa using hcon)
      omega
    have hc0' : (mats' r).iscopy = false := by
      by_contra hcon
      obtain ⟨⟨j, hj, -⟩, -⟩ := h.placed' 0 r hr (by simpa using hcon)
      omega
    obtain ⟨p1, q1⟩ := head_modes (hf r hrm) hc0 u1
    obtain ⟨p2, q2⟩ := head_modes (hf' r hrm) hc0' u2
    refine ⟨p1, p2, fun i i' hU => ?_⟩
    obtain ⟨j, hj, hj'⟩ := g.U_ne hU
    have key : csqrt ((mats r).epsilon.value * (mats r).mu * (c.omega : ℂ) ^ 2 - c.kx j ^ 2 - c.ky j ^ 2) =
        g.s * csqrt ((mats' r).epsilon.value * (mats' r).mu * (c'.omega : ℂ) ^ 2 -
          c'.kx (g.σ j) ^ 2 - c'.ky (g.σ j) ^ 2) := by
      rw [← csqrt_scale g.pos]
      congr 1
      rw [h.mu r hrm, h.mu' r hrm, u3, omC]
      linear_combination h.waves.sq j
    rw [q1, q2]
    rcases hj with rfl | rfl <;> rcases hj' with rfl | rfl <;> exact key
  · intro k L L' hL hL'
    obtain ⟨r, hr, rfl⟩ := hget k L hL
    obtain rfl := hget' k r L' hr hL'
    have hrm := List.mem_of_getElem? hr
    obtain ⟨P, e, m1, m2⟩ := hm k r hr
    obtain ⟨P', e', m1', m2'⟩ := hm' k r hr
    obtain ⟨hP, he⟩ := h.med r hrm P e P' e' m1 m1'
    obtain ⟨ev, v1, v2⟩ := m2.eig
    obtain ⟨ev', v1', v2'⟩ := m2'.eig
    obtain ⟨w1, w2⟩ := h.waves.wave h.omega (g.intertwine_inv he m2'.det m2.det) hP
    refine ⟨?_, ?_, waveMatrix c.omega c.kx c.ky P e⁻¹, waveMatrix c'.omega c'.kx c'.ky P' e'⁻¹, w1, ?_, ?_⟩
    · unfold modesD
      rw [m2.Q, m2'.Q]
      exact w2
    · rw [hz, hz, h.thick r hrm]
      rfl
    · unfold modesD
      rw [v1]; exact v2
    · unfold modesD
      rw [v1']; exact v2'
  · intro L L' hL hL'
    obtain ⟨r, hr, rfl⟩ := hget _ L hL
    obtain rfl := hget' _ r L' hr hL'
    have hrm := List.mem_of_getElem? hr
    obtain ⟨ev, v1, v2⟩ := solved_q (stack := c.stack) h.placed hf _ r hr
    obtain ⟨ev', v1', v2'⟩ := solved_q (stack := c.stack) h.placed' hf' _ r hr
    have hq : (modesD (mats r) (A r)).q = ev.1 := by unfold modesD; rw [v1]; rfl
    have hq' : (modesD (mats' r) (A' r)).q = ev'.1 := by unfold modesD; rw [v1']; rfl
    rw [hq, hq']
    refine ⟨fun i j hij => by rw [v2' i, v2' j, hij], fun i j hij => ?_⟩
    have hlast : c.stack.getLast? = some r := by
      rw [List.getLast?_eq_getElem?, ← hlen]; exact hr
    have hu := h.last r hlast
    rw [v2 i, v2' j, hij, hu]
    have hss : (g.change.s : ℂ) = (g.s : ℂ) := rfl
    rw [hss, mul_pow]
    split
    · rw [csqrt_scale g.pos]
    · rw [modeSqrt_scale g.pos]

end Nannos

namespace Nannos

open Matrix Spec

variable {E E' : Ext} {c c' : Static} {mats mats' : ℕ → LayerSpec} {A : ℕ → LayerAttr c.nh} {A' : ℕ → LayerAttr c'.nh}

/-- Product of the fields of one order. -/
noncomputable def dotOrder {n : ℕ} (u v : Idx n → ℂ) (i : Fin n) : ℂ :=
  star (u (.inl i)) * v (.inl i) + star (u (.inr i)) * v (.inr i)

theorem flux_back {M : Modes (Idx c.nh)} {a b : Idx c.nh → ℂ} {f} (h : poyntingFlux c M a b = .ok f) (i : Fin c.nh) :
    f.2 i = -(dotOrder ((M.Q * M.phi * diagonal fun k => 1 / ((c.omega : ℂ) * M.q k)) *ᵥ b) (M.phi *ᵥ b) i).re +
      1 / 2 * (dotOrder (M.phi *ᵥ b) ((M.Q * M.phi * diagonal fun k => 1 / ((c.omega : ℂ) * M.q k)) *ᵥ a) i).re -
      1 / 2 * (dotOrder ((M.Q * M.phi * diagonal fun k => 1 / ((c.omega : ℂ) * M.q k)) *ᵥ b) (M.phi *ᵥ a) i).re := by
  have hq := poyntingFlux_ok h
  unfold poyntingFlux at h
  rw [if_neg (by push Not; exact hq)] at h
  simp only [Except.ok.injEq] at h
  subst h
  unfold dotOrder
  simp only [Complex.add_re, Complex.neg_re, Complex.star_def, Complex.conj_re, Complex.ofReal_re]
  have e2 : (1 / 2 : ℂ) = ((1 / 2 : ℝ) : ℂ) := by push_cast; rfl
  rw [e2]
  simp only [Complex.re_ofReal_mul, Complex.sub_re]
  ring

/-- The efficiencies agree. -/
theorem SimilarMedia.efficiencies {g : OrderMap c.nh c'.nh} (h : SimilarMedia g E E' mats mats') (hom : c.omega ≠ 0)
    (hf : ∀ r ∈ c.stack, LayerFix E c mats A r) (hf' : ∀ r ∈ c'.stack, LayerFix E' c' mats' A' r)
    {RT RT'} (hv : EffV c mats A (.ok ()) RT) (hv' : EffV c' mats' A' (.ok ()) RT') (i : Fin c.nh) :
    RT'.1 (g.σ i) = RT.1 i ∧ RT'.2 (g.σ i) = RT.2 i := by
  obtain ⟨-, S, r0, rN, M0, MN, f0, fN, hS, hr0, hrN, hM0, hMN, hf0, hfN, hne, rfl⟩ := hv
  obtain ⟨-, S', r0', rN', M0', MN', f0', fN', hS', hr0', hrN', hM0', hMN', hf0', hfN', hne', rfl⟩ := hv'
  have hst := h.stack
  have hs0 := g.ne
  have hom' : c'.omega ≠ 0 := by
    intro h0
    apply hom
    rw [h.omega, h0, mul_zero]
  have omC : (c.omega : ℂ) = g.s * c'.omega := by rw [h.omega]; push_cast; rfl
  have omN : (c.omega : ℂ) ≠ 0 := by exact_mod_cast hom
  have omN' : (c'.omega : ℂ) ≠ 0 := by exact_mod_cast hom'
  rw [hst] at hr0' hrN'
  obtain rfl := Except.ok.inj (hr0.symm.trans hr0')
  obtain rfl := Except.ok.inj (hrN.symm.trans hrN')
  have st := steps_of_valS hf hS
  have st' := steps_of_valS hf' hS'
  have ss := h.similar hf hf' st st'
  have hlen := stackModes_length c mats A
  have hlen' := stackModes_length c' mats' A'
  rw [hst] at hlen'
  have h2 := st.1
  have full : ∀ {b : Static} {F : Ext} {m2 : ℕ → LayerSpec} {B : ℕ → LayerAttr b.nh} {T},
      (∀ r ∈ b.stack, LayerFix F b m2 B r) → valS b m2 B (.ok ()) none = .ok T →
      loopS (stackModes b m2 B) (0 : ℕ) (((stackModes b m2 B).length - 1 : ℕ) : ℤ) = .ok T := by
    intro b F m2 B T hfx hT
    have hst2 := (steps_of_valS hfx hT).1
    rw [valS_none, valS_solved hfx] at hT
    have hl := stackModes_length b m2 B
    have : ((b.stack.length : ℤ) - 1) = (((stackModes b m2 B).length - 1 : ℕ) : ℤ) := by omega
    rw [this] at hT
    exact ((freshS_ok (i := 0)).mp hT).2
  obtain ⟨amp, a1, a2, a3, a4⟩ := solution_ext c.a0 (full hf hS)
  obtain ⟨amp', b1, b2, b3, b4⟩ := solution_ext c'.a0 (full hf' hS')
  obtain ⟨amp2, d1, d2, d3⟩ := ss.transfer a1
  have d4 := b4 amp2 (by rw [h.a0]; exact d1)
  have hmd : ∀ {b : Static} {F : Ext} {m2 : ℕ → LayerSpec} {B : ℕ → LayerAttr b.nh}
      (_ : ∀ r ∈ b.stack, LayerFix F b m2 B r) (k r : ℕ) (M), b.stack[k]? = some r → modesOf (m2 r) (B r) = .ok M →
      (stackModes b m2 B)[k]? = some M := by
    intro b F m2 B hfx k r M hk hM
    have hs := hfx r (List.mem_of_getElem? hk)
    rw [hs.form.modesD] at hM
    unfold stackModes
    rw [List.getElem?_map, hk, ← Except.ok.inj hM]
    rfl
  have k0 : c.stack[0]? = some r0 := (pyGet_nat c.stack 0 r0).mp hr0
  have kN := SameMedia.pyGet_last hrN
  have m0 := hmd hf 0 r0 M0 k0 hM0
  have m0' := hmd hf' 0 r0 M0' (by rw [hst]; exact k0) hM0'
  have mN := hmd hf _ rN MN kN hMN
  have mN' := hmd hf' _ rN MN' (by rw [hst]; exact kN) hMN'
  dsimp only
  rw [h.flux]
  constructor
  · -- reflection
    congr 2
    obtain ⟨e1, e2, e3⟩ := ss.head M0 M0' m0 m0'
    obtain ⟨w1, w2, -⟩ := ss.wave 0 M0 M0' m0 m0'
    have hq := st.q m0
    have hq' := st'.q m0'
    have eA : ∀ v, ((M0'.Q * M0'.phi * diagonal fun k => 1 / ((c'.omega : ℂ) * M0'.q k)) *ᵥ (g.U *ᵥ v)) =
        g.U *ᵥ ((M0.Q * M0.phi * diagonal fun k => 1 / ((c.omega : ℂ) * M0.q k)) *ᵥ v) := by
      intro v
      rw [e1, e2, Matrix.mul_one, Matrix.mul_one, mulVec_mulVec, mulVec_mulVec]
      congr 1
      have eD : (diagonal fun k => 1 / ((c'.omega : ℂ) * M0'.q k)) * g.U =
          (g.s : ℂ) ^ 2 • (g.U * diagonal fun k => 1 / ((c.omega : ℂ) * M0.q k)) := by
        ext a b
        rw [diagonal_mul, Matrix.smul_apply, mul_diagonal, smul_eq_mul]
        by_cases hu : g.U a b = 0
        · simp [hu]
        have := e3 b a hu
        have e4 : M0.q b = (g.s : ℂ) * M0'.q a := this
        have := hq' a
        rw [e4, omC]
        field_simp
      have w1' : M0'.Q * g.U = ((g.s : ℂ) ^ 2)⁻¹ • (g.U * M0.Q) := w1
      rw [Matrix.mul_assoc, eD, Matrix.mul_smul, ← Matrix.mul_assoc, w1', Matrix.smul_mul, smul_smul, Matrix.mul_assoc]
      rw [mul_inv_cancel₀ (pow_ne_zero 2 hs0), one_smul]
    have eb : S'.s21 *ᵥ c'.a0 = g.U *ᵥ (S.s21 *ᵥ c.a0) := by
      rw [← a2, ← b2, ← d4 0 (by omega), d2]
      rfl
    rw [flux_back hf0, flux_back hf0', eb, h.a0, eA, eA, e1, e2, one_mulVec, one_mulVec, one_mulVec, one_mulVec]
    unfold dotOrder
    rw [g.U_dot, g.U_dot, g.U_dot]
  · -- transmission
    congr 1
    have t := d3 _ MN MN' mN mN' 0
    rw [d4 _ (by omega), mul_zero] at t
    rw [flux_forward hfN, flux_forward hfN', orderFlux_tan hom, orderFlux_tan hom']
    have ea : amp (c.stack.length - 1) = (S.s11 *ᵥ c.a0, 0) := by
      refine Prod.ext ?_ ?_
      · rw [← hlen]; exact a3
      · rw [← hlen]; exact a1.2.2
    have eb : amp' (c.stack.length - 1) = (S'.s11 *ᵥ c'.a0, 0) := by
      refine Prod.ext ?_ ?_
      · rw [← hlen']; exact b3
      · rw [← hlen']; exact b1.2.2
    rw [ea, eb] at t
    dsimp only at t
    have tE : ∀ j, tanE MN' (S'.s11 *ᵥ c'.a0) 0 0 j / c'.omega =
        (g.U *ᵥ fun k => tanE MN (S.s11 *ᵥ c.a0) 0 0 k / c.omega) j := by
      intro j
      have e5 : (fun k => tanE MN (S.s11 *ᵥ c.a0) 0 0 k / (c.omega : ℂ)) =
          (c.omega : ℂ)⁻¹ • tanE MN (S.s11 *ᵥ c.a0) 0 0 := by
        funext k
        rw [Pi.smul_apply, smul_eq_mul]
        ring
      have t1 : tanE MN' (S'.s11 *ᵥ c'.a0) 0 0 = (g.s : ℂ)⁻¹ • g.U *ᵥ tanE MN (S.s11 *ᵥ c.a0) 0 0 := t.1
      rw [t1, e5, mulVec_smul, Pi.smul_apply, Pi.smul_apply, smul_eq_mul, smul_eq_mul, omC]
      field_simp
    have tH : tanH MN' (S'.s11 *ᵥ c'.a0) 0 0 = g.U *ᵥ tanH MN (S.s11 *ᵥ c.a0) 0 0 := t.2
    rw [tE, tE, tH, g.U_dot]

/-- The fields of one order in the new components. -/
structure OrderMap.Turned {n n' : ℕ} (g : OrderMap n n') (F : FieldF n) (F' : FieldF n') : Prop where
  hx : ∀ i, F'.hx (g.σ i) = g.p i * (g.x * F.hx i - g.d * g.y * F.hy i)
  hy : ∀ i, F'.hy (g.σ i) = g.p i * (g.y * F.hx i + g.d * g.x * F.hy i)
  hz : ∀ i, F'.hz (g.σ i) = g.p i * (g.d * F.hz i)
  ex : ∀ i, F'.ex (g.σ i) = g.p i * (g.d * g.x * F.ex i - g.y * F.ey i)
  ey : ∀ i, F'.ey (g.σ i) = g.p i * (g.d * g.y * F.ex i + g.x * F.ey i)
  ez : ∀ i, F'.ez (g.σ i) = g.p i * F.ez i

/-- The fields agree. -/
theorem SimilarMedia.fields {g : OrderMap c.nh c'.nh} (h : SimilarMedia g E E' mats mats') (hom : c.omega ≠ 0)
    (hf : ∀ r ∈ c.stack, LayerFix E c mats A r) (hf' : ∀ r ∈ c'.stack, LayerFix E' c' mats' A' r)
    {r : ℕ} {i : ℤ} {ab ab'} (hr : pyGet c.stack i = .ok r) (hv : AmpV c mats A (.ok ()) i ab)
    (hv' : AmpV c' mats' A' (.ok ()) i ab')
    {M M'} (hM : modesOf (mats r) (A r) = .ok M) (hM' : modesOf (mats' r) (A' r) = .ok M') {z F F'}
    (hF : FieldSpec c (mats r) (A r) M ab.1 ab.2 z F)
    (hF' : FieldSpec c' (mats' r) (A' r) M' ab'.1 ab'.2 (g.s * z) F') : g.Turned F F' := by
  have hst := h.stack
  have hs0 := g.ne
  have hom' : c'.omega ≠ 0 := by
    intro h0
    apply hom
    rw [h.omega, h0, mul_zero]
  have omC : (c.omega : ℂ) = g.s * c'.omega := by rw [h.omega]; push_cast; rfl
  have omN : (c.omega : ℂ) ≠ 0 := by exact_mod_cast hom
  have omN' : (c'.omega : ℂ) ≠ 0 := by exact_mod_cast hom'
  have ss := h.similar hf hf' (steps_of_ampV hf hv) (steps_of_ampV hf' hv')
  obtain ⟨k, u1, amp, v1, v2, v3⟩ := ampV_solution hf hv
  obtain ⟨k', u1', amp', v1', v2', v3'⟩ := ampV_solution hf' hv'
  rw [hst] at u1'
  obtain rfl := Option.some.inj (u1.symm.trans u1')
  obtain ⟨amp2, d1, d2, d3⟩ := ss.transfer v1
  have hk : c.stack[k]? = some r := by
    unfold pyGet at hr
    rw [u1] at hr
    dsimp only at hr
    rcases hc : c.stack[k]? with _ | s
    · rw [hc] at hr; simp at hr
    · rw [hc] at hr; exact congrArg some (Except.ok.inj hr)
  have hkl := (List.getElem?_eq_some_iff.mp hk).1
  have hrm := List.mem_of_getElem? hk
  have hmd : ∀ {b : Static} {F : Ext} {m2 : ℕ → LayerSpec} {B : ℕ → LayerAttr b.nh}
      (_ : ∀ r ∈ b.stack, LayerFix F b m2 B r) (M), b.stack[k]? = some r → modesOf (m2 r) (B r) = .ok M →
      (stackModes b m2 B)[k]? = some M := by
    intro b F m2 B hfx M hk hM
    rw [(hfx r (List.mem_of_getElem? hk)).form.modesD] at hM
    unfold stackModes
    rw [List.getElem?_map, hk, ← Except.ok.inj hM]
    rfl
  have t := d3 k M M' (hmd hf M hk hM) (hmd hf' M' (by rw [hst]; exact hk) hM') z
  rw [v3' amp2 (by rw [h.a0]; exact d1) k (by rw [hst]; exact hkl), v2, v2'] at t
  have tE : tanE M' ab'.1 ab'.2 (g.s * z) = (g.s : ℂ)⁻¹ • g.U *ᵥ tanE M ab.1 ab.2 z := t.1
  have tH : tanH M' ab'.1 ab'.2 (g.s * z) = g.U *ᵥ tanH M ab.1 ab.2 z := t.2
  obtain ⟨P, e, m1, m2⟩ := solved_medium (stack := c.stack) h.mu h.eigc h.placed hf k r hk
  obtain ⟨P', e', m1', m2'⟩ := solved_medium (stack := c.stack) h.mu' h.eigc' h.placed' (hst ▸ hf') k r hk
  obtain ⟨hP, he⟩ := h.med r hrm P e P' e' m1 m1'
  have x1 : ∀ i, F'.hx (g.σ i) = g.p i * (g.x * F.hx i - g.d * g.y * F.hy i) := by
    intro i
    rw [hF'.hx, tH, g.U_inl, hF.hx, hF.hy]
  have x2 : ∀ i, F'.hy (g.σ i) = g.p i * (g.y * F.hx i + g.d * g.x * F.hy i) := by
    intro i
    rw [hF'.hy, tH, g.U_inr, hF.hx, hF.hy]
  have x3 : ∀ i, F'.ex (g.σ i) = g.p i * (g.d * g.x * F.ex i - g.y * F.ey i) := by
    intro i
    rw [hF'.ex, tE, Pi.smul_apply, g.U_inr, hF.ex, hF.ey, omC, smul_eq_mul]
    field_simp
    ring
  have x4 : ∀ i, F'.ey (g.σ i) = g.p i * (g.d * g.y * F.ex i + g.x * F.ey i) := by
    intro i
    rw [hF'.ey, tE, Pi.smul_apply, g.U_inl, hF.ex, hF.ey, omC, smul_eq_mul]
    field_simp
    ring
  have hdC := g.hdC
  have hxyC := g.hxyC
  refine ⟨x1, x2, fun i => ?_, x3, x4, fun i => ?_⟩
  · rw [hF'.hz, hF.hz, x3, x4, h.waves.eqx, h.waves.eqy, omC]
    generalize (g.d : ℂ) = d at hdC ⊢
    generalize (g.x : ℂ) = x at hxyC ⊢
    generalize (g.y : ℂ) = y at hxyC ⊢
    field_simp
    linear_combination g.p i * (c.kx i * F.ey i - c.ky i * F.ex i) * d * hxyC
  · have n1 := m2.normal _ _ hF.ez
    have n2 := m2'.normal _ _ hF'.ez
    have key : F'.ez = g.D *ᵥ F.ez := by
      refine mulVec_inj m2'.det ?_
      rw [n2, mulVec_mulVec, he, ← mulVec_mulVec, n1]
      funext j'
      obtain ⟨j, rfl⟩ := g.σ.surjective j'
      rw [g.D_mulVec, x1, x2, h.waves.eqx, h.waves.eqy, omC]
      generalize (g.d : ℂ) = d at hdC ⊢
      generalize (g.x : ℂ) = x at hxyC ⊢
      generalize (g.y : ℂ) = y at hxyC ⊢
      field_simp
      linear_combination g.p j * (c.ky j * F.hx j - d ^ 2 * c.kx j * F.hy j) * hxyC - g.p j * c.kx j * F.hy j * hdC
    rw [key, g.D_mulVec]

end Nannos
