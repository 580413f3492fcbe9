import Verif.Proofs.GaugeSim

/-! Stacks related by a linear change of the field components and of the unit of length (C63-C66). -/

namespace Nannos

open Matrix Spec

section
variable {m m' : Type} [Fintype m] [DecidableEq m] [Fintype m'] [DecidableEq m']

/-- A change of field components, with a change of the unit of length. -/
structure Change (m m' : Type) [Fintype m] [DecidableEq m] [Fintype m'] [DecidableEq m'] where
  U : Matrix m' m ℂ
  V : Matrix m m' ℂ
  UV : U * V = 1
  VU : V * U = 1
  τ : m ≃ m'
  s : ℝ
  pos : 0 < s

namespace Change
variable (g : Change m m')

theorem ne : (g.s : ℂ) ≠ 0 := by exact_mod_cast g.pos.ne'

/-- The modes of a layer in the new components. -/
noncomputable def carry (L : Modes m) : Modes m' where
  q := fun k => L.q (g.τ.symm k) / g.s
  phi := (g.U * L.phi).submatrix id g.τ.symm
  Q := ((g.s : ℂ) ^ 2)⁻¹ • (g.U * L.Q * g.V)
  thickness := L.thickness.map (g.s * ·)

theorem carry_z (L : Modes m) : (g.carry L).z = g.s * L.z := by
  unfold Modes.z carry
  dsimp only
  cases L.thickness <;> simp

theorem submatrix_mulVec' (A : Matrix m' m ℂ) (v : m → ℂ) :
    A.submatrix id g.τ.symm *ᵥ (v ∘ g.τ.symm) = A *ᵥ v := by
  funext i
  simp only [mulVec, dotProduct, submatrix_apply, id, Function.comp]
  exact Equiv.sum_comp g.τ.symm fun j => A i j * v j

theorem modeH_carry (L : Modes m) (a b : m → ℂ) (z : ℝ) :
    modeH (g.carry L) (a ∘ g.τ.symm) (b ∘ g.τ.symm) (g.s * z) = modeH L a b z ∘ g.τ.symm := by
  have h0 := g.ne
  funext k
  simp only [modeH, Function.comp, g.carry_z]
  simp only [carry]
  congr 2
  · congr 1; push_cast; field_simp
  · congr 1; push_cast; field_simp

theorem modeE_carry (L : Modes m) (a b : m → ℂ) (z : ℝ) :
    modeE (g.carry L) (a ∘ g.τ.symm) (b ∘ g.τ.symm) (g.s * z) = (g.s : ℂ) • (modeE L a b z ∘ g.τ.symm) := by
  have h0 := g.ne
  funext k
  have e1 : Complex.I * (L.q (g.τ.symm k) / g.s) * ((g.s * z : ℝ) : ℂ) = Complex.I * L.q (g.τ.symm k) * z := by
    push_cast; field_simp
  have e2 : Complex.I * (L.q (g.τ.symm k) / g.s) * ((g.s * L.z - g.s * z : ℝ) : ℂ) =
      Complex.I * L.q (g.τ.symm k) * ((L.z - z : ℝ) : ℂ) := by
    push_cast; field_simp
  simp only [modeE, Function.comp, g.carry_z, Pi.smul_apply, smul_eq_mul]
  simp only [carry]
  rw [e1, e2, div_div_eq_mul_div]
  ring

theorem tanH_carry (L : Modes m) (a b : m → ℂ) (z : ℝ) :
    tanH (g.carry L) (a ∘ g.τ.symm) (b ∘ g.τ.symm) (g.s * z) = g.U *ᵥ tanH L a b z := by
  rw [tanH_mode, tanH_mode, modeH_carry, mulVec_mulVec]
  exact g.submatrix_mulVec' _ _

theorem tanE_carry (L : Modes m) (a b : m → ℂ) (z : ℝ) :
    tanE (g.carry L) (a ∘ g.τ.symm) (b ∘ g.τ.symm) (g.s * z) = (g.s : ℂ)⁻¹ • g.U *ᵥ tanE L a b z := by
  have h0 := g.ne
  rw [tanE_mode, tanE_mode, modeE_carry, mulVec_smul]
  have : (g.carry L).phi *ᵥ (modeE L a b z ∘ g.τ.symm) = g.U *ᵥ (L.phi *ᵥ modeE L a b z) := by
    rw [mulVec_mulVec]; exact g.submatrix_mulVec' _ _
  rw [this]
  have e : (g.U * L.Q * g.V) * g.U = g.U * L.Q := by rw [Matrix.mul_assoc, g.VU, Matrix.mul_one]
  have e2 : (g.carry L).Q *ᵥ (g.U *ᵥ (L.phi *ᵥ modeE L a b z)) =
      ((g.s : ℂ) ^ 2)⁻¹ • (g.U *ᵥ (L.Q *ᵥ (L.phi *ᵥ modeE L a b z))) := by
    simp only [carry]
    rw [smul_mulVec, mulVec_mulVec _ _ g.U, e, ← mulVec_mulVec]
  rw [mulVec_smul, e2, smul_smul]
  congr 1
  field_simp

end Change

/-- Two stacks related by such a change. -/
structure SimilarStack (g : Change m m') (layers : List (Modes m)) (layers' : List (Modes m')) : Prop where
  len : layers.length = layers'.length
  steps : Steps layers
  steps' : Steps layers'
  head : ∀ L L', layers[0]? = some L → layers'[0]? = some L' → L.phi = 1 ∧ L'.phi = 1 ∧
    ∀ i i', g.U i' i ≠ 0 → L.q i = (g.s : ℂ) * L'.q i'
  wave : ∀ (k : ℕ) L L', layers[k]? = some L → layers'[k]? = some L' →
    L'.Q * g.U = ((g.s : ℂ) ^ 2)⁻¹ • (g.U * L.Q) ∧ L'.z = g.s * L.z ∧
    ∃ W W', W' * g.U = ((g.s : ℂ) ^ 2)⁻¹ • (g.U * W) ∧ W * L.phi = L.phi * (diagonal fun k => L.q k ^ 2) ∧
      W' * L'.phi = L'.phi * diagonal fun k => L'.q k ^ 2
  last : ∀ L L', layers[layers.length - 1]? = some L → layers'[layers.length - 1]? = some L' →
    (∀ i j, L'.q i ^ 2 = L'.q j ^ 2 → L'.q i = L'.q j) ∧
    ∀ i j, L.q i ^ 2 = ((g.s : ℂ) * L'.q j) ^ 2 → L.q i = (g.s : ℂ) * L'.q j

theorem Change.sameWave (g : Change m m') {L : Modes m} {L' : Modes m'} (hdet : L'.phi.det ≠ 0)
    (hQ : L'.Q * g.U = ((g.s : ℂ) ^ 2)⁻¹ • (g.U * L.Q)) (hz : L'.z = g.s * L.z) {W W'}
    (hW : W' * g.U = ((g.s : ℂ) ^ 2)⁻¹ • (g.U * W)) (he : W * L.phi = L.phi * (diagonal fun k => L.q k ^ 2))
    (he' : W' * L'.phi = L'.phi * diagonal fun k => L'.q k ^ 2) (hq : ∀ k, L.q k ≠ 0) (hq' : ∀ k, L'.q k ≠ 0) :
    SameWave W' L' (g.carry L) := by
  have h0 := g.ne
  refine ⟨hdet, ?_, he', ?_, hq', ?_, ?_⟩
  · simp only [Change.carry]
    rw [← Matrix.smul_mul, ← hQ, Matrix.mul_assoc, g.UV, Matrix.mul_one]
  · simp only [Change.carry]
    have e1 : W' * (g.U * L.phi).submatrix id g.τ.symm = (W' * (g.U * L.phi)).submatrix id g.τ.symm := by
      ext i j; simp [mul_apply]
    rw [e1, ← Matrix.mul_assoc, hW, Matrix.smul_mul, Matrix.mul_assoc, he]
    ext i j
    simp only [submatrix_apply, Matrix.smul_apply, smul_eq_mul, id, mul_diagonal]
    rw [← Matrix.mul_assoc, mul_diagonal, div_pow]
    field_simp
  · intro k
    exact div_ne_zero (hq _) h0
  · rw [hz, g.carry_z]

/-- In the first layer, of which the modes are the orders, the change acts on the amplitudes. -/
theorem Change.head_fields (g : Change m m') {L : Modes m} {L' : Modes m'} (h1 : L.phi = 1) (h1' : L'.phi = 1)
    (hq : ∀ i i', g.U i' i ≠ 0 → L.q i = (g.s : ℂ) * L'.q i') (hQ : L'.Q * g.U = ((g.s : ℂ) ^ 2)⁻¹ • (g.U * L.Q))
    (hz : L'.z = g.s * L.z) (a b : m → ℂ) (z : ℝ) :
    tanE L' (g.U *ᵥ a) (g.U *ᵥ b) (g.s * z) = (g.s : ℂ)⁻¹ • g.U *ᵥ tanE L a b z ∧
      tanH L' (g.U *ᵥ a) (g.U *ᵥ b) (g.s * z) = g.U *ᵥ tanH L a b z := by
  have h0 := g.ne
  have eE : modeE L' (g.U *ᵥ a) (g.U *ᵥ b) (g.s * z) = (g.s : ℂ) • g.U *ᵥ modeE L a b z := by
    funext i'
    simp only [modeE, mulVec, dotProduct, Pi.smul_apply, smul_eq_mul, Finset.sum_mul, ← Finset.sum_sub_distrib,
      Finset.sum_div, Finset.mul_sum, hz]
    refine Finset.sum_congr rfl fun i _ => ?_
    by_cases hu : g.U i' i = 0
    · simp [hu]
    rw [hq i i' hu]
    have e1 : Complex.I * L'.q i' * ((g.s * z : ℝ) : ℂ) = Complex.I * (g.s * L'.q i') * z := by push_cast; ring
    have e2 : Complex.I * L'.q i' * ((g.s * L.z - g.s * z : ℝ) : ℂ) =
      Complex.I * (g.s * L'.q i') * ((L.z - z : ℝ) : ℂ) := by push_cast; ring
    rw [e1, e2]
    by_cases hq0 : L'.q i' = 0
    · simp [hq0]
    field_simp
  have eH : modeH L' (g.U *ᵥ a) (g.U *ᵥ b) (g.s * z) = g.U *ᵥ modeH L a b z := by
    funext i'
    simp only [modeH, mulVec, dotProduct, Finset.sum_mul, ← Finset.sum_add_distrib, hz]
    refine Finset.sum_congr rfl fun i _ => ?_
    by_cases hu : g.U i' i = 0
    · simp [hu]
    rw [hq i i' hu]
    have e1 : Complex.I * L'.q i' * ((g.s * z : ℝ) : ℂ) = Complex.I * (g.s * L'.q i') * z := by push_cast; ring
    have e2 : Complex.I * L'.q i' * ((g.s * L.z - g.s * z : ℝ) : ℂ) =
      Complex.I * (g.s * L'.q i') * ((L.z - z : ℝ) : ℂ) := by push_cast; ring
    rw [e1, e2]
    ring
  rw [tanE_mode, tanE_mode, tanH_mode, tanH_mode, h1, h1', one_mulVec, one_mulVec, one_mulVec, one_mulVec, eE, eH]
  refine ⟨?_, rfl⟩
  rw [mulVec_smul, mulVec_mulVec, hQ, smul_mulVec, smul_smul, ← mulVec_mulVec]
  congr 1
  field_simp

/-- A solution of one of the stacks gives one of the other. -/
theorem SimilarStack.transfer {g : Change m m'} {layers : List (Modes m)} {layers' : List (Modes m')}
    (h : SimilarStack g layers layers') {a0 : m → ℂ} {amp : ℕ → (m → ℂ) × (m → ℂ)}
    (hs : StackSolution layers a0 amp) :
    ∃ amp', StackSolution layers' (g.U *ᵥ a0) amp' ∧ amp' 0 = (g.U *ᵥ (amp 0).1, g.U *ᵥ (amp 0).2) ∧
      ∀ (k : ℕ) L L', layers[k]? = some L → layers'[k]? = some L' → ∀ z,
        tanE L' (amp' k).1 (amp' k).2 (g.s * z) = (g.s : ℂ)⁻¹ • g.U *ᵥ tanE L (amp k).1 (amp k).2 z ∧
        tanH L' (amp' k).1 (amp' k).2 (g.s * z) = g.U *ᵥ tanH L (amp k).1 (amp k).2 z := by
  have hlen := h.len
  have h2 := h.steps.1
  have hg0 := g.ne
  obtain ⟨hcons, ha0, hbN⟩ := hs
  have key : ∀ k : ℕ, ∃ ab : (m' → ℂ) × (m' → ℂ), (k = 0 → ab = (g.U *ᵥ (amp 0).1, g.U *ᵥ (amp 0).2)) ∧
      (k = layers.length - 1 → ab.2 = 0) ∧
      ∀ L L', layers[k]? = some L → layers'[k]? = some L' → ∀ z,
        tanE L' ab.1 ab.2 (g.s * z) = (g.s : ℂ)⁻¹ • g.U *ᵥ tanE L (amp k).1 (amp k).2 z ∧
        tanH L' ab.1 ab.2 (g.s * z) = g.U *ᵥ tanH L (amp k).1 (amp k).2 z := by
    intro k
    rcases Nat.eq_zero_or_pos k with rfl | hk
    · refine ⟨_, fun _ => rfl, fun h0 => by omega, fun L L' hL hL' z => ?_⟩
      obtain ⟨e1, e2, e3⟩ := h.head L L' hL hL'
      obtain ⟨w1, w2, -⟩ := h.wave 0 L L' hL hL'
      exact g.head_fields e1 e2 e3 w1 w2 _ _ z
    rcases Nat.lt_or_ge k layers.length with hlt | hge
    · obtain ⟨L, hL⟩ : ∃ L, layers[k]? = some L := ⟨_, List.getElem?_eq_getElem hlt⟩
      obtain ⟨L', hL'⟩ : ∃ L', layers'[k]? = some L' := ⟨_, List.getElem?_eq_getElem (hlen ▸ hlt)⟩
      obtain ⟨w1, w2, W, W', w3, w4, w5⟩ := h.wave k L L' hL hL'
      by_cases hN : k = layers.length - 1
      · obtain ⟨l1, l2⟩ := h.last L L' (hN ▸ hL) (hN ▸ hL')
        have hdet : L'.phi.det ≠ 0 := by
          obtain ⟨j, rfl⟩ : ∃ j, k = j + 1 := ⟨k - 1, by omega⟩
          obtain ⟨S, S', hs⟩ := h.steps'.2 j _ L' (List.getElem?_eq_getElem (by omega)) hL'
          exact phi_det_right hs w5 l1
        have sw := g.sameWave hdet w1 w2 w3 w4 w5 (h.steps.q hL) (h.steps'.q hL')
        obtain ⟨a, ha⟩ := sw.coversOut (by
          intro i j hij
          simp only [Change.carry] at hij ⊢
          rw [l2 (g.τ.symm j) i (by rw [mul_pow, hij]; field_simp)]
          field_simp) ((amp k).1 ∘ g.τ.symm)
        refine ⟨(a, 0), fun h0 => by omega, fun _ => rfl, fun M M' hM hM' z => ?_⟩
        rw [hL] at hM
        rw [hL'] at hM'
        cases hM
        cases hM'
        have hb : (amp k).2 = 0 := by rw [hN]; exact hbN
        rw [hb, ← g.tanE_carry, ← g.tanH_carry]
        exact ha (g.s * z)
      · have hdet : L'.phi.det ≠ 0 := by
          obtain ⟨S, S', hs⟩ := h.steps'.2 k L' _ hL' (List.getElem?_eq_getElem (by omega))
          exact phi_det_left hs
        have sw := g.sameWave hdet w1 w2 w3 w4 w5 (h.steps.q hL) (h.steps'.q hL')
        obtain ⟨a, b, hab⟩ := sw.covers ((amp k).1 ∘ g.τ.symm) ((amp k).2 ∘ g.τ.symm)
        refine ⟨(a, b), fun h0 => by omega, fun h0 => absurd h0 hN, fun M M' hM hM' z => ?_⟩
        rw [hL] at hM
        rw [hL'] at hM'
        cases hM
        cases hM'
        rw [← g.tanE_carry, ← g.tanH_carry]
        exact hab (g.s * z)
    · refine ⟨0, fun h0 => by omega, fun h0 => by omega, fun L L' hL => ?_⟩
      rw [List.getElem?_eq_none hge] at hL
      simp at hL
  choose amp' h0 hN hF using key
  refine ⟨amp', ⟨?_, ?_, ?_⟩, h0 0 rfl, hF⟩
  · intro k L' M' _ hk hL' hM'
    obtain ⟨L, hL⟩ : ∃ L, layers[k]? = some L := ⟨_, List.getElem?_eq_getElem (by omega)⟩
    obtain ⟨M, hM⟩ : ∃ M, layers[k + 1]? = some M := ⟨_, List.getElem?_eq_getElem (by omega)⟩
    have hz : L'.z = g.s * L.z := (h.wave k L L' hL hL').2.1
    obtain ⟨m1, m2⟩ := hcons k L M (Nat.zero_le _) (by omega) hL hM
    obtain ⟨f1, f2⟩ := hF k L L' hL hL' L.z
    obtain ⟨f3, f4⟩ := hF (k + 1) M M' hM hM' 0
    rw [mul_zero] at f3 f4
    constructor
    · rw [hz, f1, f3, m1]
    · rw [hz, f2, f4, m2]
  · rw [h0 0 rfl, ha0]
  · rw [← hlen]; exact hN _ rfl

end

end Nannos
