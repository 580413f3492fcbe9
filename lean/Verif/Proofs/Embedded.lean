import Verif.Proofs.SimilarSim

/-! Stacks whose fields are contained in those of stacks with more components (C81, C82). -/

namespace Nannos

open Matrix Spec

section
variable {m m' : Type} [Fintype m] [DecidableEq m] [Fintype m'] [DecidableEq m']

/-- A layer whose waves are, through `U`, waves of another layer. -/
structure Within (U : Matrix m' m ℂ) (L : Modes m) (L' : Modes m') : Prop where
  Q : L'.Q * U = U * L.Q
  z : L'.z = L.z
  wave : ∃ W W', W' * U = U * W ∧ W * L.phi = L.phi * (diagonal fun k => L.q k ^ 2) ∧
    W' * L'.phi = L'.phi * diagonal fun k => L'.q k ^ 2

theorem Within.change {U : Matrix m' m ℂ} {L : Modes m} {L' : Modes m'} (h : Within U L L') (hdet : L'.phi.det ≠ 0) :
    ∃ G : Matrix m' m ℂ, U * L.phi = L'.phi * G ∧ ∀ i j, G i j ≠ 0 → L.q j ^ 2 = L'.q i ^ 2 := by
  have hU := det_unit hdet
  obtain ⟨W, W', h1, h2, h3⟩ := h.wave
  refine ⟨L'.phi⁻¹ * (U * L.phi), by rw [← Matrix.mul_assoc, mul_nonsing_inv _ hU, Matrix.one_mul], ?_⟩
  set G := L'.phi⁻¹ * (U * L.phi) with hG
  have e1 : U * L.phi = L'.phi * G := by rw [hG, ← Matrix.mul_assoc, mul_nonsing_inv _ hU, Matrix.one_mul]
  have k1 : (diagonal fun k => L'.q k ^ 2) * G = G * diagonal fun k => L.q k ^ 2 := by
    have e2 : L'.phi * ((diagonal fun k => L'.q k ^ 2) * G) = L'.phi * (G * diagonal fun k => L.q k ^ 2) := by
      rw [← Matrix.mul_assoc, ← h3, Matrix.mul_assoc, ← e1, ← Matrix.mul_assoc, h1, Matrix.mul_assoc, h2, ← Matrix.mul_assoc, e1,
        Matrix.mul_assoc]
    have e3 := congrArg (L'.phi⁻¹ * ·) e2
    simpa [← Matrix.mul_assoc, nonsing_inv_mul _ hU] using e3
  intro i j hij
  have h2 := congrFun (congrFun k1 i) j
  rw [diagonal_mul, mul_diagonal] at h2
  exact mul_left_cancel₀ hij (by rw [← h2]; ring)

theorem Within.covers {U : Matrix m' m ℂ} {L : Modes m} {L' : Modes m'} (h : Within U L L') (hdet : L'.phi.det ≠ 0)
    (hq' : ∀ k, L'.q k ≠ 0) (a b : m → ℂ) : ∃ a' b', ∀ z, tanE L' a' b' z = U *ᵥ tanE L a b z ∧
      tanH L' a' b' z = U *ᵥ tanH L a b z := by
  obtain ⟨G, hG, hG2⟩ := h.change hdet
  have hq : ∀ i j, G i j ≠ 0 → L.q j = L'.q i ∨ L.q j = -L'.q i := fun i j h0 =>
    sq_eq_sq_iff_eq_or_eq_neg.mp (hG2 i j h0)
  classical
  let e : m' → ℂ := fun i => Complex.exp (-(Complex.I * L'.q i * (L'.z : ℂ)))
  refine ⟨fun i => ∑ j, G i j * (if L.q j = L'.q i then a j else e i * b j),
    fun i => ∑ j, G i j * (if L.q j = L'.q i then b j else e i * a j), fun z => ?_⟩
  have ex : ∀ i, e i * Complex.exp (Complex.I * L'.q i * z) =
      Complex.exp (Complex.I * (-L'.q i) * ((L'.z - z : ℝ) : ℂ)) := by
    intro i
    rw [← Complex.exp_add]
    congr 1
    push_cast
    ring
  have ex' : ∀ i, e i * Complex.exp (Complex.I * L'.q i * ((L'.z - z : ℝ) : ℂ)) =
      Complex.exp (Complex.I * (-L'.q i) * z) := by
    intro i
    rw [← Complex.exp_add]
    congr 1
    push_cast
    ring
  have hz := h.z
  have hne : ∀ i j, L.q j = -L'.q i → L.q j ≠ L'.q i := by
    intro i j h1 h2
    have h3 : L'.q i = -L'.q i := h2.symm.trans h1
    exact hq' i (by linear_combination h3 / 2)
  constructor
  · rw [tanE_mode, tanE_mode, mulVec_mulVec _ U, ← h.Q, ← mulVec_mulVec, mulVec_mulVec _ U, hG, ← mulVec_mulVec]
    congr 2
    funext i
    simp only [modeE, mulVec, dotProduct, Finset.sum_mul, ← Finset.sum_sub_distrib, Finset.sum_div]
    refine Finset.sum_congr rfl fun j _ => ?_
    by_cases h0 : G i j = 0
    · simp [h0]
    rcases hq i j h0 with h1 | h1
    · rw [if_pos h1, if_pos h1, h1, ← hz]; ring
    · rw [if_neg (hne i j h1), if_neg (hne i j h1), h1, ← hz]
      have := hq' i
      rw [← ex i, ← ex' i]
      field_simp
      ring
  · rw [tanH_mode, tanH_mode, mulVec_mulVec, hG, ← mulVec_mulVec]
    congr 1
    funext i
    simp only [modeH, mulVec, dotProduct, Finset.sum_mul, ← Finset.sum_add_distrib]
    refine Finset.sum_congr rfl fun j _ => ?_
    by_cases h0 : G i j = 0
    · simp [h0]
    rcases hq i j h0 with h1 | h1
    · rw [if_pos h1, if_pos h1, h1, ← hz]; ring
    · rw [if_neg (hne i j h1), if_neg (hne i j h1), h1, ← hz]
      rw [← ex i, ← ex' i]
      ring

theorem Within.coversOut {U : Matrix m' m ℂ} {L : Modes m} {L' : Modes m'} (h : Within U L L') (hdet : L'.phi.det ≠ 0)
    (hs : ∀ i j, L.q i ^ 2 = L'.q j ^ 2 → L.q i = L'.q j) (a : m → ℂ) : ∃ a', ∀ z, tanE L' a' 0 z = U *ᵥ tanE L a 0 z ∧
      tanH L' a' 0 z = U *ᵥ tanH L a 0 z := by
  obtain ⟨G, hG, hG2⟩ := h.change hdet
  refine ⟨G *ᵥ a, fun z => ?_⟩
  have key : ∀ i j, G i j ≠ 0 → L.q j = L'.q i := fun i j h0 => hs j i (hG2 i j h0)
  constructor
  · rw [tanE_mode, tanE_mode, mulVec_mulVec _ U, ← h.Q, ← mulVec_mulVec, mulVec_mulVec _ U, hG, ← mulVec_mulVec]
    congr 2
    funext i
    simp only [modeE, mulVec, dotProduct, Finset.sum_mul, Pi.zero_apply, zero_mul, sub_zero, Finset.sum_div]
    refine Finset.sum_congr rfl fun j _ => ?_
    by_cases h0 : G i j = 0
    · simp [h0]
    rw [key i j h0]; ring
  · rw [tanH_mode, tanH_mode, mulVec_mulVec, hG, ← mulVec_mulVec]
    congr 1
    funext i
    simp only [modeH, mulVec, dotProduct, Finset.sum_mul, Pi.zero_apply, zero_mul, add_zero]
    refine Finset.sum_congr rfl fun j _ => ?_
    by_cases h0 : G i j = 0
    · simp [h0]
    rw [key i j h0]; ring

/-- In the first layer, of which the modes are the orders. -/
theorem Within.head {U : Matrix m' m ℂ} {L : Modes m} {L' : Modes m'} (h : Within U L L') (h1 : L.phi = 1) (h1' : L'.phi = 1)
    (hq : ∀ i i', U i' i ≠ 0 → L.q i = L'.q i') (a b : m → ℂ) (z : ℝ) :
    tanE L' (U *ᵥ a) (U *ᵥ b) z = U *ᵥ tanE L a b z ∧ tanH L' (U *ᵥ a) (U *ᵥ b) z = U *ᵥ tanH L a b z := by
  have eE : modeE L' (U *ᵥ a) (U *ᵥ b) z = U *ᵥ modeE L a b z := by
    funext i'
    simp only [modeE, mulVec, dotProduct, Finset.sum_mul, ← Finset.sum_sub_distrib, Finset.sum_div, h.z]
    refine Finset.sum_congr rfl fun i _ => ?_
    by_cases hu : U i' i = 0
    · simp [hu]
    rw [hq i i' hu]
    ring
  have eH : modeH L' (U *ᵥ a) (U *ᵥ b) z = U *ᵥ modeH L a b z := by
    funext i'
    simp only [modeH, mulVec, dotProduct, Finset.sum_mul, ← Finset.sum_add_distrib, h.z]
    refine Finset.sum_congr rfl fun i _ => ?_
    by_cases hu : U i' i = 0
    · simp [hu]
    rw [hq i i' hu]
    ring
  rw [tanE_mode, tanE_mode, tanH_mode, tanH_mode, h1, h1', one_mulVec, one_mulVec, one_mulVec, one_mulVec, eE, eH]
  exact ⟨by rw [mulVec_mulVec, h.Q, ← mulVec_mulVec], rfl⟩

/-- Two such stacks. -/
structure StackWithin (U : Matrix m' m ℂ) (layers : List (Modes m)) (layers' : List (Modes m')) : Prop where
  len : layers.length = layers'.length
  steps : Steps layers
  steps' : Steps layers'
  head : ∀ L L', layers[0]? = some L → layers'[0]? = some L' → L.phi = 1 ∧ L'.phi = 1 ∧
    ∀ i i', U i' i ≠ 0 → L.q i = L'.q i'
  wave : ∀ (k : ℕ) L L', layers[k]? = some L → layers'[k]? = some L' → Within U L L'
  last : ∀ L L', layers[layers.length - 1]? = some L → layers'[layers.length - 1]? = some L' →
    (∀ i j, L'.q i ^ 2 = L'.q j ^ 2 → L'.q i = L'.q j) ∧ ∀ i j, L.q i ^ 2 = L'.q j ^ 2 → L.q i = L'.q j

/-- A solution of the first gives one of the second. -/
theorem StackWithin.transfer {U : Matrix m' m ℂ} {layers : List (Modes m)} {layers' : List (Modes m')}
    (h : StackWithin U layers layers') {a0 : m → ℂ} {amp : ℕ → (m → ℂ) × (m → ℂ)}
    (hs : StackSolution layers a0 amp) :
    ∃ amp', StackSolution layers' (U *ᵥ a0) amp' ∧ amp' 0 = (U *ᵥ (amp 0).1, U *ᵥ (amp 0).2) ∧
      ∀ (k : ℕ) L L', layers[k]? = some L → layers'[k]? = some L' → ∀ z,
        tanE L' (amp' k).1 (amp' k).2 z = U *ᵥ tanE L (amp k).1 (amp k).2 z ∧
        tanH L' (amp' k).1 (amp' k).2 z = U *ᵥ tanH L (amp k).1 (amp k).2 z := by
  have hlen := h.len
  have h2 := h.steps.1
  obtain ⟨hcons, ha0, hbN⟩ := hs
  have key : ∀ k : ℕ, ∃ ab : (m' → ℂ) × (m' → ℂ), (k = 0 → ab = (U *ᵥ (amp 0).1, U *ᵥ (amp 0).2)) ∧
      (k = layers.length - 1 → ab.2 = 0) ∧
      ∀ L L', layers[k]? = some L → layers'[k]? = some L' → ∀ z,
        tanE L' ab.1 ab.2 z = U *ᵥ tanE L (amp k).1 (amp k).2 z ∧
        tanH L' ab.1 ab.2 z = U *ᵥ tanH L (amp k).1 (amp k).2 z := by
    intro k
    rcases Nat.eq_zero_or_pos k with rfl | hk
    · refine ⟨_, fun _ => rfl, fun h0 => by omega, fun L L' hL hL' z => ?_⟩
      obtain ⟨e1, e2, e3⟩ := h.head L L' hL hL'
      exact (h.wave 0 L L' hL hL').head e1 e2 e3 _ _ z
    rcases Nat.lt_or_ge k layers.length with hlt | hge
    · obtain ⟨L, hL⟩ : ∃ L, layers[k]? = some L := ⟨_, List.getElem?_eq_getElem hlt⟩
      obtain ⟨L', hL'⟩ : ∃ L', layers'[k]? = some L' := ⟨_, List.getElem?_eq_getElem (hlen ▸ hlt)⟩
      have w := h.wave k L L' hL hL'
      by_cases hN : k = layers.length - 1
      · obtain ⟨l1, l2⟩ := h.last L L' (hN ▸ hL) (hN ▸ hL')
        have hdet : L'.phi.det ≠ 0 := by
          obtain ⟨j, rfl⟩ : ∃ j, k = j + 1 := ⟨k - 1, by omega⟩
          obtain ⟨S, S', hs⟩ := h.steps'.2 j _ L' (List.getElem?_eq_getElem (by omega)) hL'
          obtain ⟨W, W', -, -, w5⟩ := w.wave
          exact phi_det_right hs w5 l1
        obtain ⟨a, ha⟩ := w.coversOut hdet l2 (amp k).1
        refine ⟨(a, 0), fun h0 => by omega, fun _ => rfl, fun M M' hM hM' z => ?_⟩
        rw [hL] at hM
        rw [hL'] at hM'
        cases hM
        cases hM'
        have hb : (amp k).2 = 0 := by rw [hN]; exact hbN
        rw [hb]
        exact ha z
      · have hdet : L'.phi.det ≠ 0 := by
          obtain ⟨S, S', hs⟩ := h.steps'.2 k L' _ hL' (List.getElem?_eq_getElem (by omega))
          exact phi_det_left hs
        obtain ⟨a, b, hab⟩ := w.covers hdet (h.steps'.q hL') (amp k).1 (amp k).2
        refine ⟨(a, b), fun h0 => by omega, fun h0 => absurd h0 hN, fun M M' hM hM' z => ?_⟩
        rw [hL] at hM
        rw [hL'] at hM'
        cases hM
        cases hM'
        exact hab z
    · refine ⟨0, fun h0 => by omega, fun h0 => by omega, fun L L' hL => ?_⟩
      rw [List.getElem?_eq_none hge] at hL
      simp at hL
  choose amp' h0 hN hF using key
  refine ⟨amp', ⟨?_, ?_, ?_⟩, h0 0 rfl, hF⟩
  · intro k L' M' _ hk hL' hM'
    obtain ⟨L, hL⟩ : ∃ L, layers[k]? = some L := ⟨_, List.getElem?_eq_getElem (by omega)⟩
    obtain ⟨M, hM⟩ : ∃ M, layers[k + 1]? = some M := ⟨_, List.getElem?_eq_getElem (by omega)⟩
    have hz : L'.z = L.z := (h.wave k L L' hL hL').z
    obtain ⟨m1, m2⟩ := hcons k L M (Nat.zero_le _) (by omega) hL hM
    obtain ⟨f1, f2⟩ := hF k L L' hL hL' L.z
    obtain ⟨f3, f4⟩ := hF (k + 1) M M' hM hM' 0
    constructor
    · rw [hz, f1, f3, m1]
    · rw [hz, f2, f4, m2]
  · rw [h0 0 rfl, ha0]
  · rw [← hlen]; exact hN _ rfl

end

end Nannos
