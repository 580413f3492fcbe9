import Verif.Proofs.EnergyStack

/-! Stacks whose layers have the same media have the same fields (C19, C58). -/

namespace Nannos

open Matrix Spec

section
variable {m : Type} [Fintype m] [DecidableEq m]

/-- Every field of the layer `L'` is a field of the layer `L`. -/
def Covers (L L' : Modes m) : Prop := ∀ a' b', ∃ a b, ∀ z, tanE L a b z = tanE L' a' b' z ∧
  tanH L a b z = tanH L' a' b' z

/-- Every field of `L'` without backward wave is one of `L`. -/
def CoversOut (L L' : Modes m) : Prop := ∀ a', ∃ a, ∀ z, tanE L a 0 z = tanE L' a' 0 z ∧
  tanH L a 0 z = tanH L' a' 0 z

/-- Factor of mode `j` in the magnetic field. -/
noncomputable def modeH (L : Modes m) (a b : m → ℂ) (z : ℝ) : m → ℂ := fun j =>
  a j * Complex.exp (Complex.I * L.q j * z) + b j * Complex.exp (Complex.I * L.q j * ((L.z - z : ℝ) : ℂ))

/-- Factor of mode `j` in the electric field. -/
noncomputable def modeE (L : Modes m) (a b : m → ℂ) (z : ℝ) : m → ℂ := fun j =>
  (a j * Complex.exp (Complex.I * L.q j * z) - b j * Complex.exp (Complex.I * L.q j * ((L.z - z : ℝ) : ℂ))) / L.q j

theorem tanH_mode (L : Modes m) (a b : m → ℂ) (z : ℝ) : tanH L a b z = L.phi *ᵥ modeH L a b z := by
  funext i
  simp only [tanH, mulVec, dotProduct, modeH]

theorem tanE_mode (L : Modes m) (a b : m → ℂ) (z : ℝ) : tanE L a b z = L.Q *ᵥ (L.phi *ᵥ modeE L a b z) := by
  funext i
  rw [mulVec_mulVec]
  simp only [tanE, mulVec, dotProduct, modeE, mul_apply]
  refine Finset.sum_congr rfl fun j _ => ?_
  ring

/-- Two eigenbases of the same matrix. -/
structure SameWave (W : Matrix m m ℂ) (L L' : Modes m) : Prop where
  det : L.phi.det ≠ 0
  Q : L.Q = L'.Q
  eig : W * L.phi = L.phi * diagonal fun k => L.q k ^ 2
  eig' : W * L'.phi = L'.phi * diagonal fun k => L'.q k ^ 2
  q : ∀ k, L.q k ≠ 0
  q' : ∀ k, L'.q k ≠ 0
  z : L.z = L'.z

theorem SameWave.change {W : Matrix m m ℂ} {L L' : Modes m} (h : SameWave W L L') :
    ∃ G : Matrix m m ℂ, L'.phi = L.phi * G ∧ ∀ i j, G i j ≠ 0 → L'.q j = L.q i ∨ L'.q j = -L.q i := by
  have hU := det_unit h.det
  refine ⟨L.phi⁻¹ * L'.phi, by rw [← Matrix.mul_assoc, mul_nonsing_inv _ hU, Matrix.one_mul], ?_⟩
  set G := L.phi⁻¹ * L'.phi with hG
  have h1 : (diagonal fun k => L.q k ^ 2) * G = G * diagonal fun k => L'.q k ^ 2 := by
    have e1 : L'.phi = L.phi * G := by rw [hG, ← Matrix.mul_assoc, mul_nonsing_inv _ hU, Matrix.one_mul]
    have e2 : L.phi * ((diagonal fun k => L.q k ^ 2) * G) = L.phi * (G * diagonal fun k => L'.q k ^ 2) := by
      rw [← Matrix.mul_assoc, ← h.eig, Matrix.mul_assoc, ← e1, h.eig', e1, Matrix.mul_assoc]
    have e3 := congrArg (L.phi⁻¹ * ·) e2
    simpa [← Matrix.mul_assoc, nonsing_inv_mul _ hU] using e3
  intro i j hij
  have h2 := congrFun (congrFun h1 i) j
  rw [diagonal_mul, mul_diagonal] at h2
  have h3 : L'.q j ^ 2 = L.q i ^ 2 := by
    have : G i j * (L'.q j ^ 2) = G i j * (L.q i ^ 2) := by rw [← h2]; ring
    exact mul_left_cancel₀ hij this
  exact sq_eq_sq_iff_eq_or_eq_neg.mp h3

theorem SameWave.covers {W : Matrix m m ℂ} {L L' : Modes m} (h : SameWave W L L') : Covers L L' := by
  obtain ⟨G, hG, hq⟩ := h.change
  intro a' b'
  classical
  let e : m → ℂ := fun i => Complex.exp (-(Complex.I * L.q i * (L.z : ℂ)))
  refine ⟨fun i => ∑ j, G i j * (if L'.q j = L.q i then a' j else e i * b' j),
    fun i => ∑ j, G i j * (if L'.q j = L.q i then b' j else e i * a' j), fun z => ?_⟩
  have ex : ∀ i, e i * Complex.exp (Complex.I * L.q i * z) =
      Complex.exp (Complex.I * (-L.q i) * ((L.z - z : ℝ) : ℂ)) := by
    intro i
    rw [← Complex.exp_add]
    congr 1
    push_cast
    ring
  have ex' : ∀ i, e i * Complex.exp (Complex.I * L.q i * ((L.z - z : ℝ) : ℂ)) =
      Complex.exp (Complex.I * (-L.q i) * z) := by
    intro i
    rw [← Complex.exp_add]
    congr 1
    push_cast
    ring
  constructor
  · rw [tanE_mode, tanE_mode, hG, ← h.Q, ← mulVec_mulVec]
    congr 2
    funext i
    simp only [modeE, mulVec, dotProduct, Finset.sum_mul, ← Finset.sum_sub_distrib, Finset.sum_div]
    refine Finset.sum_congr rfl fun j _ => ?_
    by_cases h0 : G i j = 0
    · simp [h0]
    rcases hq i j h0 with h1 | h1
    · rw [if_pos h1, if_pos h1, h1, ← h.z]; ring
    · have hne : L'.q j ≠ L.q i := by
        intro h2
        have h3 : L.q i = -L.q i := h2.symm.trans h1
        have : L.q i = 0 := by linear_combination h3 / 2
        exact h.q i this
      rw [if_neg hne, if_neg hne, h1, ← h.z]
      have := h.q i
      rw [← ex i, ← ex' i]
      field_simp
      ring
  · rw [tanH_mode, tanH_mode, hG, ← mulVec_mulVec]
    congr 1
    funext i
    simp only [modeH, mulVec, dotProduct, Finset.sum_mul, ← Finset.sum_add_distrib]
    refine Finset.sum_congr rfl fun j _ => ?_
    by_cases h0 : G i j = 0
    · simp [h0]
    rcases hq i j h0 with h1 | h1
    · rw [if_pos h1, if_pos h1, h1, ← h.z]; ring
    · have hne : L'.q j ≠ L.q i := by
        intro h2
        have h3 : L.q i = -L.q i := h2.symm.trans h1
        have : L.q i = 0 := by linear_combination h3 / 2
        exact h.q i this
      rw [if_neg hne, if_neg hne, h1, ← h.z]
      rw [← ex i, ← ex' i]
      ring

theorem SameWave.coversOut {W : Matrix m m ℂ} {L L' : Modes m} (h : SameWave W L L')
    (hs : ∀ i j, L.q i ^ 2 = L'.q j ^ 2 → L.q i = L'.q j) : CoversOut L L' := by
  obtain ⟨G, hG, hq⟩ := h.change
  intro a'
  refine ⟨G *ᵥ a', fun z => ?_⟩
  have key : ∀ i j, G i j ≠ 0 → L'.q j = L.q i := by
    intro i j h0
    refine (hs i j ?_).symm
    rcases hq i j h0 with h1 | h1 <;> rw [h1] <;> ring
  constructor
  · rw [tanE_mode, tanE_mode, hG, ← h.Q, ← mulVec_mulVec]
    congr 2
    funext i
    simp only [modeE, mulVec, dotProduct, Finset.sum_mul, Pi.zero_apply, zero_mul, sub_zero, Finset.sum_div]
    refine Finset.sum_congr rfl fun j _ => ?_
    by_cases h0 : G i j = 0
    · simp [h0]
    rw [key i j h0]; ring
  · rw [tanH_mode, tanH_mode, hG, ← mulVec_mulVec]
    congr 1
    funext i
    simp only [modeH, mulVec, dotProduct, Finset.sum_mul, Pi.zero_apply, zero_mul, add_zero]
    refine Finset.sum_congr rfl fun j _ => ?_
    by_cases h0 : G i j = 0
    · simp [h0]
    rw [key i j h0]; ring

/-- The eigenvectors of all layers but the last are independent if the scattering matrix exists. -/
theorem phi_det_left {L L' : Modes m} {S S' : SMat m} (h : stepS S L L' = .ok S') : L.phi.det ≠ 0 := by
  obtain ⟨I, -, hI, -⟩ := stepS_ok h
  obtain ⟨-, -, hM, -⟩ := (buildI_ok _ _ _).mp hI
  intro h0
  obtain ⟨v, hv, hv0⟩ := Matrix.exists_mulVec_eq_zero_iff.mpr h0
  refine hM (Matrix.exists_mulVec_eq_zero_iff.mp ⟨Sum.elim v v, ?_, ?_⟩)
  · intro hz
    apply hv
    funext i
    exact congrFun hz (.inl i)
  · unfold Modes.M
    rw [fromBlocks_mulVec]
    simp [hv0, neg_mulVec]

/-- Linearly dependent eigenvectors are dependent for one eigenvalue. -/
theorem eig_dependent {W φ : Matrix m m ℂ} {w : m → ℂ} (hW : W * φ = φ * diagonal w) {v : m → ℂ} (hv : v ≠ 0)
    (h0 : φ *ᵥ v = 0) : ∃ u : m → ℂ, u ≠ 0 ∧ φ *ᵥ u = 0 ∧ ∃ l, ∀ j, u j ≠ 0 → w j = l := by
  classical
  obtain ⟨j0, hj0⟩ := Function.ne_iff.mp hv
  have key : ∀ s : Finset ℂ, φ *ᵥ (fun j => (∏ μ ∈ s, (w j - μ)) * v j) = 0 := by
    intro s
    induction s using Finset.induction_on with
    | empty => simpa using h0
    | insert μ s hμ ih =>
      set x := fun j => (∏ μ ∈ s, (w j - μ)) * v j with hx
      have e : (fun j => (∏ ν ∈ insert μ s, (w j - ν)) * v j) = diagonal w *ᵥ x - μ • x := by
        funext j
        rw [Finset.prod_insert hμ, Pi.sub_apply, mulVec_diagonal, Pi.smul_apply, smul_eq_mul, hx]
        ring
      rw [e, mulVec_sub, mulVec_mulVec, ← hW, ← mulVec_mulVec, mulVec_smul, ih]
      simp
  refine ⟨_, ?_, key ((Finset.univ.image w).erase (w j0)), w j0, ?_⟩
  · refine Function.ne_iff.mpr ⟨j0, mul_ne_zero (Finset.prod_ne_zero_iff.mpr fun μ hμ => ?_) hj0⟩
    exact sub_ne_zero.mpr (Finset.ne_of_mem_erase hμ).symm
  · intro j hj
    by_contra hne
    refine left_ne_zero_of_mul hj (Finset.prod_eq_zero (i := w j) ?_ (sub_self _))
    exact Finset.mem_erase.mpr ⟨hne, Finset.mem_image_of_mem _ (Finset.mem_univ j)⟩

/-- So are those of the last layer. -/
theorem phi_det_right {L L' : Modes m} {S S' : SMat m} (h : stepS S L L' = .ok S') {W : Matrix m m ℂ}
    (hW : W * L'.phi = L'.phi * diagonal fun k => L'.q k ^ 2)
    (hs : ∀ i j, L'.q i ^ 2 = L'.q j ^ 2 → L'.q i = L'.q j) : L'.phi.det ≠ 0 := by
  obtain ⟨I, A, hI, hA, hd, -⟩ := stepS_ok h
  obtain ⟨-, hq, hM, hI'⟩ := (buildI_ok _ _ _).mp hI
  intro h0
  obtain ⟨v, hv, hv0⟩ := Matrix.exists_mulVec_eq_zero_iff.mpr h0
  obtain ⟨u, hu, hu0, l, hl⟩ := eig_dependent hW hv hv0
  obtain ⟨j0, hj0⟩ := Function.ne_iff.mp hu
  have hA0 : L'.amat *ᵥ u = 0 := by
    have e : L'.amat *ᵥ u = (1 / L'.q j0) • (L'.Q *ᵥ (L'.phi *ᵥ u)) := by
      rw [mulVec_mulVec]
      funext i
      simp only [mulVec, dotProduct, amat_apply, Pi.smul_apply, smul_eq_mul, Finset.mul_sum]
      refine Finset.sum_congr rfl fun j _ => ?_
      by_cases hj : u j = 0
      · simp [hj]
      · have : L'.q j = L'.q j0 := hs j j0 ((hl j hj).trans (hl j0 hj0).symm)
        rw [this, mul_apply]
        ring
    rw [e, hu0]
    simp
  have hMu : L'.M *ᵥ Sum.elim u 0 = 0 := by
    unfold Modes.M
    rw [fromBlocks_mulVec]
    simp [hA0, hu0]
  have hIu : I *ᵥ Sum.elim u 0 = 0 := by rw [hI', ← mulVec_mulVec, hMu, mulVec_zero]
  rw [← fromBlocks_toBlocks I, fromBlocks_mulVec] at hIu
  simp only [Sum.elim_comp_inl, Sum.elim_comp_inr, mulVec_zero, add_zero] at hIu
  have h1 : I.toBlocks₁₁ *ᵥ u = 0 := funext fun i => congrFun hIu (.inl i)
  have h2 : I.toBlocks₂₁ *ᵥ u = 0 := funext fun i => congrFun hIu (.inr i)
  refine hd (Matrix.exists_mulVec_eq_zero_iff.mp ⟨u, hu, ?_⟩)
  rw [hA, sub_mulVec, ← mulVec_mulVec, h1, h2]
  simp

/-- All the interfaces of the stack can be processed. -/
def Steps (layers : List (Modes m)) : Prop := 2 ≤ layers.length ∧ ∀ (k : ℕ) L L', layers[k]? = some L →
  layers[k + 1]? = some L' → ∃ S S', stepS S L L' = .ok S'

theorem loopS_steps {layers : List (Modes m)} {i : ℕ} : ∀ {j : ℕ} {S : SMat m}, i ≤ j →
    loopS layers (i : ℕ) (j : ℤ) = .ok S → ∀ (k : ℕ) L L', i ≤ k → k < j → layers[k]? = some L →
      layers[k + 1]? = some L' → ∃ S S', stepS S L L' = .ok S' := by
  intro j
  induction j with
  | zero => intro S _ _ k L L' _ h; omega
  | succ j ih =>
    intro S hij h k L L' h1 h2 h3 h4
    have hij' : i ≤ j := by omega
    obtain ⟨S1, L1, L2, e1, e2, e3, e4⟩ := loopS_succ_ok hij' h
    rcases Nat.lt_or_ge k j with hlt | hge
    · exact ih hij' e1 k L L' h1 hlt h3 h4
    · obtain rfl : k = j := by omega
      rw [h3] at e2
      rw [h4] at e3
      cases e2
      cases e3
      exact ⟨_, _, e4⟩

theorem Steps.q {layers : List (Modes m)} (h : Steps layers) {k : ℕ} {L : Modes m} (hL : layers[k]? = some L) :
    ∀ i, L.q i ≠ 0 := by
  have hk := (List.getElem?_eq_some_iff.mp hL).1
  rcases Nat.lt_or_ge (k + 1) layers.length with h1 | h1
  · obtain ⟨S, S', hs⟩ := h.2 k L _ hL (List.getElem?_eq_getElem h1)
    obtain ⟨I, -, hI, -⟩ := stepS_ok hs
    exact ((buildI_ok _ _ _).mp hI).1
  · obtain ⟨j, rfl⟩ : ∃ j, k = j + 1 := ⟨k - 1, by have := h.1; omega⟩
    obtain ⟨S, S', hs⟩ := h.2 j _ L (List.getElem?_eq_getElem (by omega)) hL
    obtain ⟨I, -, hI, -⟩ := stepS_ok hs
    exact ((buildI_ok _ _ _).mp hI).2.1

/-- Two stacks of layers with the same media. -/
structure SameStack (layers layers' : List (Modes m)) : Prop where
  len : layers.length = layers'.length
  steps : Steps layers
  steps' : Steps layers'
  head : layers[0]? = layers'[0]?
  wave : ∀ (k : ℕ) L L', layers[k]? = some L → layers'[k]? = some L' →
    L.Q = L'.Q ∧ L.z = L'.z ∧ ∃ W, W * L.phi = L.phi * (diagonal fun k => L.q k ^ 2) ∧
      W * L'.phi = L'.phi * diagonal fun k => L'.q k ^ 2
  last : ∀ L L', layers[layers.length - 1]? = some L → layers'[layers.length - 1]? = some L' →
    (∀ i j, L.q i ^ 2 = L.q j ^ 2 → L.q i = L.q j) ∧ ∀ i j, L.q i ^ 2 = L'.q j ^ 2 → L.q i = L'.q j

/-- The solution of one of them gives one of the other, with the same fields. -/
theorem SameStack.transfer {layers layers' : List (Modes m)} (h : SameStack layers layers') {a0 : m → ℂ}
    {amp' : ℕ → (m → ℂ) × (m → ℂ)} (hs : StackSolution layers' a0 amp') :
    ∃ amp, StackSolution layers a0 amp ∧ amp 0 = amp' 0 ∧ ∀ (k : ℕ) L L', layers[k]? = some L →
      layers'[k]? = some L' → ∀ z, tanE L (amp k).1 (amp k).2 z = tanE L' (amp' k).1 (amp' k).2 z ∧
        tanH L (amp k).1 (amp k).2 z = tanH L' (amp' k).1 (amp' k).2 z := by
  have hlen := h.len
  have h2 := h.steps.1
  obtain ⟨hcons, ha0, hbN⟩ := hs
  have key : ∀ k : ℕ, ∃ ab : (m → ℂ) × (m → ℂ), (k = 0 → ab = amp' 0) ∧ (k = layers.length - 1 → ab.2 = 0) ∧
      ∀ L L', layers[k]? = some L → layers'[k]? = some L' → ∀ z,
        tanE L ab.1 ab.2 z = tanE L' (amp' k).1 (amp' k).2 z ∧
        tanH L ab.1 ab.2 z = tanH L' (amp' k).1 (amp' k).2 z := by
    intro k
    rcases Nat.eq_zero_or_pos k with rfl | hk
    · refine ⟨amp' 0, fun _ => rfl, fun h0 => by omega, fun L L' hL hL' z => ?_⟩
      rw [h.head, hL'] at hL
      cases hL
      exact ⟨rfl, rfl⟩
    rcases Nat.lt_or_ge k layers.length with hlt | hge
    · obtain ⟨L, hL⟩ : ∃ L, layers[k]? = some L := ⟨_, List.getElem?_eq_getElem hlt⟩
      obtain ⟨L', hL'⟩ : ∃ L', layers'[k]? = some L' := ⟨_, List.getElem?_eq_getElem (hlen ▸ hlt)⟩
      obtain ⟨w1, w2, W, w3, w4⟩ := h.wave k L L' hL hL'
      by_cases hN : k = layers.length - 1
      · obtain ⟨l1, l2⟩ := h.last L L' (hN ▸ hL) (hN ▸ hL')
        have hdet : L.phi.det ≠ 0 := by
          obtain ⟨j, rfl⟩ : ∃ j, k = j + 1 := ⟨k - 1, by omega⟩
          obtain ⟨S, S', hs⟩ := h.steps.2 j _ L (List.getElem?_eq_getElem (by omega)) hL
          exact phi_det_right hs w3 l1
        obtain ⟨a, ha⟩ := SameWave.coversOut ⟨hdet, w1, w3, w4, h.steps.q hL, h.steps'.q hL', w2⟩ l2 (amp' k).1
        refine ⟨(a, 0), fun h0 => by omega, fun _ => rfl, fun M M' hM hM' z => ?_⟩
        rw [hL] at hM
        rw [hL'] at hM'
        cases hM
        cases hM'
        have hb : (amp' k).2 = 0 := by rw [hN, hlen]; exact hbN
        rw [hb]
        exact ha z
      · have hdet : L.phi.det ≠ 0 := by
          obtain ⟨S, S', hs⟩ := h.steps.2 k L _ hL (List.getElem?_eq_getElem (by omega))
          exact phi_det_left hs
        obtain ⟨a, b, hab⟩ := SameWave.covers ⟨hdet, w1, w3, w4, h.steps.q hL, h.steps'.q hL', w2⟩
          (amp' k).1 (amp' k).2
        refine ⟨(a, b), fun h0 => by omega, fun h0 => absurd h0 hN, fun M M' hM hM' z => ?_⟩
        rw [hL] at hM
        rw [hL'] at hM'
        cases hM
        cases hM'
        exact hab z
    · refine ⟨0, fun h0 => by omega, fun h0 => by omega, fun L L' hL => ?_⟩
      rw [List.getElem?_eq_none hge] at hL
      simp at hL
  choose amp h0 hN hF using key
  refine ⟨amp, ⟨?_, ?_, ?_⟩, h0 0 rfl, hF⟩
  · intro k L M _ hk hL hM
    obtain ⟨L', hL'⟩ : ∃ L', layers'[k]? = some L' := ⟨_, List.getElem?_eq_getElem (by omega)⟩
    obtain ⟨M', hM'⟩ : ∃ M', layers'[k + 1]? = some M' := ⟨_, List.getElem?_eq_getElem (by omega)⟩
    have hz : L.z = L'.z := (h.wave k L L' hL hL').2.1
    obtain ⟨m1, m2⟩ := hcons k L' M' (Nat.zero_le _) (by omega) hL' hM'
    constructor
    · rw [(hF k L L' hL hL' L.z).1, (hF (k + 1) M M' hM hM' 0).1, hz, m1]
    · rw [(hF k L L' hL hL' L.z).2, (hF (k + 1) M M' hM hM' 0).2, hz, m2]
  · rw [h0 0 rfl, ha0]
  · exact hN _ rfl

end

end Nannos
