import Verif.Proofs.GaugeSim
import Mathlib.Analysis.Normed.Algebra.MatrixExponential

/-! Propagation of the fields through a stack without the modes of the inner layers (C89). -/

namespace Nannos

open Matrix Spec

section
variable {m : Type} [Fintype m] [DecidableEq m]

section exponential
variable {n : Type} [Fintype n] [DecidableEq n]

attribute [local instance] Matrix.linftyOpNormedRing Matrix.linftyOpNormedAlgebra

theorem exp_mulVec_eig {A : Matrix n n ℂ} {u : n → ℂ} {l : ℂ} (h : A *ᵥ u = l • u) :
    NormedSpace.exp A *ᵥ u = Complex.exp l • u := by
  have hp : ∀ k : ℕ, A ^ k *ᵥ u = l ^ k • u := by
    intro k
    induction k with
    | zero => simp
    | succ k ih => rw [pow_succ, ← mulVec_mulVec, h, mulVec_smul, ih, smul_smul, pow_succ]; ring_nf
  have h1 := NormedSpace.exp_series_hasSum_exp' (𝕂 := ℂ) A
  let T : Matrix n n ℂ →ₗ[ℂ] (n → ℂ) := 
    { toFun := fun M => M *ᵥ u
      map_add' := fun _ _ => add_mulVec _ _ _
      map_smul' := fun _ _ => smul_mulVec _ _ _ }
  have h2 := h1.mapL (LinearMap.toContinuousLinearMap T)
  have h3 := NormedSpace.exp_series_hasSum_exp' (𝕂 := ℂ) l
  have h4 : HasSum (fun k : ℕ => ((k.factorial : ℂ)⁻¹ • l ^ k) • u) (NormedSpace.exp l • u) := h3.smul_const u
  have h5 : (fun k : ℕ => ((k.factorial : ℂ)⁻¹ • l ^ k) • u) =
      fun k => LinearMap.toContinuousLinearMap T ((k.factorial : ℂ)⁻¹ • A ^ k) := by
    funext k
    show _ = ((k.factorial : ℂ)⁻¹ • A ^ k) *ᵥ u
    rw [smul_mulVec, hp, smul_assoc]
  rw [h5] at h4
  rw [Complex.exp_eq_exp_ℂ]
  exact h2.unique h4

end exponential

/-- The matrix `G` in `d/dz (E, H) = i G (E, H)`. -/
def gen (Q B : Matrix m m ℂ) : Matrix (m ⊕ m) (m ⊕ m) ℂ := fromBlocks 0 Q B 0

/-- Both tangential fields at depth `z`. -/
noncomputable def fieldVec (L : Modes m) (a b : m → ℂ) (z : ℝ) : m ⊕ m → ℂ := Sum.elim (tanE L a b z) (tanH L a b z)

/-- Propagation over the distance `z`. -/
noncomputable def propag (Q B : Matrix m m ℂ) (z : ℝ) : Matrix (m ⊕ m) (m ⊕ m) ℂ :=
  NormedSpace.exp ((Complex.I * (z : ℂ)) • gen Q B)

theorem fieldVec_propag {L : Modes m} {B : Matrix m m ℂ} (hq : ∀ k, L.q k ≠ 0)
    (hB : B * L.Q * L.phi = L.phi * diagonal fun k => L.q k ^ 2) (a b : m → ℂ) (z : ℝ) :
    fieldVec L a b z = propag L.Q B z *ᵥ fieldVec L a b 0 := by
  let u : m → m ⊕ m → ℂ := fun j => Sum.elim (fun i => (L.Q * L.phi) i j / L.q j) (fun i => L.phi i j)
  let v : m → m ⊕ m → ℂ := fun j => Sum.elim (fun i => -((L.Q * L.phi) i j / L.q j)) (fun i => L.phi i j)
  have hQ : ∀ j, L.Q *ᵥ (fun i => L.phi i j) = fun i => (L.Q * L.phi) i j := fun j => rfl
  have hBQ : ∀ j, B *ᵥ (fun i => (L.Q * L.phi) i j) = fun i => L.phi i j * L.q j ^ 2 := by
    intro j
    funext i
    have := congrFun (congrFun hB i) j
    rw [Matrix.mul_assoc, mul_diagonal] at this
    exact this
  have hu : ∀ j, gen L.Q B *ᵥ u j = L.q j • u j := by
    intro j
    unfold gen
    rw [fromBlocks_mulVec]
    funext i
    rcases i with i | i
    · simp only [u, Sum.elim_comp_inl, Sum.elim_comp_inr, Sum.elim_inl, zero_mulVec, zero_add, hQ, Pi.smul_apply,
        smul_eq_mul]
      field_simp [hq j]
    · have e : (fun i => (L.Q * L.phi) i j / L.q j) = (1 / L.q j) • fun i => (L.Q * L.phi) i j := by
        funext i; simp only [Pi.smul_apply, smul_eq_mul]; ring
      simp only [u, Sum.elim_comp_inl, Sum.elim_comp_inr, Sum.elim_inr, zero_mulVec, add_zero, e, mulVec_smul, hBQ,
        Pi.smul_apply, smul_eq_mul]
      field_simp [hq j]
  have hv : ∀ j, gen L.Q B *ᵥ v j = (-L.q j) • v j := by
    intro j
    unfold gen
    rw [fromBlocks_mulVec]
    funext i
    rcases i with i | i
    · simp only [v, Sum.elim_comp_inl, Sum.elim_comp_inr, Sum.elim_inl, zero_mulVec, zero_add, hQ, Pi.smul_apply,
        smul_eq_mul]
      field_simp [hq j]
    · have e : (fun i => -((L.Q * L.phi) i j / L.q j)) = (-(1 / L.q j)) • fun i => (L.Q * L.phi) i j := by
        funext i; simp only [Pi.smul_apply, smul_eq_mul]; ring
      simp only [v, Sum.elim_comp_inl, Sum.elim_comp_inr, Sum.elim_inr, zero_mulVec, add_zero, e, mulVec_smul, hBQ,
        Pi.smul_apply, smul_eq_mul]
      field_simp [hq j]
  have hF : ∀ z : ℝ, fieldVec L a b z = ∑ j, ((a j * Complex.exp (Complex.I * L.q j * z)) • u j +
      (b j * Complex.exp (Complex.I * L.q j * ((L.z - z : ℝ) : ℂ))) • v j) := by
    intro z
    funext i
    rw [Finset.sum_apply]
    rcases i with i | i
    · simp only [fieldVec, Sum.elim_inl, tanE, u, v, Pi.add_apply, Pi.smul_apply, smul_eq_mul, mul_apply]
      refine Finset.sum_congr rfl fun j _ => ?_
      ring
    · simp only [fieldVec, Sum.elim_inr, tanH, u, v, Pi.add_apply, Pi.smul_apply, smul_eq_mul]
      refine Finset.sum_congr rfl fun j _ => ?_
      ring
  rw [hF z, hF 0, mulVec_sum]
  refine Finset.sum_congr rfl fun j _ => ?_
  unfold propag
  have e1 := exp_mulVec_eig (A := (Complex.I * (z : ℂ)) • gen L.Q B) (u := u j) (l := Complex.I * z * L.q j)
    (by rw [smul_mulVec, hu, smul_smul])
  have e2 := exp_mulVec_eig (A := (Complex.I * (z : ℂ)) • gen L.Q B) (u := v j) (l := Complex.I * z * -L.q j)
    (by rw [smul_mulVec, hv, smul_smul])
  rw [mulVec_add, mulVec_smul, mulVec_smul, e1, e2, smul_smul, smul_smul, mul_assoc (a j), mul_assoc (b j),
    ← Complex.exp_add, ← Complex.exp_add]
  congr 4
  · push_cast; ring
  · push_cast; ring

/-- Propagation through the layers `0, …, k-1`. -/
noncomputable def through (Q B : ℕ → Matrix m m ℂ) (z : ℕ → ℝ) : ℕ → Matrix (m ⊕ m) (m ⊕ m) ℂ
  | 0 => 1
  | k + 1 => propag (Q k) (B k) (z k) * through Q B z k

theorem fieldVec_top (L : Modes m) (a b : m → ℂ) : fieldVec L a b 0 = L.M *ᵥ Sum.elim a (L.f *ᵥ b) := by
  unfold fieldVec Modes.M
  rw [tanE_top, tanH_top, fromBlocks_mulVec]
  simp only [Sum.elim_comp_inl, Sum.elim_comp_inr, mulVec_add, neg_mulVec, sub_eq_add_neg, mulVec_neg]

/-- The operators `Q`, `B` and the thicknesses of the layers of a stack. -/
def Ladder (layers : List (Modes m)) (Q B : ℕ → Matrix m m ℂ) (z : ℕ → ℝ) : Prop :=
  ∀ (k : ℕ) L, layers[k]? = some L → L.Q = Q k ∧ L.z = z k ∧
    B k * L.Q * L.phi = L.phi * diagonal fun j => L.q j ^ 2

theorem Ladder.at {layers : List (Modes m)} {Q B : ℕ → Matrix m m ℂ} {z : ℕ → ℝ} (h : Ladder layers Q B z)
    (hs : Steps layers) {k : ℕ} {L : Modes m} (hL : layers[k]? = some L) (a b : m → ℂ) (t : ℝ) :
    fieldVec L a b t = propag (Q k) (B k) t *ᵥ fieldVec L a b 0 := by
  obtain ⟨h1, h2, h3⟩ := h k L hL
  rw [← h1]
  exact fieldVec_propag (hs.q hL) h3 a b t

/-- The fields at the top of layer `k`. -/
theorem Ladder.fields {layers : List (Modes m)} {Q B : ℕ → Matrix m m ℂ} {z : ℕ → ℝ} (h : Ladder layers Q B z)
    (hs : Steps layers) {amp : ℕ → (m → ℂ) × (m → ℂ)} (hc : Consistent layers 0 (layers.length - 1) amp) {L0 : Modes m}
    (h0 : layers[0]? = some L0) : ∀ (k : ℕ) L, layers[k]? = some L →
      fieldVec L (amp k).1 (amp k).2 0 = through Q B z k *ᵥ fieldVec L0 (amp 0).1 (amp 0).2 0 := by
  intro k
  induction k with
  | zero =>
    intro L hL
    rw [h0] at hL
    cases hL
    rw [through, one_mulVec]
  | succ k ih =>
    intro L hL
    have hk := (List.getElem?_eq_some_iff.mp hL).1
    obtain ⟨L', hL'⟩ : ∃ L', layers[k]? = some L' := ⟨_, List.getElem?_eq_getElem (by omega)⟩
    obtain ⟨m1, m2⟩ := hc k L' L (Nat.zero_le _) (by omega) hL' hL
    have e : fieldVec L (amp (k + 1)).1 (amp (k + 1)).2 0 = fieldVec L' (amp k).1 (amp k).2 L'.z := by
      unfold fieldVec
      rw [m1, m2]
    rw [e, h.at hs hL', ih L' hL', through, mulVec_mulVec, (h k L' hL').2.1]

/-- The linear system for the outgoing amplitudes `(b, a)` of the two ends. -/
noncomputable def sysMat (T : Matrix (m ⊕ m) (m ⊕ m) ℂ) (L0 LN : Modes m) : Matrix (m ⊕ m) (m ⊕ m) ℂ :=
  T * L0.M * fromBlocks 0 0 L0.f 0 - LN.M * fromBlocks 0 1 0 0

theorem sysMat_mulVec (T : Matrix (m ⊕ m) (m ⊕ m) ℂ) (L0 LN : Modes m) (b a : m → ℂ) :
    sysMat T L0 LN *ᵥ Sum.elim b a = T *ᵥ fieldVec L0 0 b 0 - fieldVec LN a 0 0 := by
  unfold sysMat
  rw [sub_mulVec, ← mulVec_mulVec, ← mulVec_mulVec, ← mulVec_mulVec, fromBlocks_mulVec, fromBlocks_mulVec, fieldVec_top,
    fieldVec_top]
  simp

theorem fieldVec_add (L : Modes m) (a b a' b' : m → ℂ) :
    fieldVec L (a + a') (b + b') 0 = fieldVec L a b 0 + fieldVec L a' b' 0 := by
  rw [fieldVec_top, fieldVec_top, fieldVec_top, ← mulVec_add, mulVec_add, ← Sum.elim_add_add]

theorem sys_solution {layers : List (Modes m)} {Q B : ℕ → Matrix m m ℂ} {z : ℕ → ℝ} (h : Ladder layers Q B z)
    (hs : Steps layers) {a0 : m → ℂ} {amp : ℕ → (m → ℂ) × (m → ℂ)} (hc : StackSolution layers a0 amp) {L0 LN : Modes m}
    (h0 : layers[0]? = some L0) (hN : layers[layers.length - 1]? = some LN) :
    sysMat (through Q B z (layers.length - 1)) L0 LN *ᵥ Sum.elim (amp 0).2 (amp (layers.length - 1)).1 =
      -(through Q B z (layers.length - 1) *ᵥ (L0.M *ᵥ Sum.elim a0 0)) := by
  have h1 := h.fields hs hc.1 h0 _ LN hN
  rw [hc.2.1, hc.2.2] at h1
  have h2 : fieldVec L0 a0 (amp 0).2 0 = fieldVec L0 a0 0 0 + fieldVec L0 0 (amp 0).2 0 := by
    rw [← fieldVec_add, add_zero, zero_add]
  have h3 : fieldVec L0 a0 0 0 = L0.M *ᵥ Sum.elim a0 0 := by rw [fieldVec_top, mulVec_zero]
  rw [sysMat_mulVec, h1, h2, mulVec_add, h3]
  abel

theorem sys_det {layers : List (Modes m)} {Q B : ℕ → Matrix m m ℂ} {z : ℕ → ℝ} (h : Ladder layers Q B z)
    (hs : Steps layers) {L0 LN : Modes m} (h0 : layers[0]? = some L0) (hN : layers[layers.length - 1]? = some LN)
    (hu : ∀ amp : ℕ → (m → ℂ) × (m → ℂ), StackSolution layers 0 amp → (amp 0).2 = 0 ∧ (amp (layers.length - 1)).1 = 0) :
    (sysMat (through Q B z (layers.length - 1)) L0 LN).det ≠ 0 := by
  have h2 := hs.1
  intro hd
  obtain ⟨v, hv, hv0⟩ := Matrix.exists_mulVec_eq_zero_iff.mpr hd
  obtain ⟨b, a, rfl⟩ : ∃ b a : m → ℂ, v = Sum.elim b a := ⟨v ∘ Sum.inl, v ∘ Sum.inr, (Sum.elim_comp_inl_inr v).symm⟩
  rw [sysMat_mulVec, sub_eq_zero] at hv0
  have key : ∀ k : ℕ, ∃ ab : (m → ℂ) × (m → ℂ), (k = 0 → ab = (0, b)) ∧ (k = layers.length - 1 → ab = (a, 0)) ∧
      ∀ L, layers[k]? = some L → fieldVec L ab.1 ab.2 0 = through Q B z k *ᵥ fieldVec L0 0 b 0 := by
    intro k
    rcases Nat.eq_zero_or_pos k with rfl | hk
    · refine ⟨(0, b), fun _ => rfl, fun hc => by omega, fun L hL => ?_⟩
      rw [h0] at hL
      cases hL
      rw [through, one_mulVec]
    by_cases hkN : k = layers.length - 1
    · refine ⟨(a, 0), fun hc => by omega, fun _ => rfl, fun L hL => ?_⟩
      rw [hkN, hN] at hL
      cases hL
      rw [hkN, hv0]
    rcases Nat.lt_or_ge k layers.length with hlt | hge
    · obtain ⟨L, hL⟩ : ∃ L, layers[k]? = some L := ⟨_, List.getElem?_eq_getElem hlt⟩
      obtain ⟨S, S', hst⟩ := hs.2 k L _ hL (List.getElem?_eq_getElem (by omega))
      obtain ⟨I, -, hI, -⟩ := stepS_ok hst
      have hM := ((buildI_ok _ _ _).mp hI).2.2.1
      let w := L.M⁻¹ *ᵥ (through Q B z k *ᵥ fieldVec L0 0 b 0)
      refine ⟨(fun i => w (.inl i), fun i => Complex.exp (-(Complex.I * L.q i * (L.z : ℂ))) * w (.inr i)),
        fun hc => by omega, fun hc => absurd hc hkN, fun L' hL' => ?_⟩
      rw [hL] at hL'
      cases hL'
      rw [fieldVec_top]
      have e : Sum.elim (fun i => w (.inl i)) (L.f *ᵥ fun i => Complex.exp (-(Complex.I * L.q i * (L.z : ℂ))) * w (.inr i)) =
          w := by
        funext i
        rcases i with i | i
        · rfl
        · simp only [Sum.elim_inr, f_mulVec]
          rw [← mul_assoc, ← Complex.exp_add, add_neg_cancel, Complex.exp_zero, one_mul]
      rw [e, mulVec_mulVec, mul_nonsing_inv _ (det_unit hM), one_mulVec]
    · refine ⟨0, fun hc => by omega, fun hc => by omega, fun L hL => ?_⟩
      rw [List.getElem?_eq_none hge] at hL
      simp at hL
  choose amp k0 kN kF using key
  have hsol : StackSolution layers 0 amp := by
    refine ⟨fun k L L' _ hk hL hL' => ?_, by rw [k0 0 rfl], by rw [kN _ rfl]⟩
    have e1 := h.at hs hL (amp k).1 (amp k).2 L.z
    rw [kF k L hL, mulVec_mulVec, (h k L hL).2.1] at e1
    have e2 := kF (k + 1) L' hL'
    rw [through, ← e1] at e2
    unfold fieldVec at e2
    rw [← (h k L hL).2.1] at e2
    rw [Sum.elim_eq_iff] at e2
    exact ⟨e2.1.symm, e2.2.symm⟩
  obtain ⟨u1, u2⟩ := hu amp hsol
  rw [k0 0 rfl] at u1
  rw [kN _ rfl] at u2
  dsimp only at u1 u2
  apply hv
  rw [u1, u2]
  funext i
  rcases i with i | i <;> rfl

end

end Nannos
