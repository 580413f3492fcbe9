import Verif.Proofs.SMatrix
import Mathlib.LinearAlgebra.Matrix.ToLinearEquiv

set_option linter.unusedSectionVars false
set_option linter.unusedSimpArgs false

/-! Helper lemmas for C23-C26. -/

namespace Nannos

open Matrix Spec

variable {m : Type} [Fintype m] [DecidableEq m]

theorem mat_pair_ext {A B C D : Matrix m m ℂ}
    (h : ∀ a b : m → ℂ, A *ᵥ a + B *ᵥ b = C *ᵥ a + D *ᵥ b) : A = C ∧ B = D := by
  constructor
  · apply Matrix.mulVec_injective
    funext a
    simpa using h a 0
  · apply Matrix.mulVec_injective
    funext b
    simpa using h 0 b

theorem smat_ext_of_rel {S T : SMat m}
    (h : ∀ a b : m → ℂ, ∃ a' b', S.Rel a b' a' b ∧ T.Rel a b' a' b) : S = T := by
  have h1 := mat_pair_ext (A := S.s11) (B := S.s12) (C := T.s11) (D := T.s12) (by
    intro a b
    obtain ⟨a', b', hS, hT⟩ := h a b
    rw [← hS.1, ← hT.1])
  have h2 := mat_pair_ext (A := S.s21) (B := S.s22) (C := T.s21) (D := T.s22) (by
    intro a b
    obtain ⟨a', b', hS, hT⟩ := h a b
    rw [← hS.2, ← hT.2])
  cases S; cases T
  simp only [SMat.mk.injEq]
  exact ⟨h1.1, h1.2, h2.1, h2.2⟩

theorem loopS_length {layers : List (Modes m)} {i j : ℕ} (hij : i < j) {S : SMat m}
    (h : loopS layers i j = .ok S) : j < layers.length := by
  cases j with
  | zero => omega
  | succ j =>
    obtain ⟨S0, L, L', h1, h2, h3, h4⟩ := loopS_succ_ok (by omega) h
    exact (List.getElem?_eq_some_iff.mp h3).1

theorem loopS_invertible {layers : List (Modes m)} {i : ℕ} :
    ∀ {j : ℕ} (_ : i ≤ j) {S : SMat m} (_ : loopS layers i j = .ok S) {k : ℕ} (_ : i ≤ k) (_ : k < j)
      {L : Modes m} (_ : layers[k]? = some L), L.M.det ≠ 0 ∧ ∀ x, L.q x ≠ 0 := by
  intro j
  induction j with
  | zero => intros; omega
  | succ j ih =>
    intro hij S h k h1 h2 L h3
    obtain ⟨S0, L0, L', e1, e2, e3, e4⟩ := loopS_succ_ok (by omega) h
    rcases Nat.lt_or_ge k j with hk | hk
    · exact ih (by omega) e1 h1 hk h3
    · obtain rfl : k = j := by omega
      rw [e2] at h3; cases h3
      obtain ⟨I, A, hI, -⟩ := stepS_ok e4
      obtain ⟨a, _, b, _⟩ := (buildI_ok _ _ _).mp hI
      exact ⟨b, a⟩

theorem consistent_shift {layers : List (Modes m)} {i i' j : ℕ} (h : i ≤ i')
    {amp : ℕ → (m → ℂ) × (m → ℂ)} (hc : Consistent layers i j amp) : Consistent layers i' j amp :=
  fun k L L' h1 h2 h3 h4 => hc k L L' (le_trans h h1) h2 h3 h4

/-- The interior amplitudes are determined through an invertible matrix. -/
theorem cascade_unit {layers : List (Modes m)} {i j k : ℕ} (hij : i ≤ j) (hjk : j ≤ k)
    {S P T : SMat m} (hS : loopS layers i j = .ok S) (hP : loopS layers j k = .ok P)
    (hT : loopS layers i k = .ok T) : (1 - S.s12 * P.s21).det ≠ 0 := by
  intro hdet
  obtain ⟨v, hv, hv0⟩ := Matrix.exists_mulVec_eq_zero_iff.mpr hdet
  rw [sub_mulVec, one_mulVec, sub_eq_zero, ← mulVec_mulVec] at hv0
  obtain ⟨amp1, c1, a1, b1⟩ := loopS_exists layers i j hij S hS 0 (P.s21 *ᵥ v)
  obtain ⟨amp2, c2, a2, b2⟩ := loopS_exists layers j k hjk P hP v 0
  have r1 := loopS_rel layers i j hij S hS amp1 c1
  have r2 := loopS_rel layers j k hjk P hP amp2 c2
  have e1 : amp1 j = amp2 j := by
    refine Prod.ext ?_ ?_
    · rw [r1.1, a1, b1, a2]; simp [← hv0]
    · rw [b1, r2.2, a2, b2]; simp
  let amp : ℕ → (m → ℂ) × (m → ℂ) := fun l => if l ≤ j then amp1 l else amp2 l
  have hc : Consistent layers i k amp := by
    intro l L L' l1 l2 l3 l4
    simp only [amp]
    rcases Nat.lt_or_ge l j with hl | hl
    · rw [if_pos (by omega), if_pos (by omega)]
      exact c1 l L L' l1 hl l3 l4
    · rw [if_neg (by omega : ¬ l + 1 ≤ j)]
      rcases Nat.eq_or_lt_of_le hl with rfl | hl'
      · rw [if_pos le_rfl, e1]
        exact c2 j L L' le_rfl l2 l3 l4
      · rw [if_neg (by omega)]
        exact c2 l L L' hl l2 l3 l4
  have h0 : Consistent layers i k fun _ => ((0 : m → ℂ), (0 : m → ℂ)) := by
    intro l L L' l1 l2 l3 l4
    rw [match_iff]
    simp only [mulVec_zero]
    have : (Sum.elim (0 : m → ℂ) (0 : m → ℂ)) = 0 := by ext x; cases x <;> rfl
    rw [this, mulVec_zero, mulVec_zero]
  have hamp_j : amp j = amp1 j := by simp [amp]
  have := loopS_unique layers i k (le_trans hij hjk) T hT amp _ hc h0
    (by simp [amp, hij, a1])
    (by
      simp only [amp]
      by_cases hk : k ≤ j
      · obtain rfl : k = j := by omega
        rw [if_pos le_rfl, e1, b2]
      · rw [if_neg hk, b2])
    j hij hjk
  rw [hamp_j, e1] at this
  apply hv
  rw [← a2, this]

theorem cascade_eq {layers : List (Modes m)} {i j k : ℕ} (hij : i ≤ j) (hjk : j ≤ k)
    {S P T : SMat m} (hS : loopS layers i j = .ok S) (hP : loopS layers j k = .ok P)
    (hT : loopS layers i k = .ok T) : T = cascade S P := by
  have hdet := cascade_unit hij hjk hS hP hT
  apply smat_ext_of_rel
  intro a b
  obtain ⟨amp, c, ha, hb⟩ := loopS_exists layers i k (le_trans hij hjk) T hT a b
  have rT := loopS_rel layers i k (le_trans hij hjk) T hT amp c
  have rS := loopS_rel layers i j hij S hS amp (consistent_mono hjk c)
  have rP := loopS_rel layers j k hjk P hP amp (consistent_shift hij c)
  rw [ha, hb] at rT
  rw [ha] at rS
  rw [hb] at rP
  refine ⟨_, _, rT, ?_⟩
  have hX : (amp j).1 = (1 - S.s12 * P.s21)⁻¹ *ᵥ (S.s11 *ᵥ a + (S.s12 * P.s22) *ᵥ b) := by
    apply mulVec_inj hdet
    rw [mulVec_mulVec, mul_nonsing_inv _ (det_unit hdet), one_mulVec, sub_mulVec, one_mulVec]
    have := rS.1
    rw [rP.2] at this
    nth_rewrite 1 [this]
    simp only [mulVec_add, mulVec_mulVec]
    abel
  constructor
  · rw [rP.1, hX]
    simp only [cascade, mulVec_add, add_mulVec, mulVec_mulVec, Matrix.mul_assoc]
    abel
  · rw [rS.2, rP.2, hX]
    simp only [cascade, mulVec_add, add_mulVec, mulVec_mulVec, Matrix.mul_assoc, Matrix.mul_add]
    abel

/-! ### Inserting / splitting a layer: collapsing a longer consistent chain -/

/-- If every consistent assignment of a stack `l'` can be collapsed to a consistent assignment of `l`
with the same boundary amplitudes, the two stacks have the same scattering matrix. -/
theorem smat_eq_of_collapse {l l' : List (Modes m)} {j j' : ℕ} {S S' : SMat m}
    (hS : loopS l ((0 : ℕ) : Int) j = .ok S) (hS' : loopS l' ((0 : ℕ) : Int) j' = .ok S')
    (h : ∀ amp', Consistent l' 0 j' amp' →
      ∃ amp, Consistent l 0 j amp ∧ amp 0 = amp' 0 ∧ amp j = amp' j') : S = S' := by
  apply smat_ext_of_rel
  intro a b
  obtain ⟨amp', c', ha, hb⟩ := loopS_exists l' 0 j' (Nat.zero_le _) S' hS' a b
  obtain ⟨amp, c, e0, ej⟩ := h amp' c'
  have r := loopS_rel l 0 j (Nat.zero_le _) S hS amp c
  have r' := loopS_rel l' 0 j' (Nat.zero_le _) S' hS' amp' c'
  refine ⟨(amp' j').1, (amp' 0).2, ?_, ?_⟩
  · rw [← ha, ← hb, ← e0, ← ej]; exact r
  · rw [← ha, ← hb]; exact r'

theorem match_trans_zero {L Z L' : Modes m} (hz : Z.z = 0) {a b x y a' b' : m → ℂ}
    (h1 : Match L Z a b x y) (h2 : Match Z L' x y a' b') : Match L L' a b a' b' := by
  unfold Match at *
  rw [hz] at h2
  exact ⟨h1.1.trans h2.1, h1.2.trans h2.2⟩

theorem getElem?_insert_lt {α : Type _} (pre post : List α) (z : α) {k : ℕ} (h : k < pre.length) :
    (pre ++ z :: post)[k]? = (pre ++ post)[k]? := by
  rw [List.getElem?_append_left h, List.getElem?_append_left h]

theorem getElem?_insert_eq {α : Type _} (pre post : List α) (z : α) :
    (pre ++ z :: post)[pre.length]? = some z := by simp

theorem getElem?_insert_gt {α : Type _} (pre post : List α) (z : α) {k : ℕ} (h : pre.length ≤ k) :
    (pre ++ z :: post)[k + 1]? = (pre ++ post)[k]? := by
  rw [List.getElem?_append_right (by omega), List.getElem?_append_right h]
  have : k + 1 - pre.length = (k - pre.length) + 1 := by omega
  rw [this, List.getElem?_cons_succ]

theorem insert_zero_collapse {pre post : List (Modes m)} {Z : Modes m} (hz : Z.z = 0)
    (hpre : pre ≠ []) (j : ℕ) (hj : pre.length ≤ j)
    (amp' : ℕ → (m → ℂ) × (m → ℂ)) (hc : Consistent (pre ++ Z :: post) 0 (j + 1) amp') :
    ∃ amp, Consistent (pre ++ post) 0 j amp ∧ amp 0 = amp' 0 ∧ amp j = amp' (j + 1) := by
  have hlen : 0 < pre.length := List.length_pos_iff.mpr hpre
  refine ⟨fun k => if k < pre.length then amp' k else amp' (k + 1), ?_, by simp [hlen], ?_⟩
  · intro k L L' k0 k1 k2 k3
    dsimp only
    by_cases h1 : k + 1 < pre.length
    · rw [if_pos (by omega), if_pos h1]
      exact hc k L L' k0 (by omega) (by rw [getElem?_insert_lt _ _ _ (by omega)]; exact k2)
        (by rw [getElem?_insert_lt _ _ _ h1]; exact k3)
    · rw [if_neg h1]
      by_cases h2 : k < pre.length
      · rw [if_pos h2]
        have hk : k + 1 = pre.length := by omega
        have m1 := hc k L Z k0 (by omega) (by rw [getElem?_insert_lt _ _ _ h2]; exact k2)
          (by rw [hk]; exact getElem?_insert_eq _ _ _)
        have m2 := hc (k + 1) Z L' (by omega) (by omega) (by rw [hk]; exact getElem?_insert_eq _ _ _)
          (by rw [getElem?_insert_gt _ _ _ (by omega)]; exact k3)
        exact match_trans_zero hz m1 m2
      · rw [if_neg h2]
        exact hc (k + 1) L L' (by omega) (by omega)
          (by rw [getElem?_insert_gt _ _ _ (by omega)]; exact k2)
          (by rw [getElem?_insert_gt _ _ _ (by omega)]; exact k3)
  · dsimp only
    rw [if_neg (by omega)]

/-! Splitting. -/

theorem sameModes_M {L L' : Modes m} (h : SameModes L L') : L.M = L'.M := by
  obtain ⟨h1, h2, h3⟩ := h
  unfold Modes.M Modes.amat
  rw [h1, h2, h3]

theorem f_mul_f {L L1 L2 : Modes m} (h1 : L.q = L1.q) (h2 : L.q = L2.q) (hz : L.z = L1.z + L2.z) :
    L.f = L1.f * L2.f := by
  unfold Modes.f
  rw [diagonal_mul_diagonal]
  congr 1
  funext i
  simp only [phasor, ← h1, ← h2, hz]
  rw [← Complex.exp_add]
  congr 1
  push_cast
  ring

/-- Matching between two layers with the same (invertible) modes. -/
theorem match_same {L1 L2 : Modes m} (h : SameModes L1 L2) (hdet : L1.M.det ≠ 0)
    {a b a' b' : m → ℂ} (hm : Match L1 L2 a b a' b') : a' = L1.f *ᵥ a ∧ b = L2.f *ᵥ b' := by
  rw [match_iff, ← sameModes_M h] at hm
  have := mulVec_inj hdet hm
  rw [Sum.elim_eq_iff] at this
  exact ⟨this.1.symm, this.2⟩

theorem split_top {L L1 L2 : Modes m} (h1 : SameModes L L1) (h2 : SameModes L L2)
    (hz : L.z = L1.z + L2.z) (a : m → ℂ) (b : m → ℂ) :
    tanE L a b 0 = tanE L1 a (L2.f *ᵥ b) 0 ∧ tanH L a b 0 = tanH L1 a (L2.f *ᵥ b) 0 := by
  have hf := f_mul_f h1.1 h2.1 hz
  simp only [tanE_top, tanH_top, hf, mulVec_mulVec]
  obtain ⟨e1, e2, e3⟩ := h1
  unfold Modes.amat
  rw [e1, e2, e3]
  exact ⟨rfl, rfl⟩

theorem split_bottom {L L1 L2 : Modes m} (h1 : SameModes L L1) (h2 : SameModes L L2)
    (hz : L.z = L1.z + L2.z) (a : m → ℂ) (b : m → ℂ) :
    tanE L a b L.z = tanE L2 (L1.f *ᵥ a) b L2.z ∧ tanH L a b L.z = tanH L2 (L1.f *ᵥ a) b L2.z := by
  have hf : L.f = L2.f * L1.f := f_mul_f h2.1 h1.1 (by rw [hz]; ring)
  simp only [tanE_bottom, tanH_bottom, hf, mulVec_mulVec]
  obtain ⟨e1, e2, e3⟩ := h2
  unfold Modes.amat
  rw [e1, e2, e3]
  exact ⟨rfl, rfl⟩

theorem split_collapse {pre post : List (Modes m)} {L L1 L2 : Modes m}
    (h1 : SameModes L L1) (h2 : SameModes L L2) (hz : L.z = L1.z + L2.z) (hdet : L1.M.det ≠ 0)
    (hpre : pre ≠ []) (j : ℕ) (hj : pre.length < j)
    (amp' : ℕ → (m → ℂ) × (m → ℂ))
    (hc : Consistent (pre ++ L1 :: L2 :: post) 0 (j + 1) amp') :
    ∃ amp, Consistent (pre ++ L :: post) 0 j amp ∧ amp 0 = amp' 0 ∧ amp j = amp' (j + 1) := by
  have hlen : 0 < pre.length := List.length_pos_iff.mpr hpre
  set p := pre.length with hp
  have g1 : (pre ++ L1 :: L2 :: post)[p]? = some L1 := by simp [hp]
  have g2 : (pre ++ L1 :: L2 :: post)[p + 1]? = some L2 := by
    rw [getElem?_insert_gt _ _ _ (by omega)]; simp [hp]
  have glt : ∀ k, k < p → (pre ++ L1 :: L2 :: post)[k]? = (pre ++ L :: post)[k]? := by
    intro k hk
    rw [List.getElem?_append_left (by omega), List.getElem?_append_left (by omega)]
  have ggt : ∀ k, p < k → (pre ++ L1 :: L2 :: post)[k + 1]? = (pre ++ L :: post)[k]? := by
    intro k hk
    obtain ⟨k', rfl⟩ : ∃ k', k = k' + 1 := ⟨k - 1, by omega⟩
    rw [getElem?_insert_gt _ _ _ (by omega), getElem?_insert_gt _ _ _ (by omega),
      getElem?_insert_gt _ _ _ (by omega)]
  have gp : (pre ++ L :: post)[p]? = some L := by simp [hp]
  have hm12 := hc p L1 L2 (by omega) (by omega) g1 g2
  have hsame : SameModes L1 L2 :=
    ⟨h1.1.symm.trans h2.1, h1.2.1.symm.trans h2.2.1, h1.2.2.symm.trans h2.2.2⟩
  obtain ⟨ea, eb⟩ := match_same hsame hdet hm12
  refine ⟨fun k => if k < p then amp' k
    else if k = p then ((amp' p).1, (amp' (p + 1)).2) else amp' (k + 1), ?_, by simp [hlen], ?_⟩
  · intro k M M' k0 k1 k2 k3
    dsimp only
    by_cases hk : k + 1 < p
    · rw [if_pos (by omega), if_pos hk]
      exact hc k M M' k0 (by omega) (by rw [glt k (by omega)]; exact k2)
        (by rw [glt _ hk]; exact k3)
    · rw [if_neg hk]
      by_cases hk2 : k + 1 = p
      · rw [if_pos (by omega), if_pos hk2]
        rw [hk2, gp] at k3; cases k3
        have mm := hc k M L1 k0 (by omega) (by rw [glt k (by omega)]; exact k2)
          (by rw [hk2]; exact g1)
        rw [hk2] at mm
        obtain ⟨t1, t2⟩ := split_top h1 h2 hz (amp' p).1 (amp' (p + 1)).2
        refine ⟨?_, ?_⟩
        · rw [t1, ← eb]; exact mm.1
        · rw [t2, ← eb]; exact mm.2
      · rw [if_neg hk2, if_neg (by omega : ¬ k < p)]
        by_cases hk3 : k = p
        · subst hk3
          rw [if_pos rfl]
          rw [gp] at k2; cases k2
          have mm := hc (p + 1) L2 M' (by omega) (by omega) g2
            (by rw [ggt (p + 1) (by omega)]; exact k3)
          obtain ⟨t1, t2⟩ := split_bottom h1 h2 hz (amp' p).1 (amp' (p + 1)).2
          refine ⟨?_, ?_⟩
          · dsimp only; rw [t1, ← ea]; exact mm.1
          · dsimp only; rw [t2, ← ea]; exact mm.2
        · rw [if_neg hk3]
          exact hc (k + 1) M M' (by omega) (by omega) (by rw [ggt k (by omega)]; exact k2)
            (by rw [ggt (k + 1) (by omega)]; exact k3)
  · dsimp only
    rw [if_neg (by omega), if_neg (by omega)]

/-! Homogeneous stacks. -/

theorem toBlocks_one : (1 : Matrix (m ⊕ m) (m ⊕ m) ℂ).toBlocks₁₁ = 1 ∧
    (1 : Matrix (m ⊕ m) (m ⊕ m) ℂ).toBlocks₁₂ = 0 ∧ (1 : Matrix (m ⊕ m) (m ⊕ m) ℂ).toBlocks₂₁ = 0 ∧
    (1 : Matrix (m ⊕ m) (m ⊕ m) ℂ).toBlocks₂₂ = 1 := by
  rw [← fromBlocks_one, toBlocks_fromBlocks₁₁, toBlocks_fromBlocks₁₂, toBlocks_fromBlocks₂₁,
    toBlocks_fromBlocks₂₂]
  exact ⟨rfl, rfl, rfl, rfl⟩

theorem buildI_same {L L' : Modes m} (h : SameModes L L') (hq : ∀ x, L.q x ≠ 0)
    (hdet : L.M.det ≠ 0) : buildI L L' = .ok 1 := by
  rw [buildI_ok]
  refine ⟨hq, ?_, hdet, ?_⟩
  · rw [← h.1]; exact hq
  · rw [← sameModes_M h, nonsing_inv_mul _ (det_unit hdet)]

theorem stepS_same {L L' : Modes m} (h : SameModes L L') (hq : ∀ x, L.q x ≠ 0)
    (hdet : L.M.det ≠ 0) (X Y : Matrix m m ℂ) :
    stepS ⟨X, 0, 0, Y⟩ L L' = .ok ⟨L.f * X, 0, 0, Y * L'.f⟩ := by
  obtain ⟨b1, b2, b3, b4⟩ := toBlocks_one (m := m)
  simp only [stepS, buildI_same h hq hdet, except_bind_ok, b1, b2, b3, b4]
  simp [linSolve]

theorem depth_succ_right (layers : List (Modes m)) (i j : ℕ) (hij : i ≤ j) {L : Modes m}
    (h : layers[j]? = some L) : depth layers i (j + 1) = depth layers i j + L.z := by
  unfold depth
  have e : j + 1 - i = (j - i) + 1 := by omega
  rw [e, List.take_add_one, List.getElem?_drop]
  have : i + (j - i) = j := by omega
  rw [this, h]
  simp

theorem phasor_diag_mul (q : m → ℂ) (x y : ℝ) :
    (diagonal (phasor q x) : Matrix m m ℂ) * diagonal (phasor q y) = diagonal (phasor q (x + y)) := by
  rw [diagonal_mul_diagonal]
  congr 1
  funext i
  simp only [phasor]
  rw [← Complex.exp_add]
  congr 1
  push_cast
  ring

theorem phasor_zero (q : m → ℂ) : (diagonal (phasor q 0) : Matrix m m ℂ) = 1 := by
  rw [← diagonal_one]
  congr 1
  funext i
  simp [phasor]

theorem loopS_homogeneous (layers : List (Modes m)) (L0 : Modes m)
    (hsame : ∀ L ∈ layers, SameModes L0 L) (hq : ∀ x, L0.q x ≠ 0) (hdet : L0.M.det ≠ 0) (i : ℕ) :
    ∀ (j : ℕ), i ≤ j → j < layers.length →
      loopS layers i j = .ok ⟨diagonal (phasor L0.q (depth layers i j)), 0, 0,
        diagonal (phasor L0.q (depth layers (i + 1) (j + 1)))⟩ := by
  intro j
  induction j with
  | zero =>
    intro hij hlt
    obtain rfl : i = 0 := by omega
    rw [loopS_self]
    simp [SMat.one, depth, phasor_zero]
  | succ j ih =>
    intro hij hlt
    rcases Nat.lt_or_ge j i with hl | hge
    · obtain rfl : i = j + 1 := by omega
      rw [loopS_self]
      simp [SMat.one, depth, phasor_zero]
    · have h1 : layers[j]? = some layers[j] := List.getElem?_eq_getElem (by omega)
      have h2 : layers[j + 1]? = some layers[j + 1] := List.getElem?_eq_getElem hlt
      generalize layers[j] = L at h1
      generalize layers[j + 1] = L' at h2
      have s1 := hsame L (List.mem_of_getElem? h1)
      have s2 := hsame L' (List.mem_of_getElem? h2)
      have s12 : SameModes L L' :=
        ⟨s1.1.symm.trans s2.1, s1.2.1.symm.trans s2.2.1, s1.2.2.symm.trans s2.2.2⟩
      rw [Nat.cast_add, Nat.cast_one, loopS_succ layers i j hge, ih hge (by omega), except_bind_ok]
      rw [stepAt_ok]
      refine ⟨L, L', h1, h2, ?_⟩
      rw [stepS_same s12 (by rw [← s1.1]; exact hq) (by rw [← sameModes_M s1]; exact hdet)]
      have f1 : L.f = diagonal (phasor L0.q L.z) := by rw [Modes.f, s1.1]
      have f2 : L'.f = diagonal (phasor L0.q L'.z) := by rw [Modes.f, s2.1]
      rw [f1, f2, phasor_diag_mul, phasor_diag_mul, depth_succ_right layers i j hge h1,
        depth_succ_right layers (i + 1) (j + 1) (by omega) h2, add_comm L.z]

end Nannos
