import Verif.Proofs.Eval

/-! The amplitudes returned by `_get_amplitudes` solve the stack. -/

namespace Nannos

open Matrix Spec

section
variable {m : Type} [Fintype m] [DecidableEq m]

omit [DecidableEq m] in
theorem rel_zero {S : SMat m} {a b a' : m → ℂ} (h : S.Rel a b a' 0) : a' = S.s11 *ᵥ a ∧ b = S.s21 *ᵥ a := by
  obtain ⟨h1, h2⟩ := h
  simpa using And.intro h1 h2

omit [DecidableEq m] in
theorem consistent_mono_left {layers : List (Modes m)} {i j k : ℕ} (hij : i ≤ j)
    {amp : ℕ → (m → ℂ) × (m → ℂ)} (h : Consistent layers i k amp) : Consistent layers j k amp :=
  fun l L L' h1 h2 h3 h4 => h l L L' (hij.trans h1) h2 h3 h4

/-- The whole matrix gives the unique solution. -/
theorem solution_ext {layers : List (Modes m)} {S : SMat m} (a0 : m → ℂ)
    (hS : loopS layers (0 : ℕ) ((layers.length - 1 : ℕ) : ℤ) = .ok S) :
    ∃ amp, StackSolution layers a0 amp ∧ (amp 0).2 = S.s21 *ᵥ a0 ∧
      (amp (layers.length - 1)).1 = S.s11 *ᵥ a0 ∧
      ∀ amp', StackSolution layers a0 amp' → ∀ j, j < layers.length → amp' j = amp j := by
  obtain ⟨amp, hc, ha, hb⟩ := loopS_exists layers 0 _ (Nat.zero_le _) S hS a0 0
  have hr := loopS_rel layers 0 _ (Nat.zero_le _) S hS amp hc
  rw [hb] at hr
  obtain ⟨r1, r2⟩ := rel_zero hr
  refine ⟨amp, ⟨hc, ha, hb⟩, by rw [r2, ha], by rw [r1, ha], fun amp' h' j hj => ?_⟩
  exact loopS_unique layers 0 _ (Nat.zero_le _) S hS amp' amp h'.1 hc (h'.2.1.trans ha.symm)
    (h'.2.2.trans hb.symm) j (Nat.zero_le _) (by omega)

/-- The two partial matrices at an inner layer give the unique solution. -/
theorem solution_int {layers : List (Modes m)} {S P : SMat m} (a0 a b : m → ℂ) {k : ℕ}
    (hk : k ≤ layers.length - 1)
    (hS : loopS layers (0 : ℕ) (k : ℤ) = .ok S)
    (hP : loopS layers (k : ℤ) ((layers.length - 1 : ℕ) : ℤ) = .ok P)
    (hdet : (1 - S.s12 * P.s21).det ≠ 0)
    (ha : a = (1 - S.s12 * P.s21)⁻¹ *ᵥ (S.s11 *ᵥ a0)) (hb : b = P.s21 *ᵥ a) :
    ∃ amp, StackSolution layers a0 amp ∧ amp k = (a, b) ∧
      ∀ amp', StackSolution layers a0 amp' → ∀ j, j < layers.length → amp' j = amp j := by
  set N := layers.length - 1 with hN
  have hU : IsUnit (1 - S.s12 * P.s21).det := det_unit hdet
  have ea : (1 - S.s12 * P.s21) *ᵥ a = S.s11 *ᵥ a0 := by
    rw [ha, mulVec_mulVec, mul_nonsing_inv _ hU, one_mulVec]
  have ea' : a = S.s11 *ᵥ a0 + S.s12 *ᵥ b := by
    rw [hb, ← ea, sub_mulVec, one_mulVec, mulVec_mulVec]; abel
  obtain ⟨p, pc, pa, pb⟩ := loopS_exists layers 0 k (Nat.zero_le _) S hS a0 b
  obtain ⟨s, sc, sa, sb⟩ := loopS_exists layers k N hk P hP a 0
  have hp := loopS_rel layers 0 k (Nat.zero_le _) S hS p pc
  have hs := loopS_rel layers k N hk P hP s sc
  have pk : p k = (a, b) := by
    refine Prod.ext ?_ pb
    rw [hp.1, pa, pb, ← ea']
  have sk : s k = (a, b) := by
    refine Prod.ext sa ?_
    have := hs.2
    rw [sb, sa] at this
    simpa [hb] using this
  refine ⟨fun j => if j ≤ k then p j else s j, ⟨?_, ?_, ?_⟩, ?_, ?_⟩
  · intro j L L' h1 h2 h3 h4
    by_cases hj : j < k
    · have e1 : j ≤ k := hj.le
      have e2 : j + 1 ≤ k := hj
      simp only [e1, e2, if_true]
      exact pc j L L' h1 hj h3 h4
    · have hsj : (if j ≤ k then p j else s j) = s j := by
        by_cases e : j ≤ k
        · obtain rfl : j = k := by omega
          simp [pk, sk]
        · simp [e]
      have e2 : ¬ j + 1 ≤ k := by omega
      simp only [hsj, e2, if_false]
      exact sc j L L' (by omega) h2 h3 h4
  · simp [pa]
  · rw [← hN]
    by_cases e : N ≤ k
    · obtain rfl : N = k := by omega
      simp only [le_refl, if_true]
      rw [pk, ← sk]; exact sb
    · simp only [e, if_false]; exact sb
  · simp [pk]
  · intro amp' h' j hj
    have c1 := consistent_mono hk h'.1
    have c2 : Consistent layers k N amp' := consistent_mono_left (Nat.zero_le k) h'.1
    have r1 := loopS_rel layers 0 k (Nat.zero_le _) S hS amp' c1
    have r2 := loopS_rel layers k N hk P hP amp' c2
    rw [h'.2.2] at r2
    obtain ⟨-, r2b⟩ := rel_zero r2
    have e1 : (amp' k).1 = a := by
      have h1 := r1.1
      rw [h'.2.1, r2b] at h1
      have h2 : (1 - S.s12 * P.s21) *ᵥ (amp' k).1 = S.s11 *ᵥ a0 := by
        rw [sub_mulVec, one_mulVec, ← mulVec_mulVec]
        nth_rewrite 1 [h1]
        abel
      rw [ha, ← h2, mulVec_mulVec, nonsing_inv_mul _ hU, one_mulVec]
    have e2 : amp' k = (a, b) := Prod.ext e1 (by rw [r2b, e1, hb])
    by_cases hjk : j ≤ k
    · simp only [hjk, if_true]
      exact loopS_unique layers 0 k (Nat.zero_le _) S hS amp' p c1 pc (h'.2.1.trans pa.symm)
        (by rw [e2, pk]) j (Nat.zero_le _) hjk
    · simp only [hjk, if_false]
      exact loopS_unique layers k N hk P hP amp' s c2 sc (by rw [e2, sk])
        (h'.2.2.trans sb.symm) j (by omega) (by omega)

end

variable {E : Ext} {c : Static}
variable {mats : ℕ → LayerSpec} {A : ℕ → LayerAttr c.nh}

theorem stackModes_length (c : Static) (mats : ℕ → LayerSpec) (A : ℕ → LayerAttr c.nh) :
    (stackModes c mats A).length = c.stack.length := by simp [stackModes]

/-- The amplitudes returned for layer `i` (Python index, layer number `k`) are those of the unique
solution of the stack. -/
theorem ampV_solution (hf : ∀ r ∈ c.stack, LayerFix E c mats A r) {i : ℤ} {ab}
    (h : AmpV c mats A (.ok ()) i ab) :
    ∃ k, pyIdx c.stack.length i = some k ∧ ∃ amp, StackSolution (stackModes c mats A) c.a0 amp ∧
      amp k = ab ∧ ∀ amp', StackSolution (stackModes c mats A) c.a0 amp' →
        ∀ j, j < c.stack.length → amp' j = amp j := by
  obtain ⟨⟨r, hr⟩, h⟩ := h
  have hlen := stackModes_length c mats A
  have hpos : 0 < c.stack.length := List.length_pos_iff.mpr (by
    rintro e; have := pyGet_mem hr; rw [e] at this; simp at this)
  have full : ∀ S, valS c mats A (.ok ()) none = .ok S →
      loopS (stackModes c mats A) (0 : ℕ) (((stackModes c mats A).length - 1 : ℕ) : ℤ) = .ok S := by
    intro S hS
    rw [valS_none, valS_solved hf] at hS
    have : ((c.stack.length : ℤ) - 1) = (((stackModes c mats A).length - 1 : ℕ) : ℤ) := by
      rw [hlen]; omega
    rw [this] at hS
    exact (freshS_ok (i := 0)).mp hS |>.2
  rcases h with ⟨h0, S, hS, rfl⟩ | ⟨h0, hn, S, hS, rfl⟩ | ⟨h0, hn, hm, S, P, hS, hP, hdet, ha, hb⟩
  · obtain ⟨amp, h1, h2, h3, h4⟩ := solution_ext c.a0 (full S hS)
    refine ⟨0, ?_, amp, h1, Prod.ext h1.2.1 h2, fun amp' h' j hj => h4 amp' h' j (by omega)⟩
    subst h0
    unfold pyIdx
    simp [hpos]
  · obtain ⟨amp, h1, h2, h3, h4⟩ := solution_ext c.a0 (full S hS)
    refine ⟨c.stack.length - 1, ?_, amp, h1, ?_, fun amp' h' j hj => h4 amp' h' j (by omega)⟩
    · unfold pyIdx
      rcases hn with hn | hn
      · have e1 : 0 ≤ i ∧ i < c.stack.length := by omega
        simp only [e1, if_true]
        congr 1; omega
      · subst hn
        simp
        omega
    · rw [← hlen]
      exact Prod.ext h3 h1.2.2
  · rw [valS_solved hf] at hS hP
    have hi : 0 < i := by
      by_contra hcon
      unfold freshS at hS
      rw [if_pos ((pyRange_eq_nil_iff _ _).mpr (by omega))] at hS
      simp at hS
    obtain ⟨k, rfl⟩ : ∃ k : ℕ, i = (k : ℤ) := ⟨i.toNat, by omega⟩
    have e : ((c.stack.length : ℤ) - 1) = (((stackModes c mats A).length - 1 : ℕ) : ℤ) := by
      rw [hlen]; omega
    rw [e] at hP
    obtain ⟨hk1, hS⟩ := (freshS_ok (i := 0)).mp hS
    obtain ⟨hk2, hP⟩ := freshS_ok.mp hP
    obtain ⟨amp, h1, h2, h3⟩ := solution_int c.a0 ab.1 ab.2 (k := k) (by omega) hS hP hdet ha hb
    refine ⟨k, ?_, amp, h1, h2, fun amp' h' j hj => h3 amp' h' j (by omega)⟩
    unfold pyIdx
    have e1 : 0 ≤ (k : ℤ) ∧ (k : ℤ) < c.stack.length := by omega
    simp only [e1, if_true]
    simp

end Nannos
