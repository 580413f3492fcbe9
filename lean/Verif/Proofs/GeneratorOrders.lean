import Verif.Props.Lattice
import Verif.Proofs.Alike
import Verif.Spec.Symmetry

/-! Asking again for as many harmonics as there are (C107). -/

namespace Nannos

open Matrix Spec

theorem oneDim_again (nh : ℤ) : oneDimTruncation (oneDimTruncation nh).1.length = oneDimTruncation nh := by
  have hlen : (((oneDimTruncation nh).1.length : ℤ) - 1).tdiv 2 = max 0 ((nh - 1).tdiv 2) := by
    have e : (oneDimTruncation nh).1.length = 2 * ((nh - 1).tdiv 2).toNat + 1 := by
      unfold oneDimTruncation
      simp only [List.length_cons, List.length_flatMap, List.length_nil, List.map_const', List.sum_replicate]
      simp [pyRange]
      ring
    rw [e]
    push_cast
    rw [add_sub_cancel_right, Int.mul_tdiv_cancel_left _ (by norm_num)]
    omega
  rcases le_total 0 ((nh - 1).tdiv 2) with h | h
  · rw [max_eq_right h] at hlen
    generalize (oneDimTruncation nh).1.length = l at hlen ⊢
    unfold oneDimTruncation
    rw [hlen]
  · rw [max_eq_left h] at hlen
    have e1 : pyRange 1 ((nh - 1).tdiv 2 + 1) = [] := by simp [pyRange]; omega
    generalize (oneDimTruncation nh).1.length = l at hlen ⊢
    unfold oneDimTruncation
    rw [hlen]
    simp only [e1, zero_add, show pyRange 1 1 = [] from by simp [pyRange]]

/-- The side of the square of orders. -/
theorem odd_root {nh M : ℤ} (hM : 0 ≤ M) (h1 : (2 * M + 1) ^ 2 ≤ nh) (h2 : nh < (2 * M + 3) ^ 2) :
    (if (Nat.sqrt nh.toNat : ℤ) % 2 = 0 then (Nat.sqrt nh.toNat : ℤ) - 1 else (Nat.sqrt nh.toNat : ℤ)) = 2 * M + 1 := by
  have hn : 0 ≤ nh := le_trans (by positivity) h1
  have hr1 : ((Nat.sqrt nh.toNat : ℕ) : ℤ) ^ 2 ≤ nh := by
    have h2 : ((Nat.sqrt nh.toNat : ℕ) : ℤ) ^ 2 ≤ (nh.toNat : ℤ) := by exact_mod_cast Nat.sqrt_le' nh.toNat
    rwa [Int.toNat_of_nonneg hn] at h2
  have hr2 : nh < ((Nat.sqrt nh.toNat : ℕ) + 1 : ℤ) ^ 2 := by
    have h2 : (nh.toNat : ℤ) < ((Nat.sqrt nh.toNat : ℕ) + 1 : ℤ) ^ 2 := by exact_mod_cast Nat.lt_succ_sqrt' nh.toNat
    rwa [Int.toNat_of_nonneg hn] at h2
  have hr0 : (0 : ℤ) ≤ (Nat.sqrt nh.toNat : ℕ) := by positivity
  generalize ((Nat.sqrt nh.toNat : ℕ) : ℤ) = s at *
  have a1 : 2 * M + 1 < s + 1 := lt_of_pow_lt_pow_left₀ 2 (by omega) (lt_of_le_of_lt h1 hr2)
  have a2 : s < 2 * M + 3 := lt_of_pow_lt_pow_left₀ 2 (by omega) (lt_of_le_of_lt hr1 h2)
  split <;> omega

theorem parallelogramic_again {argsort : List ℝ → List ℕ} (hA : ArgsortContract argsort) {nh n : ℤ}
    {Lk : Matrix (Fin 2) (Fin 2) ℝ} {H : List (ℤ × ℤ)} (h : parallelogramicTruncation argsort nh Lk = .ok (H, n)) :
    parallelogramicTruncation argsort H.length Lk = .ok (H, n) := by
  rcases lt_trichotomy nh 0 with hn | hn | hn
  · simp [parallelogramicTruncation, hn] at h
  · subst hn
    have e := C06_nh_zero_miscounts argsort hA Lk
    rw [h] at e
    obtain ⟨rfl, rfl⟩ : H = [] ∧ n = 1 := by simpa using e
    exact h
  · obtain ⟨M, hM, h1, h2, h3, -, h4, -⟩ := parallelogramic_ok hA hn h
    have hL : (H.length : ℤ) = (2 * M + 1) ^ 2 := h4.trans h3
    rw [← h, hL]
    unfold parallelogramicTruncation
    rw [if_neg (not_lt.mpr (by positivity)), if_neg (by omega)]
    dsimp only
    rw [odd_root hM h1 h2, odd_root hM le_rfl (by nlinarith)]

/-- Every truncation but the circular one, asked for as many harmonics as it returned, returns them again. -/
theorem getHarmonics_again {argsort : List ℝ → List ℕ} (hA : ArgsortContract argsort) {l : Lattice} {nh n : ℤ}
    {H : List (ℤ × ℤ)} (hl : l.truncation = .circular → l.harmonicsArray ≠ none)
    (h : l.getHarmonics argsort nh true = .ok (H, n)) : ∃ m, l.getHarmonics argsort H.length true = .ok (H, m) := by
  obtain ⟨H', h1, hp, -⟩ := getHarmonics_ok hA h
  have hlen := hp.length_eq
  suffices hs : l.getHarmonics' argsort H.length = .ok (H', n) by
    refine ⟨n, ?_⟩
    rw [← h]
    unfold Lattice.getHarmonics
    rw [hs, h1]
  rw [hlen]
  unfold Lattice.getHarmonics' at h1 ⊢
  rcases hu : l.harmonicsArray with _ | U
  · rw [hu] at h1
    rcases ht : l.truncation with _ | _ | _
    · simp only [ht, Except.ok.injEq] at h1 ⊢
      have : H' = (oneDimTruncation nh).1 := by rw [h1]
      rw [this, oneDim_again, h1, this]
    · exact absurd hu (hl ht)
    · simp only [ht] at h1 ⊢
      rw [bind_eq_ok] at h1
      obtain ⟨r, hr, h2⟩ := h1
      rw [hr, except_bind_ok]
      exact parallelogramic_again hA h2
  · rw [hu] at h1
    exact h1

variable {E : Ext} {c : Static} {L : LayerSpec} {t : String → PGrid → List (ℤ × ℤ) → Bool → Except PyErr Field2}

theorem pepsOf_vectors {f : Option Field2} {w : PGrid} {p : Option (Trans4 PGrid)} {A : Matrix (Fin c.nh) (Fin c.nh) ℂ}
    {B : Matrix (Idx c.nh) (Idx c.nh) ℂ} {H : List (ℤ × ℤ)}
    (h : getTangentField (E.regen t) { L with tangentField := f } w H (c.formulation == "tangent") =
      getTangentField E L w H (c.formulation == "tangent")) :
    pepsOf (E.regen t) c { L with tangentField := f } w p A B H = pepsOf E c L w p A B H := by
  unfold pepsOf
  by_cases h1 : c.formulation = "tangent"
  · rw [h1] at h
    simp only [BEq.rfl] at h
    simp only [h1, h]
    rfl
  · have e : (c.formulation == "tangent") = false := by simpa using h1
    rw [e] at h
    simp only [h1, if_false, h]

/-- A layer whose formulation is given the same vectors has the same matrix. -/
theorem buildPure_vectors {f : Option Field2}
    (h : ∀ w H n, patternOf L = .ok w → c.lattice.getHarmonics E.argsort c.nh true = .ok (H, n) →
      getTangentField (E.regen t) { L with tangentField := f } w H (c.formulation == "tangent") =
        getTangentField E L w H (c.formulation == "tangent")) :
    buildPure (E.regen t) c { L with tangentField := f } = buildPure E c L := by
  unfold buildPure
  have ea : LayerSpec.isAnisotropic { L with tangentField := f } = L.isAnisotropic := rfl
  have ep : paraOf { L with tangentField := f } = paraOf L := rfl
  simp only [ea, ep]
  unfold patternOf at h
  rcases hw : (if L.isAnisotropic then L.epsilon.comp 2 2 else L.epsilon).toGrid with e | w
  · rfl
  simp only [hw, except_bind_ok] at h ⊢
  rcases hH : c.lattice.getHarmonics E.argsort c.nh true with e | ⟨H, n⟩
  · rfl
  simp only [except_bind_ok]
  have := fun p A B => pepsOf_vectors (p := p) (A := A) (B := B) (h w H n rfl hH)
  simp only [this]
  rfl

/-- Generators which agree on what they are asked for give the same results. -/
theorem results_asked {mats : ℕ → LayerSpec}
    (h : ∀ r ∈ c.stack, ∀ w H m, patternOf (mats r) = .ok w → c.lattice.getHarmonics E.argsort c.nh true = .ok (H, m) →
      (mats r).tangentField = none → t (mats r).tangentFieldType w H (c.formulation == "tangent") =
        E.tangent (mats r).tangentFieldType w H (c.formulation == "tangent"))
    (hist : List (Call c.nh)) (a : Call c.nh) :
    a.result (E.regen t) c (afterCalls (E.regen t) c hist (Dyn.fresh mats (unsolved c.nh))) =
      a.result E c (afterCalls E c hist (Dyn.fresh mats (unsolved c.nh))) := by
  refine results_alike (t := t) (g := c.formulation) (fun r hr => ⟨rfl, rfl, rfl, rfl, rfl, ?_, fun _ => rfl⟩) hist a
  refine buildPure_vectors (t := t) (c := c) (f := (mats r).tangentField) fun w H n hw hH => ?_
  unfold getTangentField
  rcases ht : (mats r).tangentField with _ | f
  · simp only [h r hr w H n hw hH ht]
  · rfl

end Nannos
