import Verif.Spec.Guided
import Verif.Proofs.ProfileSim

/-! The scattering matrix exists unless a part of the stack supports a wave by itself. -/

namespace Nannos

open Matrix Spec

variable {m : Type} [Fintype m] [DecidableEq m]

theorem consistent_zero (layers : List (Modes m)) (i j : ℕ) : Consistent layers i j fun _ => (0, 0) := by
  intro k L L' _ _ _ _
  rw [match_iff]
  simp only [mulVec_zero]
  have : (Sum.elim 0 0 : m ⊕ m → ℂ) = 0 := by funext x; rcases x with x | x <;> rfl
  rw [this, mulVec_zero, mulVec_zero]

theorem loopS_prefix {layers : List (Modes m)} {i : ℕ} : ∀ (j : ℕ) {k : ℕ}, i ≤ k → k ≤ j → ∀ {S : SMat m},
    loopS layers i j = .ok S → ∃ T, loopS layers i k = .ok T := by
  intro j
  induction j with
  | zero =>
    intro k h1 h2 S h
    obtain rfl : k = 0 := by omega
    exact ⟨S, h⟩
  | succ j ih =>
    intro k h1 h2 S h
    rcases Nat.lt_or_ge j k with h3 | h3
    · obtain rfl : k = j + 1 := by omega
      exact ⟨S, h⟩
    · obtain ⟨S0, -, -, h4, -⟩ := loopS_succ_ok (by omega) h
      exact ih h1 h3 h4

/-- The step fails exactly for want of a unique outgoing wave. -/
theorem stepS_singular {S : SMat m} {L L' : Modes m} {I : Matrix (m ⊕ m) (m ⊕ m) ℂ} (hI : buildI L L' = .ok I) :
    (∃ S', stepS S L L' = .ok S') ∨ (stepS S L L' = .error .linAlgError ∧
      ∃ a' : m → ℂ, a' ≠ 0 ∧ Match L L' (S.s12 *ᵥ (I.toBlocks₂₁ *ᵥ a')) (I.toBlocks₂₁ *ᵥ a') a' 0) := by
  by_cases hd : (I.toBlocks₁₁ - L.f * S.s12 * I.toBlocks₂₁).det = 0
  · right
    constructor
    · unfold stepS
      simp only [hI, except_bind_ok]
      unfold linSolve
      rw [if_pos hd]
      rfl
    · obtain ⟨v, hv, h0⟩ := exists_mulVec_eq_zero_iff.mpr hd
      refine ⟨v, hv, ?_⟩
      rw [match_iff_I hI]
      simp only [mulVec_zero, add_zero, and_true]
      rw [sub_mulVec, sub_eq_zero] at h0
      rw [h0]
      simp only [mulVec_mulVec, Matrix.mul_assoc]
  · left
    unfold stepS
    simp only [hI, except_bind_ok]
    rw [(linSolve_ok _ _ _).mpr ⟨hd, rfl⟩, except_bind_ok, (linSolve_ok _ _ _).mpr ⟨hd, rfl⟩, except_bind_ok]
    exact ⟨_, rfl⟩

theorem guided_not_ok {layers : List (Modes m)} {i j k : ℕ} (h1 : i < k) (h2 : k ≤ j) (hg : GuidedWave layers i k) {S : SMat m} :
    loopS layers i j ≠ .ok S := by
  intro h
  obtain ⟨T, hT⟩ := loopS_prefix j h1.le h2 h
  obtain ⟨amp, g1, g2, g3, l, g4, g5, g6⟩ := hg
  exact g6 (loopS_unique layers i k h1.le T hT amp _ g1 (consistent_zero layers i k) g2 g3 l g4 g5)

theorem loopS_or_guided {layers : List (Modes m)} {i : ℕ} : ∀ (j : ℕ), i ≤ j → j < layers.length →
    (∀ k L, i ≤ k → k ≤ j → layers[k]? = some L → (∀ p, L.q p ≠ 0) ∧ L.M.det ≠ 0) →
    (∃ S, loopS layers i j = .ok S) ∨ (loopS layers i j = .error .linAlgError ∧ ∃ k, i < k ∧ k ≤ j ∧ GuidedWave layers i k) := by
  intro j
  induction j with
  | zero =>
    intro hij _ _
    obtain rfl : i = 0 := by omega
    exact .inl ⟨_, loopS_self _ _⟩
  | succ j ih =>
    intro hij hlen hreg
    rcases Nat.eq_or_lt_of_le hij with rfl | hlt
    · exact .inl ⟨_, loopS_self _ _⟩
    have hij' : i ≤ j := by omega
    rcases ih hij' (by omega) fun k L h1 h2 h3 => hreg k L h1 (by omega) h3 with ⟨S, hS⟩ | ⟨he, k, k1, k2, k3⟩
    · have hj : layers[j]? = some layers[j] := List.getElem?_eq_getElem _
      have hj' : layers[j + 1]? = some layers[j + 1] := List.getElem?_eq_getElem _
      obtain ⟨q1, d1⟩ := hreg j _ hij' (by omega) hj
      obtain ⟨q2, -⟩ := hreg (j + 1) _ hij le_rfl hj'
      have hI := (buildI_ok layers[j] layers[j + 1] _).mpr ⟨q1, q2, d1, rfl⟩
      rcases stepS_singular (S := S) hI with ⟨S', hS'⟩ | ⟨he, a', ha', hm⟩
      · refine .inl ⟨S', ?_⟩
        rw [Nat.cast_add, Nat.cast_one, loopS_succ layers i j hij', hS, except_bind_ok, stepAt_ok]
        exact ⟨_, _, hj, hj', hS'⟩
      · refine .inr ⟨?_, j + 1, hlt, le_rfl, ?_⟩
        · rw [Nat.cast_add, Nat.cast_one, loopS_succ layers i j hij', hS, except_bind_ok]
          unfold stepAt
          rw [(pyGet_nat _ _ _).mpr hj, except_bind_ok, (pyGet_nat_succ _ _ _).mpr hj', except_bind_ok]
          exact he
        · generalize (layers[j].M⁻¹ * layers[j + 1].M).toBlocks₂₁ *ᵥ a' = b at hm
          obtain ⟨amp, c1, c2, c3⟩ := loopS_exists layers i j hij' S hS 0 b
          obtain ⟨r1, -⟩ := loopS_rel layers i j hij' S hS amp c1
          rw [c2, c3, mulVec_zero, zero_add] at r1
          refine ⟨fun l => if l = j + 1 then (a', 0) else amp l, ?_, ?_, ?_, j + 1, hij, le_rfl, ?_⟩
          · intro k L L' h1 h2 h3 h4
            rcases Nat.eq_or_lt_of_le (Nat.le_of_lt_succ h2) with rfl | h5
            · rw [hj, Option.some.injEq] at h3
              rw [hj', Option.some.injEq] at h4
              subst h3 h4
              simp only [if_true, show ¬ k = k + 1 by omega, if_false]
              rw [r1, c3]
              exact hm
            · have := c1 k L L' h1 h5 h3 h4
              simp only [show ¬ k = j + 1 by omega, show ¬ k + 1 = j + 1 by omega, if_false]
              exact this
          · simp only [show ¬ i = j + 1 by omega, if_false]
            exact c2
          · simp
          · simp only [if_true, ne_eq, Prod.mk.injEq, not_and]
            exact fun h => absurd h ha'
    · refine .inr ⟨?_, k, k1, by omega, k3⟩
      rw [Nat.cast_add, Nat.cast_one, loopS_succ layers i j hij', he]
      rfl

end Nannos
