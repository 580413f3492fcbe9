import Verif.Spec.Fields
import Mathlib.Tactic.Ring
import Mathlib.Tactic.Module
import Mathlib.Tactic.Abel
import Mathlib.Tactic.NoncommRing
import Mathlib.Algebra.BigOperators.Field

/-! Helper lemmas for the scattering-matrix theorems (C22-C26). -/

set_option linter.unusedSectionVars false
set_option linter.unusedSimpArgs false

namespace Nannos

open Matrix Spec

variable {m : Type} [Fintype m] [DecidableEq m]

/-! ### Python ranges and indexing -/

theorem pyRange_self (i : Int) : pyRange i i = [] := by simp [pyRange]

theorem pyRange_succ (i : ℕ) (j : ℕ) (h : i ≤ j) :
    pyRange (i : Int) ((j : Int) + 1) = pyRange i j ++ [(j : Int)] := by
  unfold pyRange
  have e1 : ((j : Int) + 1 - i).toNat = (j - i) + 1 := by omega
  have e2 : ((j : Int) - i).toNat = j - i := by omega
  rw [e1, e2, List.range_succ, List.map_append]
  simp
  omega

theorem pyRange_eq_nil_iff (i j : Int) : pyRange i j = [] ↔ j ≤ i := by
  unfold pyRange
  simp

theorem pyGet_nat {α : Type _} (l : List α) (k : ℕ) (x : α) :
    pyGet l (k : Int) = .ok x ↔ l[k]? = some x := by
  unfold pyGet pyIdx
  by_cases h : k < l.length
  · simp [h]
  · simp [h]

theorem pyGet_nat_succ {α : Type _} (l : List α) (k : ℕ) (x : α) :
    pyGet l ((k : Int) + 1) = .ok x ↔ l[k + 1]? = some x := by
  have := pyGet_nat l (k + 1) x
  simpa using this

/-! ### Exceptions -/

@[simp] theorem except_pure_eq_ok {α : Type _} (x : α) :
    (pure x : Except PyErr α) = Except.ok x := rfl

@[simp] theorem except_bind_ok {α β : Type _} (x : α) (f : α → Except PyErr β) :
    (Except.ok x >>= f) = f x := rfl

@[simp] theorem except_bind_error {α β : Type _} (e : PyErr) (f : α → Except PyErr β) :
    ((Except.error e : Except PyErr α) >>= f) = Except.error e := rfl

theorem bind_eq_ok {α β : Type _} (x : Except PyErr α) (f : α → Except PyErr β) (b : β) :
    (x >>= f) = .ok b ↔ ∃ a, x = .ok a ∧ f a = .ok b := by
  cases x <;> simp

/-! ### The external solver -/

theorem linSolve_ok {k : Type} (A : Matrix m m ℂ) (B X : Matrix m k ℂ) :
    linSolve A B = .ok X ↔ A.det ≠ 0 ∧ X = A⁻¹ * B := by
  unfold linSolve
  split <;> rename_i h <;> simp [h, eq_comm]

theorem linSolveVec_ok (A : Matrix m m ℂ) (v x : m → ℂ) :
    linSolveVec A v = .ok x ↔ A.det ≠ 0 ∧ x = A⁻¹ *ᵥ v := by
  unfold linSolveVec
  split <;> rename_i h <;> simp [h, eq_comm]

theorem linInv_ok (A X : Matrix m m ℂ) :
    linInv A = .ok X ↔ A.det ≠ 0 ∧ X = A⁻¹ := by
  unfold linInv
  split <;> rename_i h <;> simp [h, eq_comm]

theorem det_unit {A : Matrix m m ℂ} (h : A.det ≠ 0) : IsUnit A.det := isUnit_iff_ne_zero.mpr h

theorem mulVec_inj {A : Matrix m m ℂ} (h : A.det ≠ 0) {u v : m → ℂ} (e : A *ᵥ u = A *ᵥ v) :
    u = v := by
  have := congrArg (A⁻¹ *ᵥ ·) e
  simpa [Matrix.mulVec_mulVec, Matrix.nonsing_inv_mul A (det_unit h)] using this

/-! ### Fields at the two ends of a layer -/

theorem f_mulVec (L : Modes m) (a : m → ℂ) (j : m) :
    (L.f *ᵥ a) j = Complex.exp (Complex.I * L.q j * (L.z : ℂ)) * a j := by
  simp [Modes.f, mulVec_diagonal, phasor]

theorem amat_apply (L : Modes m) (i j : m) :
    L.amat i j = (∑ k, L.Q i k * L.phi k j) / L.q j := by
  unfold Modes.amat
  rw [Matrix.mul_apply, Finset.sum_div]
  refine Finset.sum_congr rfl fun k _ => ?_
  simp only [Matrix.of_apply]
  ring

theorem tanH_bottom (L : Modes m) (a b : m → ℂ) :
    tanH L a b L.z = L.phi *ᵥ (L.f *ᵥ a + b) := by
  funext i
  simp only [tanH, mulVec, dotProduct, Pi.add_apply]
  refine Finset.sum_congr rfl fun j _ => ?_
  have := f_mulVec L a j
  simp only [mulVec, dotProduct] at this
  rw [this]
  simp only [sub_self, Complex.ofReal_zero, mul_zero, Complex.exp_zero, mul_one, sub_zero]
  ring

theorem tanH_top (L : Modes m) (a b : m → ℂ) :
    tanH L a b 0 = L.phi *ᵥ (a + L.f *ᵥ b) := by
  funext i
  simp only [tanH, mulVec, dotProduct, Pi.add_apply]
  refine Finset.sum_congr rfl fun j _ => ?_
  have := f_mulVec L b j
  simp only [mulVec, dotProduct] at this
  rw [this]
  simp only [sub_self, Complex.ofReal_zero, mul_zero, Complex.exp_zero, mul_one, sub_zero]
  ring

theorem tanE_bottom (L : Modes m) (a b : m → ℂ) :
    tanE L a b L.z = L.amat *ᵥ (L.f *ᵥ a - b) := by
  funext i
  simp only [tanE, mulVec, dotProduct, Pi.sub_apply, amat_apply]
  refine Finset.sum_congr rfl fun j _ => ?_
  have := f_mulVec L a j
  simp only [mulVec, dotProduct] at this
  rw [this]
  simp only [sub_self, Complex.ofReal_zero, mul_zero, Complex.exp_zero, mul_one, sub_zero]
  ring

theorem tanE_top (L : Modes m) (a b : m → ℂ) :
    tanE L a b 0 = L.amat *ᵥ (a - L.f *ᵥ b) := by
  funext i
  simp only [tanE, mulVec, dotProduct, Pi.sub_apply, amat_apply]
  refine Finset.sum_congr rfl fun j _ => ?_
  have := f_mulVec L b j
  simp only [mulVec, dotProduct] at this
  rw [this]
  simp only [sub_self, Complex.ofReal_zero, mul_zero, Complex.exp_zero, mul_one, sub_zero]
  ring

/-- The matrix built by `_build_Mmatrix`. -/
noncomputable def Modes.M (L : Modes m) : Matrix (m ⊕ m) (m ⊕ m) ℂ :=
  fromBlocks L.amat (-L.amat) L.phi L.phi

theorem buildM_ok (L : Modes m) (M : Matrix (m ⊕ m) (m ⊕ m) ℂ) :
    buildM L = .ok M ↔ (∀ i, L.q i ≠ 0) ∧ M = L.M := by
  unfold buildM Modes.M
  split <;> rename_i h
  · simp only [reduceCtorEq, false_iff]
    rintro ⟨h1, _⟩
    obtain ⟨i, hi⟩ := h
    exact h1 i hi
  · push Not at h
    simp [h, eq_comm]

theorem match_iff (L L' : Modes m) (a b a' b' : m → ℂ) :
    Match L L' a b a' b' ↔
      L.M *ᵥ Sum.elim (L.f *ᵥ a) b = L'.M *ᵥ Sum.elim a' (L'.f *ᵥ b') := by
  unfold Match Modes.M
  rw [tanE_bottom, tanE_top, tanH_bottom, tanH_top, fromBlocks_mulVec, fromBlocks_mulVec]
  simp only [Sum.elim_eq_iff, Sum.elim_comp_inl, Sum.elim_comp_inr, mulVec_add, mulVec_sub,
    neg_mulVec, sub_eq_add_neg, mulVec_neg]

theorem buildI_ok (L L' : Modes m) (I : Matrix (m ⊕ m) (m ⊕ m) ℂ) :
    buildI L L' = .ok I ↔
      (∀ i, L.q i ≠ 0) ∧ (∀ i, L'.q i ≠ 0) ∧ L.M.det ≠ 0 ∧ I = L.M⁻¹ * L'.M := by
  unfold buildI
  simp only [bind_eq_ok, buildM_ok, linSolve_ok]
  constructor
  · rintro ⟨_, ⟨h1, rfl⟩, _, ⟨h2, rfl⟩, h3, h4⟩
    exact ⟨h1, h2, h3, h4⟩
  · rintro ⟨h1, h2, h3, h4⟩
    exact ⟨_, ⟨h1, rfl⟩, _, ⟨h2, rfl⟩, h3, h4⟩

theorem match_iff_I {L L' : Modes m} {I : Matrix (m ⊕ m) (m ⊕ m) ℂ} (h : buildI L L' = .ok I)
    (a b a' b' : m → ℂ) :
    Match L L' a b a' b' ↔
      (L.f *ᵥ a = I.toBlocks₁₁ *ᵥ a' + I.toBlocks₁₂ *ᵥ (L'.f *ᵥ b') ∧
       b = I.toBlocks₂₁ *ᵥ a' + I.toBlocks₂₂ *ᵥ (L'.f *ᵥ b')) := by
  obtain ⟨-, -, h3, h4⟩ := (buildI_ok L L' I).mp h
  rw [match_iff]
  have key : L.M *ᵥ Sum.elim (L.f *ᵥ a) b = L'.M *ᵥ Sum.elim a' (L'.f *ᵥ b') ↔
      Sum.elim (L.f *ᵥ a) b = I *ᵥ Sum.elim a' (L'.f *ᵥ b') := by
    constructor
    · intro e
      apply mulVec_inj h3
      rw [e, h4, mulVec_mulVec, ← Matrix.mul_assoc, mul_nonsing_inv _ (det_unit h3), Matrix.one_mul]
    · intro e
      rw [e, h4, mulVec_mulVec, ← Matrix.mul_assoc, mul_nonsing_inv _ (det_unit h3), Matrix.one_mul]
  rw [key]
  conv_lhs => rw [← fromBlocks_toBlocks I]
  rw [fromBlocks_mulVec]
  simp only [Sum.elim_eq_iff, Sum.elim_comp_inl, Sum.elim_comp_inr]

/-! ### One step -/

/-- Everything `stepS` computes when it succeeds. -/
theorem stepS_ok {S S' : SMat m} {L L' : Modes m} (h : stepS S L L' = .ok S') :
    ∃ I A, buildI L L' = .ok I ∧ A = I.toBlocks₁₁ - L.f * S.s12 * I.toBlocks₂₁ ∧ A.det ≠ 0 ∧
      A * S'.s11 = L.f * S.s11 ∧
      A * S'.s12 = (L.f * S.s12 * I.toBlocks₂₂ - I.toBlocks₁₂) * L'.f ∧
      S'.s21 = S.s22 * I.toBlocks₂₁ * S'.s11 + S.s21 ∧
      S'.s22 = S.s22 * I.toBlocks₂₁ * S'.s12 + S.s22 * I.toBlocks₂₂ * L'.f := by
  unfold stepS at h
  simp only [bind_eq_ok, linSolve_ok, except_pure_eq_ok, Except.ok.injEq] at h
  obtain ⟨I, hI, X, ⟨hd, hX⟩, Y, ⟨_, hY⟩, rfl⟩ := h
  refine ⟨I, _, hI, rfl, hd, ?_, ?_, rfl, rfl⟩
  · simp only [hX, ← Matrix.mul_assoc, mul_nonsing_inv _ (det_unit hd), Matrix.one_mul]
  · simp only [hY]
    rw [← Matrix.mul_assoc, mul_nonsing_inv _ (det_unit hd), Matrix.one_mul]

/-- `S` relates incoming and outgoing amplitudes. -/
def SMat.Rel (S : SMat m) (a0 b0 a b : m → ℂ) : Prop :=
  a = S.s11 *ᵥ a0 + S.s12 *ᵥ b ∧ b0 = S.s21 *ᵥ a0 + S.s22 *ᵥ b

theorem step_forward {S S' : SMat m} {L L' : Modes m} (h : stepS S L L' = .ok S')
    {a0 b0 a b a' b' : m → ℂ} (hr : S.Rel a0 b0 a b) (hm : Match L L' a b a' b') :
    S'.Rel a0 b0 a' b' := by
  obtain ⟨I, A, hI, hA, hd, h11, h12, h21, h22⟩ := stepS_ok h
  obtain ⟨m1, m2⟩ := (match_iff_I hI a b a' b').mp hm
  obtain ⟨r1, r2⟩ := hr
  have ha' : a' = S'.s11 *ᵥ a0 + S'.s12 *ᵥ b' := by
    apply mulVec_inj hd
    rw [mulVec_add, mulVec_mulVec, mulVec_mulVec, h11, h12, hA]
    have e : L.f *ᵥ a = (L.f * S.s11) *ᵥ a0 + (L.f * S.s12) *ᵥ b := by
      rw [r1, mulVec_add, mulVec_mulVec, mulVec_mulVec]
    rw [m1] at e
    rw [m2] at e
    simp only [mulVec_add, mulVec_mulVec] at e
    simp only [sub_mulVec, Matrix.sub_mul, Matrix.mul_assoc] at e ⊢
    have e2 : I.toBlocks₁₁ *ᵥ a' = (L.f * S.s11) *ᵥ a0 + ((L.f * (S.s12 * I.toBlocks₂₁)) *ᵥ a'
        + (L.f * (S.s12 * (I.toBlocks₂₂ * L'.f))) *ᵥ b') - (I.toBlocks₁₂ * L'.f) *ᵥ b' := by
      rw [← e]; abel
    rw [e2]
    abel
  refine ⟨ha', ?_⟩
  rw [r2, m2, h21, h22]
  nth_rewrite 1 [ha']
  simp only [mulVec_add, add_mulVec, mulVec_mulVec, Matrix.mul_assoc]
  abel

theorem step_backward {S S' : SMat m} {L L' : Modes m} (h : stepS S L L' = .ok S')
    (a0 b' : m → ℂ) :
    ∃ a b a', S.s11 *ᵥ a0 + S.s12 *ᵥ b = a ∧ a' = S'.s11 *ᵥ a0 + S'.s12 *ᵥ b' ∧
      Match L L' a b a' b' := by
  obtain ⟨I, A, hI, hA, hd, h11, h12, h21, h22⟩ := stepS_ok h
  refine ⟨_, I.toBlocks₂₁ *ᵥ (S'.s11 *ᵥ a0 + S'.s12 *ᵥ b') + I.toBlocks₂₂ *ᵥ (L'.f *ᵥ b'), _,
    rfl, rfl, ?_⟩
  rw [match_iff_I hI]
  refine ⟨?_, rfl⟩
  have e : A *ᵥ (S'.s11 *ᵥ a0 + S'.s12 *ᵥ b') = (L.f * S.s11) *ᵥ a0 +
      ((L.f * S.s12 * I.toBlocks₂₂ - I.toBlocks₁₂) * L'.f) *ᵥ b' := by
    rw [mulVec_add, mulVec_mulVec, mulVec_mulVec, h11, h12]
  generalize S'.s11 *ᵥ a0 + S'.s12 *ᵥ b' = a' at e ⊢
  rw [hA] at e
  simp only [sub_mulVec, Matrix.sub_mul, mulVec_add, mulVec_mulVec, Matrix.mul_assoc] at e ⊢
  rw [sub_eq_iff_eq_add] at e
  rw [e]
  abel

/-- In a successful step the backward amplitude above the interface is determined by the amplitudes
below it. -/
theorem step_b_unique {S S' : SMat m} {L L' : Modes m} (h : stepS S L L' = .ok S')
    {a b a2 b2 a' b' : m → ℂ} (h1 : Match L L' a b a' b') (h2 : Match L L' a2 b2 a' b') :
    b = b2 := by
  obtain ⟨I, A, hI, -⟩ := stepS_ok h
  rw [((match_iff_I hI _ _ _ _).mp h1).2, ((match_iff_I hI _ _ _ _).mp h2).2]

/-! ### The loop -/

/-- The accumulation loop including the empty range. -/
noncomputable def loopS (layers : List (Modes m)) (i j : Int) : Except PyErr (SMat m) :=
  (pyRange i j).foldlM (stepAt layers) SMat.one

theorem loopS_self (layers : List (Modes m)) (i : Int) : loopS layers i i = .ok SMat.one := by
  simp [loopS, pyRange_self]

theorem loopS_succ (layers : List (Modes m)) (i j : ℕ) (h : i ≤ j) :
    loopS layers i ((j : Int) + 1) = (loopS layers i j >>= fun S => stepAt layers S j) := by
  simp only [loopS, pyRange_succ i j h, List.foldlM_append, List.foldlM_cons, List.foldlM_nil]
  rcases List.foldlM (stepAt layers) SMat.one (pyRange ↑i ↑j) with e | S
  · rfl
  · simp only [except_bind_ok]
    rcases stepAt layers S ↑j with e | S <;> rfl

theorem freshS_ok {layers : List (Modes m)} {i j : ℕ} {S : SMat m} :
    freshS layers i j = .ok S ↔ i < j ∧ loopS layers i j = .ok S := by
  unfold freshS
  split <;> rename_i h
  · rw [pyRange_eq_nil_iff] at h
    simp; omega
  · rw [pyRange_eq_nil_iff] at h
    simp only [loopS]
    constructor
    · intro e; exact ⟨by omega, e⟩
    · exact fun e => e.2

theorem stepAt_ok {layers : List (Modes m)} {S S' : SMat m} {j : ℕ} :
    stepAt layers S (j : Int) = .ok S' ↔
      ∃ L L', layers[j]? = some L ∧ layers[j + 1]? = some L' ∧ stepS S L L' = .ok S' := by
  unfold stepAt
  simp only [bind_eq_ok, pyGet_nat, pyGet_nat_succ]
  constructor
  · rintro ⟨L, h1, L', h2, h3⟩; exact ⟨L, L', h1, h2, h3⟩
  · rintro ⟨L, L', h1, h2, h3⟩; exact ⟨L, h1, L', h2, h3⟩

theorem loopS_succ_ok {layers : List (Modes m)} {i j : ℕ} (hij : i ≤ j) {S' : SMat m}
    (h : loopS layers i ((j + 1 : ℕ) : Int) = .ok S') :
    ∃ S L L', loopS layers i j = .ok S ∧ layers[j]? = some L ∧ layers[j + 1]? = some L' ∧
      stepS S L L' = .ok S' := by
  rw [Nat.cast_add, Nat.cast_one, loopS_succ layers i j hij, bind_eq_ok] at h
  obtain ⟨S, h1, h2⟩ := h
  obtain ⟨L, L', h3, h4, h5⟩ := stepAt_ok.mp h2
  exact ⟨S, L, L', h1, h3, h4, h5⟩

theorem consistent_mono {layers : List (Modes m)} {i j k : ℕ} (hjk : j ≤ k)
    {amp : ℕ → (m → ℂ) × (m → ℂ)} (h : Consistent layers i k amp) : Consistent layers i j amp :=
  fun l L L' h1 h2 h3 h4 => h l L L' h1 (lt_of_lt_of_le h2 hjk) h3 h4

/-- Soundness of the loop. -/
theorem loopS_rel (layers : List (Modes m)) (i : ℕ) :
    ∀ (j : ℕ) (_ : i ≤ j) (S : SMat m), loopS layers i j = .ok S →
      ∀ amp, Consistent layers i j amp →
        S.Rel (amp i).1 (amp i).2 (amp j).1 (amp j).2 := by
  intro j
  induction j with
  | zero =>
    intro hij S h amp _
    obtain rfl : i = 0 := by omega
    rw [loopS_self] at h
    cases h
    simp [SMat.Rel, SMat.one]
  | succ j ih =>
    intro hij S h amp hc
    rcases Nat.lt_or_ge j i with hlt | hge
    · obtain rfl : i = j + 1 := by omega
      rw [loopS_self] at h
      cases h
      simp [SMat.Rel, SMat.one]
    · obtain ⟨S0, L, L', h1, h2, h3, h4⟩ := loopS_succ_ok hge h
      exact step_forward h4 (ih hge S0 h1 amp (consistent_mono (Nat.le_succ j) hc))
        (hc j L L' hge (Nat.lt_succ_self j) h2 h3)

/-- Completeness of the loop: every pair of incoming amplitudes extends to a consistent assignment. -/
theorem loopS_exists (layers : List (Modes m)) (i : ℕ) :
    ∀ (j : ℕ) (_ : i ≤ j) (S : SMat m), loopS layers i j = .ok S →
      ∀ a b, ∃ amp, Consistent layers i j amp ∧ (amp i).1 = a ∧ (amp j).2 = b := by
  intro j
  induction j with
  | zero =>
    intro hij S h a b
    obtain rfl : i = 0 := by omega
    exact ⟨fun _ => (a, b), fun k L L' h1 h2 => absurd h2 (by omega), rfl, rfl⟩
  | succ j ih =>
    intro hij S h a b
    rcases Nat.lt_or_ge j i with hlt | hge
    · obtain rfl : i = j + 1 := by omega
      exact ⟨fun _ => (a, b), fun k L L' h1 h2 => absurd h2 (by omega), rfl, rfl⟩
    · obtain ⟨S0, L, L', h1, h2, h3, h4⟩ := loopS_succ_ok hge h
      obtain ⟨aj, bj, a', haj, ha', hm⟩ := step_backward h4 a b
      obtain ⟨amp, hc, hai, hbj⟩ := ih hge S0 h1 a bj
      have hr := loopS_rel layers i j hge S0 h1 amp hc
      have haj' : (amp j).1 = aj := by
        rw [← haj, hr.1, hai, hbj]
      refine ⟨fun k => if k = j + 1 then (a', b) else amp k, ?_, ?_, ?_⟩
      · intro k M M' k1 k2 k3 k4
        rcases Nat.lt_or_ge k j with hk | hk
        · have e1 : k ≠ j + 1 := by omega
          have e2 : k + 1 ≠ j + 1 := by omega
          simp only [e1, e2, if_false]
          exact hc k M M' k1 hk k3 k4
        · obtain rfl : k = j := by omega
          rw [h2] at k3; rw [h3] at k4
          cases k3; cases k4
          simp [haj', hbj, hm]
      · have : i ≠ j + 1 := by omega
        simp [this, hai]
      · simp

/-- Uniqueness of the loop's solution. -/
theorem loopS_unique (layers : List (Modes m)) (i : ℕ) :
    ∀ (j : ℕ) (_ : i ≤ j) (S : SMat m), loopS layers i j = .ok S →
      ∀ amp amp', Consistent layers i j amp → Consistent layers i j amp' →
        (amp i).1 = (amp' i).1 → (amp j).2 = (amp' j).2 →
        ∀ k, i ≤ k → k ≤ j → amp k = amp' k := by
  intro j
  induction j with
  | zero =>
    intro hij S h amp amp' hc hc' e1 e2 k hk1 hk2
    obtain rfl : i = 0 := by omega
    obtain rfl : k = 0 := by omega
    exact Prod.ext e1 e2
  | succ j ih =>
    intro hij S h amp amp' hc hc' e1 e2 k hk1 hk2
    rcases Nat.lt_or_ge j i with hlt | hge
    · obtain rfl : i = j + 1 := by omega
      obtain rfl : k = j + 1 := by omega
      exact Prod.ext e1 e2
    · have ea : (amp (j + 1)).1 = (amp' (j + 1)).1 := by
        rw [(loopS_rel layers i (j + 1) hij S h amp hc).1,
          (loopS_rel layers i (j + 1) hij S h amp' hc').1, e1, e2]
      obtain ⟨S0, L, L', h1, h2, h3, h4⟩ := loopS_succ_ok hge h
      have m1 := hc j L L' hge (Nat.lt_succ_self j) h2 h3
      have m2 := hc' j L L' hge (Nat.lt_succ_self j) h2 h3
      rw [← ea, ← e2] at m2
      have eb := step_b_unique h4 m1 m2
      rcases Nat.lt_or_ge k (j + 1) with hk | hk
      · exact ih hge S0 h1 amp amp' (consistent_mono (Nat.le_succ j) hc)
          (consistent_mono (Nat.le_succ j) hc') e1 eb k hk1 (by omega)
      · obtain rfl : k = j + 1 := by omega
        exact Prod.ext ea e2

end Nannos
