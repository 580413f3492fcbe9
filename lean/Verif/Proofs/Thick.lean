import Verif.Proofs.LastLayer
import Mathlib.Topology.Instances.Matrix

/-! Limits of the loop of `get_S_matrix` when a layer gets thick (C118). -/

namespace Nannos

open Matrix Spec Filter Topology

section
variable {m : Type} [Fintype m] [DecidableEq m]

/-- A step with given phases. -/
noncomputable def stepRaw (I : Matrix (m ⊕ m) (m ⊕ m) ℂ) (f f' : Matrix m m ℂ) (S : SMat m) : SMat m :=
  let A := I.toBlocks₁₁ - f * S.s12 * I.toBlocks₂₁
  let s11 := A⁻¹ * (f * S.s11)
  let s12 := A⁻¹ * ((f * S.s12 * I.toBlocks₂₂ - I.toBlocks₁₂) * f')
  ⟨s11, s12, S.s22 * I.toBlocks₂₁ * s11 + S.s21, S.s22 * I.toBlocks₂₁ * s12 + S.s22 * I.toBlocks₂₂ * f'⟩

theorem stepS_raw {S T : SMat m} {L M : Modes m} : stepS S L M = .ok T ↔
    ∃ I, buildI L M = .ok I ∧ (I.toBlocks₁₁ - L.f * S.s12 * I.toBlocks₂₁).det ≠ 0 ∧ T = stepRaw I L.f M.f S := by
  unfold stepS stepRaw
  simp only [bind_eq_ok, linSolve_ok, except_pure_eq_ok, Except.ok.injEq]
  constructor
  · rintro ⟨I, hI, X, ⟨hd, hX⟩, Y, ⟨-, hY⟩, rfl⟩
    exact ⟨I, hI, hd, by rw [hX, hY]⟩
  · rintro ⟨I, hI, hd, rfl⟩
    exact ⟨I, hI, _, ⟨hd, rfl⟩, _, ⟨hd, rfl⟩, rfl⟩

/-- Convergence of the four blocks. -/
structure Conv {α : Type} (F : Filter α) (S : α → SMat m) (T : SMat m) : Prop where
  s11 : Tendsto (fun x => (S x).s11) F (𝓝 T.s11)
  s12 : Tendsto (fun x => (S x).s12) F (𝓝 T.s12)
  s21 : Tendsto (fun x => (S x).s21) F (𝓝 T.s21)
  s22 : Tendsto (fun x => (S x).s22) F (𝓝 T.s22)

variable {α : Type} {F : Filter α}

theorem tendsto_mmul {A B : α → Matrix m m ℂ} {A0 B0 : Matrix m m ℂ} (hA : Tendsto A F (𝓝 A0)) (hB : Tendsto B F (𝓝 B0)) :
    Tendsto (fun x => A x * B x) F (𝓝 (A0 * B0)) :=
  hA.mul hB

theorem tendsto_minv {A : α → Matrix m m ℂ} {A0 : Matrix m m ℂ} (hA : Tendsto A F (𝓝 A0)) (h0 : A0.det ≠ 0) :
    Tendsto (fun x => (A x)⁻¹) F (𝓝 A0⁻¹) := by
  have hd : Tendsto (fun x => (A x).det) F (𝓝 A0.det) := ((continuous_id.matrix_det).tendsto A0).comp hA
  have ha : Tendsto (fun x => (A x).adjugate) F (𝓝 A0.adjugate) := ((continuous_id.matrix_adjugate).tendsto A0).comp hA
  simp only [Matrix.inv_def, Ring.inverse_eq_inv']
  exact (hd.inv₀ h0).smul ha

theorem stepRaw_conv {I : Matrix (m ⊕ m) (m ⊕ m) ℂ} {f f' : α → Matrix m m ℂ} {f0 f0' : Matrix m m ℂ} {S : α → SMat m} {S0 : SMat m}
    (hS : Conv F S S0) (hf : Tendsto f F (𝓝 f0)) (hf' : Tendsto f' F (𝓝 f0'))
    (h0 : (I.toBlocks₁₁ - f0 * S0.s12 * I.toBlocks₂₁).det ≠ 0) :
    (∀ᶠ x in F, (I.toBlocks₁₁ - f x * (S x).s12 * I.toBlocks₂₁).det ≠ 0) ∧
    Conv F (fun x => stepRaw I (f x) (f' x) (S x)) (stepRaw I f0 f0' S0) := by
  have cst : ∀ B : Matrix m m ℂ, Tendsto (fun _ : α => B) F (𝓝 B) := fun B => tendsto_const_nhds
  have h1 := tendsto_mmul hf hS.s12
  have hA : Tendsto (fun x => I.toBlocks₁₁ - f x * (S x).s12 * I.toBlocks₂₁) F (𝓝 (I.toBlocks₁₁ - f0 * S0.s12 * I.toBlocks₂₁)) :=
    (cst _).sub (tendsto_mmul h1 (cst _))
  have hi := tendsto_minv hA h0
  have e11 := tendsto_mmul hi (tendsto_mmul hf hS.s11)
  have e12 := tendsto_mmul hi (tendsto_mmul ((tendsto_mmul h1 (cst I.toBlocks₂₂)).sub (cst I.toBlocks₁₂)) hf')
  have hd : Tendsto (fun x => (I.toBlocks₁₁ - f x * (S x).s12 * I.toBlocks₂₁).det) F
      (𝓝 (I.toBlocks₁₁ - f0 * S0.s12 * I.toBlocks₂₁).det) := ((continuous_id.matrix_det).tendsto _).comp hA
  refine ⟨hd.eventually_ne h0, e11, e12, ?_, ?_⟩
  · exact (tendsto_mmul (tendsto_mmul hS.s22 (cst _)) e11).add hS.s21
  · exact (tendsto_mmul (tendsto_mmul hS.s22 (cst _)) e12).add (tendsto_mmul (tendsto_mmul hS.s22 (cst _)) hf')

/-- Lists of layers `l x` which differ from `l0` by the thickness of layer `k`, whose phases tend to zero. -/
structure Thickening (F : Filter α) (k : ℕ) (l0 : List (Modes m)) (l : α → List (Modes m)) : Prop where
  other : ∀ n, n ≠ k → ∀ x, (l x)[n]? = l0[n]?
  layer : ∀ L, l0[k]? = some L → ∃ L' : α → Modes m, (∀ x, (l x)[k]? = some (L' x) ∧ ThicknessOnly L (L' x)) ∧
    Tendsto (fun x => (L' x).f) F (𝓝 0)

theorem buildI_thick {L L' M M' : Modes m} (hL : ThicknessOnly L L') (hM : ThicknessOnly M M') : buildI L' M' = buildI L M := by
  unfold buildI
  rw [buildM_same hL, buildM_same hM]

omit [Fintype m] [DecidableEq m] in
theorem ThicknessOnly.refl (L : Modes m) : ThicknessOnly L L := ⟨rfl, rfl, rfl⟩

theorem loopS_upper {k : ℕ} {l0 : List (Modes m)} {l : α → List (Modes m)} (h : Thickening F k l0 l) :
    ∀ n, n < k → ∀ S, loopS l0 (0 : ℕ) (n : ℕ) = .ok S → ∀ x, loopS (l x) (0 : ℕ) (n : ℕ) = .ok S := by
  intro n
  induction n with
  | zero =>
    intro _ S hS x
    erw [loopS_self] at hS ⊢
    exact hS
  | succ n ih =>
    intro hn S hS x
    obtain ⟨S0, L, M, h1, h2, h3, h4⟩ := loopS_succ_ok (Nat.zero_le _) hS
    rw [Nat.cast_add, Nat.cast_one, loopS_succ _ _ _ (Nat.zero_le _), ih (by omega) S0 h1 x, except_bind_ok]
    exact stepAt_ok.mpr ⟨L, M, by rw [h.other n (by omega), h2], by rw [h.other (n + 1) (by omega), h3], h4⟩

/-- Down to the thick layer. -/
theorem loopS_to_thick {k : ℕ} (hk : 0 < k) {l0 : List (Modes m)} {l : α → List (Modes m)} (h : Thickening F k l0 l) {U : SMat m}
    (hU : loopS l0 (0 : ℕ) (k : ℕ) = .ok U) :
    ∃ S : α → SMat m, (∀ x, loopS (l x) (0 : ℕ) (k : ℕ) = .ok (S x)) ∧ Conv F S ⟨U.s11, 0, U.s21, 0⟩ := by
  obtain ⟨n, rfl⟩ : ∃ n, k = n + 1 := ⟨k - 1, by omega⟩
  obtain ⟨S0, L, M, h1, h2, h3, h4⟩ := loopS_succ_ok (Nat.zero_le _) hU
  obtain ⟨M', hM, hlim⟩ := h.layer M h3
  obtain ⟨I, hI, hd, rfl⟩ := stepS_raw.mp h4
  refine ⟨fun x => stepRaw I L.f (M' x).f S0, fun x => ?_, ?_⟩
  · rw [Nat.cast_add, Nat.cast_one, loopS_succ _ _ _ (Nat.zero_le _), loopS_upper h n (by omega) S0 h1 x, except_bind_ok]
    refine stepAt_ok.mpr ⟨L, M' x, by rw [h.other n (by omega), h2], (hM x).1, ?_⟩
    exact stepS_raw.mpr ⟨I, by rw [buildI_thick (ThicknessOnly.refl L) (hM x).2, hI], hd, rfl⟩
  · have hc : Conv F (fun _ : α => S0) S0 := ⟨tendsto_const_nhds, tendsto_const_nhds, tendsto_const_nhds, tendsto_const_nhds⟩
    have := (stepRaw_conv hc tendsto_const_nhds hlim hd).2
    convert this using 1
    simp [stepRaw]

/-- Below the thick layer. -/
theorem loopS_thick {k : ℕ} (hk : 0 < k) {l0 : List (Modes m)} {l : α → List (Modes m)} (h : Thickening F k l0 l) {U : SMat m}
    (hU : loopS l0 (0 : ℕ) (k : ℕ) = .ok U) : ∀ n, k < n → ∀ B, loopS l0 (k : ℕ) (n : ℕ) = .ok B →
    ∃ S : α → SMat m, (∀ᶠ x in F, loopS (l x) (0 : ℕ) (n : ℕ) = .ok (S x)) ∧ Conv F S ⟨0, B.s12, U.s21, 0⟩ := by
  intro n
  induction n with
  | zero => intro hn; omega
  | succ n ih =>
    intro hn B hB
    obtain ⟨B0, L, M, h1, h2, h3, h4⟩ := loopS_succ_ok (by omega) hB
    obtain ⟨I, hI, hd, rfl⟩ := stepS_raw.mp h4
    by_cases hkn : k = n
    · subst hkn
      obtain ⟨S, s1, s2⟩ := loopS_to_thick hk h hU
      obtain ⟨L', hL, hlim⟩ := h.layer L h2
      erw [loopS_self] at h1
      obtain rfl := Except.ok.inj h1
      have hd' : (I.toBlocks₁₁ - (0 : Matrix m m ℂ) * (⟨U.s11, 0, U.s21, 0⟩ : SMat m).s12 * I.toBlocks₂₁).det ≠ 0 := by
        simpa [SMat.one] using hd
      obtain ⟨g1, g2⟩ := stepRaw_conv (f' := fun _ => M.f) s2 hlim tendsto_const_nhds hd'
      refine ⟨fun x => stepRaw I (L' x).f M.f (S x), ?_, ?_⟩
      · filter_upwards [g1] with x hx
        rw [Nat.cast_add, Nat.cast_one, loopS_succ _ _ _ (Nat.zero_le _), s1 x, except_bind_ok]
        refine stepAt_ok.mpr ⟨L' x, M, (hL x).1, by rw [h.other (k + 1) (by omega), h3], ?_⟩
        exact stepS_raw.mpr ⟨I, by rw [buildI_thick (hL x).2 (ThicknessOnly.refl M), hI], hx, rfl⟩
      · convert g2 using 1
        simp [stepRaw, SMat.one]
    · obtain ⟨S, s1, s2⟩ := ih (by omega) B0 h1
      obtain ⟨g1, g2⟩ := stepRaw_conv (f := fun _ => L.f) (f' := fun _ => M.f) s2 tendsto_const_nhds tendsto_const_nhds hd
      refine ⟨fun x => stepRaw I L.f M.f (S x), ?_, ?_⟩
      · filter_upwards [g1, s1] with x hx hx'
        rw [Nat.cast_add, Nat.cast_one, loopS_succ _ _ _ (Nat.zero_le _), hx', except_bind_ok]
        refine stepAt_ok.mpr ⟨L, M, by rw [h.other n (by omega), h2], by rw [h.other (n + 1) (by omega), h3], ?_⟩
        exact stepS_raw.mpr ⟨I, hI, hx, rfl⟩
      · convert g2 using 1
        simp [stepRaw]

end

end Nannos
