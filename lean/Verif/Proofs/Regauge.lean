import Verif.Proofs.Pixelated
import Verif.Proofs.Total

/-! Another choice of modes: what can be computed with one can be computed with the other (C58). -/

namespace Nannos

open Matrix Spec

section
variable {m : Type} [Fintype m] [DecidableEq m]

/-- The modes of `L'` are combinations of the modes of `L` with the same propagation constants. -/
structure Regauge (L L' : Modes m) (C : Matrix m m ℂ) : Prop where
  det : C.det ≠ 0
  phi : L'.phi = L.phi * C
  q : ∀ i j, C i j ≠ 0 → L'.q j = L.q i
  Q : L.Q = L'.Q
  z : L.z = L'.z

theorem Regauge.diag {L L' : Modes m} {C} (h : Regauge L L' C) (g : ℂ → ℂ) :
    (diagonal fun i => g (L.q i)) * C = C * diagonal fun i => g (L'.q i) := by
  ext i j
  rw [diagonal_mul, mul_diagonal]
  by_cases h0 : C i j = 0
  · simp [h0]
  · rw [h.q i j h0]; ring

theorem Regauge.f {L L' : Modes m} {C} (h : Regauge L L' C) : L.f * C = C * L'.f := by
  have := h.diag fun q => Complex.exp (Complex.I * q * (L.z : ℂ))
  unfold Modes.f phasor
  rw [← h.z]
  exact this

theorem Regauge.f_inv {L L' : Modes m} {C} (h : Regauge L L' C) : L'.f * C⁻¹ = C⁻¹ * L.f := by
  have hU := det_unit h.det
  have := congrArg (fun X => C⁻¹ * X * C⁻¹) h.f
  simp only [Matrix.mul_assoc, mul_nonsing_inv _ hU, Matrix.mul_one] at this
  rw [← Matrix.mul_assoc C⁻¹ C, nonsing_inv_mul _ hU, Matrix.one_mul] at this
  exact this.symm

theorem Regauge.q_ne {L L' : Modes m} {C} (h : Regauge L L' C) (hq : ∀ i, L.q i ≠ 0) (j : m) : L'.q j ≠ 0 := by
  have : ∃ i, C i j ≠ 0 := by
    by_contra hcon
    push Not at hcon
    exact h.det (det_eq_zero_of_column_eq_zero j hcon)
  obtain ⟨i, hi⟩ := this
  rw [h.q i j hi]; exact hq i

theorem Regauge.amat {L L' : Modes m} {C} (h : Regauge L L' C) : L'.amat = L.amat * C := by
  have e : ∀ K : Modes m, K.amat = K.Q * (K.phi * diagonal fun i => 1 / K.q i) := by
    intro K
    unfold Modes.amat
    congr 1
    ext i j
    rw [mul_diagonal]; rfl
  rw [e, e, h.phi, ← h.Q, Matrix.mul_assoc L.Q, Matrix.mul_assoc L.phi, Matrix.mul_assoc L.phi,
    h.diag (fun q => 1 / q)]

/-- Same change of basis forwards and backwards. -/
def dbl (C : Matrix m m ℂ) : Matrix (m ⊕ m) (m ⊕ m) ℂ := fromBlocks C 0 0 C

theorem dbl_inv {C : Matrix m m ℂ} (h : C.det ≠ 0) : (dbl C)⁻¹ = dbl C⁻¹ := by
  refine inv_eq_right_inv ?_
  unfold dbl
  rw [fromBlocks_multiply]
  simp [mul_nonsing_inv _ (det_unit h)]

theorem dbl_det {C : Matrix m m ℂ} (h : C.det ≠ 0) : (dbl C).det ≠ 0 := by
  unfold dbl
  rw [det_fromBlocks_zero₁₂]
  exact mul_ne_zero h h

theorem Regauge.M {L L' : Modes m} {C} (h : Regauge L L' C) : L'.M = L.M * dbl C := by
  unfold Modes.M dbl
  rw [fromBlocks_multiply, h.amat, h.phi]
  simp

theorem Regauge.buildI {L L' N N' : Modes m} {C D} (h : Regauge L L' C) (h' : Regauge N N' D) {I}
    (hI : buildI L N = .ok I) : buildI L' N' = .ok (dbl C⁻¹ * I * dbl D) := by
  rw [buildI_ok] at hI ⊢
  obtain ⟨q, q', hd, rfl⟩ := hI
  refine ⟨h.q_ne q, h'.q_ne q', ?_, ?_⟩
  · rw [h.M, det_mul]
    exact mul_ne_zero hd (dbl_det h.det)
  · rw [h.M, h'.M, Matrix.mul_inv_rev, dbl_inv h.det]
    simp only [Matrix.mul_assoc]

/-- Scattering matrix for the other choice of modes in the first and last layers. -/
noncomputable def SMat.conj (C D : Matrix m m ℂ) (S : SMat m) : SMat m :=
  ⟨D⁻¹ * S.s11 * C, D⁻¹ * S.s12 * D, C⁻¹ * S.s21 * C, C⁻¹ * S.s22 * D⟩

theorem SMat.conj_one {C : Matrix m m ℂ} (h : C.det ≠ 0) : SMat.conj C C SMat.one = SMat.one := by
  unfold SMat.conj SMat.one
  simp [nonsing_inv_mul _ (det_unit h)]

theorem conj_mid {C : Matrix m m ℂ} (h : C.det ≠ 0) (A B X Y : Matrix m m ℂ) :
    (A * X * C) * (C⁻¹ * Y * B) = A * (X * Y) * B := by
  simp only [Matrix.mul_assoc]
  rw [← Matrix.mul_assoc C, mul_nonsing_inv _ (det_unit h), Matrix.one_mul]

theorem Regauge.step {L L' N N' : Modes m} {C0 C D} (h : Regauge L L' C) (h' : Regauge N N' D) {S T : SMat m}
    (hS : stepS S L N = .ok T) : stepS (SMat.conj C0 C S) L' N' = .ok (SMat.conj C0 D T) := by
  unfold stepS at hS
  simp only [bind_eq_ok, linSolve_ok, except_pure_eq_ok, Except.ok.injEq] at hS
  obtain ⟨I, hI, X, ⟨hd, hX⟩, Y, ⟨-, hY⟩, rfl⟩ := hS
  have hC := det_unit h.det
  have hD := det_unit h'.det
  have hI' := h.buildI h' hI
  have hCi : (C⁻¹).det ≠ 0 := by
    rw [det_nonsing_inv]; exact (hC.ringInverse).ne_zero
  have b : dbl C⁻¹ * I * dbl D = fromBlocks (C⁻¹ * I.toBlocks₁₁ * D) (C⁻¹ * I.toBlocks₁₂ * D)
      (C⁻¹ * I.toBlocks₂₁ * D) (C⁻¹ * I.toBlocks₂₂ * D) := by
    nth_rewrite 1 [← fromBlocks_toBlocks I]
    unfold dbl
    rw [fromBlocks_multiply, fromBlocks_multiply]
    simp
  have f1 : ∀ Z, L'.f * (C⁻¹ * Z) = C⁻¹ * (L.f * Z) := by
    intro Z; rw [← Matrix.mul_assoc, h.f_inv, Matrix.mul_assoc]
  have hA : C⁻¹ * I.toBlocks₁₁ * D - L'.f * (SMat.conj C0 C S).s12 * (C⁻¹ * I.toBlocks₂₁ * D) =
      C⁻¹ * (I.toBlocks₁₁ - L.f * S.s12 * I.toBlocks₂₁) * D := by
    have : L'.f * (SMat.conj C0 C S).s12 = C⁻¹ * (L.f * S.s12) * C := by
      simp only [SMat.conj, Matrix.mul_assoc, f1]
    rw [this, conj_mid h.det, Matrix.mul_sub, Matrix.sub_mul]
  have hdet : (C⁻¹ * (I.toBlocks₁₁ - L.f * S.s12 * I.toBlocks₂₁) * D).det ≠ 0 := by
    rw [det_mul, det_mul]
    exact mul_ne_zero (mul_ne_zero hCi hd) h'.det
  have hinv : (C⁻¹ * (I.toBlocks₁₁ - L.f * S.s12 * I.toBlocks₂₁) * D)⁻¹ =
      D⁻¹ * (I.toBlocks₁₁ - L.f * S.s12 * I.toBlocks₂₁)⁻¹ * C := by
    rw [Matrix.mul_inv_rev, Matrix.mul_inv_rev, nonsing_inv_nonsing_inv _ hC, ← Matrix.mul_assoc]
  have e1 : D⁻¹ * X * C0 = (C⁻¹ * (I.toBlocks₁₁ - L.f * S.s12 * I.toBlocks₂₁) * D)⁻¹ *
      (L'.f * (SMat.conj C0 C S).s11) := by
    have : L'.f * (SMat.conj C0 C S).s11 = C⁻¹ * (L.f * S.s11) * C0 := by
      simp only [SMat.conj, Matrix.mul_assoc, f1]
    rw [hinv, this, conj_mid h.det, hX]
  have e2 : D⁻¹ * Y * D = (C⁻¹ * (I.toBlocks₁₁ - L.f * S.s12 * I.toBlocks₂₁) * D)⁻¹ *
      ((L'.f * (SMat.conj C0 C S).s12 * (C⁻¹ * I.toBlocks₂₂ * D) - C⁻¹ * I.toBlocks₁₂ * D) * N'.f) := by
    have : L'.f * (SMat.conj C0 C S).s12 = C⁻¹ * (L.f * S.s12) * C := by
      simp only [SMat.conj, Matrix.mul_assoc, f1]
    rw [this, conj_mid h.det, ← Matrix.sub_mul, ← Matrix.mul_sub, Matrix.mul_assoc _ D N'.f, ← h'.f, hinv,
      ← Matrix.mul_assoc _ N.f D, Matrix.mul_assoc C⁻¹ _ N.f, conj_mid h.det, hY]
  unfold stepS
  rw [hI', except_bind_ok, b]
  simp only [toBlocks_fromBlocks₁₁, toBlocks_fromBlocks₁₂, toBlocks_fromBlocks₂₁, toBlocks_fromBlocks₂₂]
  rw [hA, (linSolve_ok _ _ _).mpr ⟨hdet, e1⟩, except_bind_ok, (linSolve_ok _ _ _).mpr ⟨hdet, e2⟩, except_bind_ok,
    except_pure_eq_ok]
  congr 1
  have s22 : (SMat.conj C0 C S).s22 = C0⁻¹ * S.s22 * C := rfl
  have s21 : (SMat.conj C0 C S).s21 = C0⁻¹ * S.s21 * C0 := rfl
  rw [s22, s21, conj_mid h.det, conj_mid h.det, conj_mid h'.det, conj_mid h'.det]
  unfold SMat.conj
  simp only [SMat.mk.injEq, true_and]
  constructor
  · rw [Matrix.mul_add, Matrix.add_mul]
  · rw [Matrix.mul_add, Matrix.add_mul]
    congr 1
    simp only [Matrix.mul_assoc, h'.f]

/-- Two stacks whose layers differ by the choice of modes. -/
structure RegaugeStack (layers layers' : List (Modes m)) (C : ℕ → Matrix m m ℂ) : Prop where
  len : layers.length = layers'.length
  at' : ∀ (k : ℕ) L L', layers[k]? = some L → layers'[k]? = some L' → Regauge L L' (C k)

theorem RegaugeStack.loop {layers layers' : List (Modes m)} {C} (h : RegaugeStack layers layers' C) {i : ℕ}
    (hi : (C i).det ≠ 0) : ∀ {j : ℕ} {S : SMat m}, i ≤ j → loopS layers (i : ℕ) (j : ℤ) = .ok S →
      loopS layers' (i : ℕ) (j : ℤ) = .ok (SMat.conj (C i) (C j) S) := by
  intro j S hij
  induction j, hij using Nat.le_induction generalizing S with
  | base =>
    intro hS
    rw [loopS_self] at hS ⊢
    cases hS
    rw [SMat.conj_one hi]
  | succ j hij ih =>
    intro hS
    obtain ⟨S1, L, N, h1, h2, h3, h4⟩ := loopS_succ_ok hij hS
    have hl := h.len
    obtain ⟨L', hL'⟩ : ∃ L', layers'[j]? = some L' := by
      have := (List.getElem?_eq_some_iff.mp h2).1
      exact ⟨_, List.getElem?_eq_getElem (hl ▸ this)⟩
    obtain ⟨N', hN'⟩ : ∃ N', layers'[j + 1]? = some N' := by
      have := (List.getElem?_eq_some_iff.mp h3).1
      exact ⟨_, List.getElem?_eq_getElem (hl ▸ this)⟩
    rw [Nat.cast_add, Nat.cast_one, loopS_succ _ _ _ hij, ih h1, except_bind_ok]
    exact stepAt_ok.mpr ⟨L', N', hL', hN', (h.at' j L L' h2 hL').step (h.at' _ N N' h3 hN') h4⟩

theorem RegaugeStack.fresh {layers layers' : List (Modes m)} {C} (h : RegaugeStack layers layers' C) {i j : ℕ}
    {S : SMat m} (hS : freshS layers (i : ℕ) (j : ℕ) = .ok S) :
    freshS layers' (i : ℕ) (j : ℕ) = .ok (SMat.conj (C i) (C j) S) := by
  obtain ⟨h1, h2⟩ := freshS_ok.mp hS
  have hi : (C i).det ≠ 0 := by
    obtain ⟨k, rfl⟩ : ∃ k, j = k + 1 := ⟨j - 1, by omega⟩
    have key : ∀ k : ℕ, i ≤ k → ∀ T, loopS layers (i : ℕ) ((k + 1 : ℕ) : ℤ) = .ok T → (C i).det ≠ 0 := by
      intro k hk
      induction k, hk using Nat.le_induction with
      | base =>
        intro T hT
        obtain ⟨S1, L, N, a1, a2, a3, a4⟩ := loopS_succ_ok le_rfl hT
        have := (List.getElem?_eq_some_iff.mp a2).1
        exact (h.at' i L _ a2 (List.getElem?_eq_getElem (h.len ▸ this))).det
      | succ k hk ih =>
        intro T hT
        obtain ⟨S1, L, N, a1, a2, a3, a4⟩ := loopS_succ_ok (by omega) hT
        exact ih S1 a1
    exact key k (by omega) S h2
  exact freshS_ok.mpr ⟨h1, h.loop hi h1.le h2⟩

end

section
variable {E E' : Ext} {c : Static} {mats : ℕ → LayerSpec}

/-- Another solver: it returns modes whenever the first does, and independent ones if those of the first
are. -/
def AsGood (E E' : Ext) : Prop := ∀ n (M : Matrix (Idx n) (Idx n) ℂ) w v, E.eig n M = .ok (w, v) →
  ∃ w' v', E'.eig n M = .ok (w', v') ∧ (v.det ≠ 0 → v'.det ≠ 0)

/-- Attributes left by the two solvers. -/
structure AttrRel {nh : ℕ} (a a' : LayerAttr nh) : Prop where
  matrix : a.matrix = a'.matrix
  pat : a.pat = a'.pat
  Qeps : a.Qeps = a'.Qeps
  eig : ∀ ev, a.eig = some ev → ∃ ev', a'.eig = some ev' ∧ (ev.2.det ≠ 0 → ev'.2.det ≠ 0)

theorem AsGood.solve (h : AsGood E E') {M : Matrix (Idx c.nh) (Idx c.nh) ℂ} {ev} (he : solveEigenproblem E M = .ok ev) :
    ∃ ev', solveEigenproblem E' M = .ok ev' ∧ (ev.2.det ≠ 0 → ev'.2.det ≠ 0) := by
  unfold solveEigenproblem at he ⊢
  rw [bind_eq_ok] at he
  obtain ⟨⟨w, v⟩, h1, h2⟩ := he
  obtain ⟨w', v', h3, h4⟩ := h _ _ _ _ h1
  simp only [except_pure_eq_ok, Except.ok.injEq] at h2
  subst h2
  rw [h3]
  exact ⟨_, rfl, h4⟩

theorem stepOut_rel (hb : ∀ L, buildPure E' c L = buildPure E c L) (hg : AsGood E E') {L : LayerSpec}
    {Ao Ao' : LayerAttr c.nh} (ho : AttrRel Ao Ao') (h : (stepOut E c L Ao).1 = .ok ()) :
    (stepOut E' c L Ao').1 = .ok () ∧ ∀ a a', AttrRel a a' →
      AttrRel ((stepOut E c L Ao).2 a) ((stepOut E' c L Ao').2 a') := by
  unfold stepOut at h ⊢
  by_cases hc : L.iscopy = true
  · simp only [hc, if_true] at h ⊢
    rw [← ho.matrix, ← ho.pat, ← ho.Qeps]
    rcases hM : Ao.matrix with _ | M
    · rw [hM] at h; simp at h
    rcases hp : Ao.pat with _ | p
    · rw [hM, hp] at h; simp at h
    rcases hQ : Ao.Qeps with _ | Q
    · rw [hM, hp, hQ] at h; simp at h
    rw [hM, hp, hQ] at h
    dsimp only at h ⊢
    by_cases hu : L.isUniform = true
    · simp only [hu, if_true] at h ⊢
      rcases he : solveUniform L c.omega c.kx c.ky with e | ev
      · rw [he] at h; simp at h
      · exact ⟨rfl, fun a a' _ => ⟨rfl, rfl, rfl, fun ev' h' => ⟨ev', h', fun h => h⟩⟩⟩
    · simp only [hu, Bool.false_eq_true, if_false] at h ⊢
      rcases he : Ao.eig with _ | ev
      · rw [he] at h; simp [attr] at h
      · obtain ⟨ev', h1, h2⟩ := ho.eig ev he
        rw [h1]
        refine ⟨rfl, fun a a' _ => ⟨rfl, rfl, rfl, fun ev2 h' => ⟨ev', rfl, ?_⟩⟩⟩
        cases h'
        exact h2
  · simp only [hc, Bool.false_eq_true, if_false] at h ⊢
    rw [hb]
    rcases hB : buildPure E c L with e | (Q | ⟨M, p, Q⟩)
    · rw [hB] at h; simp at h
    · rw [hB] at h
      dsimp only at h ⊢
      rcases he : solveUniform L c.omega c.kx c.ky with e | ev
      · rw [he] at h; simp at h
      · exact ⟨rfl, fun a a' ha => ⟨ha.matrix, ha.pat, rfl, fun ev' h' => ⟨ev', h', fun h => h⟩⟩⟩
    · rw [hB] at h
      dsimp only at h ⊢
      rcases he : solveEigenproblem E M with e | ev
      · rw [he] at h; simp at h
      · obtain ⟨ev', h1, h2⟩ := hg.solve he
        rw [h1]
        refine ⟨rfl, fun a a' _ => ⟨rfl, rfl, rfl, fun ev2 h' => ⟨ev', rfl, ?_⟩⟩⟩
        cases h'
        exact h2

theorem solveAll_rel (hb : ∀ L, buildPure E' c L = buildPure E c L) (hg : AsGood E E') :
    ∀ (rs : List ℕ) (d d' : Dyn c.nh), d.mats = d'.mats → (∀ r, AttrRel (d.attrs r) (d'.attrs r)) →
      (solveAll E c rs d).1 = .ok () → (solveAll E' c rs d').1 = .ok () ∧
        ∀ r, AttrRel ((solveAll E c rs d).2.attrs r) ((solveAll E' c rs d').2.attrs r) := by
  intro rs
  induction rs with
  | nil => intro d d' _ hr _; exact ⟨rfl, hr⟩
  | cons r rs ih =>
    intro d d' hm hr hok
    rw [solveAll_cons, solveLayer_eq] at hok ⊢
    rw [solveAll_cons, solveLayer_eq]
    rcases h1 : (stepOut E c (d.mats r) (d.attrs (d.mats r).original)).1 with e | u
    · rw [h1] at hok; simp at hok
    obtain ⟨h2, h3⟩ := stepOut_rel hb hg (hr (d.mats r).original) h1
    rw [← hm, h2]
    rw [h1] at hok
    dsimp only at hok ⊢
    refine ih _ _ hm (fun s => ?_) hok
    by_cases hs : s = r
    · subst hs
      rw [setAttr_same, setAttr_same]
      exact h3 _ _ (hr s)
    · rw [setAttr_ne _ hs, setAttr_ne _ hs]
      exact hr s

/-- The whole simulation with the other solver. -/
theorem solveSpec_rel (hb : ∀ L, buildPure E' c L = buildPure E c L) (hg : AsGood E E')
    {A0 A1 A1' : ℕ → LayerAttr c.nh} {res'}
    (hs : SolveSpec E c mats A0 A1 (.ok ())) (hs' : SolveSpec E' c mats A0 A1' res') :
    res' = .ok () ∧ ∀ r, AttrRel (A1 r) (A1' r) := by
  have h1 := hs.run (Dyn.fresh mats A0) rfl (.inl rfl)
  have h2 := hs'.run (Dyn.fresh mats A0) rfl (.inl rfl)
  obtain ⟨h3, h4⟩ := solveAll_rel hb hg c.stack (Dyn.fresh mats A0) (Dyn.fresh mats A0) rfl
    (fun r => ⟨rfl, rfl, rfl, fun ev h => ⟨ev, h, fun h => h⟩⟩) (by rw [h1])
  rw [h1, h2] at h4
  rw [h2] at h3
  exact ⟨h3, h4⟩

/-- The change of modes, layer by layer. -/
theorem SameMedia.regauge (h : SameMedia E E' c mats mats) {A A' : ℕ → LayerAttr c.nh}
    (hf : ∀ r ∈ c.stack, LayerFix E c mats A r) (hf' : ∀ r ∈ c.stack, LayerFix E' c mats A' r)
    (hrel : ∀ r, AttrRel (A r) (A' r)) (hs : Steps (stackModes c mats A)) :
    ∃ C, RegaugeStack (stackModes c mats A) (stackModes c mats A') C ∧ ∀ k, (C k).det ≠ 0 := by
  have hlen := stackModes_length c mats A
  have hlen' := stackModes_length c mats A'
  have hm := solved_medium (stack := c.stack) h.mu h.eigc h.placed hf
  have hm' := solved_medium (stack := c.stack) h.mu' h.eigc' h.placed' hf'
  have key : ∀ k : ℕ, ∃ C : Matrix (Idx c.nh) (Idx c.nh) ℂ, C.det ≠ 0 ∧ ∀ L L',
      (stackModes c mats A)[k]? = some L → (stackModes c mats A')[k]? = some L' → Regauge L L' C := by
    intro k
    rcases hr : c.stack[k]? with _ | r
    · refine ⟨1, by simp, fun L L' hL => ?_⟩
      unfold stackModes at hL
      rw [List.getElem?_map, hr] at hL
      simp at hL
    have hrm := List.mem_of_getElem? hr
    have g : (stackModes c mats A)[k]? = some (modesD (mats r) (A r)) := by
      unfold stackModes; rw [List.getElem?_map, hr]; rfl
    have g' : (stackModes c mats A')[k]? = some (modesD (mats r) (A' r)) := by
      unfold stackModes; rw [List.getElem?_map, hr]; rfl
    obtain ⟨P, e, m1, m2⟩ := hm k r hr
    obtain ⟨P', e', m1', m2'⟩ := hm' k r hr
    obtain ⟨rfl, rfl⟩ := h.med r hrm P e P' e' m1 m1'
    obtain ⟨ev, v1, v2⟩ := m2.eig
    obtain ⟨ev', v1', v2'⟩ := m2'.eig
    obtain ⟨ew, w1, w2⟩ := solved_q (stack := c.stack) h.placed hf _ r hr
    obtain ⟨ew', w1', w2'⟩ := solved_q (stack := c.stack) h.placed' hf' _ r hr
    obtain rfl := Option.some.inj (v1.symm.trans w1)
    obtain rfl := Option.some.inj (v1'.symm.trans w1')
    have hL : modesD (mats r) (A r) = ⟨ev.1, ev.2, (c.omega : ℂ) ^ 2 • 1 - kEps c.kx c.ky e⁻¹, (mats r).thickness⟩ := by
      unfold modesD; rw [v1, m2.Q]; rfl
    have hL' : modesD (mats r) (A' r) = ⟨ev'.1, ev'.2, (c.omega : ℂ) ^ 2 • 1 - kEps c.kx c.ky e⁻¹, (mats r).thickness⟩ := by
      unfold modesD; rw [v1', m2'.Q]; rfl
    have hk := (List.getElem?_eq_some_iff.mp hr).1
    have hdet : ev.2.det ≠ 0 := by
      rcases Nat.lt_or_ge (k + 1) (stackModes c mats A).length with hlt | hge
      · obtain ⟨S, S', hst⟩ := hs.2 k _ _ g (List.getElem?_eq_getElem hlt)
        have := phi_det_left hst
        rw [hL] at this; exact this
      · obtain ⟨j, rfl⟩ : ∃ j, k = j + 1 := ⟨k - 1, by have := hs.1; omega⟩
        obtain ⟨S, S', hst⟩ := hs.2 j _ _ (List.getElem?_eq_getElem (by omega)) g
        rw [hL] at hst
        exact phi_det_right hst v2 fun i j hij => by
          dsimp only at hij ⊢
          rw [w2 i, w2 j, hij]
    have hdet' : ev'.2.det ≠ 0 := by
      obtain ⟨ev2, x1, x2⟩ := (hrel r).eig ev v1
      obtain rfl := Option.some.inj (v1'.symm.trans x1)
      exact x2 hdet
    have hU := det_unit hdet
    have hq : ∀ i, ev.1 i ≠ 0 := by
      have := hs.q g
      rw [hL] at this; exact this
    set G := ev.2⁻¹ * ev'.2 with hG
    have e1 : ev'.2 = ev.2 * G := by rw [hG, ← Matrix.mul_assoc, mul_nonsing_inv _ hU, Matrix.one_mul]
    have h1 : (diagonal fun k => ev.1 k ^ 2) * G = G * diagonal fun k => ev'.1 k ^ 2 := by
      have e2 : ev.2 * ((diagonal fun k => ev.1 k ^ 2) * G) = ev.2 * (G * diagonal fun k => ev'.1 k ^ 2) := by
        rw [← Matrix.mul_assoc, ← v2, Matrix.mul_assoc, ← e1, v2', e1, Matrix.mul_assoc]
      have e3 := congrArg (ev.2⁻¹ * ·) e2
      simpa [← Matrix.mul_assoc, nonsing_inv_mul _ hU] using e3
    have hGdet : G.det ≠ 0 := by
      rw [e1, det_mul] at hdet'
      exact right_ne_zero_of_mul hdet'
    refine ⟨G, hGdet, fun L L' x x' => ?_⟩
    rw [g] at x
    rw [g'] at x'
    obtain rfl := Option.some.inj x
    obtain rfl := Option.some.inj x'
    rw [hL, hL']
    refine ⟨hGdet, e1, fun i j hij => ?_, rfl, rfl⟩
    dsimp only
    have h2 := congrFun (congrFun h1 i) j
    rw [diagonal_mul, mul_diagonal] at h2
    have h3 : ev'.1 j ^ 2 = ev.1 i ^ 2 := by
      have : G i j * (ev'.1 j ^ 2) = G i j * (ev.1 i ^ 2) := by rw [← h2]; ring
      exact mul_left_cancel₀ hij this
    rw [w2 i, w2' j, h3]
  choose C h1 h2 using key
  exact ⟨C, ⟨by omega, h2⟩, h1⟩

theorem SameMedia.nat_index {i : ℤ} (hpos : 0 < c.stack.length) :
    ((c.stack.length : ℤ) - 1) = ((c.stack.length - 1 : ℕ) : ℤ) := by omega

/-- If efficiencies can be computed with one solver, they can with the other. -/
theorem SameMedia.efficiencies_succeed (h : SameMedia E E' c mats mats)
    (hb : ∀ L, buildPure E' c L = buildPure E c L) (hg : AsGood E E') (hnd : c.stack.Nodup) (hom : c.omega ≠ 0)
    {RT} (hist hist' : List (Call c.nh))
    (hRT : (efficienciesByOrder E c (afterCalls E c hist (Dyn.fresh mats (unsolved c.nh)))).1 = .ok RT) :
    ∃ RT', (efficienciesByOrder E' c (afterCalls E' c hist' (Dyn.fresh mats (unsolved c.nh)))).1 = .ok RT' := by
  obtain ⟨A1, res, hs, -⟩ := solveSpec_of_noStale (E := E) (mats := mats) hnd
    (noStale_unsolved (c := c) mats c.stack)
  obtain ⟨A1', res', hs', -⟩ := solveSpec_of_noStale (E := E') (mats := mats) hnd
    (noStale_unsolved (c := c) mats c.stack)
  have h0 : Inv E c mats (unsolved c.nh) A1 res (Dyn.fresh mats (unsolved c.nh)) := inv_fresh _ (.inl rfl)
  have h0' : Inv E' c mats (unsolved c.nh) A1' res' (Dyn.fresh mats (unsolved c.nh)) := inv_fresh _ (.inl rfl)
  have hv := yields_efficiencies hs _ RT _ (h0.calls hs hist) (Prod.ext hRT rfl)
  have hres := hv.1
  subst hres
  obtain ⟨hres', hrel⟩ := solveSpec_rel hb hg hs hs'
  subst hres'
  have hf := hs.fix hnd rfl
  have hf' := hs'.fix hnd rfl
  obtain ⟨-, S, r0, rN, M0, MN, f0, fN, hS, hr0, hrN, hM0, hMN, hf0, hfN, hne, rfl⟩ := hv
  have st := steps_of_valS hf hS
  obtain ⟨C, hC, hCd⟩ := h.regauge hf hf' hrel st
  have hlen := stackModes_length c mats A1
  have hlen' := stackModes_length c mats A1'
  have h2 := st.1
  obtain ⟨S', hS'⟩ : ∃ S', valS c mats A1' (.ok ()) none = .ok S' := by
    rw [valS_none, valS_solved hf, SameMedia.nat_index (i := 0) (by omega)] at hS
    rw [valS_none, valS_solved hf', SameMedia.nat_index (i := 0) (by omega)]
    exact ⟨_, hC.fresh (i := 0) hS⟩
  have hmod : ∀ r ∈ c.stack, ∃ M, modesOf (mats r) (A1' r) = .ok M ∧ ∀ k, (c.omega : ℂ) * M.q k ≠ 0 := by
    intro r hr
    refine ⟨_, (hf' r hr).form.modesD, fun k => ?_⟩
    obtain ⟨n, hn⟩ := List.getElem?_of_mem hr
    have g : (stackModes c mats A1)[n]? = some (modesD (mats r) (A1 r)) := by
      unfold stackModes; rw [List.getElem?_map, hn]; rfl
    have g' : (stackModes c mats A1')[n]? = some (modesD (mats r) (A1' r)) := by
      unfold stackModes; rw [List.getElem?_map, hn]; rfl
    exact mul_ne_zero (by exact_mod_cast hom) ((hC.at' n _ _ g g').q_ne (st.q g) k)
  obtain ⟨N0, n1, n2⟩ := hmod r0 (pyGet_mem hr0)
  obtain ⟨NN, n3, n4⟩ := hmod rN (pyGet_mem hrN)
  obtain ⟨RT', d', e1, -⟩ := succeeds_efficiencies hs' hS' hr0 hrN n1 n3 n2 n4 hne _ (h0'.calls hs' hist')
  exact ⟨RT', by rw [e1]⟩

theorem diffraction_of {o : Bool} {d : Dyn c.nh} {RT} (h : (efficienciesByOrder E c d).1 = .ok RT) :
    ∃ X, (diffractionEfficiencies E c o d).1 = .ok X := by
  unfold diffractionEfficiencies
  rw [PyM.bind_ok (s' := (efficienciesByOrder E c d).2) (Prod.ext h rfl)]
  cases o <;> exact ⟨_, rfl⟩

/-- If fields can be computed with one solver, they can with the other. -/
theorem SameMedia.fields_succeed (h : SameMedia E E' c mats mats)
    (hb : ∀ L, buildPure E' c L = buildPure E c L) (hg : AsGood E E') (hnd : c.stack.Nodup) (hom : c.omega ≠ 0)
    {id z zs Fs} (hist hist' : List (Call c.nh))
    (hF : (getFieldFourier E c id (z :: zs) (afterCalls E c hist (Dyn.fresh mats (unsolved c.nh)))).1 = .ok Fs) :
    ∃ Fs', (getFieldFourier E' c id (z :: zs) (afterCalls E' c hist' (Dyn.fresh mats (unsolved c.nh)))).1 = .ok Fs' := by
  obtain ⟨A1, res, hs, -⟩ := solveSpec_of_noStale (E := E) (mats := mats) hnd
    (noStale_unsolved (c := c) mats c.stack)
  obtain ⟨A1', res', hs', -⟩ := solveSpec_of_noStale (E := E') (mats := mats) hnd
    (noStale_unsolved (c := c) mats c.stack)
  have h0 : Inv E c mats (unsolved c.nh) A1 res (Dyn.fresh mats (unsolved c.nh)) := inv_fresh _ (.inl rfl)
  have h0' : Inv E' c mats (unsolved c.nh) A1' res' (Dyn.fresh mats (unsolved c.nh)) := inv_fresh _ (.inl rfl)
  obtain ⟨-, hres, r, i, ab, hl, hamp, hmap⟩ :=
    yields_getFieldFourier hs id (z :: zs) _ Fs _ (h0.calls hs hist) (Prod.ext hF rfl)
  subst hres
  obtain ⟨hres', hrel⟩ := solveSpec_rel hb hg hs hs'
  subst hres'
  have hf := hs.fix hnd rfl
  have hf' := hs'.fix hnd rfl
  have st := steps_of_ampV hf hamp
  obtain ⟨C, hC, hCd⟩ := h.regauge hf hf' hrel st
  have hlen := stackModes_length c mats A1
  have hlen' := stackModes_length c mats A1'
  have h2 := st.1
  have hval : ∀ (i j : ℕ) S, valS c mats A1 (.ok ()) (some ((i : ℤ), (j : ℤ))) = .ok S →
      valS c mats A1' (.ok ()) (some ((i : ℤ), (j : ℤ))) = .ok (SMat.conj (C i) (C j) S) := by
    intro i j S hS
    rw [valS_solved hf] at hS
    rw [valS_solved hf']
    exact hC.fresh hS
  have hN := SameMedia.nat_index (c := c) (i := 0) (by omega)
  have hr := getLayer_pyGet hl
  have hrm := pyGet_mem hr
  have hamp' : AmpOk c mats A1' (.ok ()) i := by
    have hext : ∀ S, valS c mats A1 (.ok ()) none = .ok S → ∃ S', valS c mats A1' (.ok ()) none = .ok S' := by
      intro S hS
      rw [valS_none, hN] at hS ⊢
      exact ⟨_, hval 0 _ S hS⟩
    refine ⟨⟨r, hr⟩, fun hi => ?_, fun h0 hn hm => ?_⟩
    · rcases hamp.2 with ⟨-, S, hS, -⟩ | ⟨-, -, S, hS, -⟩ | ⟨i0, in', im, S, P, hS, hP, hd, -⟩
      · exact hext S hS
      · exact hext S hS
      · omega
    · rcases hamp.2 with ⟨h0', -⟩ | ⟨-, h', -⟩ | ⟨-, -, -, S, P, hS, hP, hd, -⟩
      · exact absurd h0' h0
      · rcases h' with h' | h'
        · exact absurd h' hn
        · exact absurd h' hm
      · have hi : 0 < i := by
          by_contra hcon
          rw [valS_solved hf] at hS
          unfold freshS at hS
          rw [if_pos ((pyRange_eq_nil_iff _ _).mpr (by omega))] at hS
          simp at hS
        obtain ⟨k, rfl⟩ : ∃ k : ℕ, i = (k : ℤ) := ⟨i.toNat, by omega⟩
        rw [hN] at hP ⊢
        refine ⟨_, _, hval 0 k S hS, hval k _ P hP, ?_⟩
        have hU := det_unit (hCd k)
        have : 1 - (SMat.conj (C 0) (C k) S).s12 * (SMat.conj (C k) (C (c.stack.length - 1)) P).s21 =
            (C k)⁻¹ * (1 - S.s12 * P.s21) * C k := by
          have e1 : (SMat.conj (C 0) (C k) S).s12 = (C k)⁻¹ * S.s12 * C k := rfl
          have e2 : (SMat.conj (C k) (C (c.stack.length - 1)) P).s21 = (C k)⁻¹ * P.s21 * C k := rfl
          rw [e1, e2, conj_mid (hCd k), Matrix.mul_sub, Matrix.sub_mul, Matrix.mul_one, nonsing_inv_mul _ hU]
        rw [this, det_mul, det_mul, det_nonsing_inv]
        exact mul_ne_zero (mul_ne_zero hU.ringInverse.ne_zero hd) (hCd k)
  obtain ⟨n, hn⟩ := List.getElem?_of_mem hrm
  have g : (stackModes c mats A1)[n]? = some (modesD (mats r) (A1 r)) := by
    unfold stackModes; rw [List.getElem?_map, hn]; rfl
  have g' : (stackModes c mats A1')[n]? = some (modesD (mats r) (A1' r)) := by
    unfold stackModes; rw [List.getElem?_map, hn]; rfl
  -- what the first depth needed
  obtain ⟨F, hF1⟩ : ∃ F, fieldAt c (mats r) (A1 r) ab.1 ab.2 z = .ok F := by
    obtain ⟨F, Fs', hF1, -, -⟩ := mapM_ok_cons.mp hmap
    exact ⟨F, hF1⟩
  obtain ⟨t, ht⟩ : ∃ t, (mats r).thickness = some t := by
    unfold fieldAt at hF1
    rw [(hf r hrm).form.modesD, except_bind_ok, bind_eq_ok] at hF1
    obtain ⟨x, hx, -⟩ := hF1
    unfold translateAmplitudes at hx
    rcases ht : (mats r).thickness with _ | t
    · have : (modesD (mats r) (A1 r)).thickness = none := ht
      rw [this] at hx
      simp at hx
    · exact ⟨t, rfl⟩
  have hnorm : ∀ dz, ∃ x, normalE (mats r) (A1' r) dz = .ok x := by
    have hx : ∃ dz x, normalE (mats r) (A1 r) dz = .ok x := by
      unfold fieldAt at hF1
      simp only [bind_eq_ok] at hF1
      obtain ⟨_, _, _, _, _, _, x, hx, -⟩ := hF1
      exact ⟨_, x, hx⟩
    obtain ⟨dz0, x0, hx⟩ := hx
    intro dz
    unfold normalE at hx ⊢
    rw [← (hrel r).pat]
    by_cases hu : (mats r).isUniform = true
    · simp only [hu, if_true] at hx ⊢
      by_cases he : (mats r).epsilon.value = 0
      · simp [he] at hx
      · simp only [he, if_false]; exact ⟨_, rfl⟩
    · simp only [hu, Bool.false_eq_true, if_false] at hx ⊢
      rw [bind_eq_ok] at hx
      obtain ⟨p, hp, hx⟩ := hx
      rw [hp, except_bind_ok]
      exact ⟨_, (linSolveVec_ok _ _ _).mpr ⟨((linSolveVec_ok _ _ _).mp hx).1, rfl⟩⟩
  obtain ⟨Fs', d', e1, -⟩ := succeeds_getFieldFourier hs' hl rfl hamp' (fieldAt_ok (hf' r hrm).form.modesD ht
    (fun k => mul_ne_zero (by exact_mod_cast hom) ((hC.at' n _ _ g g').q_ne (st.q g) k)) hnorm) (z :: zs) _
    (h0'.calls hs' hist')
  exact ⟨Fs', by rw [e1]⟩

end

end Nannos
