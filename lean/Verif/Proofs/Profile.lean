import Verif.Proofs.EmbeddedSim
import Verif.Spec.Profile

/-! Fields of stacks which describe one structure in different ways (C83). -/

namespace Nannos

open Matrix Spec

section
variable {m m' : Type} [Fintype m] [DecidableEq m] [Fintype m'] [DecidableEq m']

/-- The two tangential fields. -/
noncomputable def tanField (L : Modes m) (a b : m → ℂ) (z : ℝ) : (m → ℂ) × (m → ℂ) := (tanE L a b z, tanH L a b z)

theorem tanE_amat (L : Modes m) (a b : m → ℂ) (z : ℝ) : tanE L a b z = L.amat *ᵥ
    ((fun j => a j * Complex.exp (Complex.I * L.q j * z)) -
      fun j => b j * Complex.exp (Complex.I * L.q j * ((L.z - z : ℝ) : ℂ))) := by
  funext i
  simp only [tanE, mulVec, dotProduct, amat_apply, Pi.sub_apply]

theorem tanH_phi (L : Modes m) (a b : m → ℂ) (z : ℝ) : tanH L a b z = L.phi *ᵥ
    ((fun j => a j * Complex.exp (Complex.I * L.q j * z)) +
      fun j => b j * Complex.exp (Complex.I * L.q j * ((L.z - z : ℝ) : ℂ))) := by
  rw [tanH_mode]
  rfl

theorem tanField_M (L : Modes m) (a b : m → ℂ) (z : ℝ) : Sum.elim (tanE L a b z) (tanH L a b z) = L.M *ᵥ
    Sum.elim (fun j => a j * Complex.exp (Complex.I * L.q j * z))
      (fun j => b j * Complex.exp (Complex.I * L.q j * ((L.z - z : ℝ) : ℂ))) := by
  unfold Modes.M
  rw [fromBlocks_mulVec, tanE_amat, tanH_mode]
  simp only [Sum.elim_comp_inl, Sum.elim_comp_inr, neg_mulVec]
  congr 1
  · rw [mulVec_sub, sub_eq_add_neg]
  · rw [← mulVec_add]
    rfl

theorem tanField_inj {L : Modes m} (hM : L.M.det ≠ 0) {a b a' b' : m → ℂ} {z : ℝ} (h : tanField L a b z = tanField L a' b' z) :
    a = a' ∧ b = b' := by
  have h1 := congrArg Prod.fst h
  have h2 := congrArg Prod.snd h
  dsimp only [tanField] at h1 h2
  have h3 := tanField_M L a b z
  rw [h1, h2, tanField_M] at h3
  have h4 := mulVec_inj hM h3
  constructor
  · funext j
    have := congrFun h4 (.inl j)
    simpa using this.symm
  · funext j
    have := congrFun h4 (.inr j)
    simpa using this.symm

theorem tanField_surj {L : Modes m} (hM : L.M.det ≠ 0) (F : (m → ℂ) × (m → ℂ)) : ∃ ab : (m → ℂ) × (m → ℂ),
    tanField L ab.1 ab.2 0 = F := by
  let v := L.M⁻¹ *ᵥ Sum.elim F.1 F.2
  refine ⟨(fun j => v (.inl j), fun j => v (.inr j) * Complex.exp (-(Complex.I * L.q j * (L.z : ℂ)))), ?_⟩
  have h := tanField_M L (fun j => v (.inl j)) (fun j => v (.inr j) * Complex.exp (-(Complex.I * L.q j * (L.z : ℂ)))) 0
  have e : Sum.elim (fun j => v (.inl j) * Complex.exp (Complex.I * L.q j * ((0 : ℝ) : ℂ)))
      (fun j => v (.inr j) * Complex.exp (-(Complex.I * L.q j * (L.z : ℂ))) *
        Complex.exp (Complex.I * L.q j * ((L.z - 0 : ℝ) : ℂ))) = v := by
    funext j
    rcases j with j | j
    · simp
    · simp only [Sum.elim_inr, sub_zero, mul_assoc, ← Complex.exp_add]
      simp
  rw [e, mulVec_mulVec, mul_nonsing_inv _ (det_unit hM), one_mulVec] at h
  refine Prod.ext ?_ ?_
  · exact funext fun j => congrFun h (.inl j)
  · exact funext fun j => congrFun h (.inr j)

theorem tanField_shift (L : Modes m) (a b : m → ℂ) (z d : ℝ) :
    tanField L (fun j => a j * Complex.exp (Complex.I * L.q j * z)) (fun j => b j * Complex.exp (-(Complex.I * L.q j * z))) d =
      tanField L a b (z + d) := by
  have e1 : ∀ j, a j * Complex.exp (Complex.I * L.q j * z) * Complex.exp (Complex.I * L.q j * d) =
      a j * Complex.exp (Complex.I * L.q j * ((z + d : ℝ) : ℂ)) := by
    intro j
    rw [mul_assoc, ← Complex.exp_add]
    congr 2
    push_cast
    ring
  have e2 : ∀ j, b j * Complex.exp (-(Complex.I * L.q j * z)) * Complex.exp (Complex.I * L.q j * ((L.z - d : ℝ) : ℂ)) =
      b j * Complex.exp (Complex.I * L.q j * ((L.z - (z + d) : ℝ) : ℂ)) := by
    intro j
    rw [mul_assoc, ← Complex.exp_add]
    congr 2
    push_cast
    ring
  unfold tanField
  rw [tanE_amat, tanE_amat, tanH_mode, tanH_mode]
  unfold modeH
  simp only [e1, e2]

/-- The field a distance `d` further down in the material of a layer. -/
noncomputable def carry (L : Modes m) (d : ℝ) (F : (m → ℂ) × (m → ℂ)) : (m → ℂ) × (m → ℂ) :=
  open Classical in
  if h : ∃ ab : (m → ℂ) × (m → ℂ), tanField L ab.1 ab.2 0 = F then tanField L h.choose.1 h.choose.2 d else F

theorem carry_tanField {L : Modes m} (hM : L.M.det ≠ 0) (a b : m → ℂ) (z d : ℝ) :
    carry L d (tanField L a b z) = tanField L a b (z + d) := by
  have h := tanField_surj hM (tanField L a b z)
  unfold carry
  rw [dif_pos h]
  have h1 := h.choose_spec
  have h2 := tanField_shift L a b z 0
  rw [add_zero] at h2
  obtain ⟨e1, e2⟩ := tanField_inj hM (h1.trans h2.symm)
  rw [e1, e2, tanField_shift]

theorem carry_zero {L : Modes m} (hM : L.M.det ≠ 0) (F : (m → ℂ) × (m → ℂ)) : carry L 0 F = F := by
  obtain ⟨ab, h⟩ := tanField_surj hM F
  rw [← h, carry_tanField hM, add_zero]

theorem carry_add {L : Modes m} (hM : L.M.det ≠ 0) (d d' : ℝ) (F : (m → ℂ) × (m → ℂ)) :
    carry L d' (carry L d F) = carry L (d + d') F := by
  obtain ⟨ab, h⟩ := tanField_surj hM F
  rw [← h, carry_tanField hM, carry_tanField hM, carry_tanField hM, zero_add, zero_add]

/-- Two layers of one material. -/
structure Alike (U : Matrix m' m ℂ) (L : Modes m) (L' : Modes m') : Prop where
  Q : L'.Q * U = U * L.Q
  wave : ∃ W W', W' * U = U * W ∧ W * L.phi = L.phi * (diagonal fun k => L.q k ^ 2) ∧
    W' * L'.phi = L'.phi * diagonal fun k => L'.q k ^ 2

/-- The same field. -/
def push (U : Matrix m' m ℂ) (F : (m → ℂ) × (m → ℂ)) : (m' → ℂ) × (m' → ℂ) := (U *ᵥ F.1, U *ᵥ F.2)

theorem M_phi {L : Modes m} (hM : L.M.det ≠ 0) : L.phi.det ≠ 0 := by
  intro h0
  obtain ⟨v, hv, hv0⟩ := Matrix.exists_mulVec_eq_zero_iff.mpr h0
  refine hM (Matrix.exists_mulVec_eq_zero_iff.mp ⟨Sum.elim v v, ?_, ?_⟩)
  · intro hz
    apply hv
    funext i
    exact congrFun hz (.inl i)
  · unfold Modes.M
    rw [fromBlocks_mulVec]
    simp only [Sum.elim_comp_inl, Sum.elim_comp_inr, hv0, neg_mulVec, add_neg_cancel, add_zero]
    funext x
    rcases x <;> rfl

/-- Thickness given to a layer. -/
def withZ (L : Modes m) (t : Option ℝ) : Modes m := { L with thickness := t }

theorem carry_withZ {L : Modes m} (hM : L.M.det ≠ 0) (t : Option ℝ) (d : ℝ) (F : (m → ℂ) × (m → ℂ)) :
    carry (withZ L t) d F = carry L d F := by
  have hM' : (withZ L t).M.det ≠ 0 := hM
  obtain ⟨ab, h⟩ := tanField_surj hM' F
  have key : ∀ z, tanField (withZ L t) ab.1 ab.2 z =
      tanField L ab.1 (fun j => ab.2 j * Complex.exp (Complex.I * L.q j * (((withZ L t).z - L.z : ℝ) : ℂ))) z := by
    intro z
    have e2 : ∀ j, ab.2 j * Complex.exp (Complex.I * L.q j * (((withZ L t).z - L.z : ℝ) : ℂ)) *
        Complex.exp (Complex.I * L.q j * ((L.z - z : ℝ) : ℂ)) =
        ab.2 j * Complex.exp (Complex.I * L.q j * (((withZ L t).z - z : ℝ) : ℂ)) := by
      intro j
      rw [mul_assoc, ← Complex.exp_add]
      congr 2
      push_cast
      ring
    unfold tanField
    rw [tanE_amat, tanE_amat, tanH_mode, tanH_mode]
    unfold modeH
    simp only [e2]
    rfl
  rw [← h, carry_tanField hM', key, key, carry_tanField hM]

theorem Alike.within {U : Matrix m' m ℂ} {L : Modes m} {L' : Modes m'} (h : Alike U L L') :
    Within U (withZ L L'.thickness) L' := ⟨h.Q, rfl, h.wave⟩

theorem Alike.carry {U : Matrix m' m ℂ} {L : Modes m} {L' : Modes m'} (h : Alike U L L') (hM : L.M.det ≠ 0)
    (hM' : L'.M.det ≠ 0) (hq' : ∀ i, L'.q i ≠ 0) (d : ℝ) (F : (m → ℂ) × (m → ℂ)) :
    carry L' d (push U F) = push U (carry L d F) := by
  have hM2 : (withZ L L'.thickness).M.det ≠ 0 := hM
  rw [← carry_withZ hM L'.thickness]
  obtain ⟨ab, hab⟩ := tanField_surj hM2 F
  obtain ⟨a', b', hf⟩ := h.within.covers (M_phi hM') hq' ab.1 ab.2
  have key : ∀ z, tanField L' a' b' z = push U (tanField (withZ L L'.thickness) ab.1 ab.2 z) := fun z =>
    Prod.ext (hf z).1 (hf z).2
  rw [← hab, ← key, carry_tanField hM', carry_tanField hM2, key]

theorem tanField_out (L : Modes m) (t : Option ℝ) (a : m → ℂ) (z : ℝ) : tanField (withZ L t) a 0 z = tanField L a 0 z := by
  unfold tanField
  rw [tanE_amat, tanE_amat, tanH_mode, tanH_mode]
  unfold modeH
  simp only [Pi.zero_apply, zero_mul]
  rfl

theorem Alike.coversOut {U : Matrix m' m ℂ} {L : Modes m} {L' : Modes m'} (h : Alike U L L') (hdet : L'.phi.det ≠ 0)
    (hs : ∀ i j, L.q i ^ 2 = L'.q j ^ 2 → L.q i = L'.q j) (a : m → ℂ) :
    ∃ a', ∀ z, tanField L' a' 0 z = push U (tanField L a 0 z) := by
  obtain ⟨a', ha⟩ := h.within.coversOut hdet hs a
  refine ⟨a', fun z => ?_⟩
  rw [← tanField_out L L'.thickness]
  exact Prod.ext (ha z).1 (ha z).2

/-- The field below several slabs. -/
noncomputable def carryAll : List (Modes m × ℝ) → (m → ℂ) × (m → ℂ) → (m → ℂ) × (m → ℂ)
  | [], F => F
  | (L, d) :: t, F => carryAll t (carry L d F)

theorem carryAll_cons (L : Modes m) (d : ℝ) (t : List (Modes m × ℝ)) (F : (m → ℂ) × (m → ℂ)) :
    carryAll ((L, d) :: t) F = carryAll t (carry L d F) := rfl

theorem carryAll_append (l l' : List (Modes m × ℝ)) (F : (m → ℂ) × (m → ℂ)) :
    carryAll (l ++ l') F = carryAll l' (carryAll l F) := by
  induction l generalizing F with
  | nil => rfl
  | cons x t ih => obtain ⟨L, d⟩ := x; exact ih _

end

section
variable {α β : Type}

/-- Total thickness. -/
def total (l : List (α × ℝ)) : ℝ := (l.map Prod.snd).sum

theorem total_nonneg {l : List (α × ℝ)} (h : ∀ x ∈ l, 0 ≤ x.2) : 0 ≤ total l := by
  unfold total
  refine List.sum_nonneg fun x hx => ?_
  obtain ⟨y, hy, rfl⟩ := List.mem_map.mp hx
  exact h y hy

theorem foundAt_none {l : List (α × ℝ)} (h : ∀ x ∈ l, 0 ≤ x.2) {z : ℝ} : foundAt l z = none ↔ total l ≤ z ∨ l = [] := by
  induction l generalizing z with
  | nil => simp [foundAt]
  | cons x t ih =>
    obtain ⟨a, d⟩ := x
    have ht := total_nonneg fun x hx => h x (List.mem_cons_of_mem _ hx)
    have hd : 0 ≤ d := h (a, d) (by simp)
    have e : total ((a, d) :: t) = d + total t := by simp [total]
    unfold foundAt
    split
    · simp only [reduceCtorEq, false_iff, e, not_or, not_le]
      exact ⟨by linarith, by simp⟩
    · rename_i hz
      push Not at hz
      rw [ih fun x hx => h x (List.mem_cons_of_mem _ hx), e]
      constructor
      · rintro (h1 | rfl)
        · left; linarith
        · left; simp [total]; linarith
      · rintro (h1 | h1)
        · left; linarith
        · simp at h1

theorem foundAt_append {l l' : List (α × ℝ)} (h : ∀ x ∈ l, 0 ≤ x.2) {z : ℝ} (hz : 0 ≤ z) :
    foundAt (l ++ l') z = if z < total l then foundAt l z else foundAt l' (z - total l) := by
  induction l generalizing z with
  | nil =>
    have : ¬ z < total ([] : List (α × ℝ)) := by simp [total]; linarith
    rw [if_neg this]
    simp [total]
  | cons x t ih =>
    obtain ⟨a, d⟩ := x
    have ht := total_nonneg fun x hx => h x (List.mem_cons_of_mem _ hx)
    have hd : 0 ≤ d := h (a, d) (by simp)
    have e : total ((a, d) :: t) = d + total t := by simp [total]
    rw [e, List.cons_append]
    simp only [foundAt]
    by_cases h1 : z < d
    · rw [if_pos h1, if_pos (by linarith), if_pos h1]
    · rw [if_neg h1, if_neg h1, ih (fun x hx => h x (List.mem_cons_of_mem _ hx)) (by linarith)]
      by_cases h2 : z < d + total t
      · rw [if_pos h2, if_pos (by linarith)]
      · rw [if_neg h2, if_neg (by linarith), sub_sub]

theorem foundAt_map (f : α → β) (l : List (α × ℝ)) (z : ℝ) :
    foundAt (l.map fun x => (f x.1, x.2)) z = (foundAt l z).map f := by
  induction l generalizing z with
  | nil => rfl
  | cons x t ih =>
    obtain ⟨a, d⟩ := x
    simp only [List.map_cons, foundAt]
    split
    · rfl
    · exact ih _

theorem foundAt_mem {l : List (α × ℝ)} {z : ℝ} {x : α} (h : foundAt l z = some x) : ∃ d, (x, d) ∈ l := by
  induction l generalizing z with
  | nil => simp [foundAt] at h
  | cons y t ih =>
    obtain ⟨a, d⟩ := y
    simp only [foundAt] at h
    split at h
    · cases h; exact ⟨d, by simp⟩
    · obtain ⟨d', hd'⟩ := ih h; exact ⟨d', by simp [hd']⟩

/-- Two lists of slabs with related contents at every depth. -/
def ProfileRel (rel : α → β → Prop) (l : List (α × ℝ)) (l' : List (β × ℝ)) : Prop :=
  ∀ z, 0 ≤ z → Option.Rel rel (foundAt l z) (foundAt l' z)

theorem ProfileRel.total {rel : α → β → Prop} {l : List (α × ℝ)} {l' : List (β × ℝ)} (h : ProfileRel rel l l')
    (hl : ∀ x ∈ l, 0 ≤ x.2) (hl' : ∀ x ∈ l', 0 ≤ x.2) : Nannos.total l = Nannos.total l' := by
  have n1 := total_nonneg hl
  have n2 := total_nonneg hl'
  have nil : ∀ {γ : Type}, Nannos.total ([] : List (γ × ℝ)) = 0 := by simp [Nannos.total]
  apply le_antisymm
  · have := h _ n2
    rw [(foundAt_none hl').mpr (.inl le_rfl)] at this
    generalize hx : foundAt l (Nannos.total l') = x at this
    cases this
    rcases (foundAt_none hl).mp hx with h1 | rfl
    · exact h1
    · rwa [nil]
  · have := h _ n1
    rw [(foundAt_none hl).mpr (.inl le_rfl)] at this
    generalize hx : foundAt l' (Nannos.total l) = x at this
    cases this
    rcases (foundAt_none hl').mp hx with h1 | rfl
    · exact h1
    · rwa [nil]

/-- The slabs above the depth `z` inside slab `a`. -/
theorem foundAt_prefix {pre post : List (α × ℝ)} {a : α} {d z : ℝ} (h : ∀ x ∈ pre, 0 ≤ x.2) (h0 : 0 ≤ z) (hz : z ≤ d)
    {y : ℝ} (hy : 0 ≤ y) : foundAt (pre ++ [(a, z)]) y =
      if y < total pre + z then foundAt (pre ++ (a, d) :: post) y else none := by
  rw [foundAt_append h hy, foundAt_append h hy]
  simp only [foundAt]
  by_cases h1 : y < total pre
  · by_cases h2 : y < total pre + z
    · simp [h1, h2]
    · simp only [h1, h2, if_true, if_false]
      exact absurd (by linarith) h2
  · by_cases h2 : y < total pre + z
    · have h3 : y - total pre < z := by linarith
      have h4 : y - total pre < d := by linarith
      simp [h1, h2, h3, h4]
    · have h3 : ¬ y - total pre < z := by linarith
      simp [h1, h2, h3]

theorem foundAt_zero_cons (a : α) (t : List (α × ℝ)) {z : ℝ} (hz : 0 ≤ z) : foundAt ((a, 0) :: t) z = foundAt t z := by
  simp only [foundAt]
  rw [if_neg (by linarith), sub_zero]

theorem foundAt_cons_add (a : α) (d : ℝ) (t : List (α × ℝ)) {z : ℝ} (hz : 0 ≤ z) :
    foundAt ((a, d) :: t) (z + d) = foundAt t z := by
  simp only [foundAt]
  rw [if_neg (by linarith), add_sub_cancel_right]

theorem foundAt_cons_cut (a : α) (d d' : ℝ) (t : List (α × ℝ)) (z : ℝ) :
    foundAt ((a, d') :: t) (z + d) = foundAt ((a, d' - d) :: t) z := by
  simp only [foundAt]
  by_cases h : z + d < d'
  · rw [if_pos h, if_pos (by linarith)]
  · rw [if_neg h, if_neg (by linarith)]
    congr 1
    ring

end

section
variable {m m' : Type} [Fintype m] [DecidableEq m] [Fintype m'] [DecidableEq m']

/-- Slabs through which fields can be followed. -/
def GoodSlabs (l : List (Modes m × ℝ)) : Prop := ∀ x ∈ l, 0 ≤ x.2 ∧ x.1.M.det ≠ 0 ∧ ∀ i, x.1.q i ≠ 0

theorem GoodSlabs.nonneg {l : List (Modes m × ℝ)} (h : GoodSlabs l) : ∀ x ∈ l, 0 ≤ x.2 := fun x hx => (h x hx).1

/-- The same material at every depth, the same field below. -/
theorem carryAll_profile {U : Matrix m' m ℂ} (n : ℕ) : ∀ {l : List (Modes m × ℝ)} {l' : List (Modes m' × ℝ)},
    l.length + l'.length = n → GoodSlabs l → GoodSlabs l' → ProfileRel (Alike U) l l' → ∀ F,
      carryAll l' (push U F) = push U (carryAll l F) := by
  induction n with
  | zero =>
    intro l l' hn _ _ _ F
    obtain rfl := List.length_eq_zero_iff.mp (show l.length = 0 by omega)
    obtain rfl := List.length_eq_zero_iff.mp (show l'.length = 0 by omega)
    rfl
  | succ n ih =>
    intro l l' hn hl hl' hp F
    have dropL : ∀ {L : Modes m} {t}, l = (L, 0) :: t → carryAll l' (push U F) = push U (carryAll l F) := by
      rintro L t rfl
      have hL := hl (L, 0) (by simp)
      rw [carryAll, carry_zero hL.2.1]
      refine ih (by simp at hn; omega) (fun x hx => hl x (by simp [hx])) hl' (fun z hz => ?_) F
      have := hp z hz
      rwa [foundAt_zero_cons _ _ hz] at this
    have dropR : ∀ {L : Modes m'} {t}, l' = (L, 0) :: t → carryAll l' (push U F) = push U (carryAll l F) := by
      rintro L t rfl
      have hL := hl' (L, 0) (by simp)
      rw [carryAll, carry_zero hL.2.1]
      refine ih (by simp at hn; omega) hl (fun x hx => hl' x (by simp [hx])) (fun z hz => ?_) F
      have := hp z hz
      rwa [foundAt_zero_cons _ _ hz] at this
    have h0 := hp 0 le_rfl
    rcases l with _ | ⟨⟨L, d⟩, t⟩
    · rcases l' with _ | ⟨⟨L', d'⟩, t'⟩
      · rfl
      · rcases (hl' (L', d') (by simp)).1.lt_or_eq with h1 | h1
        · simp only [foundAt] at h0
          rw [if_pos h1] at h0
          cases h0
        · exact dropR (L := L') (t := t') (by rw [show d' = 0 from h1.symm])
    · rcases l' with _ | ⟨⟨L', d'⟩, t'⟩
      · rcases (hl (L, d) (by simp)).1.lt_or_eq with h1 | h1
        · simp only [foundAt] at h0
          rw [if_pos h1] at h0
          cases h0
        · exact dropL (L := L) (t := t) (by rw [show d = 0 from h1.symm])
      · rcases (hl' (L', d') (by simp)).1.lt_or_eq with h1' | h1'
        swap
        · exact dropR (L := L') (t := t') (by rw [show d' = 0 from h1'.symm])
        rcases (hl (L, d) (by simp)).1.lt_or_eq with h1 | h1
        swap
        · exact dropL (L := L) (t := t) (by rw [show d = 0 from h1.symm])
        simp only at h1 h1'
        simp only [foundAt] at h0
        rw [if_pos h1, if_pos h1'] at h0
        have ha : Alike U L L' := by cases h0; assumption
        obtain ⟨-, g1, g2⟩ := hl (L, d) (by simp)
        obtain ⟨-, g1', g2'⟩ := hl' (L', d') (by simp)
        simp only at g1 g2 g1' g2'
        rcases le_total d d' with hd | hd
        · have hc : carryAll ((L', d') :: t') (push U F) = carryAll ((L', d' - d) :: t') (push U (carry L d F)) := by
            rw [carryAll, carryAll, ← ha.carry g1 g1' g2', carry_add g1', add_sub_cancel]
          rw [hc, carryAll_cons L d t]
          refine ih (by simp at hn ⊢; omega) (fun x hx => hl x (by simp [hx])) ?_ (fun z hz => ?_) _
          · intro x hx
            rcases List.mem_cons.mp hx with rfl | hx
            · exact ⟨by simp only; linarith, g1', g2'⟩
            · exact hl' x (by simp [hx])
          · have := hp (z + d) (by linarith)
            rwa [foundAt_cons_add _ _ _ hz, foundAt_cons_cut] at this
        · have hc : carryAll ((L, d) :: t) F = carryAll ((L, d - d') :: t) (carry L d' F) := by
            rw [carryAll, carryAll, carry_add g1, add_sub_cancel]
          rw [hc, carryAll_cons L' d' t', ha.carry g1 g1' g2']
          refine ih (by simp at hn ⊢; omega) ?_ (fun x hx => hl' x (by simp [hx])) (fun z hz => ?_) _
          · intro x hx
            rcases List.mem_cons.mp hx with rfl | hx
            · exact ⟨by simp only; linarith, g1, g2⟩
            · exact hl x (by simp [hx])
          · have := hp (z + d') (by linarith)
            rwa [foundAt_cons_add _ _ _ hz, foundAt_cons_cut] at this

/-- Infinitely thin slabs. -/
theorem carryAll_thin : ∀ {l : List (Modes m × ℝ)}, GoodSlabs l → total l = 0 → ∀ F, carryAll l F = F := by
  intro l
  induction l with
  | nil => intros; rfl
  | cons x t ih =>
    intro hg h0 F
    obtain ⟨L, d⟩ := x
    have ht : GoodSlabs t := fun x hx => hg x (by simp [hx])
    have h1 : d + total t = 0 := by simpa [total] using h0
    have h2 := total_nonneg ht.nonneg
    obtain ⟨h3, h4, -⟩ := hg (L, d) (by simp)
    simp only at h3 h4
    obtain rfl : d = 0 := by linarith
    rw [carryAll_cons, carry_zero h4, ih ht (by linarith)]

/-- Layers as slabs. -/
noncomputable def slabsOf (l : List (Modes m)) : List (Modes m × ℝ) := l.map fun L => (L, L.z)

/-- Layers all of whose fields are combinations of their modes. -/
def GoodLayers (l : List (Modes m)) : Prop := ∀ L ∈ l, L.M.det ≠ 0 ∧ ∀ i, L.q i ≠ 0

/-- The field at the top of each layer. -/
theorem solution_top {L0 LN : Modes m} {inner : List (Modes m)} (hg : GoodLayers inner) {amp : ℕ → (m → ℂ) × (m → ℂ)}
    (hc : Consistent (L0 :: (inner ++ [LN])) 0 (inner.length + 1) amp) : ∀ k, k ≤ inner.length → ∀ L,
      (inner ++ [LN])[k]? = some L → tanField L (amp (k + 1)).1 (amp (k + 1)).2 0 =
        carryAll (slabsOf (inner.take k)) (tanField L0 (amp 0).1 (amp 0).2 L0.z) := by
  intro k
  induction k with
  | zero =>
    intro _ L hL
    obtain ⟨h1, h2⟩ := hc 0 L0 L le_rfl (by omega) rfl (by simpa using hL)
    exact Prod.ext h1.symm h2.symm
  | succ k ih =>
    intro hk L hL
    obtain ⟨M, hM⟩ : ∃ M, inner[k]? = some M := ⟨_, List.getElem?_eq_getElem (by omega)⟩
    have hM2 : (inner ++ [LN])[k]? = some M := by rw [List.getElem?_append_left (by omega), hM]
    obtain ⟨h1, h2⟩ := hc (k + 1) M L (Nat.zero_le _) (by omega) (by simpa using hM2) (by simpa using hL)
    have h3 := ih (by omega) M hM2
    have hdet := (hg M (List.mem_of_getElem? hM)).1
    have h4 : tanField L (amp (k + 1 + 1)).1 (amp (k + 1 + 1)).2 0 = tanField M (amp (k + 1)).1 (amp (k + 1)).2 M.z :=
      Prod.ext h1.symm h2.symm
    have h5 := carry_tanField hdet (amp (k + 1)).1 (amp (k + 1)).2 0 M.z
    rw [zero_add] at h5
    rw [h4, ← h5, h3, List.take_add_one, hM]
    unfold slabsOf
    rw [List.map_append, carryAll_append]
    rfl

/-- The field at any depth of each layer. -/
theorem solution_field {L0 LN : Modes m} {inner : List (Modes m)} (hg : GoodLayers (inner ++ [LN]))
    {amp : ℕ → (m → ℂ) × (m → ℂ)}
    (hc : Consistent (L0 :: (inner ++ [LN])) 0 (inner.length + 1) amp) {k : ℕ} {L : Modes m} (z : ℝ)
    (hL : (inner ++ [LN])[k]? = some L) : tanField L (amp (k + 1)).1 (amp (k + 1)).2 z =
        carryAll (slabsOf (inner.take k) ++ [(L, z)]) (tanField L0 (amp 0).1 (amp 0).2 L0.z) := by
  have hk := (List.getElem?_eq_some_iff.mp hL).1
  have h3 := solution_top (fun L hL => hg L (by simp [hL])) hc k (by simp at hk; omega) L hL
  have h5 := carry_tanField (hg L (List.mem_of_getElem? hL)).1 (amp (k + 1)).1 (amp (k + 1)).2 0 z
  rw [zero_add] at h5
  rw [carryAll_append, ← h3, ← h5]
  rfl

/-- Two stacks which describe one structure. -/
structure StackAlike (U : Matrix m' m ℂ) (L0 LN : Modes m) (inner : List (Modes m)) (L0' LN' : Modes m')
    (inner' : List (Modes m')) : Prop where
  good : GoodLayers (inner ++ [LN])
  good' : GoodLayers (inner' ++ [LN'])
  nonneg : ∀ L ∈ inner, 0 ≤ L.z
  nonneg' : ∀ L ∈ inner', 0 ≤ L.z
  head : L0.phi = 1 ∧ L0'.phi = 1 ∧ ∀ i i', U i' i ≠ 0 → L0.q i = L0'.q i'
  first : Alike U L0 L0'
  last : Alike U LN LN'
  out : ∀ i j, LN.q i ^ 2 = LN'.q j ^ 2 → LN.q i = LN'.q j
  prof : ProfileRel (Alike U) (slabsOf inner) (slabsOf inner')

theorem goodSlabs_of {inner : List (Modes m)} (hg : GoodLayers inner) (hn : ∀ L ∈ inner, 0 ≤ L.z) :
    GoodSlabs (slabsOf inner) := by
  intro x hx
  obtain ⟨L, hL, rfl⟩ := List.mem_map.mp hx
  exact ⟨hn L hL, hg L hL⟩

/-- The slabs above a point of layer number `k` below the first. -/
noncomputable def above (inner : List (Modes m)) (k : ℕ) (L : Modes m) (z : ℝ) : List (Modes m × ℝ) :=
  slabsOf (inner.take k) ++ [(L, z)]

theorem above_good {inner : List (Modes m)} {LN : Modes m} (hg : GoodLayers (inner ++ [LN])) (hn : ∀ L ∈ inner, 0 ≤ L.z)
    {k : ℕ} {L : Modes m} (hL : (inner ++ [LN])[k]? = some L) {z : ℝ} (hz : 0 ≤ z) : GoodSlabs (above inner k L z) := by
  intro x hx
  rcases List.mem_append.mp hx with h | h
  · obtain ⟨M, hM, rfl⟩ := List.mem_map.mp h
    have := List.mem_of_mem_take hM
    exact ⟨hn M this, hg M (by simp [this])⟩
  · simp only [List.mem_singleton] at h
    subst h
    exact ⟨hz, hg L (List.mem_of_getElem? hL)⟩

/-- All slabs, the last one of some thickness. -/
theorem above_found {inner : List (Modes m)} {LN : Modes m} (hn : ∀ L ∈ inner, 0 ≤ L.z)
    {k : ℕ} {L : Modes m} (hL : (inner ++ [LN])[k]? = some L) {z T : ℝ} (hz : 0 ≤ z) (hz2 : k < inner.length → z ≤ L.z)
    (hT : z ≤ T) {y : ℝ} (hy : 0 ≤ y) : foundAt (above inner k L z) y =
      if y < total (above inner k L z) then foundAt (slabsOf inner ++ [(LN, T)]) y else none := by
  have hk := (List.getElem?_eq_some_iff.mp hL).1
  have hpre : ∀ x ∈ slabsOf (inner.take k), 0 ≤ x.2 := by
    intro x hx
    obtain ⟨M, hM, rfl⟩ := List.mem_map.mp hx
    exact hn M (List.mem_of_mem_take hM)
  have ht : total (above inner k L z) = total (slabsOf (inner.take k)) + z := by
    unfold total above
    simp
  rw [ht]
  unfold above
  rcases Nat.lt_or_ge k inner.length with h1 | h1
  · have hLk : inner[k]? = some L := by rwa [List.getElem?_append_left h1] at hL
    have e : slabsOf inner ++ [(LN, T)] =
        slabsOf (inner.take k) ++ (L, L.z) :: (slabsOf (inner.drop (k + 1)) ++ [(LN, T)]) := by
      conv_lhs => rw [← List.take_append_drop k inner]
      unfold slabsOf
      rw [List.map_append, List.append_assoc]
      congr 1
      obtain ⟨h2, rfl⟩ := List.getElem?_eq_some_iff.mp hLk
      rw [List.drop_eq_getElem_cons h2]
      rfl
    rw [e]
    exact foundAt_prefix hpre hz (hz2 h1) hy
  · have hk2 : k = inner.length := by simp at hk; omega
    subst hk2
    obtain rfl : LN = L := by simpa using hL
    rw [List.take_length]
    rw [List.take_length] at hpre
    exact foundAt_prefix (post := []) hpre hz hT hy

/-- Fields which match in the first stack give fields which match in the second, once they do below the superstrate. -/
theorem StackAlike.carryOver {U : Matrix m' m ℂ} {L0 LN : Modes m} {inner : List (Modes m)} {L0' LN' : Modes m'}
    {inner' : List (Modes m')} (h : StackAlike U L0 LN inner L0' LN' inner') {amp : ℕ → (m → ℂ) × (m → ℂ)}
    (hcons : Consistent (L0 :: (inner ++ [LN])) 0 (inner.length + 1) amp) (hbN : (amp (inner.length + 1)).2 = 0)
    {ab0 : (m' → ℂ) × (m' → ℂ)} (hhead : tanField L0' ab0.1 ab0.2 L0'.z = push U (tanField L0 (amp 0).1 (amp 0).2 L0.z)) :
    ∃ amp', StackSolution (L0' :: (inner' ++ [LN'])) ab0.1 amp' ∧ amp' 0 = ab0 ∧
      (∀ z, tanField LN' (amp' (inner'.length + 1)).1 (amp' (inner'.length + 1)).2 z =
        push U (tanField LN (amp (inner.length + 1)).1 (amp (inner.length + 1)).2 z)) := by
  set F0 := tanField L0 (amp 0).1 (amp 0).2 L0.z with hF0
  have hg1 : GoodLayers inner := fun L hL => h.good L (by simp [hL])
  have hg1' : GoodLayers inner' := fun L hL => h.good' L (by simp [hL])
  have top : ∀ (L : Modes m) (F), L.M.det ≠ 0 → ∃ ab : (m → ℂ) × (m → ℂ), tanField L ab.1 ab.2 0 = F :=
    fun L F hL => tanField_surj hL F
  have hlast' := h.good' LN' (by simp)
  obtain ⟨aN, haN⟩ := h.last.coversOut (M_phi hlast'.1) h.out (amp (inner.length + 1)).1
  have hN0 : tanField LN (amp (inner.length + 1)).1 0 0 = carryAll (slabsOf inner) F0 := by
    have := solution_top hg1 hcons inner.length le_rfl LN (by simp)
    rw [List.take_length, hbN] at this
    exact this
  have hpf := carryAll_profile (U := U) _ rfl (goodSlabs_of hg1 h.nonneg) (goodSlabs_of hg1' h.nonneg') h.prof F0
  have key : ∀ k : ℕ, ∃ ab : (m' → ℂ) × (m' → ℂ), (k = 0 → ab = ab0) ∧
      (∀ j, k = j + 1 → j < inner'.length → ∀ L, inner'[j]? = some L →
        tanField L ab.1 ab.2 0 = carryAll (slabsOf (inner'.take j)) (push U F0)) ∧
      (k = inner'.length + 1 → ab = (aN, 0)) := by
    intro k
    rcases k with _ | j
    · exact ⟨_, fun _ => rfl, fun j h => by omega, fun h => by omega⟩
    rcases Nat.lt_trichotomy j inner'.length with hj | hj | hj
    · obtain ⟨L, hL⟩ : ∃ L, inner'[j]? = some L := ⟨_, List.getElem?_eq_getElem hj⟩
      obtain ⟨ab, hab⟩ := tanField_surj (hg1' L (List.mem_of_getElem? hL)).1 (carryAll (slabsOf (inner'.take j)) (push U F0))
      refine ⟨ab, fun h => by omega, fun i hi _ M hM => ?_, fun h => by omega⟩
      obtain rfl : i = j := by omega
      obtain rfl := Option.some.inj (hL.symm.trans hM)
      exact hab
    · exact ⟨(aN, 0), fun h => by omega, fun i hi hi2 => by omega, fun _ => rfl⟩
    · exact ⟨0, fun h => by omega, fun i hi hi2 => by omega, fun _ => by omega⟩
  choose amp' k0 kI kN using key
  have hNz : ∀ z, tanField LN' (amp' (inner'.length + 1)).1 (amp' (inner'.length + 1)).2 z =
      push U (tanField LN (amp (inner.length + 1)).1 (amp (inner.length + 1)).2 z) := by
    intro z
    rw [kN _ rfl, hbN]
    exact haN z
  have htop : ∀ j L, (inner' ++ [LN'])[j]? = some L →
      tanField L (amp' (j + 1)).1 (amp' (j + 1)).2 0 = carryAll (slabsOf (inner'.take j)) (push U F0) := by
    intro j L hL
    have hj := (List.getElem?_eq_some_iff.mp hL).1
    rcases Nat.lt_or_ge j inner'.length with h1 | h1
    · rw [List.getElem?_append_left h1] at hL
      exact kI (j + 1) j rfl h1 L hL
    · obtain rfl : j = inner'.length := by simp at hj; omega
      obtain rfl : LN' = L := by simpa using hL
      rw [hNz, hbN, hN0, List.take_length, hpf]
  refine ⟨amp', ⟨?_, ?_, ?_⟩, k0 0 rfl, hNz⟩
  · intro k L M _ hk hL hM
    simp only [List.length_cons, List.length_append, List.length_nil, zero_add, Nat.add_sub_cancel] at hk
    have hM2 : (inner' ++ [LN'])[k]? = some M := by simpa using hM
    have hb := htop k M hM2
    have ht : tanField L (amp' k).1 (amp' k).2 L.z = tanField M (amp' (k + 1)).1 (amp' (k + 1)).2 0 := by
      rw [hb]
      rcases k with _ | j
      · obtain rfl : L0' = L := by simpa using hL
        rw [k0 0 rfl, hhead]
        rfl
      · have hL2 : inner'[j]? = some L := by
          have : (inner' ++ [LN'])[j]? = some L := by simpa using hL
          rwa [List.getElem?_append_left (by omega)] at this
        have h5 := carry_tanField (hg1' L (List.mem_of_getElem? hL2)).1 (amp' (j + 1)).1 (amp' (j + 1)).2 0 L.z
        rw [zero_add] at h5
        rw [← h5, kI (j + 1) j rfl (by omega) L hL2, List.take_add_one, hL2]
        unfold slabsOf
        rw [List.map_append, carryAll_append]
        rfl
    exact ⟨congrArg Prod.fst ht, congrArg Prod.snd ht⟩
  · rw [k0 0 rfl]
  · simp only [List.length_cons, List.length_append, List.length_nil, zero_add, Nat.add_sub_cancel]
    rw [kN _ rfl]

/-- The field above the first interface: the amplitude of the wave coming down acquires the factor `lam`. -/
theorem Alike.head {U : Matrix m' m ℂ} {L : Modes m} {L' : Modes m'} (h : Alike U L L') (h1 : L.phi = 1) (h1' : L'.phi = 1)
    (hq : ∀ i i', U i' i ≠ 0 → L.q i = L'.q i') {lam : ℂ} {a : m → ℂ}
    (hl : ∀ i, a i * Complex.exp (Complex.I * L.q i * L'.z) = lam * (a i * Complex.exp (Complex.I * L.q i * L.z)))
    (b : m → ℂ) (s : ℝ) :
    tanField L' (U *ᵥ a) (lam • (U *ᵥ b)) (L'.z + s) = push U (tanField L (lam • a) (lam • b) (L.z + s)) := by
  have hl2 : ∀ i, a i * Complex.exp (Complex.I * L.q i * ((L'.z + s : ℝ) : ℂ)) =
      lam * (a i * Complex.exp (Complex.I * L.q i * ((L.z + s : ℝ) : ℂ))) := by
    intro i
    have e : ∀ z : ℝ, Complex.exp (Complex.I * L.q i * ((z + s : ℝ) : ℂ)) =
        Complex.exp (Complex.I * L.q i * z) * Complex.exp (Complex.I * L.q i * s) := by
      intro z
      rw [← Complex.exp_add]
      push_cast
      ring_nf
    rw [e, e, ← mul_assoc, hl i]
    ring
  have hU : ∀ (f : m → ℂ) (g : m' → ℂ), (∀ i i', U i' i ≠ 0 → g i' = f i) → ∀ v : m → ℂ,
      (fun i' => (U *ᵥ v) i' * g i') = U *ᵥ fun i => v i * f i := by
    intro f g hfg v
    funext i'
    simp only [mulVec, dotProduct, Finset.sum_mul]
    refine Finset.sum_congr rfl fun i _ => ?_
    by_cases hu : U i' i = 0
    · simp [hu]
    rw [hfg i i' hu]
    ring
  have dn : (fun i' => (U *ᵥ a) i' * Complex.exp (Complex.I * L'.q i' * ((L'.z + s : ℝ) : ℂ))) =
      U *ᵥ fun i => (lam • a) i * Complex.exp (Complex.I * L.q i * ((L.z + s : ℝ) : ℂ)) := by
    rw [hU (fun i => Complex.exp (Complex.I * L.q i * ((L'.z + s : ℝ) : ℂ))) _ (fun i i' hu => by rw [hq i i' hu])]
    congr 1
    funext i
    rw [hl2, Pi.smul_apply, smul_eq_mul]
    ring
  have up : (fun i' => (lam • (U *ᵥ b)) i' * Complex.exp (Complex.I * L'.q i' * ((L'.z - (L'.z + s) : ℝ) : ℂ))) =
      U *ᵥ fun i => (lam • b) i * Complex.exp (Complex.I * L.q i * ((L.z - (L.z + s) : ℝ) : ℂ)) := by
    rw [← mulVec_smul, hU (fun i => Complex.exp (Complex.I * L.q i * ((L'.z - (L'.z + s) : ℝ) : ℂ))) _
      (fun i i' hu => by rw [hq i i' hu])]
    congr 1
    funext i
    congr 3
    push_cast
    ring
  have am : L'.amat * U = U * L.amat := by
    have e1 : ∀ (N : Type) [Fintype N] [DecidableEq N] (K : Modes N), K.phi = 1 → K.amat = K.Q * diagonal fun k => 1 / K.q k := by
      intro N _ _ K hK
      ext i j
      rw [amat_apply, hK, mul_diagonal]
      simp [Matrix.one_apply, div_eq_mul_inv]
    rw [e1 _ L h1, e1 _ L' h1', Matrix.mul_assoc, ← Matrix.mul_assoc U, ← h.Q, Matrix.mul_assoc]
    congr 1
    ext i' i
    rw [diagonal_mul, mul_diagonal]
    by_cases hu : U i' i = 0
    · simp [hu]
    rw [hq i i' hu]
    ring
  unfold tanField push
  rw [tanE_amat, tanE_amat, tanH_phi, tanH_phi, dn, up, h1, h1', one_mulVec, one_mulVec]
  refine Prod.ext ?_ ?_
  · dsimp only
    rw [← mulVec_sub, mulVec_mulVec, am, ← mulVec_mulVec]
  · dsimp only
    rw [← mulVec_add]

theorem tanField_smul (L : Modes m) (lam : ℂ) (a b : m → ℂ) (z : ℝ) : tanField L (lam • a) (lam • b) z =
    (lam • tanE L a b z, lam • tanH L a b z) := by
  unfold tanField
  rw [tanE_amat, tanE_amat, tanH_phi, tanH_phi, ← mulVec_smul, ← mulVec_smul]
  refine Prod.ext ?_ ?_ <;> dsimp only <;> congr 1 <;> funext i <;>
    simp only [Pi.smul_apply, Pi.sub_apply, Pi.add_apply, smul_eq_mul] <;> ring

/-- Matching fields stay so under a common factor. -/
theorem consistent_smul {Ls : List (Modes m)} {i j : ℕ} {amp : ℕ → (m → ℂ) × (m → ℂ)} (h : Consistent Ls i j amp) (lam : ℂ) :
    Consistent Ls i j fun k => (lam • (amp k).1, lam • (amp k).2) := by
  intro k L M hk hk2 hL hM
  obtain ⟨e1, e2⟩ := h k L M hk hk2 hL hM
  have a1 := tanField_smul L lam (amp k).1 (amp k).2 L.z
  have a2 := tanField_smul M lam (amp (k + 1)).1 (amp (k + 1)).2 0
  rw [e1, e2, ← a2] at a1
  exact ⟨congrArg Prod.fst a1, congrArg Prod.snd a1⟩

/-- The same field at the same depth. -/
theorem StackAlike.fields {U : Matrix m' m ℂ} {L0 LN : Modes m} {inner : List (Modes m)} {L0' LN' : Modes m'}
    {inner' : List (Modes m')} (h : StackAlike U L0 LN inner L0' LN' inner')
    {amp : ℕ → (m → ℂ) × (m → ℂ)} {amp' : ℕ → (m' → ℂ) × (m' → ℂ)}
    (hcons : Consistent (L0 :: (inner ++ [LN])) 0 (inner.length + 1) amp)
    (hcons' : Consistent (L0' :: (inner' ++ [LN'])) 0 (inner'.length + 1) amp')
    (h0 : tanField L0' (amp' 0).1 (amp' 0).2 L0'.z = push U (tanField L0 (amp 0).1 (amp 0).2 L0.z)) :
    (∀ k L z, (inner ++ [LN])[k]? = some L → 0 ≤ z → total (above inner k L z) = 0 →
      tanField L0' (amp' 0).1 (amp' 0).2 L0'.z = push U (tanField L (amp (k + 1)).1 (amp (k + 1)).2 z)) ∧
    (∀ k' L' z', (inner' ++ [LN'])[k']? = some L' → 0 ≤ z' → total (above inner' k' L' z') = 0 →
      tanField L' (amp' (k' + 1)).1 (amp' (k' + 1)).2 z' = push U (tanField L0 (amp 0).1 (amp 0).2 L0.z)) ∧
    ∀ k L z k' L' z', (inner ++ [LN])[k]? = some L → (inner' ++ [LN'])[k']? = some L' → 0 ≤ z → 0 ≤ z' →
      (k < inner.length → z ≤ L.z) → (k' < inner'.length → z' ≤ L'.z) →
      total (above inner k L z) = total (above inner' k' L' z') →
      tanField L' (amp' (k' + 1)).1 (amp' (k' + 1)).2 z' = push U (tanField L (amp (k + 1)).1 (amp (k + 1)).2 z) := by
  refine ⟨?_, ?_, ?_⟩
  · intro k L z hL hz ht
    rw [solution_field h.good hcons z hL]
    change _ = push U (carryAll (above inner k L z) _)
    rw [carryAll_thin (above_good h.good h.nonneg hL hz) ht, h0]
  · intro k' L' z' hL' hz' ht
    rw [solution_field h.good' hcons' z' hL']
    change carryAll (above inner' k' L' z') _ = _
    rw [carryAll_thin (above_good h.good' h.nonneg' hL' hz') ht, h0]
  · intro k L z k' L' z' hL hL' hz hz' hi hi' ht
    rw [solution_field h.good hcons z hL, solution_field h.good' hcons' z' hL', h0]
    refine carryAll_profile (U := U) _ rfl (above_good h.good h.nonneg hL hz) (above_good h.good' h.nonneg' hL' hz') ?_ _
    have n1 := (goodSlabs_of (fun L hL => h.good L (by simp [hL])) h.nonneg).nonneg
    have n2 := (goodSlabs_of (fun L hL => h.good' L (by simp [hL])) h.nonneg').nonneg
    have heq := h.prof.total n1 n2
    intro y hy
    rw [above_found h.nonneg hL hz hi (le_max_left z z') hy, above_found h.nonneg' hL' hz' hi' (le_max_right z z') hy, ← ht]
    by_cases hy2 : y < total (above inner k L z)
    · rw [if_pos hy2, if_pos hy2, foundAt_append n1 hy, foundAt_append n2 hy, heq]
      split
      · exact h.prof y hy
      · simp only [foundAt]
        split
        · exact .some h.last
        · exact .none
    · rw [if_neg hy2, if_neg hy2]
      exact .none

end

end Nannos
