import Verif.Model.Orders
import Verif.Proofs.SimCalls

/-! The dictionary of orders. -/

namespace Nannos

variable {V : Type}

theorem dget_dset {κ α : Type} [DecidableEq κ] (d : List (κ × α)) (k k' : κ) (v : α) :
    dget (dset d k v) k' = if k = k' then some v else dget d k' := by
  induction d with
  | nil => simp [dset, dget]
  | cons p d ih =>
    obtain ⟨a, b⟩ := p
    unfold dset
    by_cases h : a = k
    · subst h
      rw [if_pos rfl]
      unfold dget
      by_cases h2 : a = k' <;> simp [h2]
    · rw [if_neg h]
      unfold dget
      by_cases h2 : a = k'
      · subst h2
        rw [if_pos rfl, if_pos rfl, if_neg (Ne.symm h)]
      · rw [if_neg h2, if_neg h2, ih]

/-- Different keys lead to different inner dictionaries. -/
structure OrderDicts.Wf (s : OrderDicts V) : Prop where
  lt : ∀ i r, dget s.outer i = some r → r < s.next
  inj : ∀ i i' r, dget s.outer i = some r → dget s.outer i' = some r → i = i'

theorem OrderDicts.read_setInner {s : OrderDicts V} (h : s.Wf) {i r} (hr : dget s.outer i = some r) (j : ℤ)
    (v : Cell V) (i' j' : ℤ) : (s.setInner r j v).read s.outer i' j' =
      if (i, j) = (i', j') then .ok v else s.read s.outer i' j' := by
  unfold OrderDicts.read OrderDicts.setInner
  dsimp only
  by_cases hi : i = i'
  · subst hi
    rw [hr]
    dsimp only
    rw [if_pos rfl, dget_dset]
    by_cases hj : j = j'
    · simp [hj]
    · simp [hj]
  · rw [if_neg (by simp [hi])]
    rcases hr' : dget s.outer i' with _ | r'
    · rfl
    · dsimp only
      rw [if_neg]
      rintro rfl
      exact hi (h.inj _ _ _ hr hr')

theorem OrderDicts.wf_setInner {s : OrderDicts V} (h : s.Wf) (r j v) : (s.setInner r j v).Wf := ⟨h.lt, h.inj⟩

theorem OrderDicts.insert_spec {s : OrderDicts V} (h : s.Wf) (g : (ℤ × ℤ) × ℕ) :
    (s.insert g).Wf ∧ ∀ i j, (s.insert g).read (s.insert g).outer i j =
      if g.1 = (i, j) then .ok (.index g.2) else s.read s.outer i j := by
  obtain ⟨⟨a, b⟩, k⟩ := g
  unfold OrderDicts.insert
  dsimp only
  rcases hr : dget s.outer a with _ | r
  · refine ⟨⟨?_, ?_⟩, ?_⟩
    · intro i r hi
      dsimp only at hi ⊢
      rw [dget_dset] at hi
      split_ifs at hi
      · cases hi; omega
      · exact (h.lt i r hi).trans (Nat.lt_succ_self _)
    · intro i i' r hi hi'
      dsimp only at hi hi'
      rw [dget_dset] at hi hi'
      split_ifs at hi hi' with h1 h2 h2
      · rw [← h1, h2]
      · cases hi; exact absurd (h.lt _ _ hi') (lt_irrefl _)
      · cases hi'; exact absurd (h.lt _ _ hi) (lt_irrefl _)
      · exact h.inj _ _ _ hi hi'
    · intro i j
      unfold OrderDicts.read
      dsimp only
      rw [dget_dset]
      by_cases hi : a = i
      · subst hi
        rw [if_pos rfl, hr]
        dsimp only
        rw [if_pos rfl]
        by_cases hj : b = j
        · simp [dget, hj]
        · simp [dget, hj]
      · rw [if_neg hi, if_neg (by simp [hi])]
        rcases hr' : dget s.outer i with _ | r'
        · rfl
        · dsimp only
          rw [if_neg (h.lt _ _ hr').ne]
  · exact ⟨OrderDicts.wf_setInner h _ _ _, fun i j => OrderDicts.read_setInner h hr b _ i j⟩

theorem OrderDicts.fold_spec (l : List ((ℤ × ℤ) × ℕ)) : ∀ {s : OrderDicts V}, s.Wf → (l.map Prod.fst).Nodup →
    (l.foldl OrderDicts.insert s).Wf ∧
    (∀ g k, (g, k) ∈ l → (l.foldl OrderDicts.insert s).read (l.foldl OrderDicts.insert s).outer g.1 g.2 =
      .ok (.index k)) ∧
    ∀ g, g ∉ l.map Prod.fst → (l.foldl OrderDicts.insert s).read (l.foldl OrderDicts.insert s).outer g.1 g.2 =
      s.read s.outer g.1 g.2 := by
  induction l with
  | nil => intro s h _; exact ⟨h, by simp, fun _ _ => rfl⟩
  | cons p l ih =>
    intro s h hnd
    obtain ⟨h1, h2⟩ := OrderDicts.insert_spec h p
    rw [List.map_cons, List.nodup_cons] at hnd
    obtain ⟨i1, i2, i3⟩ := ih h1 hnd.2
    rw [List.foldl_cons]
    refine ⟨i1, ?_, ?_⟩
    · intro g k hg
      rcases List.mem_cons.mp hg with rfl | hg
      · rw [i3 g hnd.1, h2, if_pos rfl]
      · exact i2 g k hg
    · intro g hg
      rw [List.map_cons, List.mem_cons, not_or] at hg
      rw [i3 g hg.2, h2, if_neg (fun e => hg.1 e.symm)]

theorem zipIdx_fst {α : Type} (l : List α) (n : ℕ) : (l.zipIdx n).map Prod.fst = l := by
  simp

theorem OrderDicts.build_spec {H : List (ℤ × ℤ)} (hnd : H.Nodup) :
    (OrderDicts.build V H).Wf ∧
    (∀ (k : ℕ) g, H[k]? = some g → (OrderDicts.build V H).read (OrderDicts.build V H).outer g.1 g.2 =
      .ok (.index k)) ∧
    ∀ g, g ∉ H → (OrderDicts.build V H).read (OrderDicts.build V H).outer g.1 g.2 = .error .keyError := by
  have hw : (⟨[], fun _ => [], 0⟩ : OrderDicts V).Wf := ⟨by simp [dget], by simp [dget]⟩
  obtain ⟨h1, h2, h3⟩ := OrderDicts.fold_spec H.zipIdx hw (by rw [zipIdx_fst]; exact hnd)
  refine ⟨h1, fun k g hk => h2 g k ?_, fun g hg => ?_⟩
  · rw [List.mem_zipIdx_iff_getElem?]
    exact hk
  · unfold OrderDicts.build
    rw [h3 g (by rw [zipIdx_fst]; exact hg)]
    rfl

/-! ### `return_dict` -/

theorem dictBody_ok {s : OrderDicts V} (h : s.Wf) {R T : List V} {g : ℤ × ℤ} {k : ℕ} {r t : V}
    (hg : s.read s.outer g.1 g.2 = .ok (.index k)) (hr : R[k]? = some r) (ht : T[k]? = some t) :
    ∃ s', dictBody s.outer s.outer R T s g = .ok s' ∧ s'.Wf ∧ s'.outer = s.outer ∧
      ∀ i j, s'.read s.outer i j = if g = (i, j) then .ok (.val t) else s.read s.outer i j := by
  obtain ⟨a, b⟩ := g
  have hget : ∀ {A : List V} {x}, A[k]? = some x → cellGet (V := V) A (.index k) = .ok x := by
    intro A x hx
    have hk : k < A.length := (List.getElem?_eq_some_iff.mp hx).1
    unfold cellGet pyGet pyIdx
    simpa [hk] using (List.getElem?_eq_some_iff.mp hx).2
  obtain ⟨ref, href⟩ : ∃ ref, dget s.outer a = some ref := by
    unfold OrderDicts.read at hg
    dsimp only at hg
    rcases hd : dget s.outer a with _ | ref
    · rw [hd] at hg; simp at hg
    · exact ⟨ref, rfl⟩
  unfold dictBody
  rw [hg, except_bind_ok, hget hr, except_bind_ok]
  unfold OrderDicts.write
  dsimp only
  rw [href, except_bind_ok, hget ht, except_bind_ok]
  have h1 := OrderDicts.wf_setInner h ref b (.val r)
  refine ⟨_, rfl, OrderDicts.wf_setInner h1 ref b (.val t), rfl, fun i j => ?_⟩
  have e1 := OrderDicts.read_setInner h1 (i := a) href b (.val t) i j
  have e2 := OrderDicts.read_setInner h href b (.val r) i j
  have eo : (s.setInner ref b (.val r)).outer = s.outer := rfl
  rw [eo] at e1
  rw [e1, e2]
  split_ifs <;> rfl

theorem dictLoop_ok {R T : List V} : ∀ (H : List (ℤ × ℤ)) {s : OrderDicts V}, s.Wf → H.Nodup →
    (∀ g ∈ H, ∃ k r t, s.read s.outer g.1 g.2 = .ok (.index k) ∧ R[k]? = some r ∧ T[k]? = some t) →
    ∃ s', dictLoop s.outer s.outer R T H s = (.ok (), s') ∧ s'.Wf ∧ s'.outer = s.outer ∧
      (∀ g ∈ H, ∀ k t, s.read s.outer g.1 g.2 = .ok (.index k) → T[k]? = some t →
        s'.read s.outer g.1 g.2 = .ok (.val t)) ∧
      ∀ g, g ∉ H → s'.read s.outer g.1 g.2 = s.read s.outer g.1 g.2 := by
  intro H
  induction H with
  | nil => intro s h _ _; exact ⟨s, rfl, h, rfl, by simp, fun _ _ => rfl⟩
  | cons g H ih =>
    intro s h hnd hH
    rw [List.nodup_cons] at hnd
    obtain ⟨k, r, t, e1, e2, e3⟩ := hH g (by simp)
    obtain ⟨s1, f1, f2, f3, f4⟩ := dictBody_ok h e1 e2 e3
    obtain ⟨s2, i1, i2, i3, i4, i5⟩ := ih (s := s1) f2 hnd.2 (by
      intro g' hg'
      obtain ⟨k', r', t', e1', e2', e3'⟩ := hH g' (by simp [hg'])
      refine ⟨k', r', t', ?_, e2', e3'⟩
      rw [f3, f4, if_neg (by rintro rfl; exact hnd.1 hg')]
      exact e1')
    rw [f3] at i1 i4 i5 i3
    refine ⟨s2, ?_, i2, i3, ?_, ?_⟩
    · unfold dictLoop
      rw [f1]
      exact i1
    · intro g' hg' k' t' e1' e3'
      rcases List.mem_cons.mp hg' with rfl | hg2
      · rw [i5 _ hnd.1, f4, if_pos rfl]
        rw [e1] at e1'
        cases e1'
        rw [e3] at e3'
        cases e3'
        rfl
      · refine i4 g' hg2 k' t' ?_ e3'
        rw [f4, if_neg (by rintro rfl; exact hnd.1 hg2)]
        exact e1'
    · intro g' hg'
      rw [List.mem_cons, not_or] at hg'
      rw [i5 g' hg'.2, f4, if_neg (fun e => hg'.1 e.symm)]

/-- What the first call with `return_dict` returns and leaves behind. -/
theorem efficiencyDicts_first {H : List (ℤ × ℤ)} (hnd : H.Nodup) {R T : List V} (hR : R.length = H.length)
    (hT : T.length = H.length) :
    ∃ s', efficiencyDicts H R T (OrderDicts.build V H) =
        (.ok ((OrderDicts.build V H).outer, (OrderDicts.build V H).outer), s') ∧
      s'.outer = (OrderDicts.build V H).outer ∧
      (∀ (k : ℕ) g t, H[k]? = some g → T[k]? = some t → s'.read s'.outer g.1 g.2 = .ok (.val t)) ∧
      ∀ g, g ∉ H → s'.read s'.outer g.1 g.2 = .error .keyError := by
  obtain ⟨h1, h2, h3⟩ := OrderDicts.build_spec (V := V) hnd
  obtain ⟨s', e1, -, e3, e4, e5⟩ := dictLoop_ok (R := R) (T := T) H h1 hnd (by
    intro g hg
    obtain ⟨k, hk⟩ := List.getElem?_of_mem hg
    have hlt : k < H.length := (List.getElem?_eq_some_iff.mp hk).1
    exact ⟨k, R[k], T[k], h2 k g hk, List.getElem?_eq_getElem (by omega), List.getElem?_eq_getElem (by omega)⟩)
  refine ⟨s', by unfold efficiencyDicts; rw [e1], e3, ?_, ?_⟩
  · intro k g t hk ht
    rw [e3]
    exact e4 g (List.mem_of_getElem? hk) k t (h2 k g hk) ht
  · intro g hg
    rw [e3, e5 g hg, h3 g hg]

theorem cellGet_index {α : Type} {A : List α} {k : ℕ} :
    (∀ x, A[k]? = some x → cellGet (V := V) A (.index k) = .ok x) ∧
    (A.length ≤ k → cellGet (V := V) A (.index k) = .error .indexError) := by
  constructor
  · intro x hx
    have hk : k < A.length := (List.getElem?_eq_some_iff.mp hx).1
    unfold cellGet pyGet pyIdx
    simpa [hk] using (List.getElem?_eq_some_iff.mp hx).2
  · intro hk
    unfold cellGet pyGet pyIdx
    simp [hk.not_gt]

/-- Entries that are not positions make the loop raise at its first turn. -/
theorem dictLoop_val {R T : List V} {s : OrderDicts V} {d : List (ℤ × ℕ)} {g : ℤ × ℤ} {H : List (ℤ × ℤ)} {v : V}
    (h : s.read s.outer g.1 g.2 = .ok (.val v)) : dictLoop d d R T (g :: H) s = (.error .indexError, s) := by
  unfold dictLoop dictBody
  rw [h, except_bind_ok]
  rfl

/-- Positions beyond the end of the arrays make the loop raise. -/
theorem dictLoop_short {R T : List V} (hRT : R.length = T.length) : ∀ (H : List (ℤ × ℤ)) {s : OrderDicts V},
    s.Wf → H.Nodup → (∀ g ∈ H, ∃ k, s.read s.outer g.1 g.2 = .ok (.index k)) →
    (∃ g ∈ H, ∃ k, s.read s.outer g.1 g.2 = .ok (.index k) ∧ R.length ≤ k) →
    (dictLoop s.outer s.outer R T H s).1 = .error .indexError := by
  intro H
  induction H with
  | nil => intro s _ _ _ h; simp at h
  | cons g H ih =>
    intro s h hnd hH hx
    rw [List.nodup_cons] at hnd
    obtain ⟨k, hk⟩ := hH g (by simp)
    rcases lt_or_ge k R.length with hl | hl
    · obtain ⟨s1, f1, f2, f3, f4⟩ := dictBody_ok (R := R) (T := T) h hk (List.getElem?_eq_getElem hl)
        (List.getElem?_eq_getElem (by omega))
      have hkeep : ∀ g' ∈ H, s1.read s1.outer g'.1 g'.2 = s.read s.outer g'.1 g'.2 := by
        intro g' hg'
        rw [f3, f4, if_neg (by rintro rfl; exact hnd.1 hg')]
      unfold dictLoop
      rw [f1]
      dsimp only
      rw [← f3]
      refine ih f2 hnd.2 (fun g' hg' => ?_) ?_
      · rw [hkeep g' hg']
        exact hH g' (by simp [hg'])
      · obtain ⟨g', hg', k', h1, h2⟩ := hx
        rcases List.mem_cons.mp hg' with rfl | hg2
        · rw [hk] at h1
          cases h1
          omega
        · exact ⟨g', hg2, k', by rw [hkeep g' hg2]; exact h1, h2⟩
    · unfold dictLoop dictBody
      rw [hk, except_bind_ok, cellGet_index.2 hl]
      rfl

end Nannos
