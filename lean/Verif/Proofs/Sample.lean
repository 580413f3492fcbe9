import Verif.Model.Sample
import Verif.Props.Parallel
import Mathlib.Tactic.Linarith
import Mathlib.Data.List.GetD

/-! Helper lemmas about the adaptive sampler. -/

namespace Nannos

/-! ### numpy helpers -/

theorem mem_npUnique {l : List ℝ} {a : ℝ} : a ∈ npUnique l ↔ a ∈ l := by
  classical
  simp [npUnique]

theorem npUnique_sorted (l : List ℝ) : (npUnique l).Pairwise (· < ·) := by
  unfold npUnique
  exact (Finset.sortedLT_sort _).pairwise

theorem sorted_ext : ∀ {l m : List ℝ}, l.Pairwise (· < ·) → m.Pairwise (· < ·) → (∀ a, a ∈ l ↔ a ∈ m) → l = m := by
  intro l m hl hm h
  refine List.Perm.eq_of_pairwise (le := (· ≤ ·)) ?_ (hl.imp le_of_lt) (hm.imp le_of_lt) ?_
  · intro a b _ _ h1 h2
    exact le_antisymm h1 h2
  · exact (List.perm_ext_iff_of_nodup (hl.imp ne_of_lt) (hm.imp ne_of_lt)).2 h

theorem foldl_min_spec : ∀ (l : List ℝ) (a : ℝ), l.foldl min a ∈ a :: l ∧ ∀ w ∈ a :: l, l.foldl min a ≤ w
  | [], a => by simp
  | b :: l, a => by
    obtain ⟨h1, h2⟩ := foldl_min_spec l (min a b)
    rw [List.foldl_cons]
    refine ⟨?_, fun w hw => ?_⟩
    · rcases List.mem_cons.1 h1 with h | h
      · rw [h]
        rcases min_choice a b with h | h <;> rw [h] <;> simp
      · simp [h]
    · have hm := h2 (min a b) (by simp)
      simp only [List.mem_cons] at hw
      rcases hw with rfl | rfl | hw
      · exact hm.trans (min_le_left _ _)
      · exact hm.trans (min_le_right _ _)
      · exact h2 w (by simp [hw])

theorem foldl_max_spec : ∀ (l : List ℝ) (a : ℝ), l.foldl max a ∈ a :: l ∧ ∀ w ∈ a :: l, w ≤ l.foldl max a
  | [], a => by simp
  | b :: l, a => by
    obtain ⟨h1, h2⟩ := foldl_max_spec l (max a b)
    rw [List.foldl_cons]
    refine ⟨?_, fun w hw => ?_⟩
    · rcases List.mem_cons.1 h1 with h | h
      · rw [h]
        rcases max_choice a b with h | h <;> rw [h] <;> simp
      · simp [h]
    · have hm := h2 (max a b) (by simp)
      simp only [List.mem_cons] at hw
      rcases hw with rfl | rfl | hw
      · exact (le_max_left _ _).trans hm
      · exact (le_max_right _ _).trans hm
      · exact h2 w (by simp [hw])

theorem npMin_spec {l : List ℝ} (h : l ≠ []) : ∃ m, npMin l = .ok m ∧ m ∈ l ∧ ∀ w ∈ l, m ≤ w := by
  cases l with
  | nil => exact absurd rfl h
  | cons a l => exact ⟨_, rfl, foldl_min_spec l a⟩

theorem npMax_spec {l : List ℝ} (h : l ≠ []) : ∃ m, npMax l = .ok m ∧ m ∈ l ∧ ∀ w ∈ l, w ≤ m := by
  cases l with
  | nil => exact absurd rfl h
  | cons a l => exact ⟨_, rfl, foldl_max_spec l a⟩

/-! ### One window -/

/-- What an inserted point is. -/
def Inserted (x : List ℝ) (minDx z : ℝ) : Prop :=
  ∃ p ∈ x, ∃ q ∈ x, p < q ∧ (∀ w ∈ x, w ≤ p ∨ q ≤ w) ∧ minDx ≤ q - p ∧ z = (p + q) / 2

theorem window_spec (cmax minDx minDy : ℝ) {xp x0 xn : ℝ} (yp y0 yn : ℝ) (h1 : xp ≤ x0) (h2 : x0 ≤ xn) :
    ∃ l, windowNew cmax minDx minDy [xp, x0, xn] [yp, y0, yn] = .ok l ∧
      ∀ z ∈ l, (z = (xp + x0) / 2 ∧ xp < x0 ∧ minDx ≤ x0 - xp) ∨ (z = (x0 + xn) / 2 ∧ x0 < xn ∧ minDx ≤ xn - x0) := by
  unfold windowNew
  dsimp only
  split_ifs with hc
  all_goals first | exact ⟨[], rfl, by simp⟩ | refine ⟨_, rfl, fun z hz => ?_⟩
  all_goals
    obtain ⟨hb, hx, -⟩ := hc
    have hne : xn - xp ≠ 0 := by
      intro h
      unfold bending at hb
      dsimp only at hb
      rw [if_pos h] at hb
      simp at hb
    have hpos : 0 < xn - xp := lt_of_le_of_ne (by linarith) (Ne.symm hne)
    obtain ⟨k, hk, rfl⟩ := List.mem_map.1 hz
    rw [List.mem_dedup] at hk
    simp only [List.cons_append, List.nil_append, List.mem_cons, List.not_mem_nil, or_false] at hk
  all_goals
    rw [not_and_or, not_lt, not_lt] at hx
    first
      | (rcases hk with rfl | rfl | rfl)
      | (rcases hk with rfl | rfl)
      | (subst hk)
  all_goals
    simp only [List.drop_zero, List.drop_one, List.drop_succ_cons, List.take_succ_cons, List.take_zero,
      List.sum_cons, List.sum_nil, List.tail_cons]
    first
      | (left; refine ⟨by ring1, ?_, ?_⟩ <;> rcases hx with hx | hx <;> linarith)
      | (right; refine ⟨by ring1, ?_, ?_⟩ <;> rcases hx with hx | hx <;> linarith)

/-! ### One call of `get_new` -/

theorem take_three {α : Type} {l : List α} {i : ℕ} (h : i + 2 < l.length) :
    (l.drop i).take 3 = [l[i], l[i + 1], l[i + 2]] := by
  rw [List.drop_eq_getElem_cons (by omega), List.take_succ_cons, List.drop_eq_getElem_cons (by omega),
    List.take_succ_cons, List.drop_eq_getElem_cons (by omega), List.take_succ_cons, List.take_zero]

theorem mapM_ex {α β : Type} {f : α → Except PyErr β} :
    ∀ {l : List α}, (∀ a ∈ l, ∃ b, f a = .ok b) → ∃ r, l.mapM f = .ok r ∧ ∀ b ∈ r, ∃ a ∈ l, f a = .ok b
  | [], _ => ⟨[], rfl, by simp⟩
  | a :: l, h => by
    obtain ⟨b, hb⟩ := h a (by simp)
    obtain ⟨r, hr, hr'⟩ := mapM_ex fun a ha => h a (List.mem_cons_of_mem _ ha)
    refine ⟨b :: r, ?_, ?_⟩
    · rw [List.mapM_cons, hb, hr]
      rfl
    · intro c hc
      rcases List.mem_cons.1 hc with rfl | hc
      · exact ⟨a, by simp, hb⟩
      · obtain ⟨a', h1, h2⟩ := hr' c hc
        exact ⟨a', by simp [h1], h2⟩

theorem getNew_spec (p : SampleParams) {x y : List ℝ} (hx : x ≠ []) (hy : y.length = x.length) :
    ∃ a ∈ x, ∃ b ∈ x, (∀ w ∈ x, a ≤ w ∧ w ≤ b) ∧ ∃ l, getNew p x y = .ok l ∧ l.Pairwise (· < ·) ∧
      ∀ z ∈ l, Inserted x (p.maxXRel * (b - a)) z := by
  classical
  set xs := x.insertionSort (· ≤ ·) with hxs
  have hlen : xs.length = x.length := List.length_insertionSort _ _
  have hmem : ∀ w, w ∈ xs ↔ w ∈ x := fun w => List.mem_insertionSort _
  have hne : xs ≠ [] := by
    intro h
    rw [h] at hlen
    exact hx (List.length_eq_zero_iff.1 hlen.symm)
  have hyne : y ≠ [] := by
    intro h
    rw [h] at hy
    exact hx (List.length_eq_zero_iff.1 hy.symm)
  have hsort : xs.Pairwise (· ≤ ·) := List.pairwise_insertionSort _ _
  have hmono : ∀ (i j : ℕ) (hi : i < xs.length) (hj : j < xs.length), i ≤ j → xs[i] ≤ xs[j] := by
    intro i j hi hj hij
    rcases Nat.eq_or_lt_of_le hij with h | h
    · subst h
      exact le_refl _
    · exact List.pairwise_iff_getElem.1 hsort i j hi hj h
  have adj : ∀ (i : ℕ) (hi : i + 1 < xs.length), ∀ w ∈ x, w ≤ xs[i] ∨ xs[i + 1] ≤ w := by
    intro i hi w hw
    obtain ⟨j, hj, rfl⟩ := List.getElem_of_mem ((hmem w).2 hw)
    rcases Nat.lt_or_ge i j with h | h
    · exact .inr (hmono (i + 1) j hi hj h)
    · exact .inl (hmono j i hj (by omega) h)
  obtain ⟨a, ea, ma, la⟩ := npMin_spec hne
  obtain ⟨b, eb, mb, lb⟩ := npMax_spec hne
  obtain ⟨c, ec, -⟩ := npMin_spec hyne
  obtain ⟨d, ed, -⟩ := npMax_spec hyne
  refine ⟨a, (hmem a).1 ma, b, (hmem b).1 mb, fun w hw => ⟨la w ((hmem w).2 hw), lb w ((hmem w).2 hw)⟩, ?_⟩
  have hwin : ∀ i ∈ List.range (xs.length - 2), ∃ l, windowNew (Real.cos (p.maxBend * Real.pi / 180))
      (p.maxXRel * (b - a)) (p.maxDf * (d - c)) ((xs.drop i).take 3) ((y.drop i).take 3) = .ok l ∧
      ∀ z ∈ l, Inserted x (p.maxXRel * (b - a)) z := by
    intro i hi
    have hi' : i + 2 < xs.length := by
      have := List.mem_range.1 hi
      omega
    rw [take_three hi', take_three (l := y) (i := i) (by omega)]
    obtain ⟨l, h1, h2⟩ := window_spec (Real.cos (p.maxBend * Real.pi / 180)) (p.maxXRel * (b - a)) (p.maxDf * (d - c))
      y[i] y[i + 1] y[i + 2] (hmono i (i + 1) (by omega) (by omega) (by omega))
      (hmono (i + 1) (i + 2) (by omega) (by omega) (by omega))
    refine ⟨l, h1, fun z hz => ?_⟩
    rcases h2 z hz with ⟨h3, h4, h5⟩ | ⟨h3, h4, h5⟩
    · exact ⟨xs[i], (hmem _).1 (List.getElem_mem _), xs[i + 1], (hmem _).1 (List.getElem_mem _), h4,
        adj i (by omega), h5, h3⟩
    · exact ⟨xs[i + 1], (hmem _).1 (List.getElem_mem _), xs[i + 2], (hmem _).1 (List.getElem_mem _), h4,
        adj (i + 1) (by omega), h5, h3⟩
  obtain ⟨parts, hp1, hp2⟩ := mapM_ex (fun i hi => (hwin i hi).imp fun _ h => h.1)
  refine ⟨npUnique parts.flatten, ?_, npUnique_sorted _, fun z hz => ?_⟩
  · unfold getNew
    dsimp only
    rw [← hxs, ea, eb, ec, ed]
    change ((List.mapM _ (List.range (xs.length - 2)) : Except PyErr (List (List ℝ))) >>= _) = _
    rw [hp1]
    rfl
  · rw [mem_npUnique, List.mem_flatten] at hz
    obtain ⟨l, hl, hz⟩ := hz
    obtain ⟨i, hi, h⟩ := hp2 l hl
    obtain ⟨l', h1, h2⟩ := hwin i hi
    rw [h] at h1
    cases h1
    exact h2 z hz

theorem Inserted.between {x : List ℝ} {d z : ℝ} (h : Inserted x d z) : ∃ p ∈ x, ∃ q ∈ x, p < z ∧ z < q := by
  obtain ⟨p, hp, q, hq, hpq, -, -, rfl⟩ := h
  exact ⟨p, hp, q, hq, by linarith, by linarith⟩

theorem Inserted.notMem {x : List ℝ} {d z : ℝ} (h : Inserted x d z) : z ∉ x := by
  obtain ⟨p, hp, q, hq, hpq, hadj, -, rfl⟩ := h
  intro hz
  rcases hadj _ hz with h | h <;> linarith

/-! ### One round -/

theorem functionAdapted_spec {Y : Type} (p : SampleParams) (f : ℝ → Except PyErr Y) {sched : List ℕ} {x : List ℝ}
    (hs : Complete sched x.length) :
    (∃ r, functionAdapted p f sched x = .ok r ∧ List.Forall₂ (fun a b => f a = .ok b) x r) ∨
    (∃ a ∈ x, ∃ e, f a = .error e ∧ functionAdapted p f sched x = .error e) := by
  unfold functionAdapted
  split_ifs with hn
  · obtain ⟨-, h1, h2⟩ := C47_parloop p.nJobs (by omega) (fun x (_ : List Unit) => f x) x [] sched hs
    cases h : parloop p.nJobs (fun x (_ : List Unit) => f x) sched (some (x, [])) with
    | ok r => exact .inl ⟨r, rfl, h1 r h⟩
    | error e =>
      obtain ⟨a, ha, he⟩ := h2 e h
      exact .inr ⟨a, ha, e, he, rfl⟩
  · clear hs
    induction x with
    | nil => exact .inl ⟨[], rfl, .nil⟩
    | cons a x ih =>
      rw [List.mapM_cons]
      cases ha : f a with
      | error e => exact .inr ⟨a, by simp, e, ha, rfl⟩
      | ok b =>
        rcases ih with ⟨r, h1, h2⟩ | ⟨c, hc, e, h1, h2⟩
        · refine .inl ⟨b :: r, ?_, .cons ha h2⟩
          rw [h1]
          rfl
        · refine .inr ⟨c, by simp [hc], e, h1, ?_⟩
          rw [h2]
          rfl

theorem firstIndex_spec {l : List ℝ} {a : ℝ} (h : a ∈ l) : ∃ hi : firstIndex l a < l.length, l[firstIndex l a] = a := by
  have h1 : firstIndex l a < l.length := List.findIdx_lt_length_of_exists ⟨a, h, by simp⟩
  refine ⟨h1, ?_⟩
  exact of_decide_eq_true (List.findIdx_getElem (xs := l) (p := fun b => decide (b = a)) (w := h1))

theorem takeIdx_spec {Y : Type} {R : ℝ → Y → Prop} {xs : List ℝ} {ys : List Y} (h : List.Forall₂ R xs ys) :
    ∀ {l : List ℝ}, (∀ a ∈ l, a ∈ xs) → ∃ r, takeIdx ys (l.map (firstIndex xs)) = .ok r ∧ List.Forall₂ R l r
  | [], _ => ⟨[], rfl, .nil⟩
  | a :: l, hl => by
    obtain ⟨r, h1, h2⟩ := takeIdx_spec h (l := l) fun b hb => hl b (by simp [hb])
    obtain ⟨hi, ha⟩ := firstIndex_spec (hl a (by simp))
    have hi' : firstIndex xs a < ys.length := by rw [← h.length_eq]; exact hi
    refine ⟨ys[firstIndex xs a] :: r, ?_, .cons ?_ h2⟩
    · unfold takeIdx at h1 ⊢
      rw [List.map_cons, List.mapM_cons, List.getElem?_eq_getElem hi', h1]
      rfl
    · have := (List.forall₂_iff_get.1 h).2 _ hi hi'
      simp only [List.get_eq_getElem] at this
      rw [ha] at this
      exact this

theorem takeIdx_cons {α : Type} (l : List α) (i : ℕ) (idx : List ℕ) : takeIdx l (i :: idx) =
    match l[i]? with
    | some a => (takeIdx l idx).bind fun r => .ok (a :: r)
    | none => .error .indexError := by
  unfold takeIdx
  rw [List.mapM_cons]
  cases l[i]? <;> rfl

theorem takeIdx_map {α β : Type} (g : α → β) (l : List α) : ∀ (idx : List ℕ) (r : List α),
    takeIdx l idx = .ok r → takeIdx (l.map g) idx = .ok (r.map g)
  | [], r, h => by
    cases h
    rfl
  | i :: idx, r, h => by
    rw [takeIdx_cons] at h ⊢
    rw [List.getElem?_map]
    cases hi : l[i]? with
    | none =>
      rw [hi] at h
      cases h
    | some a =>
      rw [hi] at h
      cases hr : takeIdx l idx with
      | error e =>
        rw [hr] at h
        cases h
      | ok r' =>
        rw [hr] at h
        cases h
        simp only [Option.map_some]
        rw [takeIdx_map g l idx r' hr]
        rfl

/-- What holds between rounds. -/
structure SampleInv {Y : Type} (f : ℝ → Except PyErr Y) (mon : Y → ℝ) (multi : Bool) (x : List ℝ) (y : List Y)
    (ym : List ℝ) : Prop where
  pair : List.Forall₂ (fun a b => f a = .ok b) x y
  mon : multi = true → ym = y.map mon
  ne : x ≠ []

variable {Y : Type} {p : SampleParams} {f : ℝ → Except PyErr Y} {mon : Y → ℝ} {multi : Bool}
  {sched : ℕ → ℕ → List ℕ} {x : List ℝ} {y : List Y} {ym : List ℝ}

theorem SampleInv.monitored (h : SampleInv f mon multi x y ym) : (if multi then ym else y.map mon) = y.map mon := by
  cases multi with
  | true => simpa using h.mon rfl
  | false => rfl

/-- One execution of the loop. -/
theorem round_spec (hs : ∀ k m, Complete (sched k m) m) (h : SampleInv f mon multi x y ym) (n : ℕ) :
    ∃ a ∈ x, ∃ b ∈ x, (∀ w ∈ x, a ≤ w ∧ w ≤ b) ∧ ∃ l, getNew p x (y.map mon) = .ok l ∧ l.Pairwise (· < ·) ∧
      (∀ z ∈ l, Inserted x (p.maxXRel * (b - a)) z) ∧
      ((l = [] ∧ samplerLoop p f mon multi sched (n + 1) x y ym = some (.ok (x, y))) ∨
       (l ≠ [] ∧ ∃ z ∈ l, ∃ e, f z = .error e ∧ samplerLoop p f mon multi sched (n + 1) x y ym = some (.error e)) ∨
       (l ≠ [] ∧ ∃ y' ym', SampleInv f mon multi (npUnique (x ++ l)) y' ym' ∧
          samplerLoop p f mon multi sched (n + 1) x y ym =
            samplerLoop p f mon multi sched n (npUnique (x ++ l)) y' ym')) := by
  classical
  have hlen : (y.map mon).length = x.length := by rw [List.length_map, h.pair.length_eq]
  obtain ⟨a, ha, b, hb, hab, l, hl, hsl, hin⟩ := getNew_spec p h.ne hlen
  refine ⟨a, ha, b, hb, hab, l, hl, hsl, hin, ?_⟩
  cases l with
  | nil =>
    refine .inl ⟨rfl, ?_⟩
    unfold samplerLoop
    rw [h.monitored, hl]
  | cons c l =>
    right
    obtain ⟨nx, hnx⟩ : ∃ nx, nx = c :: l := ⟨_, rfl⟩
    rw [← hnx] at hl hsl hin ⊢
    have hq : (npUnique (x ++ nx)).filter (fun b => decide (b ∉ x)) = nx := by
      refine sorted_ext ((npUnique_sorted _).filter _) hsl fun z => ?_
      simp only [List.mem_filter, mem_npUnique, List.mem_append, decide_eq_true_eq]
      constructor
      · rintro ⟨h1 | h1, h2⟩
        · exact absurd h1 h2
        · exact h1
      · intro hz
        exact ⟨.inr hz, (hin z hz).notMem⟩
    have hloop : samplerLoop p f mon multi sched (n + 1) x y ym =
        match (do
          let newY ← functionAdapted p f (sched n nx.length) nx
          let y' ← takeIdx (y ++ newY) ((npUnique (x ++ nx)).map (firstIndex (x ++ nx)))
          if multi then
            let ym' ← takeIdx (ym ++ newY.map mon) ((npUnique (x ++ nx)).map (firstIndex (x ++ nx)))
            pure (y', ym')
          else pure (y', ym) : Except PyErr (List Y × List ℝ)) with
        | .error e => some (.error e)
        | .ok (y', ym') => samplerLoop p f mon multi sched n (npUnique (x ++ nx)) y' ym' := by
      conv_lhs => unfold samplerLoop
      rw [h.monitored, hl]
      subst hnx
      dsimp only
      rw [hq]
      rfl
    rw [hloop]
    rcases functionAdapted_spec p f (hs n nx.length) with ⟨r, h1, h2⟩ | ⟨z, hz, e, h1, h2⟩
    · right
      refine ⟨by simp [hnx], ?_⟩
      have hpair : List.Forall₂ (fun a b => f a = .ok b) (x ++ nx) (y ++ r) := List.rel_append h.pair h2
      obtain ⟨y', hy1, hy2⟩ := takeIdx_spec hpair (l := npUnique (x ++ nx)) fun a ha => mem_npUnique.1 ha
      have hne' : npUnique (x ++ nx) ≠ [] := by
        intro h0
        have : c ∈ npUnique (x ++ nx) := mem_npUnique.2 (by simp [hnx])
        rw [h0] at this
        simp at this
      rw [h1]
      cases hm : multi with
      | false =>
        refine ⟨y', ym, ⟨hy2, by simp, hne'⟩, ?_⟩
        simp only [bind, Except.bind, hy1]
        rfl
      | true =>
        have hy3 : takeIdx (ym ++ r.map mon) ((npUnique (x ++ nx)).map (firstIndex (x ++ nx))) = .ok (y'.map mon) := by
          rw [h.mon hm, ← List.map_append]
          exact takeIdx_map mon _ _ _ hy1
        refine ⟨y', y'.map mon, ⟨hy2, fun _ => rfl, hne'⟩, ?_⟩
        simp only [bind, Except.bind, hy1, hy3]
        rfl
    · left
      refine ⟨by simp [hnx], z, hz, e, h1, ?_⟩
      rw [h2]
      rfl

/-! ### The whole loop -/

/-- The abscissae `x'` extend `x` inside its range. -/
structure Extends (x x' : List ℝ) : Prop where
  keep : ∀ a ∈ x, a ∈ x'
  inside : ∀ a ∈ x', a ∈ x ∨ ∃ p ∈ x, ∃ q ∈ x, p < a ∧ a < q

theorem Extends.refl (x : List ℝ) : Extends x x := ⟨fun _ h => h, fun _ h => .inl h⟩

theorem Extends.between {x x' : List ℝ} (h : Extends x x') {z : ℝ} (hz : ∃ p ∈ x', ∃ q ∈ x', p < z ∧ z < q) :
    ∃ p ∈ x, ∃ q ∈ x, p < z ∧ z < q := by
  obtain ⟨p, hp, q, hq, h1, h2⟩ := hz
  obtain ⟨p', hp', h3⟩ : ∃ p' ∈ x, p' < z := by
    rcases h.inside p hp with h | ⟨a, ha, -, -, h, -⟩
    · exact ⟨p, h, h1⟩
    · exact ⟨a, ha, h.trans h1⟩
  obtain ⟨q', hq', h4⟩ : ∃ q' ∈ x, z < q' := by
    rcases h.inside q hq with h | ⟨-, -, b, hb, -, h⟩
    · exact ⟨q, h, h2⟩
    · exact ⟨b, hb, h2.trans h⟩
  exact ⟨p', hp', q', hq', h3, h4⟩

theorem Extends.trans {x x' x'' : List ℝ} (h : Extends x x') (h' : Extends x' x'') : Extends x x'' := by
  refine ⟨fun a ha => h'.keep a (h.keep a ha), fun a ha => ?_⟩
  rcases h'.inside a ha with h1 | h1
  · exact h.inside a h1
  · exact .inr (h.between h1)

theorem extends_npUnique {l : List ℝ} {d : ℝ} (h : ∀ z ∈ l, Inserted x d z) : Extends x (npUnique (x ++ l)) := by
  refine ⟨fun a ha => mem_npUnique.2 (by simp [ha]), fun a ha => ?_⟩
  rcases List.mem_append.1 (mem_npUnique.1 ha) with h1 | h1
  · exact .inl h1
  · exact .inr (h a h1).between

/-- What the loop returns. -/
theorem loop_spec (hs : ∀ k m, Complete (sched k m) m) : ∀ (n : ℕ) {x : List ℝ} {y : List Y} {ym : List ℝ},
    SampleInv f mon multi x y ym → ∀ res, samplerLoop p f mon multi sched n x y ym = some res →
    (∃ x' y', res = .ok (x', y') ∧ List.Forall₂ (fun a b => f a = .ok b) x' y' ∧ Extends x x' ∧
      (x' = x ∨ x'.Pairwise (· < ·)) ∧ getNew p x' (y'.map mon) = .ok []) ∨
    (∃ e z, res = .error e ∧ f z = .error e ∧ ∃ p ∈ x, ∃ q ∈ x, p < z ∧ z < q)
  | 0, x, y, ym, _, res, h => by
    unfold samplerLoop at h
    cases h
  | n + 1, x, y, ym, inv, res, h => by
    obtain ⟨a, ha, b, hb, hab, l, hl, hsl, hin, h1 | ⟨-, z, hz, e, h1, h2⟩ | ⟨h1, y', ym', inv', h2⟩⟩ :=
      round_spec (p := p) hs inv n
    · obtain ⟨rfl, h2⟩ := h1
      rw [h2] at h
      cases h
      exact .inl ⟨x, y, rfl, inv.pair, .refl x, .inl rfl, hl⟩
    · rw [h2] at h
      cases h
      exact .inr ⟨e, z, rfl, h1, (hin z hz).between⟩
    · rw [h2] at h
      have hext := extends_npUnique hin
      rcases loop_spec hs n inv' res h with ⟨x', y'', h3, h4, h5, h6, h7⟩ | ⟨e, z, h3, h4, h5⟩
      · refine .inl ⟨x', y'', h3, h4, hext.trans h5, .inr ?_, h7⟩
        rcases h6 with h6 | h6
        · rw [h6]
          exact npUnique_sorted _
        · exact h6
      · exact .inr ⟨e, z, h3, h4, hext.between h5⟩

/-! ### Termination -/

/-- Distinct points are at least `δ` apart. -/
def Separated (δ : ℝ) (x : List ℝ) : Prop := ∀ a ∈ x, ∀ b ∈ x, a < b → δ ≤ b - a

theorem separated_npUnique {δ d : ℝ} {l : List ℝ} (hδ : Separated δ x) (hd : δ ≤ d / 2)
    (h : ∀ z ∈ l, Inserted x d z) : Separated δ (npUnique (x ++ l)) := by
  have old_new : ∀ a ∈ x, ∀ z ∈ l, δ ≤ |z - a| := by
    intro a ha z hz
    obtain ⟨p, hp, q, hq, hpq, hadj, hgap, rfl⟩ := h z hz
    rcases hadj a ha with h1 | h1
    · refine le_trans ?_ (le_abs_self _)
      linarith
    · refine le_trans ?_ (neg_le_abs _)
      linarith
  intro a ha b hb hab
  rcases List.mem_append.1 (mem_npUnique.1 ha) with ha | ha <;>
    rcases List.mem_append.1 (mem_npUnique.1 hb) with hb | hb
  · exact hδ a ha b hb hab
  · have := old_new a ha b hb
    rwa [abs_of_pos (by linarith)] at this
  · have := old_new b hb a ha
    rw [abs_of_neg (by linarith)] at this
    linarith
  · obtain ⟨p, hp, q, hq, hpq, hadj, hgap, rfl⟩ := h a ha
    obtain ⟨p', hp', q', hq', hpq', hadj', hgap', rfl⟩ := h b hb
    -- the two intervals are different, so that one lies before the other
    rcases hadj p' hp' with h1 | h1
    · rcases hadj' p hp with h2 | h2
      · -- same left end, hence same interval
        have : p = p' := le_antisymm h2 h1
        subst this
        rcases hadj q' hq' with h3 | h3
        · linarith
        · rcases hadj' q hq with h4 | h4
          · linarith
          · have : q = q' := le_antisymm h3 h4
            subst this
            exact absurd hab (lt_irrefl _)
      · linarith
    · linarith

theorem card_le_of_separated {δ a b : ℝ} (hδ : 0 < δ) (hs : Separated δ x) (hab : ∀ w ∈ x, a ≤ w ∧ w ≤ b) :
    x.toFinset.card ≤ ⌊(b - a) / δ⌋₊ + 1 := by
  classical
  rw [← Finset.card_range (⌊(b - a) / δ⌋₊ + 1)]
  refine Finset.card_le_card_of_injOn (fun w => ⌊(w - a) / δ⌋₊) ?_ ?_
  · intro w hw
    have hw' := hab w (by simpa using hw)
    simp only [Finset.coe_range, Set.mem_Iio]
    refine Nat.lt_succ_of_le (Nat.floor_mono ?_)
    gcongr
    exact hw'.2
  · have key : ∀ u ∈ x, ∀ w ∈ x, u < w → ⌊(u - a) / δ⌋₊ ≠ ⌊(w - a) / δ⌋₊ := by
      intro u hu w hw huw heq
      have h1 := hs u hu w hw huw
      have h2 : (w - a) / δ < ⌊(w - a) / δ⌋₊ + 1 := Nat.lt_floor_add_one _
      have h3 : (⌊(u - a) / δ⌋₊ : ℝ) ≤ (u - a) / δ := Nat.floor_le (div_nonneg (by linarith [(hab u hu).1]) hδ.le)
      rw [← heq] at h2
      have h4 : (w - a) / δ < (u - a) / δ + 1 := by linarith
      rw [div_add_one hδ.ne', div_lt_div_iff_of_pos_right hδ] at h4
      linarith
    intro u hu w hw heq
    have hu' : u ∈ x := by simpa using hu
    have hw' : w ∈ x := by simpa using hw
    rcases lt_trichotomy u w with h | h | h
    · exact absurd heq (key u hu' w hw' h)
    · exact h
    · exact absurd heq.symm (key w hw' u hu' h)

theorem exists_separated : ∀ x : List ℝ, ∃ δ, 0 < δ ∧ Separated δ x
  | [] => ⟨1, one_pos, fun a ha => by simp at ha⟩
  | c :: x => by
    obtain ⟨δ, h1, h2⟩ := exists_separated x
    have : ∃ η, 0 < η ∧ ∀ a ∈ x, a ≠ c → η ≤ |a - c| := by
      clear h2
      induction x with
      | nil => exact ⟨1, one_pos, by simp⟩
      | cons b x ih =>
        obtain ⟨η, h1, h2⟩ := ih
        by_cases hb : b = c
        · refine ⟨η, h1, fun a ha hne => ?_⟩
          rcases List.mem_cons.1 ha with rfl | ha
          · exact absurd hb hne
          · exact h2 a ha hne
        · refine ⟨min η |b - c|, lt_min h1 (abs_pos.2 (sub_ne_zero.2 hb)), fun a ha hne => ?_⟩
          rcases List.mem_cons.1 ha with rfl | ha
          · exact min_le_right _ _
          · exact (min_le_left _ _).trans (h2 a ha hne)
    obtain ⟨η, h3, h4⟩ := this
    refine ⟨min δ η, lt_min h1 h3, fun a ha b hb hab => ?_⟩
    rcases List.mem_cons.1 ha with ha' | ha' <;> rcases List.mem_cons.1 hb with hb' | hb'
    · rw [ha', hb'] at hab
      exact absurd hab (lt_irrefl _)
    · rw [ha'] at hab ⊢
      have := h4 b hb' (ne_of_gt hab)
      rw [abs_of_pos (by linarith)] at this
      exact (min_le_right _ _).trans this
    · rw [hb'] at hab ⊢
      have := h4 a ha' (ne_of_lt hab)
      rw [abs_of_neg (by linarith)] at this
      exact (min_le_right _ _).trans (by linarith)
    · exact (min_le_left _ _).trans (h2 a ha' b hb' hab)

theorem loop_terminates (hs : ∀ k m, Complete (sched k m) m) {δ a b : ℝ} (hδ : 0 < δ)
    (hd : δ ≤ p.maxXRel * (b - a) / 2) : ∀ (n : ℕ) {x : List ℝ} {y : List Y} {ym : List ℝ},
    SampleInv f mon multi x y ym → Separated δ x → a ∈ x → b ∈ x → (∀ w ∈ x, a ≤ w ∧ w ≤ b) →
    ⌊(b - a) / δ⌋₊ + 1 < x.toFinset.card + n → ∃ res, samplerLoop p f mon multi sched n x y ym = some res ∧
      ∀ x' y', res = .ok (x', y') → x'.toFinset.card ≤ ⌊(b - a) / δ⌋₊ + 1
  | 0, x, y, ym, _, hsep, _, _, hab, hn => by
    have := card_le_of_separated hδ hsep hab
    omega
  | n + 1, x, y, ym, inv, hsep, ha, hb, hab, hn => by
    classical
    obtain ⟨a', ha', b', hb', hab', l, hl, hsl, hin, h1 | ⟨-, z, hz, e, h1, h2⟩ | ⟨h1, y', ym', inv', h2⟩⟩ :=
      round_spec (p := p) hs inv n
    · refine ⟨_, h1.2, fun x' y' h => ?_⟩
      cases h
      exact card_le_of_separated hδ hsep hab
    · exact ⟨_, h2, fun x' y' h => by cases h⟩
    · rw [h2]
      have ea : a' = a := le_antisymm (hab' a ha).1 (hab a' ha').1
      have eb : b' = b := le_antisymm (hab b' hb').2 (hab' b hb).2
      rw [ea, eb] at hin
      have hext := extends_npUnique hin
      refine loop_terminates hs hδ hd n inv' (separated_npUnique hsep hd hin) (hext.keep a ha) (hext.keep b hb)
        (fun w hw => ?_) ?_
      · rcases hext.inside w hw with h | ⟨u, hu, v, hv, h3, h4⟩
        · exact hab w h
        · exact ⟨(hab u hu).1.trans h3.le, h4.le.trans (hab v hv).2⟩
      · have hlt : x.toFinset.card < (npUnique (x ++ l)).toFinset.card := by
          refine Finset.card_lt_card ⟨fun w hw => ?_, fun hsub => ?_⟩
          · rw [List.mem_toFinset] at hw ⊢
            exact hext.keep w hw
          · obtain ⟨z, hz⟩ := List.exists_mem_of_ne_nil l h1
            have : z ∈ (npUnique (x ++ l)).toFinset := by
              rw [List.mem_toFinset, mem_npUnique]
              simp [hz]
            have := hsub this
            rw [List.mem_toFinset] at this
            exact (hin z hz).notMem this
        omega

theorem exists_bounds : ∀ {x : List ℝ}, x ≠ [] → ∃ a ∈ x, ∃ b ∈ x, ∀ w ∈ x, a ≤ w ∧ w ≤ b := by
  intro x hx
  obtain ⟨a, -, h1, h2⟩ := npMin_spec hx
  obtain ⟨b, -, h3, h4⟩ := npMax_spec hx
  exact ⟨a, h1, b, h3, fun w hw => ⟨h2 w hw, h4 w hw⟩⟩

/-- The number of rounds is bounded by a number that depends only on the abscissae and on `max_x_rel`. -/
theorem loop_bound {r : ℝ} (hr : 0 < r) {x : List ℝ} (hx : x ≠ []) : ∃ N : ℕ, 0 < N ∧ ∀ (p : SampleParams), p.maxXRel = r →
    ∀ {Y : Type} (f : ℝ → Except PyErr Y) (mon : Y → ℝ) (multi : Bool) (sched : ℕ → ℕ → List ℕ),
    (∀ k m, Complete (sched k m) m) → ∀ (y : List Y) (ym : List ℝ), SampleInv f mon multi x y ym →
    ∃ res, samplerLoop p f mon multi sched N x y ym = some res ∧
      ∀ x' y', res = .ok (x', y') → x'.toFinset.card ≤ N := by
  classical
  obtain ⟨a, ha, b, hb, hab⟩ := exists_bounds hx
  obtain ⟨δ₀, h1, h2⟩ := exists_separated x
  have hcard : 0 < x.toFinset.card := Finset.card_pos.2 ⟨a, by simpa using ha⟩
  by_cases h : a = b
  · refine ⟨1, one_pos, fun p hp Y f mon multi sched hs y ym inv => ?_⟩
    obtain ⟨a', ha', b', hb', hab', l, hl, hsl, hin, h1 | ⟨-, z, hz, -⟩ | ⟨hne, -⟩⟩ :=
      round_spec (p := p) hs inv 0
    · refine ⟨_, h1.2, fun x' y' h => ?_⟩
      cases h
      rw [Finset.card_le_one]
      intro u hu v hv
      have hu' := hab u (by simpa using hu)
      have hv' := hab v (by simpa using hv)
      linarith
    all_goals
      exfalso
    · obtain ⟨u, hu, v, hv, h5, h6⟩ := (hin z hz).between
      linarith [(hab u hu).1, (hab v hv).2]
    · obtain ⟨z, hz⟩ := List.exists_mem_of_ne_nil l hne
      obtain ⟨u, hu, v, hv, h5, h6⟩ := (hin z hz).between
      linarith [(hab u hu).1, (hab v hv).2]
  · have hlt : a < b := lt_of_le_of_ne (hab b hb).1 h
    have hδ : 0 < min δ₀ (r * (b - a) / 2) := lt_min h1 (by have := sub_pos.2 hlt; positivity)
    refine ⟨⌊(b - a) / min δ₀ (r * (b - a) / 2)⌋₊ + 1, by omega, fun p hp Y f mon multi sched hs y ym inv => ?_⟩
    exact loop_terminates hs hδ (by rw [hp]; exact min_le_right _ _) _ inv
      (fun u hu v hv huv => (min_le_left _ _).trans (h2 u hu v hv huv)) ha hb hab (by omega)

/-! ### The stopping criterion -/

theorem mapM_mem {α β : Type} {f : α → Except PyErr β} :
    ∀ {l : List α} {r : List β}, l.mapM f = .ok r → ∀ a ∈ l, ∃ b ∈ r, f a = .ok b
  | [], r, _, a, ha => by simp at ha
  | c :: l, r, h, a, ha => by
    rw [List.mapM_cons] at h
    cases hc : f c with
    | error e =>
      rw [hc] at h
      cases h
    | ok b =>
      rw [hc] at h
      cases hl : l.mapM f with
      | error e =>
        rw [hl] at h
        cases h
      | ok r' =>
        rw [hl] at h
        cases h
        rcases List.mem_cons.1 ha with rfl | ha
        · exact ⟨b, by simp, hc⟩
        · obtain ⟨b', h1, h2⟩ := mapM_mem hl a ha
          exact ⟨b', by simp [h1], h2⟩

theorem window_nil {cmax minDx minDy xp x0 xn yp y0 yn : ℝ}
    (h : windowNew cmax minDx minDy [xp, x0, xn] [yp, y0, yn] = .ok []) :
    bending cmax xp x0 xn yp y0 yn = false ∨ (xn - x0 < minDx ∧ x0 - xp < minDx) ∨
      (|y0 - yp| < minDy ∧ |yn - y0| < minDy) := by
  unfold windowNew at h
  dsimp only at h
  by_contra hc
  rw [not_or, not_or] at hc
  rw [if_pos ⟨by simpa using hc.1, hc.2⟩] at h
  have h' := Except.ok.inj h
  rw [List.map_eq_nil_iff, List.dedup_eq_nil] at h'
  simp at h'

theorem getNew_nil {x y : List ℝ} (hx : x.Pairwise (· < ·)) (hne : x ≠ []) (hy : y.length = x.length)
    (h : getNew p x y = .ok []) {i : ℕ} (hi : i + 2 < x.length) :
    ∃ a ∈ x, ∃ b ∈ x, (∀ w ∈ x, a ≤ w ∧ w ≤ b) ∧ ∃ c ∈ y, ∃ d ∈ y, (∀ w ∈ y, c ≤ w ∧ w ≤ d) ∧
      windowNew (Real.cos (p.maxBend * Real.pi / 180)) (p.maxXRel * (b - a)) (p.maxDf * (d - c))
        [x[i], x[i + 1], x[i + 2]] [y[i], y[i + 1], y[i + 2]] = .ok [] := by
  classical
  have hyne : y ≠ [] := by
    intro h
    rw [h] at hy
    exact hne (List.length_eq_zero_iff.1 hy.symm)
  have hxs : x.insertionSort (· ≤ ·) = x := (hx.imp le_of_lt).insertionSort_eq
  obtain ⟨a, ea, ma, la⟩ := npMin_spec hne
  obtain ⟨b, eb, mb, lb⟩ := npMax_spec hne
  obtain ⟨c, ec, mc, lc⟩ := npMin_spec hyne
  obtain ⟨d, ed, md, ld⟩ := npMax_spec hyne
  refine ⟨a, ma, b, mb, fun w hw => ⟨la w hw, lb w hw⟩, c, mc, d, md, fun w hw => ⟨lc w hw, ld w hw⟩, ?_⟩
  unfold getNew at h
  dsimp only at h
  rw [hxs, ea, eb, ec, ed] at h
  obtain ⟨parts, hparts⟩ : ∃ parts, (List.range (x.length - 2)).mapM (fun i =>
      windowNew (Real.cos (p.maxBend * Real.pi / 180)) (p.maxXRel * (b - a)) (p.maxDf * (d - c))
        ((x.drop i).take 3) ((y.drop i).take 3)) = .ok parts := by
    cases hm : (List.range (x.length - 2)).mapM (fun i =>
      windowNew (Real.cos (p.maxBend * Real.pi / 180)) (p.maxXRel * (b - a)) (p.maxDf * (d - c))
        ((x.drop i).take 3) ((y.drop i).take 3)) with
    | ok parts => exact ⟨parts, rfl⟩
    | error e =>
      change ((List.mapM _ (List.range (x.length - 2)) : Except PyErr (List (List ℝ))) >>= _) = _ at h
      rw [hm] at h
      cases h
  change ((List.mapM _ (List.range (x.length - 2)) : Except PyErr (List (List ℝ))) >>= _) = _ at h
  rw [hparts] at h
  have h' : npUnique parts.flatten = [] := Except.ok.inj h
  obtain ⟨l, hl, hw⟩ := mapM_mem hparts i (List.mem_range.2 (by omega))
  rw [take_three hi, take_three (l := y) (i := i) (by omega)] at hw
  rw [hw]
  congr 1
  by_contra hne'
  obtain ⟨z, hz⟩ := List.exists_mem_of_ne_nil l hne'
  have : z ∈ npUnique parts.flatten := mem_npUnique.2 (List.mem_flatten.2 ⟨l, hl, hz⟩)
  rw [h'] at this
  simp at this

end Nannos
