import Verif.Proofs.Copies
import Verif.Examples.Run

/-!
Properties C27, C28, C35-C38: the `Simulation` object as a state machine.

`Call` is a call of a public method, `Call.result` what it returns or raises, `afterCalls` / `afterEvents`
the state after any sequence of calls (and edits of layers), whether they returned or raised
(`Spec/Calls.lean`).  `Dyn.fresh mats attrs` is a newly constructed object on the layers `mats`;
`unsolved` layers were never used before.
-/

namespace Nannos

open Matrix Spec

variable {E : Ext} {lats : ℕ → Lattice} {mats : ℕ → LayerSpec} {stack : List ℕ} {exc : PlaneWave} {nh : ℤ}
  {form : String} {c : Static}

/-- **C27**. As long as no layer is modified, every call of the API (scattering matrices of any range of
layers, fields, fluxes, efficiencies, solving) returns or raises, after any history of calls, exactly what
it would on a new object, be it a new object on new layers or on the layers as the history left them. -/
theorem C27_calls_do_not_depend_on_history (hinit : simInit E lats mats stack exc nh form = .ok c)
    (hist : List (Call c.nh)) (a : Call c.nh) :
    a.result E c (afterCalls E c hist (Dyn.fresh mats (unsolved c.nh))) =
      a.result E c (Dyn.fresh mats (unsolved c.nh)) ∧
    a.result E c (Dyn.fresh mats (afterCalls E c hist (Dyn.fresh mats (unsolved c.nh))).attrs) =
      a.result E c (Dyn.fresh mats (unsolved c.nh)) := by
  obtain ⟨A1, res, hs, h0, h1, h2⟩ :=
    history_inv (E := E) (simInit_ok hinit).nodup (noStale_unsolved mats c.stack) hist
  exact ⟨result_of_inv hs a h1 h0, result_of_inv hs a h2 h0⟩

/-- **C27**, layers used before. When copies are used as C36 requires, the outcome of a call on a new object
does not depend on what earlier simulations left in the layer objects. -/
theorem C27_leftovers_in_layers_do_not_matter (hinit : simInit E lats mats stack exc nh form = .ok c)
    (hw : WellPlaced mats stack) (attrs : ℕ → LayerAttr c.nh) (a : Call c.nh) :
    a.result E c (Dyn.fresh mats attrs) = a.result E c (Dyn.fresh mats (unsolved c.nh)) := by
  have hi := simInit_ok hinit
  rw [← hi.stack_eq] at hw
  exact result_leftovers hi.nodup hw _ _ a

/-- **C28**, partial. After any sequence of calls and edits of the layers, `reset()` makes every call return
what a new `Simulation` on the current layers would return.  Missing: edits of what the constructor reads
(`KeepsStatic`: names, lattices, which layers are uniform, the material of the superstrate) are not
refreshed, see `C28_superstrate_edits_are_not_refreshed`; copies must be used as C36 requires. -/
theorem C28_reset_makes_edits_visible_partial (hinit : simInit E lats mats stack exc nh form = .ok c)
    (events : List (Event c.nh)) (d : Dyn c.nh)
    (hd : d = afterEvents E c events (Dyn.fresh mats (unsolved c.nh)))
    (hk : KeepsStatic mats d.mats stack) (hw : WellPlaced d.mats stack) (a : Call c.nh) :
    simInit E lats d.mats stack exc nh form = .ok c ∧
    a.result E c (simReset "all" d).2 = a.result E c (Dyn.fresh d.mats (unsolved c.nh)) := by
  have hi : simInit E lats d.mats stack exc nh form = .ok c := by rw [simInit_keeps hk, hinit]
  refine ⟨hi, ?_⟩
  rw [reset_all]
  exact C27_leftovers_in_layers_do_not_matter hi hw d.attrs a

/-- **C28**, thickness. After any sequence of calls and changes of thickness, `reset("S")` is enough, for
every stack. -/
theorem C28_thickness_edits_need_only_reset_S (hinit : simInit E lats mats stack exc nh form = .ok c)
    (events : List (Event c.nh)) (he : ∀ e ∈ events, e.KeepsMaterials) (d : Dyn c.nh)
    (hd : d = afterEvents E c events (Dyn.fresh mats (unsolved c.nh))) (a : Call c.nh) :
    simInit E lats d.mats stack exc nh form = .ok c ∧
    a.result E c (simReset "S" d).2 = a.result E c (Dyn.fresh d.mats (unsolved c.nh)) := by
  obtain ⟨A1, res, hs, -⟩ :=
    solveSpec_of_noStale (E := E) (simInit_ok hinit).nodup (noStale_unsolved mats c.stack)
  have h := WInv.events hs events he (Dyn.fresh mats (unsolved c.nh)) ⟨fun _ => rfl, .inl rfl, by simp [Dyn.fresh]⟩
  rw [← hd] at h
  constructor
  · rw [simInit_keeps, hinit]
    refine ⟨fun r _ => ?_, fun r _ => ?_, fun r _ => ?_, fun r _ => ⟨?_, ?_⟩⟩ <;> rw [← h.mats_eq r] <;> rfl
  · exact result_of_inv (hs.thickness h.mats_eq) a h.inv (inv_fresh _ (.inl rfl))

/-- The cache holds the result of a finished loop. -/
theorem sLoop_cached {first : ℤ} (n : ℕ) : ∀ (i j : ℤ), (j - i).toNat = n → i < j →
    ∀ (S T : SMat (Idx c.nh)) (d : Dyn c.nh), (sLoop c first (pyRange i j) S d).1 = .ok T →
      (sLoop c first (pyRange i j) S d).2.inter (first, j - 1) = some T := by
  induction n with
  | zero => intro i j hn hij; omega
  | succ n ih =>
    intro i j hn hij S T d h
    rw [pyRange_cons hij, sLoop_cons] at h ⊢
    have hb : (∃ e, (sBody c first i S d).1 = .error e) ∨ ∃ S', (sBody c first i S d).1 = .ok S' ∧
        (sBody c first i S d).2.inter (first, i) = some S' := by
      unfold sBody
      split
      · exact .inl ⟨_, rfl⟩
      · exact .inr ⟨_, rfl, by simp⟩
    rcases hsb : sBody c first i S d with ⟨r, d'⟩
    rw [hsb] at h hb
    rcases hb with ⟨e, he⟩ | ⟨S', h1, h2⟩
    · dsimp only at he; subst he; simp at h
    · dsimp only at h1 h2; subst h1
      dsimp only at h ⊢
      by_cases hij' : i + 1 < j
      · exact ih (i + 1) j (by omega) hij' S' T d' h
      · rw [pyRange_nil (by omega)] at h ⊢
        obtain rfl : S' = T := by simpa [sLoop, PyM.pure_def] using h
        rw [show j - 1 = i by omega]
        exact h2

theorem solve_isSolved {d : Dyn c.nh} (h : (ensureSolved E c d).1 = .ok ()) :
    (ensureSolved E c d).2.isSolved = true := by
  unfold ensureSolved at h ⊢
  split
  · assumption
  · rename_i hd
    simp only [hd] at h
    have h : (solve E c d).1 = .ok () := h
    unfold solve at h ⊢
    rw [PyM.bind_def] at h ⊢
    rcases hs : solveAll E c c.stack d with ⟨r, d'⟩
    rw [hs] at h
    rcases r with e | u
    · simp at h
    · rfl

theorem sLoop_isSolved (first : ℤ) (l : List ℤ) : ∀ (S : SMat (Idx c.nh)) (d : Dyn c.nh),
    (sLoop c first l S d).2.isSolved = d.isSolved := by
  induction l with
  | nil => intros; rfl
  | cons i l ih =>
    intro S d
    rw [sLoop_cons]
    have hb : (sBody c first i S d).2.isSolved = d.isSolved := by
      unfold sBody; split <;> rfl
    rcases hsb : sBody c first i S d with ⟨r, d'⟩
    rw [hsb] at hb
    rcases r with e | S'
    · exact hb
    · exact (ih S' d').trans hb

/-- **C28**, without a reset. In any state: once `get_S_matrix(indices)` has returned `S`, it returns `S`
again whatever is done to the layers, as long as nothing is reset. -/
theorem C28_without_reset_edits_are_ignored (indices : Option (ℤ × ℤ)) (d : Dyn c.nh) (S : SMat (Idx c.nh))
    (h : (getS E c indices d).1 = .ok S) (mats' : ℕ → LayerSpec) :
    (getS E c indices { (getS E c indices d).2 with mats := mats' }).1 = .ok S := by
  obtain ⟨i, j, hij⟩ : ∃ i j, interfaces c indices = pyRange i j := by
    cases indices with
    | none => exact ⟨_, _, rfl⟩
    | some ij => exact ⟨_, _, rfl⟩
  have hget : ∀ d', getS E c indices d' = match ensureSolved E c d' with
      | (.error e, d1) => (.error e, d1)
      | (.ok _, d1) => match cachedLoop c (pyRange i j) d1 with
        | (.error e, d2) => (.error e, d2)
        | (.ok S, d2) => (.ok S, if indices.isNone then { d2 with S := some S } else d2) := by
    intro d'
    unfold getS
    rw [hij, PyM.bind_def]
    rcases ensureSolved E c d' with ⟨_ | _, d1⟩
    · rfl
    · dsimp only
      rw [PyM.bind_def]
      rcases cachedLoop c (pyRange i j) d1 with ⟨_ | _, d2⟩
      · rfl
      · dsimp only
        split <;> rfl
  have hh : ∃ d2, getS E c indices d = (.ok S, d2) ∧ d2.isSolved = true ∧ i < j ∧ d2.inter (i, j - 1) = some S := by
    rw [hget] at h ⊢
    rcases he : ensureSolved E c d with ⟨r, d1⟩
    rw [he] at h
    rcases r with e | u
    · simp at h
    have h1 : d1.isSolved = true := by
      have := solve_isSolved (E := E) (c := c) (d := d) (by rw [he])
      rw [he] at this
      exact this
    dsimp only at h ⊢
    have hcl : ∀ T, (cachedLoop c (pyRange i j) d1).1 = .ok T →
        (cachedLoop c (pyRange i j) d1).2.isSolved = true ∧ i < j ∧
        (cachedLoop c (pyRange i j) d1).2.inter (i, j - 1) = some T := by
      intro T hT
      unfold cachedLoop at hT ⊢
      by_cases hlt : i < j
      · rw [pyRange_head hlt, pyRange_last hlt] at hT ⊢
        dsimp only at hT ⊢
        rcases hc : d1.inter (i, j - 1) with _ | S'
        · rw [hc] at hT
          exact ⟨by rw [sLoop_isSolved]; exact h1, hlt, sLoop_cached _ i j rfl hlt _ _ _ hT⟩
        · rw [hc] at hT
          dsimp only at hT ⊢
          simp only [Except.ok.injEq] at hT
          subst hT
          exact ⟨h1, hlt, hc⟩
      · rw [pyRange_nil (by omega)] at hT
        simp at hT
    rcases hl : cachedLoop c (pyRange i j) d1 with ⟨r2, d2⟩
    rw [hl] at h hcl
    rcases r2 with e | T
    · simp at h
    · dsimp only at h hcl ⊢
      simp only [Except.ok.injEq] at h
      subst h
      obtain ⟨h3, h4, h5⟩ := hcl T rfl
      refine ⟨_, rfl, ?_, h4, ?_⟩ <;> split <;> assumption
  obtain ⟨d2, e1, e2, e3, e4⟩ := hh
  rw [e1]
  dsimp only
  rw [hget]
  have h5 : ensureSolved E c { d2 with mats := mats' } = (.ok (), { d2 with mats := mats' }) := by
    unfold ensureSolved
    simp only [e2, if_true]
  rw [h5]
  have h6 : cachedLoop c (pyRange i j) { d2 with mats := mats' } = (.ok S, { d2 with mats := mats' }) := by
    unfold cachedLoop
    rw [pyRange_head e3, pyRange_last e3]
    dsimp only
    rw [e4]
  dsimp only
  rw [h6]

/-- **C35**. `diffraction_efficiencies(orders=False)` returns the sums of what `orders=True` returns, raises
when it raises, and both return the same after any two histories of calls. -/
theorem C35_totals_are_sums_over_orders (hinit : simInit E lats mats stack exc nh form = .ok c)
    (hist hist' : List (Call c.nh)) :
    (∃ e, (diffractionEfficiencies E c true (afterCalls E c hist (Dyn.fresh mats (unsolved c.nh)))).1 = .error e ∧
      (diffractionEfficiencies E c false (afterCalls E c hist' (Dyn.fresh mats (unsolved c.nh)))).1 = .error e) ∨
    ∃ R T, (diffractionEfficiencies E c true (afterCalls E c hist (Dyn.fresh mats (unsolved c.nh)))).1 =
        .ok (.byOrder R T) ∧
      (diffractionEfficiencies E c true (afterCalls E c hist' (Dyn.fresh mats (unsolved c.nh)))).1 =
        .ok (.byOrder R T) ∧
      (diffractionEfficiencies E c false (afterCalls E c hist' (Dyn.fresh mats (unsolved c.nh)))).1 =
        .ok (.total (∑ i, R i) (∑ i, T i)) := by
  obtain ⟨A1, res, hs, h0, h1, -⟩ :=
    history_inv (E := E) (simInit_ok hinit).nodup (noStale_unsolved mats c.stack) hist
  obtain ⟨A1', res', hs', h0', h1', -⟩ :=
    history_inv (E := E) (simInit_ok hinit).nodup (noStale_unsolved mats c.stack) hist'
  have e1 := (base_inv hs).efficiencies.same h1 h0
  have e2 := (base_inv hs').efficiencies.same h1' h0'
  have hd : ∀ o d, (diffractionEfficiencies E c o d).1 = match (efficienciesByOrder E c d).1 with
      | .error e => .error e
      | .ok RT => .ok (if o then .byOrder RT.1 RT.2 else .total (∑ i, RT.1 i) (∑ i, RT.2 i)) := by
    intro o d
    unfold diffractionEfficiencies
    rw [PyM.bind_def]
    rcases efficienciesByOrder E c d with ⟨_ | ⟨R, T⟩, d'⟩
    · rfl
    · cases o <;> rfl
  simp only [hd, e1, e2]
  rcases (efficienciesByOrder E c (Dyn.fresh mats (unsolved c.nh))).1 with e | ⟨R, T⟩
  · exact .inl ⟨e, rfl, rfl⟩
  · exact .inr ⟨R, T, rfl, rfl, rfl⟩

/-- **C36**, partial. Copies that come after their (patterned) original in the stack and still have its
material give in every call, after any history, the same outcome as independent layers with the same
arguments, whatever their thicknesses and positions.  Missing: copies of uniform layers, and copies placed
before their original, cannot be solved (`C36_copies_that_cannot_be_solved`); edits of the material of a copy
are ignored (`C36_material_of_a_copy_is_ignored`). -/
theorem C36_copies_are_interchangeable_partial (hinit : simInit E lats mats stack exc nh form = .ok c)
    (hw : WellPlaced mats stack) (hf : FaithfulCopies mats stack) (hist : List (Call c.nh)) (a : Call c.nh) :
    simInit E lats (independent mats) stack exc nh form = .ok c ∧
    a.result E c (afterCalls E c hist (Dyn.fresh (independent mats) (unsolved c.nh))) =
      a.result E c (afterCalls E c hist (Dyn.fresh mats (unsolved c.nh))) := by
  have hi := simInit_ok hinit
  rw [← hi.stack_eq] at hw hf
  have B := equiBase_independent (E := E) hw hf
  obtain ⟨h1, h2⟩ := B.calls hist (Dyn.fresh mats (unsolved c.nh)) rfl
  constructor
  · rw [simInit_keeps, hinit]
    exact ⟨fun _ _ => rfl, fun _ _ => rfl, fun _ _ => rfl, fun _ _ => ⟨rfl, rfl⟩⟩
  · have h3 : Dyn.fresh (independent mats) (unsolved c.nh) =
        { Dyn.fresh mats (unsolved c.nh) with mats := independent mats } := rfl
    rw [h3, h1]
    exact (B.call a _ h2).1

/-- Solving succeeds only if it succeeds for the layers before, and then for the layer. -/
theorem solveAll_append (pre : List ℕ) : ∀ (r : ℕ) (post : List ℕ) (d : Dyn c.nh),
    (solveAll E c (pre ++ r :: post) d).1 = .ok () →
    (solveAll E c pre d).1 = .ok () ∧ (stepOut E c ((solveAll E c pre d).2.mats r)
      ((solveAll E c pre d).2.attrs ((solveAll E c pre d).2.mats r).original)).1 = .ok () := by
  induction pre with
  | nil =>
    intro r post d h
    rw [List.nil_append, solveAll_cons, solveLayer_eq] at h
    refine ⟨rfl, ?_⟩
    rw [solveAll_nil]
    dsimp only
    rcases hs : (stepOut E c (d.mats r) (d.attrs (d.mats r).original)).1 with e | u
    · rw [hs] at h; simp at h
    · rfl
  | cons s pre ih =>
    intro r post d h
    rw [List.cons_append, solveAll_cons, solveLayer_eq] at h
    rw [solveAll_cons, solveLayer_eq]
    rcases hs : (stepOut E c (d.mats s) (d.attrs (d.mats s).original)).1 with e | u
    · rw [hs] at h; simp at h
    · rw [hs] at h
      exact ih r post _ h

/-- **C36**, what fails. If `solve()` returns, then every copy in the stack comes after its original, and
the original is not a uniform layer: copies of uniform layers and copies placed before (or without) their
original cannot be solved. -/
theorem C36_copies_that_cannot_be_solved (hinit : simInit E lats mats stack exc nh form = .ok c)
    (hist : List (Call c.nh))
    (h : (solve E c (afterCalls E c hist (Dyn.fresh mats (unsolved c.nh)))).1 = .ok ())
    (k r : ℕ) (hr : stack[k]? = some r) (hc : (mats r).iscopy = true) :
    (∃ j : ℕ, j < k ∧ stack[j]? = some (mats r).original) ∧
    ¬ ((mats (mats r).original).iscopy = false ∧ (mats (mats r).original).isUniform = true) := by
  have hi := simInit_ok hinit
  obtain ⟨A1, res, hs, h0, h1, -⟩ := history_inv (E := E) hi.nodup (noStale_unsolved mats c.stack) hist
  rw [solve_result hs h1] at h
  subst h
  have hrun := hs.run (Dyn.fresh mats (unsolved c.nh)) rfl (.inl rfl)
  have hk : k < stack.length := (List.getElem?_eq_some_iff.mp hr).1
  have hsplit : stack = stack.take k ++ r :: stack.drop (k + 1) := by
    have h2 : stack[k] = r := (List.getElem?_eq_some_iff.mp hr).2
    rw [← h2, List.cons_getElem_drop_succ, List.take_append_drop]
  rw [hi.stack_eq, hsplit] at hrun
  obtain ⟨-, h3⟩ := solveAll_append (E := E) (stack.take k) r (stack.drop (k + 1))
    (Dyn.fresh mats (unsolved c.nh)) (by rw [hrun])
  obtain ⟨A, eA, hA⟩ := solveAll_frame (E := E) (stack.take k) (Dyn.fresh mats (unsolved c.nh))
  have hnm : ¬ (A (mats r).original).Missing := by
    intro hm
    rw [eA] at h3
    have h3 : (stepOut E c (mats r) (A (mats r).original)).1 = .ok () := h3
    rw [stepOut_missing hc hm] at h3
    simp at h3
  constructor
  · by_contra hno
    push Not at hno
    refine hnm (.inl ?_)
    rw [hA]
    · rfl
    · intro hmem
      obtain ⟨j, hj, hj'⟩ := List.mem_iff_getElem.mp hmem
      rw [List.length_take] at hj
      refine hno j (by omega) ?_
      rw [List.getElem?_eq_some_iff]
      refine ⟨by omega, ?_⟩
      rw [← hj', List.getElem_take]
  · rintro ⟨h4, h5⟩
    refine hnm (.inl ?_)
    have := solveAll_matrix (E := E) (stack.take k) (Dyn.fresh mats (unsolved c.nh)) h4 h5
    rw [eA] at this
    exact this

/-- **C36**, what is wrong. The material of a patterned copy is ignored: whatever (patterned) material,
permeability and tangent field the copies of the stack are given, scattering matrices, fluxes and efficiencies
stay those of the original materials. -/
theorem C36_material_of_a_copy_is_ignored (mats' : ℕ → LayerSpec)
    (hsame : ∀ r ∈ c.stack, mats' r = mats r ∨ ((mats r).iscopy = true ∧ (mats r).isUniform = false ∧
      (mats' r).isUniform = false ∧ ∃ eps mu tf tft, mats' r =
        { mats r with epsilon := eps, mu := mu, tangentField := tf, tangentFieldType := tft }))
    (attrs : ℕ → LayerAttr c.nh) :
    (∀ indices, (getS E c indices (Dyn.fresh mats' attrs)).1 = (getS E c indices (Dyn.fresh mats attrs)).1) ∧
    (∀ i an bn, (getZPoyntingFlux E c i an bn (Dyn.fresh mats' attrs)).1 =
      (getZPoyntingFlux E c i an bn (Dyn.fresh mats attrs)).1) ∧
    ∀ orders, (diffractionEfficiencies E c orders (Dyn.fresh mats' attrs)).1 =
      (diffractionEfficiencies E c orders (Dyn.fresh mats attrs)).1 := by
  have B : EquiSolve E c mats mats' := by
    refine ⟨equi_of_step fun r hr => ?_, fun r hr => ?_⟩
    · rcases hsame r hr with h | ⟨h1, h2, h3, eps, mu, tf, tft, h4⟩
      · rw [h]; exact ⟨rfl, fun _ => rfl⟩
      · refine ⟨by rw [h4], fun Ao => stepOut_copy h1 (by rw [h4]; exact h1) h2 h3 Ao⟩
    · rcases hsame r hr with h | ⟨h1, h2, h3, eps, mu, tf, tft, h4⟩
      · rw [h]
      · rw [h4]
  have h3 : Dyn.fresh mats' attrs = { Dyn.fresh mats attrs with mats := mats' } := rfl
  rw [h3]
  refine ⟨fun i => ?_, fun i an bn => ?_, fun o => ?_⟩
  · rw [(B.getS i (Dyn.fresh mats attrs) rfl).1]
  · rw [(B.flux i an bn (Dyn.fresh mats attrs) rfl).1]
  · rw [(B.diffraction o (Dyn.fresh mats attrs) rfl).1]

/-- **C37**. `get_layer` with a name (or a layer object, through its name) returns the layer of the stack
with that name and its position, and raises `ValueError` when there is none; with an integer it follows
Python's indexing (negative numbers count from the end, `IndexError` outside); anything else raises
`ValueError`. -/
theorem C37_layer_lookup (hinit : simInit E lats mats stack exc nh form = .ok c) :
    (∀ (k r : ℕ), stack[k]? = some r → getLayer c (.name (mats r).name) = .ok (r, (k : ℤ)) ∧
      getLayer c (.named (mats r).name) = .ok (r, (k : ℤ)) ∧ getLayer c (.idx k) = .ok (r, (k : ℤ)) ∧
      getLayer c (.idx ((k : ℤ) - stack.length)) = .ok (r, (k : ℤ) - stack.length)) ∧
    (∀ s, (∀ r ∈ stack, (mats r).name ≠ s) → getLayer c (.name s) = .error .valueError ∧
      getLayer c (.named s) = .error .valueError) ∧
    (∀ i : ℤ, (stack.length : ℤ) ≤ i ∨ i < -stack.length → getLayer c (.idx i) = .error .indexError) ∧
    getLayer c .other = .error .valueError := by
  have hi := simInit_ok hinit
  have hs := hi.stack_eq
  have hname : ∀ s, getLayer c (.name s) = getLayer c (.named s) := fun _ => rfl
  refine ⟨fun k r hr => ?_, fun s hs => ?_, fun i h => ?_, rfl⟩
  · have hk : k < stack.length := (List.getElem?_eq_some_iff.mp hr).1
    have hfind : c.layerNames.findIdx? (· = (mats r).name) = some k := by
      rw [hi.names_eq, List.findIdx?_eq_some_iff_getElem]
      have hkr : stack[k] = r := (List.getElem?_eq_some_iff.mp hr).2
      refine ⟨by simpa using hk, by simp [hkr], fun j hj => ?_⟩
      have hnd := hi.names
      simp only [List.getElem_map, decide_eq_true_eq]
      intro he
      have := (List.nodup_iff_injective_getElem.mp hnd) (a₁ := ⟨j, by simp; omega⟩) (a₂ := ⟨k, by simpa using hk⟩)
        (by simp [hkr, he])
      simp at this
      omega
    have h1 : getLayer c (.name (mats r).name) = .ok (r, (k : ℤ)) := by
      unfold getLayer
      simp only [hfind, hs, hr]
    refine ⟨h1, h1, ?_, ?_⟩
    · have : pyGet stack (k : ℤ) = .ok r := by
        have h2 : pyIdx stack.length (k : ℤ) = some k := by simp [pyIdx, hk]
        unfold pyGet
        simp only [h2, hr]
      unfold getLayer
      simp only [hs, this]
      rfl
    · have : pyGet stack ((k : ℤ) - stack.length) = .ok r := by
        have h2 : pyIdx stack.length ((k : ℤ) - stack.length) = some k := by
          unfold pyIdx
          rw [if_neg (by omega), if_pos (by omega)]
          congr 1
          omega
        unfold pyGet
        simp only [h2, hr]
      unfold getLayer
      simp only [hs, this]
      rfl
  · have hfind : c.layerNames.findIdx? (· = s) = none := by
      rw [hi.names_eq, List.findIdx?_eq_none_iff]
      intro x hx
      obtain ⟨r, hr, rfl⟩ := List.mem_map.mp hx
      simpa using hs r hr
    have : getLayer c (.name s) = .error .valueError := by
      unfold getLayer
      simp only [hfind]
    exact ⟨this, this⟩
  · have : pyGet stack i = .error .indexError := by
      have h2 : pyIdx stack.length i = none := by
        unfold pyIdx
        split_ifs <;> first | rfl | omega
      unfold pyGet
      simp only [h2]
    unfold getLayer
    simp only [hs, this]
    rfl

/-- **C38**. A `Simulation` that was constructed has pairwise distinct layer names, at least one layer, one
lattice, a known formulation that is available for the lattice, and a discretisation above twice every
harmonic.  Otherwise the constructor raises: `ValueError` for repeated names, `IndexError` without layers,
`AssertionError` for different lattices, `ValueError` for formulations and for the discretisation. -/
theorem C38_constructor_validates (hinit : simInit E lats mats stack exc nh form = .ok c) :
    (stack.map fun r => (mats r).name).Nodup ∧
    (∃ r0 tl, stack = r0 :: tl ∧ (∀ r ∈ stack, (mats r).lattice = (mats r0).lattice) ∧
      (form = "original" ∨ form = "tangent" ∨
        ((form = "jones" ∨ form = "pol") ∧ (lats (mats r0).lattice).is1D = false)) ∧
      ∀ g ∈ c.harmonics, ∀ m ∈ [g.1, g.2], 2 * m < (lats (mats r0).lattice).discretization.1 ∧
        ((lats (mats r0).lattice).is1D = false → 2 * m < (lats (mats r0).lattice).discretization.2)) := by
  have hi := simInit_ok hinit
  refine ⟨hi.names, ?_⟩
  rcases hst : stack with _ | ⟨r0, tl⟩
  · exact absurd hst hi.ne
  refine ⟨r0, tl, rfl, fun r hr => hi.lat r (by rw [hst]; exact hr) r0 (by rw [hst]; rfl), ?_, ?_⟩
  · have h1 := hi.form1 r0 (by rw [hst]; rfl)
    have h2 := hi.form
    by_cases hd : (lats (mats r0).lattice).is1D = true
    · have := h1 hd; tauto
    · simp only [Bool.not_eq_true] at hd
      tauto
  · intro g hg m hm
    have hl := hi.lat_eq r0 (by rw [hst]; rfl)
    obtain ⟨M, h1, h2, h3⟩ := checkNyquist_ok hi.nyquist
    have hle := maxHarmonic_ok h1 g hg
    rw [hl] at h2 h3
    simp only [List.mem_cons, List.not_mem_nil, or_false] at hm
    refine ⟨?_, fun hd => ?_⟩
    · rcases hm with rfl | rfl <;> omega
    · have := h3 hd
      rcases hm with rfl | rfl <;> omega

/-- **C38**, the exceptions. -/
theorem C38_constructor_raises :
    (¬ (stack.map fun r => (mats r).name).Nodup → simInit E lats mats stack exc nh form = .error .valueError) ∧
    (simInit E lats mats [] exc nh form = .error .indexError) ∧
    (∀ r0 tl, ((r0 :: tl).map fun r => (mats r).name).Nodup →
      (∃ r ∈ tl, (mats r).lattice ≠ (mats r0).lattice) →
        simInit E lats mats (r0 :: tl) exc nh form = .error .assertionError) ∧
    (∀ r0 tl, ((r0 :: tl).map fun r => (mats r).name).Nodup →
      (∀ r ∈ tl, (mats r).lattice = (mats r0).lattice) →
      (form ∉ ["original", "tangent", "jones", "pol"] ∨
        ((lats (mats r0).lattice).is1D = true ∧ form ∉ ["original", "tangent"]) ∨
        ∃ H n, (lats (mats r0).lattice).getHarmonics E.argsort
            (effectiveNh nh ((r0 :: tl).all fun r => (mats r).isUniform)) true = .ok (H, n) ∧
          ∃ g ∈ H, ∃ m ∈ [g.1, g.2], ((lats (mats r0).lattice).discretization.1 : ℤ) ≤ 2 * m ∨
            ((lats (mats r0).lattice).is1D = false ∧
              ((lats (mats r0).lattice).discretization.2 : ℤ) ≤ 2 * m)) →
        simInit E lats mats (r0 :: tl) exc nh form = .error .valueError) := by
  refine ⟨fun h => ?_, rfl, fun r0 tl hn h => ?_, fun r0 tl hn hl h => ?_⟩
  · unfold simInit
    have : unique (stack.map fun r => (mats r).name) = false := by
      by_contra hu
      exact h ((unique_iff _).mp (by simpa using hu))
    simp only [this, Bool.not_false, if_true]
  · unfold simInit
    have hu := (unique_iff _).mpr hn
    have hall : ((r0 :: tl).all fun r => decide ((mats r).lattice = (mats r0).lattice)) = false := by
      rw [← Bool.not_eq_true, List.all_eq_true]
      intro H
      obtain ⟨r, hr, hne⟩ := h
      exact hne (by simpa using H r (by simp [hr]))
    simp only [hu, hall, Bool.not_true, Bool.not_false, Bool.false_eq_true, if_false, if_true]
  · have hu := (unique_iff _).mpr hn
    have hall : ((r0 :: tl).all fun r => decide ((mats r).lattice = (mats r0).lattice)) = true := by
      simp only [List.all_eq_true, decide_eq_true_eq]
      intro r hr
      rcases List.mem_cons.mp hr with rfl | hr
      · rfl
      · exact hl r hr
    unfold simInit
    simp only [hu, hall, Bool.not_true, Bool.false_eq_true, if_false]
    split
    · rfl
    rename_i hf
    split
    · rfl
    rename_i hf1
    rcases h with h | ⟨h1, h2⟩ | ⟨H, n, hH, g, hg, m, hm, hmm⟩
    · simp at h; tauto
    · simp at h2; tauto
    · rw [hH]
      have hmg : m = g.1 ∨ m = g.2 := by simpa using hm
      have hny : checkNyquist (lats (mats r0).lattice) H = .error .valueError := by
        unfold checkNyquist
        rcases hM : maxHarmonic H with e | M
        · unfold maxHarmonic at hM
          split at hM
          · simp only [Except.error.injEq] at hM; subst hM; rfl
          · simp at hM
        · have hle := maxHarmonic_ok hM g hg
          rw [except_bind_ok, if_pos]
          rcases hmm with hmm | ⟨hd, hmm⟩
          · left; rcases hmg with rfl | rfl <;> omega
          · right; refine ⟨?_, by simp [hd]⟩; rcases hmg with rfl | rfl <;> omega
      simp only [except_bind_ok, hny]
      rfl

end Nannos

namespace Nannos.Examples

open Matrix Nannos Spec

section
variable {m : Type} [Fintype m] [DecidableEq m]

theorem chain2 {L0 L1 L2 : Modes m} {S1 S2} (h1 : stepS (sscal 1 0 0 1) L0 L1 = .ok S1)
    (h2 : stepS S1 L1 L2 = .ok S2) : freshS [L0, L1, L2] 0 2 = .ok S2 := by
  refine (freshS_ok (i := 0) (j := 2)).mpr ⟨by omega, ?_⟩
  have e1 : loopS [L0, L1, L2] ((0 : ℕ) : ℤ) ((1 : ℕ) : ℤ) = .ok S1 := loop_one rfl rfl h1
  have : ((2 : ℕ) : ℤ) = ((1 : ℕ) : ℤ) + 1 := rfl
  rw [this, loopS_succ _ 0 1 (by omega), e1, except_bind_ok, stepAt_ok]
  exact ⟨_, _, rfl, rfl, h2⟩

theorem chain3 {L0 L1 L2 L3 : Modes m} {S1 S2 S3} (h1 : stepS (sscal 1 0 0 1) L0 L1 = .ok S1)
    (h2 : stepS S1 L1 L2 = .ok S2) (h3 : stepS S2 L2 L3 = .ok S3) : freshS [L0, L1, L2, L3] 0 3 = .ok S3 := by
  refine (freshS_ok (i := 0) (j := 3)).mpr ⟨by omega, ?_⟩
  have e1 : loopS [L0, L1, L2, L3] ((0 : ℕ) : ℤ) ((1 : ℕ) : ℤ) = .ok S1 := loop_one rfl rfl h1
  have e2 : loopS [L0, L1, L2, L3] ((0 : ℕ) : ℤ) ((2 : ℕ) : ℤ) = .ok S2 := by
    have : ((2 : ℕ) : ℤ) = ((1 : ℕ) : ℤ) + 1 := rfl
    rw [this, loopS_succ _ 0 1 (by omega), e1, except_bind_ok, stepAt_ok]
    exact ⟨_, _, rfl, rfl, h2⟩
  have : ((3 : ℕ) : ℤ) = ((2 : ℕ) : ℤ) + 1 := rfl
  rw [this, loopS_succ _ 0 2 (by omega), e2, except_bind_ok, stepAt_ok]
  exact ⟨_, _, rfl, rfl, h3⟩

theorem exp_half (n d : ℝ) (h : n * d = 1 / 2) :
    Complex.exp (Complex.I * ((n : ℂ) * ((2 * Real.pi : ℝ) : ℂ)) * ((d : ℝ) : ℂ)) = -1 := by
  have h' : (n : ℂ) * (d : ℂ) = 1 / 2 := by rw [← Complex.ofReal_mul, h]; push_cast; ring
  have : Complex.I * ((n : ℂ) * ((2 * Real.pi : ℝ) : ℂ)) * ((d : ℝ) : ℂ) = Real.pi * Complex.I := by
    push_cast; linear_combination (2 * Real.pi * Complex.I) * h'
  rw [this, Complex.exp_pi_mul_I]

theorem half_slab : freshS [scal ((2 * Real.pi : ℝ) : ℂ) 1 (some 1), scal ((2 * Real.pi : ℝ) : ℂ) 2 (some (1 / 4)),
    (scal ((2 * Real.pi : ℝ) : ℂ) 1 (some 1) : Modes m)] 0 2 = .ok (sscal (-1) 0 0 (-1)) := by
  have hp : Complex.exp (Complex.I * (2 * ((2 * Real.pi : ℝ) : ℂ)) * ((1 / 4 : ℝ) : ℂ)) = -1 := by
    have := exp_half 2 (1 / 4) (by norm_num)
    simpa using this
  refine chain2 (S1 := sscal (4 / 3) (1 / 3) (1 / 3) (-2 / 3)) ?_ ?_
  · rw [scal_step (f := 1) (f' := -1) two_pi_ne one_ne_zero two_ne_zero (some 1) (some (1 / 4)) 1 0 0 1 exp_two_pi hp
      (3 / 4) (by norm_num) (by norm_num) (4 / 3) (1 / 3) (by norm_num) (by norm_num)]
    norm_num [sscal]
  · rw [scal_step (f := -1) (f' := 1) two_pi_ne two_ne_zero one_ne_zero (some (1 / 4)) (some 1) _ _ _ _ hp exp_two_pi
      (4 / 3) (by norm_num) (by norm_num) (-1) 0 (by norm_num) (by norm_num)]
    norm_num [sscal]

theorem double_slab : freshS [scal ((2 * Real.pi : ℝ) : ℂ) 1 (some 1), scal ((2 * Real.pi : ℝ) : ℂ) 2 (some (1 / 8)),
    scal ((2 * Real.pi : ℝ) : ℂ) 2 (some (1 / 8)), (scal ((2 * Real.pi : ℝ) : ℂ) 1 (some 1) : Modes m)] 0 3 =
      .ok (sscal (-1) 0 0 (-1)) := by
  have hI : Complex.I * Complex.I = -1 := Complex.I_mul_I
  refine chain3 (S2 := sscal (4 * Complex.I / 3) (Complex.I / 3) (1 / 3) (-2 / 3)) slab_step1 ?_ ?_
  · rw [scal_step (f := Complex.I) (f' := Complex.I) two_pi_ne two_ne_zero two_ne_zero (some (1 / 8)) (some (1 / 8))
      _ _ _ _ exp_quarter exp_quarter 1 (by norm_num) one_ne_zero (4 * Complex.I / 3) (Complex.I / 3) (by ring)
      (by linear_combination (Complex.I / 3) * hI)]
    congr 1
    unfold sscal
    congr 2
    · ring
    · linear_combination (2 / 3 : ℂ) * hI
  · rw [scal_step (f := Complex.I) (f' := 1) two_pi_ne two_ne_zero one_ne_zero (some (1 / 8)) (some 1)
      _ _ _ _ exp_quarter exp_two_pi (4 / 3) (by linear_combination (-1 / 6 : ℂ) * hI) (by norm_num) (-1) 0
      (by linear_combination (-4 / 3 : ℂ) * hI) (by linear_combination (-1 / 2 : ℂ) * hI)]
    norm_num [sscal]

theorem edited_slab : freshS [scal ((2 * Real.pi : ℝ) : ℂ) 1 (some 1), scal ((2 * Real.pi : ℝ) : ℂ) 2 (some (1 / 8)),
    scal ((2 * Real.pi : ℝ) : ℂ) 4 (some (1 / 8)), (scal ((2 * Real.pi : ℝ) : ℂ) 1 (some 1) : Modes m)] 0 3 =
      .ok (sscal (-4 * Complex.I / 5) (3 / 5) (3 / 5) (-4 * Complex.I / 5)) := by
  have hI : Complex.I * Complex.I = -1 := Complex.I_mul_I
  have hp : Complex.exp (Complex.I * (4 * ((2 * Real.pi : ℝ) : ℂ)) * ((1 / 8 : ℝ) : ℂ)) = -1 := by
    have := exp_half 4 (1 / 8) (by norm_num)
    simpa using this
  have h4 : (4 : ℂ) ≠ 0 := by norm_num
  refine chain3 (S2 := sscal (2 * Complex.I) 0 0 (-Complex.I / 2)) slab_step1 ?_ ?_
  · rw [scal_step (f := Complex.I) (f' := -1) two_pi_ne two_ne_zero h4 (some (1 / 8)) (some (1 / 8))
      _ _ _ _ exp_quarter hp (2 / 3) (by linear_combination (-1 / 12 : ℂ) * hI) (by norm_num) (2 * Complex.I) 0
      (by ring) (by linear_combination (-1 / 4 : ℂ) * hI)]
    congr 1
    unfold sscal
    congr 2
    · linear_combination (1 / 3 : ℂ) * hI
    · ring
  · rw [scal_step (f := -1) (f' := 1) two_pi_ne h4 one_ne_zero (some (1 / 8)) (some 1)
      _ _ _ _ hp exp_two_pi (5 / 2) (by norm_num) (by norm_num) (-4 * Complex.I / 5) (3 / 5)
      (by ring) (by norm_num)]
    congr 1
    unfold sscal
    congr 2
    · linear_combination (-3 / 5 : ℂ) * hI
    · ring

theorem two_layers (n : ℝ) (hn : n ≠ 0) (hp : Complex.exp (Complex.I * ((n : ℂ) * ((2 * Real.pi : ℝ) : ℂ)) * ((1 : ℝ) : ℂ)) = 1) :
    freshS [scal ((2 * Real.pi : ℝ) : ℂ) n (some 1), (scal ((2 * Real.pi : ℝ) : ℂ) n (some 1) : Modes m)] 0 1 =
      .ok (sscal 1 0 0 1) := by
  have hnc : (n : ℂ) ≠ 0 := by exact_mod_cast hn
  refine (freshS_ok (i := 0) (j := 1)).mpr ⟨by omega, loop_one (i := 0) rfl rfl ?_⟩
  rw [scal_step (f := 1) (f' := 1) two_pi_ne hnc hnc (some 1) (some 1) 1 0 0 1 hp hp 1
      (by field_simp; norm_num) one_ne_zero 1 0 (by norm_num) (by field_simp; norm_num)]
  have : (n : ℂ) / n = 1 := div_self hnc
  rw [this]
  norm_num [sscal]

end

variable {c : Static}

/-- The scattering matrix of an unused stack of layers with real indices. -/
theorem ex_getS {w : ℝ} (h : NormalSim c w) {mats : ℕ → LayerSpec} (n : ℕ → ℝ) (hnd : c.stack.Nodup)
    (hr : ∀ r ∈ c.stack, 0 < n r ∧ HasIndex (mats r) (n r)) :
    (getS exE c none (Dyn.fresh mats (unsolved c.nh))).1 =
      freshS (c.stack.map fun r => scal c.omega (n r) (mats r).thickness) 0 ((c.stack.length : ℤ) - 1) := by
  obtain ⟨A1, hs, -, h3, -⟩ := ex_solve h (mats := mats) n hnd hr
  rw [(getS_spec hs none (inv_fresh _ (.inl rfl))).1, valS_none, h3]

/-- C27: a call that raises `UnboundLocalError`, then others, change nothing: the grating in air still has
its reflection coefficient 3/5. -/
example : ∃ c, simInit exE (fun _ => exLat) slabMats [0, 1, 2] exExc 1 "original" = .ok c ∧
    (getS exE c (some (2, 1)) (Dyn.fresh slabMats (unsolved c.nh))).1 = .error .unboundLocal ∧
    Call.result exE c (.getSMatrix none) (afterCalls exE c
      [.getSMatrix (some (2, 1)), .getFieldFourier (.idx 1) [0, 1 / 16], .diffractionEfficiencies true, .reset "S"]
      (Dyn.fresh slabMats (unsolved c.nh))) =
        .ok (.smatrix (sscal (4 * Complex.I / 5) (3 / 5) (3 / 5) (4 * Complex.I / 5))) := by
  obtain ⟨c, hc, hn, hst, -, -⟩ := slab_init
  have hnd : c.stack.Nodup := by rw [hst]; decide
  obtain ⟨A1, hs, -, h3, -⟩ := ex_solve hn (mats := slabMats) slabN hnd fun r _ => slab_index r
  refine ⟨c, hc, ?_, ?_⟩
  · rw [(getS_spec hs (some (2, 1)) (inv_fresh _ (.inl rfl))).1, h3]
    rfl
  · rw [(C27_calls_do_not_depend_on_history hc _ _).1]
    have := ex_getS hn (mats := slabMats) slabN hnd fun r _ => slab_index r
    simp only [Call.result]
    rw [this, hst, hn.omega]
    have h2 := slab_02 (m := Idx c.nh)
    simp only [slabModes] at h2
    simp [slabN, slabMats, exLayer]
    norm_num at h2 ⊢
    rw [h2]
    rfl

/-- The grating in air with the thickness of the grating as a parameter. -/
noncomputable def slabT (t : ℝ) : ℕ → LayerSpec := fun r =>
  if r = 1 then { slabMats 1 with thickness := some t } else slabMats r

theorem slabT_index (t : ℝ) (r : ℕ) : 0 < slabN r ∧ HasIndex (slabT t r) (slabN r) := by
  have h := slab_index r
  unfold slabT
  split
  · rename_i h1
    subst h1
    exact h
  · exact h

/-- C28: changing the thickness of the grating from 1/8 to 1/4 is not seen without a reset: the reflection
coefficient stays 3/5; `reset("S")` makes it 0. -/
example : ∃ c, simInit exE (fun _ => exLat) slabMats [0, 1, 2] exExc 1 "original" = .ok c ∧
    Call.result exE c (.getSMatrix none) (afterEvents exE c [.call (.getSMatrix none), .setThickness 1 (some (1 / 4))]
      (Dyn.fresh slabMats (unsolved c.nh))) =
        .ok (.smatrix (sscal (4 * Complex.I / 5) (3 / 5) (3 / 5) (4 * Complex.I / 5))) ∧
    Call.result exE c (.getSMatrix none) (simReset "S" (afterEvents exE c
      [.call (.getSMatrix none), .setThickness 1 (some (1 / 4))] (Dyn.fresh slabMats (unsolved c.nh)))).2 =
        .ok (.smatrix (sscal (-1) 0 0 (-1))) := by
  obtain ⟨c, hc, hn, hst, -, -⟩ := slab_init
  have hnd : c.stack.Nodup := by rw [hst]; decide
  have hS : (getS exE c none (Dyn.fresh slabMats (unsolved c.nh))).1 =
      .ok (sscal (4 * Complex.I / 5) (3 / 5) (3 / 5) (4 * Complex.I / 5)) := by
    rw [ex_getS hn (mats := slabMats) slabN hnd fun r _ => slab_index r, hst, hn.omega]
    have h2 := slab_02 (m := Idx c.nh)
    simp only [slabModes] at h2
    simp [slabN, slabMats, exLayer]
    norm_num at h2 ⊢
    rw [h2]
  have hm : (afterEvents exE c [.call (.getSMatrix none), .setThickness 1 (some (1 / 4))]
      (Dyn.fresh slabMats (unsolved c.nh))).mats = slabT (1 / 4) := by
    obtain ⟨A1, hs, -⟩ := ex_solve hn (mats := slabMats) slabN hnd fun r _ => slab_index r
    have := (getS_spec hs none (inv_fresh _ (.inl rfl))).2.1.mats_eq
    funext s
    simp only [afterEvents, List.foldl_cons, List.foldl_nil, Event.after, Call.after, this, slabT]
  refine ⟨c, hc, ?_, ?_⟩
  · have := C28_without_reset_edits_are_ignored none (Dyn.fresh slabMats (unsolved c.nh)) _ hS (slabT (1 / 4))
    rw [← hm] at this
    simp only [Call.result]
    have h2 : (getS exE c none (afterEvents exE c [.call (.getSMatrix none), .setThickness 1 (some (1 / 4))]
      (Dyn.fresh slabMats (unsolved c.nh)))).1 = _ := this
    rw [h2]
    rfl
  · rw [(C28_thickness_edits_need_only_reset_S hc _ (by
      intro e he
      rcases List.mem_cons.mp he with rfl | he
      · trivial
      · rcases List.mem_cons.mp he with rfl | he
        · trivial
        · simp at he) _ rfl _).2, hm]
    simp only [Call.result]
    rw [ex_getS hn (mats := slabT (1 / 4)) slabN hnd fun r _ => slabT_index _ r, hst, hn.omega]
    have h2 := half_slab (m := Idx c.nh)
    simp [slabN, slabT, slabMats, exLayer]
    norm_num at h2 ⊢
    rw [h2]
    rfl

/-- Two layers of the same index. -/
noncomputable def twoMats (n : ℝ) : ℕ → LayerSpec := fun r =>
  if r = 0 then exLayer "Superstrate" 1 (NdArr.scalar ((n ^ 2 : ℝ) : ℂ))
  else exLayer "Substrate" 1 (NdArr.scalar ((n ^ 2 : ℝ) : ℂ))

theorem twoMats_index {n : ℝ} (r : ℕ) : HasIndex (twoMats n r) n := by
  unfold twoMats
  split <;> exact ⟨rfl, rfl, .inl rfl⟩

theorem two_efficiencies (h : NormalSim c) (hst : c.stack = [0, 1]) {mats} (n : ℝ) (hn : 0 < n)
    (hr : ∀ r ∈ c.stack, HasIndex (mats r) n) (ht : ∀ r ∈ c.stack, (mats r).thickness = some 1)
    (hp : Complex.exp (Complex.I * ((n : ℂ) * ((2 * Real.pi : ℝ) : ℂ)) * ((1 : ℝ) : ℂ)) = 1)
    (hfl : c.incidentFlux ≠ 0) :
    (diffractionEfficiencies exE c false (Dyn.fresh mats (unsolved c.nh))).1 =
      .ok (.total 0 (1 / n / c.incidentFlux)) := by
  have hnd : c.stack.Nodup := by rw [hst]; decide
  have := ex_efficiencies h (mats := mats) (fun _ => n) hnd (fun r hr' => ⟨hn, hr r hr'⟩) (t := 1) (x := 0) (r := 0) (y := 1)
    (r0 := 0) (rN := 1) (by
      have h2 := two_layers (m := Idx c.nh) n hn.ne' hp
      rw [hst] at ht
      rw [hst, h.omega]
      simp only [List.map_cons, List.map_nil, ht 0 (by simp), ht 1 (by simp)]
      exact h2) (by rw [hst]; rfl) (by rw [hst]; rfl) hfl
  rw [this]
  simp

end Nannos.Examples

namespace Nannos

open Matrix Spec Examples

/-- **C28**, what fails. Changing the material of all layers and then calling `reset()` is not equivalent to a
new `Simulation`: two layers of vacuum are made into two layers of permittivity 4.  There is no interface, yet
after the reset the object reports a total of efficiencies of 1/2, since the normalisation by the incident
flux still is that of the old superstrate; a new object reports 1. -/
theorem C28_superstrate_edits_are_not_refreshed : ∃ (c c' : Static) (d : Dyn c.nh),
    simInit exE (fun _ => exLat) (twoMats 1) [0, 1] exExc 1 "original" = .ok c ∧
    d = afterEvents exE c [.call (.diffractionEfficiencies false), .setLayer 0 (twoMats 2 0),
      .setLayer 1 (twoMats 2 1)] (Dyn.fresh (twoMats 1) (unsolved c.nh)) ∧
    simInit exE (fun _ => exLat) d.mats [0, 1] exExc 1 "original" = .ok c' ∧
    (diffractionEfficiencies exE c false (simReset "all" d).2).1 = .ok (.total 0 (1 / 2)) ∧
    (diffractionEfficiencies exE c' false (Dyn.fresh d.mats (unsolved c'.nh))).1 = .ok (.total 0 1) := by
  obtain ⟨c, h1, h2, h3, -, h5⟩ := exInit (twoMats 1) 0 [1] 1 one_pos (by decide) (by decide) rfl rfl
  have hnd : c.stack.Nodup := by rw [h3]; decide
  obtain ⟨d, hd⟩ : ∃ d, d = afterEvents exE c [.call (.diffractionEfficiencies false), .setLayer 0 (twoMats 2 0),
      .setLayer 1 (twoMats 2 1)] (Dyn.fresh (twoMats 1) (unsolved c.nh)) := ⟨_, rfl⟩
  have e0 : d.mats 0 = twoMats 2 0 := by rw [hd]; rfl
  have e1 : d.mats 1 = twoMats 2 1 := by rw [hd]; rfl
  have hmem : ∀ r ∈ [0, 1], d.mats r = twoMats 2 r := by
    intro r hr
    simp only [List.mem_cons, List.not_mem_nil, or_false] at hr
    rcases hr with rfl | rfl
    · exact e0
    · exact e1
  obtain ⟨c', k1, k2, k3, -, k5⟩ := exInit d.mats 0 [1] 2 two_pos
    (by simp only [List.map_cons, List.map_nil, e0, e1]; decide)
    (fun r hr => by rw [hmem r hr]; unfold twoMats; split <;> rfl) (by rw [e0]; rfl) (by rw [e0]; rfl)
  have hp : Complex.exp (Complex.I * (((2 : ℝ) : ℂ) * ((2 * Real.pi : ℝ) : ℂ)) * ((1 : ℝ) : ℂ)) = 1 := by
    have : Complex.I * (((2 : ℝ) : ℂ) * ((2 * Real.pi : ℝ) : ℂ)) * ((1 : ℝ) : ℂ) = 2 * Real.pi * Complex.I + 2 * Real.pi * Complex.I := by
      push_cast; ring
    rw [this, Complex.exp_add, Complex.exp_two_pi_mul_I, one_mul]
  have hth : ∀ r ∈ [0, 1], (d.mats r).thickness = some 1 := by
    intro r hr
    rw [hmem r hr]; unfold twoMats; split <;> rfl
  have hix : ∀ r ∈ [0, 1], HasIndex (d.mats r) 2 := by
    intro r hr
    rw [hmem r hr]; exact twoMats_index r
  refine ⟨c, c', d, h1, hd, k1, ?_, ?_⟩
  · have hw : WellPlaced d.mats c.stack := by
      intro k r hr hc
      rw [h3] at hr
      rw [(hix r (List.mem_of_getElem? hr)).1] at hc
      simp at hc
    have hl := result_leftovers (E := exE) hnd hw d.attrs (unsolved c.nh) (.diffractionEfficiencies false)
    rw [reset_all]
    simp only [Call.result] at hl
    have h6 := two_efficiencies h2 h3 (mats := d.mats) 2 two_pos (h3 ▸ hix) (h3 ▸ hth) hp (by rw [h5]; norm_num)
    rw [h6] at hl
    rcases hx : (diffractionEfficiencies exE c false (Dyn.fresh d.mats d.attrs)).1 with e | v
    · rw [hx] at hl; simp [Except.map] at hl
    · rw [hx] at hl
      simp only [Except.map, Except.ok.injEq, Outcome.efficiencies.injEq] at hl
      rw [hl, h5]
      norm_num
  · rw [two_efficiencies k2 k3 (mats := d.mats) 2 two_pos (k3 ▸ hix) (k3 ▸ hth) hp (by rw [k5]; norm_num), k5]
    norm_num

end Nannos

namespace Nannos.Examples

open Matrix Nannos Spec

/-- Air, grating, copy of the grating, air. -/
noncomputable def copyMats : ℕ → LayerSpec := fun r =>
  if r = 0 then slabMats 0
  else if r = 1 then slabMats 1
  else if r = 2 then { slabMats 1 with name := "Copy", iscopy := true, original := 1 }
  else slabMats 2

theorem copyMats_init : ∃ c, simInit exE (fun _ => exLat) copyMats [0, 1, 2, 3] exExc 1 "original" = .ok c ∧
    NormalSim c ∧ c.stack = [0, 1, 2, 3] := by
  obtain ⟨c, h1, h2, h3, -⟩ := exInit copyMats 0 [1, 2, 3] 1 one_pos (by decide) (by decide) rfl rfl
  exact ⟨c, h1, h2, h3⟩

theorem grid_not_uniform (u : Grid 4 1) : isUniform (NdArr.ofGrid u).shape = false := by
  simp [NdArr.ofGrid, isUniform, isAnisotropic]

theorem copyMats_placed : WellPlaced copyMats [0, 1, 2, 3] ∧ FaithfulCopies copyMats [0, 1, 2, 3] := by
  constructor
  · intro k r hr hc
    have hk : k < 4 := (List.getElem?_eq_some_iff.mp hr).1
    interval_cases k <;> simp at hr <;> subst hr
    · exact absurd hc (by simp [copyMats, slabMats, exLayer])
    · exact absurd hc (by simp [copyMats, slabMats, exLayer])
    · exact ⟨⟨1, by omega, rfl⟩, grid_not_uniform exGrid, rfl⟩
    · exact absurd hc (by simp [copyMats, slabMats, exLayer])
  · intro r hr hc
    simp only [List.mem_cons, List.not_mem_nil, or_false] at hr
    rcases hr with rfl | rfl | rfl | rfl
    · exact absurd hc (by simp [copyMats, slabMats, exLayer])
    · exact absurd hc (by simp [copyMats, slabMats, exLayer])
    · exact ⟨rfl, rfl, rfl, rfl⟩
    · exact absurd hc (by simp [copyMats, slabMats, exLayer])

/-- A pattern of average permittivity 16. -/
noncomputable def exGrid16 : Grid 4 1 := fun x _ => if (x : ℕ) < 2 then 12 else 20

/-- The same stack, after a new pattern has been assigned to `layer.epsilon` of the copy. -/
noncomputable def editedMats : ℕ → LayerSpec := fun r =>
  if r = 2 then { copyMats 2 with epsilon := NdArr.ofGrid exGrid16 } else copyMats r

/-- Indices of the layers. -/
noncomputable def copyN (n : ℝ) : ℕ → ℝ := fun r => if r = 1 then 2 else if r = 2 then n else 1

theorem copy_index (r : ℕ) (hr : r ∈ [0, 1, 2, 3]) : 0 < copyN 2 r ∧ HasIndex (independent copyMats r) (copyN 2 r) := by
  simp only [List.mem_cons, List.not_mem_nil, or_false] at hr
  rcases hr with rfl | rfl | rfl | rfl
  · exact ⟨by simp [copyN], rfl, (slab_index 0).2.2⟩
  · exact ⟨by simp [copyN], rfl, (slab_index 1).2.2⟩
  · exact ⟨by simp [copyN], rfl, (slab_index 1).2.2⟩
  · exact ⟨by simp [copyN], rfl, (slab_index 2).2.2⟩

theorem edited_index (r : ℕ) (hr : r ∈ [0, 1, 2, 3]) :
    0 < copyN 4 r ∧ HasIndex (independent editedMats r) (copyN 4 r) := by
  simp only [List.mem_cons, List.not_mem_nil, or_false] at hr
  rcases hr with rfl | rfl | rfl | rfl
  · exact ⟨by simp [copyN], rfl, (slab_index 0).2.2⟩
  · exact ⟨by simp [copyN], rfl, (slab_index 1).2.2⟩
  · refine ⟨by simp [copyN], rfl, rfl, .inr ⟨4, 1, exGrid16, rfl, by norm_num, by norm_num, by decide, ?_⟩⟩
    simp [Fin.sum_univ_succ, exGrid16, copyN]
    norm_num
  · exact ⟨by simp [copyN], rfl, (slab_index 2).2.2⟩

theorem double_getS (hn : NormalSim c) (hst : c.stack = [0, 1, 2, 3]) :
    (getS exE c none (Dyn.fresh (independent copyMats) (unsolved c.nh))).1 = .ok (sscal (-1) 0 0 (-1)) := by
  have hnd : c.stack.Nodup := by rw [hst]; decide
  rw [ex_getS hn (mats := independent copyMats) (copyN 2) hnd fun r hr => copy_index r (hst ▸ hr), hst, hn.omega]
  have h2 := double_slab (m := Idx c.nh)
  simp [copyN, copyMats, slabMats, exLayer, independent]
  norm_num at h2 ⊢
  rw [h2]

/-- C36: a grating and its copy give the scattering matrix of a grating twice as thick (reflection 0). -/
example : ∃ c, simInit exE (fun _ => exLat) copyMats [0, 1, 2, 3] exExc 1 "original" = .ok c ∧
    Call.result exE c (.getSMatrix none) (Dyn.fresh copyMats (unsolved c.nh)) = .ok (.smatrix (sscal (-1) 0 0 (-1))) := by
  obtain ⟨c, hc, hn, hst⟩ := copyMats_init
  refine ⟨c, hc, ?_⟩
  have h := (C36_copies_are_interchangeable_partial hc copyMats_placed.1 copyMats_placed.2 [] (.getSMatrix none)).2
  simp only [afterCalls, List.foldl_nil] at h
  rw [← h]
  simp only [Call.result, double_getS hn hst]
  rfl

end Nannos.Examples

namespace Nannos

open Matrix Spec Examples

/-- **C36**, what is wrong, a case. The copy of a grating is given a pattern of average permittivity 16
before the first solve.  The scattering matrix is still that of two identical gratings (reflection 0), while
independent layers with the same attributes have reflection coefficient 3/5. -/
theorem C36_material_of_a_copy_is_ignored_case : ∃ c,
    simInit exE (fun _ => exLat) editedMats [0, 1, 2, 3] exExc 1 "original" = .ok c ∧
    (getS exE c none (Dyn.fresh editedMats (unsolved c.nh))).1 = .ok (sscal (-1) 0 0 (-1)) ∧
    (getS exE c none (Dyn.fresh (independent editedMats) (unsolved c.nh))).1 =
      .ok (sscal (-4 * Complex.I / 5) (3 / 5) (3 / 5) (-4 * Complex.I / 5)) := by
  obtain ⟨c, hc, hn, hst⟩ := copyMats_init
  have hnd : c.stack.Nodup := by rw [hst]; decide
  refine ⟨c, ?_, ?_, ?_⟩
  · rw [simInit_keeps (mats := copyMats), hc]
    have hs : ∀ r ∈ [0, 1, 2, 3], editedMats r = copyMats r ∨
        editedMats r = { copyMats 2 with epsilon := NdArr.ofGrid exGrid16 } ∧ r = 2 := by
      intro r _
      unfold editedMats
      split
      · exact .inr ⟨rfl, ‹_›⟩
      · exact .inl rfl
    refine ⟨fun r hr => ?_, fun r hr => ?_, fun r hr => ?_, fun r hr => ?_⟩
    · rcases hs r hr with h | ⟨h, rfl⟩ <;> rw [h]
    · rcases hs r hr with h | ⟨h, rfl⟩ <;> rw [h]
    · rcases hs r hr with h | ⟨h, rfl⟩
      · rw [h]
      · rw [h]
        exact (grid_not_uniform exGrid16).trans (grid_not_uniform exGrid).symm
    · simp only [List.head?_cons, Option.some.injEq] at hr
      subst hr
      exact ⟨rfl, rfl⟩
  · have h1 := (C36_material_of_a_copy_is_ignored (E := exE) (c := c) (mats := copyMats) editedMats (by
      intro r hr
      unfold editedMats
      split
      · rename_i h2
        subst h2
        exact .inr ⟨rfl, grid_not_uniform exGrid, grid_not_uniform exGrid16, _, _, _, _, rfl⟩
      · exact .inl rfl) (unsolved c.nh)).1 none
    have h2 := (C36_copies_are_interchangeable_partial hc copyMats_placed.1 copyMats_placed.2 [] (.getSMatrix none)).2
    simp only [afterCalls, List.foldl_nil, Call.result, double_getS hn hst] at h2
    rw [h1]
    rcases hx : (getS exE c none (Dyn.fresh copyMats (unsolved c.nh))).1 with e | v
    · rw [hx] at h2; simp [Except.map] at h2
    · rw [hx] at h2
      simp only [Except.map, Except.ok.injEq, Outcome.smatrix.injEq] at h2
      rw [h2]
  · rw [ex_getS hn (mats := independent editedMats) (copyN 4) hnd fun r hr => edited_index r (hst ▸ hr), hst, hn.omega]
    have h2 := edited_slab (m := Idx c.nh)
    simp [copyN, editedMats, copyMats, slabMats, exLayer, independent]
    norm_num at h2 ⊢
    rw [h2]

end Nannos

namespace Nannos.Examples

open Matrix Nannos Spec

/-- Air, a uniform slab, a copy of the slab, air. -/
noncomputable def badMats : ℕ → LayerSpec := fun r =>
  if r = 0 then slabMats 0
  else if r = 1 then exLayer "Slab" (1 / 8) (NdArr.scalar ((2 ^ 2 : ℝ) : ℂ))
  else if r = 2 then { exLayer "Copy" (1 / 8) (NdArr.scalar ((2 ^ 2 : ℝ) : ℂ)) with iscopy := true, original := 1 }
  else slabMats 2

/-- C36: the copy of a uniform layer cannot be solved; the exception is an `AttributeError`. -/
example : ∃ c, simInit exE (fun _ => exLat) badMats [0, 1, 2, 3] exExc 1 "original" = .ok c ∧
    (solve exE c (Dyn.fresh badMats (unsolved c.nh))).1 = .error .attributeError ∧
    ∀ hist, (solve exE c (afterCalls exE c hist (Dyn.fresh badMats (unsolved c.nh)))).1 ≠ .ok () := by
  obtain ⟨c, hc, hn, hst, -⟩ := exInit badMats 0 [1, 2, 3] 1 one_pos (by decide) (by decide) rfl rfl
  refine ⟨c, hc, ?_, fun hist h => ?_⟩
  · obtain ⟨a1, a2⟩ := exSolveAll hn (fun r => if r = 1 then 2 else 1) [0, 1] (Dyn.fresh badMats (unsolved c.nh))
      (by decide) (by
        intro r hr
        simp only [List.mem_cons, List.not_mem_nil, or_false] at hr
        rcases hr with rfl | rfl
        · exact ⟨by norm_num, rfl, rfl, .inl rfl⟩
        · exact ⟨by norm_num, rfl, rfl, .inl rfl⟩)
    have h5 := solveAll_matrix (E := exE) (c := c) [0, 1] (Dyn.fresh badMats (unsolved c.nh)) (o := 1) rfl rfl
    obtain ⟨A, eA, -⟩ := solveAll_frame (E := exE) (c := c) [0, 1] (Dyn.fresh badMats (unsolved c.nh))
    unfold solve
    rw [PyM.bind_def, hst]
    have : solveAll exE c [0, 1, 2, 3] (Dyn.fresh badMats (unsolved c.nh)) =
        match solveAll exE c [0, 1] (Dyn.fresh badMats (unsolved c.nh)) with
        | (.error e, d) => (.error e, d)
        | (.ok _, d) => solveAll exE c [2, 3] d := by
      simp only [solveAll_cons, solveAll_nil]
      rcases solveLayer exE c 0 (Dyn.fresh badMats (unsolved c.nh)) with ⟨_ | _, d⟩
      · rfl
      · dsimp only
        rcases solveLayer exE c 1 d with ⟨_ | _, d⟩ <;> rfl
    rw [eA] at h5
    have h7 : solveAll exE c [0, 1] (Dyn.fresh badMats (unsolved c.nh)) = (.ok (), Dyn.fresh badMats A) :=
      Prod.ext a1 eA
    rw [this, h7]
    dsimp only
    rw [solveAll_cons, solveLayer_eq]
    have h6 : stepOut exE c ((Dyn.fresh badMats A : Dyn c.nh).mats 2)
        ((Dyn.fresh badMats A : Dyn c.nh).attrs ((Dyn.fresh badMats A : Dyn c.nh).mats 2).original) =
          (.error .attributeError, id) := stepOut_missing rfl (.inl h5)
    rw [h6]
  · exact (C36_copies_that_cannot_be_solved hc hist h 2 2 rfl rfl).2 ⟨rfl, rfl⟩

/-- C35: the grating in air has efficiencies, and they do not depend on the history. -/
example : ∃ c, simInit exE (fun _ => exLat) slabMats [0, 1, 2] exExc 1 "original" = .ok c ∧
    (diffractionEfficiencies exE c false (afterCalls exE c [.getSMatrix (some (2, 1)), .complexEfficiencies]
      (Dyn.fresh slabMats (unsolved c.nh)))).1 = .ok (.total (9 / 25) (16 / 25)) := by
  obtain ⟨c, hc, hn, hst, -, hfl⟩ := slab_init
  have hnd : c.stack.Nodup := by rw [hst]; decide
  refine ⟨c, hc, ?_⟩
  have h1 := ex_efficiencies hn (mats := slabMats) slabN hnd (fun r _ => slab_index r)
    (t := 4 * Complex.I / 5) (x := 3 / 5) (r := 3 / 5) (y := 4 * Complex.I / 5) (r0 := 0) (rN := 2) (by
      rw [hst, hn.omega]
      have h2 := slab_02 (m := Idx c.nh)
      simp only [slabModes] at h2
      simp [slabN, slabMats, exLayer]
      norm_num at h2 ⊢
      rw [h2]) (by rw [hst]; rfl) (by rw [hst]; rfl) (by rw [hfl]; norm_num)
  have h2 := (C27_calls_do_not_depend_on_history hc [.getSMatrix (some (2, 1)), .complexEfficiencies]
    (.diffractionEfficiencies false)).1
  simp only [Call.result, h1] at h2
  rcases hx : (diffractionEfficiencies exE c false (afterCalls exE c [.getSMatrix (some (2, 1)), .complexEfficiencies]
      (Dyn.fresh slabMats (unsolved c.nh)))).1 with e | v
  · rw [hx] at h2; simp [Except.map] at h2
  · rw [hx] at h2
    simp only [Except.map, Except.ok.injEq, Outcome.efficiencies.injEq] at h2
    rw [h2, hfl]
    norm_num [slabN]

/-- C37: lookups in the stack air, grating, air. -/
example : ∃ c, simInit exE (fun _ => exLat) slabMats [0, 1, 2] exExc 1 "original" = .ok c ∧
    getLayer c (.name "Slab") = .ok (1, 1) ∧ getLayer c (.idx (-1)) = .ok (2, -1) ∧
    getLayer c (.idx 3) = .error .indexError ∧ getLayer c (.name "Glass") = .error .valueError := by
  obtain ⟨c, hc, -⟩ := slab_init
  obtain ⟨h1, h2, h3, -⟩ := C37_layer_lookup hc
  refine ⟨c, hc, (h1 1 1 rfl).1, (h1 2 2 rfl).2.2.2, h3 3 (by simp), (h2 "Glass" ?_).1⟩
  intro r hr
  simp only [List.mem_cons, List.not_mem_nil, or_false] at hr
  rcases hr with rfl | rfl | rfl <;> decide

/-- C38: the slab twice in the stack. -/
example : simInit exE (fun _ => exLat) slabMats [0, 1, 1, 2] exExc 1 "original" = .error .valueError :=
  C38_constructor_raises.1 (by decide)

/-- C38: a formulation that needs a bi-periodic lattice. -/
example : simInit exE (fun _ => exLat) slabMats [0, 1, 2] exExc 1 "jones" = .error .valueError :=
  ((C38_constructor_raises (stack := [])).2.2.2 0 [1, 2] (by decide) (by decide)) (.inr (.inl ⟨rfl, by decide⟩))

end Nannos.Examples
