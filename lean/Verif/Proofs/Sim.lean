import Verif.Model.Sim
import Verif.Proofs.SMatrix2

/-! Helper lemmas on the `Simulation` state machine. -/

set_option linter.unusedSectionVars false

namespace Nannos

open Matrix

/-! ### Python ranges over the integers -/

theorem pyRange_nil {i j : ℤ} (h : j ≤ i) : pyRange i j = [] := (pyRange_eq_nil_iff i j).mpr h

theorem pyRange_cons {i j : ℤ} (h : i < j) : pyRange i j = i :: pyRange (i + 1) j := by
  unfold pyRange
  have e : (j - i).toNat = (j - (i + 1)).toNat + 1 := by omega
  rw [e, List.range_succ_eq_map, List.map_cons, List.map_map]
  congr 1
  · simp
  · apply List.map_congr_left
    intro k _
    simp
    omega

theorem pyRange_snoc {i j : ℤ} (h : i ≤ j) : pyRange i (j + 1) = pyRange i j ++ [j] := by
  unfold pyRange
  have e : (j + 1 - i).toNat = (j - i).toNat + 1 := by omega
  rw [e, List.range_succ, List.map_append]
  simp
  omega

theorem pyRange_head {i j : ℤ} (h : i < j) : (pyRange i j).head? = some i := by
  rw [pyRange_cons h]; rfl

theorem pyRange_last {i j : ℤ} (h : i < j) : (pyRange i j).getLast? = some (j - 1) := by
  have e : j = (j - 1) + 1 := by ring
  conv_lhs => rw [e]
  rw [pyRange_snoc (by omega)]
  simp

/-! ### The state monad with exceptions -/

section
variable {σ α β : Type}

theorem PyM.bind_def (x : PyM σ α) (f : α → PyM σ β) (s : σ) :
    (x >>= f) s = match x s with
      | (.ok a, s') => f a s'
      | (.error e, s') => (.error e, s') := rfl

theorem PyM.bind_ok {x : PyM σ α} {f : α → PyM σ β} {s s' : σ} {a : α} (h : x s = (.ok a, s')) :
    (x >>= f) s = f a s' := by rw [PyM.bind_def, h]

theorem PyM.bind_error {x : PyM σ α} {f : α → PyM σ β} {s s' : σ} {e : PyErr}
    (h : x s = (.error e, s')) : (x >>= f) s = (.error e, s') := by rw [PyM.bind_def, h]

theorem PyM.pure_def (a : α) (s : σ) : (pure a : PyM σ α) s = (.ok a, s) := rfl

end

variable {E : Ext} {c : Static}

/-! ### Solving one layer -/

/-- Result of solving a layer: the outcome and the update of its attributes, as a function of the layer
and (for copies) of the attributes of its original. -/
noncomputable def stepOut (E : Ext) (c : Static) (L : LayerSpec) (Ao : LayerAttr c.nh) :
    Except PyErr Unit × (LayerAttr c.nh → LayerAttr c.nh) :=
  if L.iscopy then
    match Ao.matrix, Ao.pat, Ao.Qeps with
    | some M, some p, some Q =>
      match (if L.isUniform then solveUniform L c.omega c.kx c.ky else attr Ao.eig) with
      | .error e => (.error e, fun a => { a with matrix := some M, pat := some p, Qeps := some Q })
      | .ok ev => (.ok (), fun _ => ⟨some M, some p, some Q, some ev⟩)
    | _, _, _ => (.error .attributeError, id)
  else match buildPure E c L with
    | .error e => (.error e, id)
    | .ok (.uniform Q) =>
      match solveUniform L c.omega c.kx c.ky with
      | .error e => (.error e, fun a => { a with Qeps := some Q })
      | .ok ev => (.ok (), fun a => { a with Qeps := some Q, eig := some ev })
    | .ok (.patterned M p Q) =>
      match solveEigenproblem E M with
      | .error e => (.error e, fun a => { a with matrix := some M, pat := some p, Qeps := some Q })
      | .ok ev => (.ok (), fun _ => ⟨some M, some p, some Q, some ev⟩)

theorem buildPure_uniform {L : LayerSpec} {Q} (h : buildPure E c L = .ok (.uniform Q)) :
    L.isUniform = true := by
  by_contra hu
  unfold buildPure at h
  simp only [hu, if_false, bind_eq_ok] at h
  obtain ⟨_, _, _, _, _, _, _, _, _, _, _, _, _, _, _, _, h⟩ := h
  simp at h

theorem buildPure_patterned {L : LayerSpec} {M p Q} (h : buildPure E c L = .ok (.patterned M p Q)) :
    L.isUniform = false := by
  by_contra hu
  simp only [Bool.not_eq_false] at hu
  unfold buildPure at h
  simp only [hu, if_true] at h
  split at h
  · split at h <;> simp at h
  · split at h <;> simp at h

theorem setAttr_same {nh : ℕ} (d : Dyn nh) (r : ℕ) (f : LayerAttr nh → LayerAttr nh) :
    (d.setAttr r f).attrs r = f (d.attrs r) := by simp [Dyn.setAttr]

theorem setAttr_ne {nh : ℕ} (d : Dyn nh) {r s : ℕ} (h : s ≠ r) (f : LayerAttr nh → LayerAttr nh) :
    (d.setAttr r f).attrs s = d.attrs s := by simp [Dyn.setAttr, h]

theorem setAttr_setAttr {nh : ℕ} (d : Dyn nh) (r : ℕ) (f g : LayerAttr nh → LayerAttr nh) :
    (d.setAttr r f).setAttr r g = d.setAttr r (fun a => g (f a)) := by
  unfold Dyn.setAttr
  congr 1
  funext s
  by_cases h : s = r <;> simp [h]

theorem setAttr_id {nh : ℕ} (d : Dyn nh) (r : ℕ) (f : LayerAttr nh → LayerAttr nh)
    (h : f (d.attrs r) = d.attrs r) : d.setAttr r f = d := by
  unfold Dyn.setAttr
  have : (fun s => if s = r then f (d.attrs r) else d.attrs s) = d.attrs := by
    funext s
    by_cases hs : s = r <;> simp [hs, h]
  rw [this]

theorem solveLayer_eq (r : ℕ) (d : Dyn c.nh) :
    solveLayer E c r d = ((stepOut E c (d.mats r) (d.attrs (d.mats r).original)).1,
      d.setAttr r (stepOut E c (d.mats r) (d.attrs (d.mats r).original)).2) := by
  unfold solveLayer
  rw [PyM.bind_def]
  unfold buildMatrix stepOut
  dsimp only
  by_cases hc : (d.mats r).iscopy = true
  · simp only [hc, if_true]
    rcases hM : (d.attrs (d.mats r).original).matrix with _ | M
    · simp [setAttr_id]
    rcases hp : (d.attrs (d.mats r).original).pat with _ | p
    · simp [setAttr_id]
    rcases hQ : (d.attrs (d.mats r).original).Qeps with _ | Q
    · simp [setAttr_id]
    dsimp only
    have hmats : ∀ f, (d.setAttr r f).mats = d.mats := fun f => rfl
    have heig : ((d.setAttr r fun a => { a with matrix := some M, pat := some p, Qeps := some Q }).attrs
        (d.mats r).original).eig = (d.attrs (d.mats r).original).eig := by
      by_cases ho : (d.mats r).original = r
      · rw [ho, setAttr_same]
      · rw [setAttr_ne _ ho]
    unfold solveModes
    simp only [hmats, hc, heig, if_true]
    split <;> rename_i heq <;> rw [heq]
    simp only [setAttr_setAttr]
  · simp only [hc, Bool.false_eq_true, if_false]
    cases hb : buildPure E c (d.mats r) with
    | error e => simp [setAttr_id]
    | ok b =>
      cases b with
      | uniform Q =>
        have hu := buildPure_uniform hb
        have hmats : ∀ f, (d.setAttr r f).mats = d.mats := fun f => rfl
        dsimp only
        unfold solveModes
        simp only [hmats, hu, if_true]
        split <;> rename_i heq <;> rw [heq]
        simp only [setAttr_setAttr]
      | patterned M p Q =>
        have hu := buildPure_patterned hb
        have hmats : ∀ f, (d.setAttr r f).mats = d.mats := fun f => rfl
        dsimp only
        unfold solveModes
        simp only [hmats, hu, hc, Bool.false_eq_true, if_false, setAttr_same, attr, except_bind_ok]
        split <;> rename_i heq <;> rw [heq]
        simp only [setAttr_setAttr]

theorem stepOut_idem (L : LayerSpec) (Ao a : LayerAttr c.nh) :
    (stepOut E c L Ao).2 ((stepOut E c L Ao).2 a) = (stepOut E c L Ao).2 a := by
  unfold stepOut
  split
  · split
    · split <;> rfl
    · rfl
  · split
    · rfl
    · split <;> rfl
    · split <;> rfl

theorem stepOut_congr {L : LayerSpec} (Ao Bo : LayerAttr c.nh) (h : L.iscopy = true → Ao = Bo) :
    stepOut E c L Ao = stepOut E c L Bo := by
  by_cases hc : L.iscopy = true
  · rw [h hc]
  · unfold stepOut; simp [hc]

/-- The attributes needed from the original of a copy are missing. -/
def LayerAttr.Missing {nh : ℕ} (a : LayerAttr nh) : Prop :=
  a.matrix = none ∨ a.pat = none ∨ a.Qeps = none

theorem stepOut_missing {L : LayerSpec} {Ao : LayerAttr c.nh} (hc : L.iscopy = true) (h : Ao.Missing) :
    stepOut E c L Ao = (.error .attributeError, id) := by
  unfold stepOut
  simp only [hc, if_true]
  rcases h with h | h | h
  · rw [h]
  · rw [h]; rcases Ao.matrix with _ | _ <;> rfl
  · rw [h]; rcases Ao.matrix with _ | _ <;> rcases Ao.pat with _ | _ <;> rfl

/-! ### The loop of `solve` -/

theorem solveAll_nil (d : Dyn c.nh) : solveAll E c [] d = (.ok (), d) := rfl

theorem solveAll_cons (r : ℕ) (rs : List ℕ) (d : Dyn c.nh) :
    solveAll E c (r :: rs) d = match solveLayer E c r d with
      | (.ok _, d') => solveAll E c rs d'
      | (.error e, d') => (.error e, d') := by
  rw [solveAll, PyM.bind_def]
  rcases solveLayer E c r d with ⟨_ | _, _⟩ <;> rfl

/-- Only the attributes of the listed layers change. -/
theorem solveAll_frame (rs : List ℕ) (d : Dyn c.nh) :
    ∃ A, (solveAll E c rs d).2 = { d with attrs := A } ∧ ∀ s, s ∉ rs → A s = d.attrs s := by
  induction rs generalizing d with
  | nil => exact ⟨d.attrs, rfl, fun _ _ => rfl⟩
  | cons r rs ih =>
    rw [solveAll_cons, solveLayer_eq]
    have h1 : ∀ f, ∀ s, s ∉ r :: rs → (d.setAttr r f).attrs s = d.attrs s := by
      intro f s hs
      exact setAttr_ne _ (fun h => hs (by simp [h])) _
    split <;> rename_i heq <;> simp only [Prod.mk.injEq] at heq
    · obtain ⟨_, rfl⟩ := heq
      obtain ⟨A, e, hA⟩ := ih (d.setAttr r (stepOut E c (d.mats r) (d.attrs (d.mats r).original)).2)
      refine ⟨A, e, fun s hs => ?_⟩
      rw [hA s (fun h => hs (by simp [h])), h1 _ s hs]
    · obtain ⟨_, rfl⟩ := heq
      exact ⟨_, rfl, h1 _⟩

/-- No copy of the list relies on stale attributes of an original that is solved later (or of itself). -/
def NoStale {nh : ℕ} (mats : ℕ → LayerSpec) (A : ℕ → LayerAttr nh) : List ℕ → Prop
  | [] => True
  | r :: rs => ((mats r).iscopy = true → (mats r).original ∈ r :: rs → (A (mats r).original).Missing) ∧
      NoStale mats A rs

theorem NoStale.congr {nh : ℕ} {mats : ℕ → LayerSpec} {A B : ℕ → LayerAttr nh} {rs : List ℕ}
    (h : NoStale mats A rs) (hAB : ∀ s ∈ rs, B s = A s) : NoStale mats B rs := by
  induction rs with
  | nil => trivial
  | cons r rs ih =>
    refine ⟨fun hc ho => ?_, ih h.2 (fun s hs => hAB s (by simp [hs]))⟩
    rw [hAB _ ho]; exact h.1 hc ho

/-- Solving again changes nothing. -/
theorem solveAll_idem (rs : List ℕ) (hnd : rs.Nodup) (d : Dyn c.nh) (h : NoStale d.mats d.attrs rs) :
    solveAll E c rs (solveAll E c rs d).2 = solveAll E c rs d := by
  induction rs generalizing d with
  | nil => rfl
  | cons r rs ih =>
    obtain ⟨hr, hnd'⟩ := List.nodup_cons.mp hnd
    obtain ⟨h1, h2⟩ := h
    rw [solveAll_cons r rs d, solveLayer_eq]
    set so := stepOut E c (d.mats r) (d.attrs (d.mats r).original) with hso
    set d1 := d.setAttr r so.2 with hd1
    have hd1m : d1.mats = d.mats := rfl
    -- the original of a copy is not solved later, or the step fails at once
    rcases hres : so.1 with e | u
    · dsimp only
      rw [solveAll_cons, solveLayer_eq]
      have heq : stepOut E c (d1.mats r) (d1.attrs (d1.mats r).original) = so := by
        rw [hso, hd1m]
        by_cases hc : (d.mats r).iscopy = true
        · by_cases ho : (d.mats r).original = r
          · have hmiss := h1 hc (by simp [ho])
            have e0 : so = (.error .attributeError, id) := stepOut_missing hc hmiss
            rw [stepOut_missing hc hmiss, stepOut_missing hc]
            rw [hd1, e0, ho, setAttr_same]
            rw [ho] at hmiss
            exact hmiss
          · rw [hd1, setAttr_ne _ ho]
        · exact stepOut_congr _ _ (fun h => absurd h hc)
      rw [heq, hres]
      dsimp only
      congr 1
      rw [hd1, setAttr_setAttr]
      congr 1
      funext a
      exact stepOut_idem _ _ _
    · dsimp only
      have hno : (d.mats r).iscopy = true → (d.mats r).original ∉ r :: rs := by
        intro hc ho
        have := h1 hc ho
        rw [hso, stepOut_missing hc this] at hres
        simp at hres
      obtain ⟨A, eA, hA⟩ := solveAll_frame (E := E) rs d1
      have hns : NoStale d1.mats d1.attrs rs := by
        refine NoStale.congr h2 fun s hs => ?_
        exact setAttr_ne _ (by rintro rfl; exact hr hs) _
      have IH := ih hnd' d1 hns
      rw [solveAll_cons, solveLayer_eq]
      set d2 := (solveAll E c rs d1).2 with hd2
      have hm2 : d2.mats = d.mats := by rw [eA]; rfl
      have heq : stepOut E c (d2.mats r) (d2.attrs (d2.mats r).original) = so := by
        rw [hso, hm2]
        refine stepOut_congr _ _ fun hc => ?_
        have ho := hno hc
        rw [eA]
        dsimp only
        rw [hA _ (fun h => ho (by simp [h])), hd1, setAttr_ne _ (fun h => ho (by simp [h]))]
      rw [heq, hres]
      dsimp only
      have hid : d2.setAttr r so.2 = d2 := by
        apply setAttr_id
        rw [eA]
        dsimp only
        rw [hA r hr, hd1, setAttr_same]
        exact stepOut_idem _ _ _
      rw [hid, IH]

end Nannos
