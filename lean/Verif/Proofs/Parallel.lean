import Verif.Model.Parallel
import Mathlib.Data.List.FinRange
import Mathlib.Data.List.Forall2
import Mathlib.Tactic.Set

/-! Helper lemmas about `joblib.Parallel`. -/

namespace Nannos

universe u v

/-- A completion order of `n` tasks: every task completes, nothing else does. -/
def Complete (sched : List Nat) (n : Nat) : Prop := ∀ i, i ∈ sched ↔ i < n

theorem complete_range (n : Nat) : Complete (List.range n) n := fun i => by simp

theorem mapM_ok {α : Type v} {β : Type u} {f : α → Except PyErr β} {g : α → β} :
    ∀ {l : List α}, (∀ a ∈ l, f a = .ok (g a)) → l.mapM f = .ok (l.map g)
  | [], _ => rfl
  | a :: l, h => by
    rw [List.mapM_cons, h a (by simp), mapM_ok fun b hb => h b (by simp [hb])]
    rfl

variable {α : Type u} {task : Nat → Except PyErr α}

/-- Either every task of the schedule succeeded and its result is at its place, or the error of a task is raised. -/
theorem runTasks_spec : ∀ (sched : List Nat) (slots : Nat → Option α),
    (∃ s, runTasks task sched slots = .ok s ∧ (∀ i ∈ sched, ∃ a, task i = .ok a ∧ s i = some a) ∧
      ∀ i, i ∉ sched → s i = slots i) ∨
    (∃ i ∈ sched, ∃ e, task i = .error e ∧ runTasks task sched slots = .error e)
  | [], slots => .inl ⟨slots, rfl, by simp, fun _ _ => rfl⟩
  | i :: r, slots => by
    unfold runTasks
    cases hi : task i with
    | error e => exact .inr ⟨i, by simp, e, hi, rfl⟩
    | ok a =>
      dsimp only
      rcases runTasks_spec r (fun j => if j = i then some a else slots j) with ⟨s, h1, h2, h3⟩ | ⟨j, hj, e, h1, h2⟩
      · refine .inl ⟨s, h1, fun j hj => ?_, fun j hj => ?_⟩
        · by_cases hjr : j ∈ r
          · exact h2 j hjr
          · have : j = i := by simpa [hjr] using hj
            subst this
            exact ⟨a, hi, by rw [h3 j hjr]; simp⟩
        · simp only [List.mem_cons, not_or] at hj
          rw [h3 j hj.2]
          simp [hj.1]
      · exact .inr ⟨j, by simp [hj], e, h1, h2⟩

theorem joblib_spec {tasks : List (Unit → Except PyErr α)} {nJobs : Int} {sched : List Nat} (hn : nJobs ≠ 0)
    (hs : Complete sched tasks.length) :
    (∃ rs, joblibParallel nJobs sched tasks = .ok rs ∧ List.Forall₂ (fun t r => t () = .ok r) tasks rs) ∨
    (∃ t ∈ tasks, ∃ e, t () = .error e ∧ joblibParallel nJobs sched tasks = .error e) := by
  set task : Nat → Except PyErr α := fun i => match tasks[i]? with
      | some t => t ()
      | none => .error .indexError with htask
  set sc := (if nJobs = 1 then List.range tasks.length else sched) with hsc
  have hc : Complete sc tasks.length := by
    rw [hsc]
    split
    · exact complete_range _
    · exact hs
  have hj : joblibParallel nJobs sched tasks = match runTasks task sc (fun _ => none) with
    | .ok slots => collect slots tasks.length
    | .error e => .error e := by
    unfold joblibParallel
    rw [if_neg hn]
    rfl
  have ht : ∀ i (h : i < tasks.length), task i = tasks[i] () := by
    intro i h
    rw [htask]
    simp [List.getElem?_eq_getElem h]
  rw [hj]
  rcases runTasks_spec (task := task) sc (fun _ => none) with ⟨s, h1, h2, -⟩ | ⟨i, hi, e, h1, h2⟩
  · left
    rw [h1]
    have hex : ∀ i, i < tasks.length → ∃ a, task i = .ok a ∧ s i = some a := fun i hi => h2 i ((hc i).2 hi)
    obtain ⟨val, hval⟩ : ∃ val : Fin tasks.length → α, ∀ i : Fin tasks.length, task i = .ok (val i) ∧ s i = some (val i) :=
      ⟨fun i => (hex i i.2).choose, fun i => (hex i i.2).choose_spec⟩
    refine ⟨List.ofFn val, ?_, ?_⟩
    · unfold collect
      dsimp only
      rw [List.ofFn_eq_map, ← List.map_coe_finRange_eq_range, List.mapM_map]
      refine mapM_ok fun i _ => ?_
      dsimp only [Function.comp]
      rw [(hval i).2]
    · rw [List.forall₂_iff_get]
      refine ⟨by simp, fun i h3 h4 => ?_⟩
      have := (ht i h3).symm.trans (hval ⟨i, h3⟩).1
      simpa using this
  · right
    have hi' := (hc i).1 hi
    refine ⟨tasks[i], List.getElem_mem hi', e, by rw [← ht i hi']; exact h1, ?_⟩
    rw [h2]

end Nannos
