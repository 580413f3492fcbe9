import Verif.Proofs.Parallel

/-!
C47: `parloop` preserves the order of the list.
-/

namespace Nannos

universe u v w

variable {α : Type u} {β : Type v} {γ : Type w}

/-- **C47.**  For every function, list, number of jobs and completion order of the workers, the decorated
function returns the list of the values of the function on the elements of the list, in the order of the list, if
all of them succeed; otherwise it raises an exception that one of the calls raised. -/
theorem C47_parloop (nJobs : Int) (hn : nJobs ≠ 0) (func : α → List β → Except PyErr γ) (xs : List α) (other : List β)
    (sched : List Nat) (hs : Complete sched xs.length) :
    (∀ g : α → γ, (∀ x ∈ xs, func x other = .ok (g x)) →
      parloop nJobs func sched (some (xs, other)) = .ok (xs.map g)) ∧
    (∀ rs, parloop nJobs func sched (some (xs, other)) = .ok rs →
      List.Forall₂ (fun x r => func x other = .ok r) xs rs) ∧
    (∀ e, parloop nJobs func sched (some (xs, other)) = .error e → ∃ x ∈ xs, func x other = .error e) := by
  have h := joblib_spec (tasks := xs.map fun x _ => func x other) hn (sched := sched) (by simpa using hs)
  change (∃ rs, parloop nJobs func sched (some (xs, other)) = .ok rs ∧ _) ∨
    (∃ t ∈ _, ∃ e, _ ∧ parloop nJobs func sched (some (xs, other)) = .error e) at h
  rcases h with ⟨rs, h1, h2⟩ | ⟨t, ht, e, h1, h2⟩
  · rw [List.forall₂_map_left_iff] at h2
    refine ⟨fun g hg => ?_, fun rs' h => ?_, fun e h => ?_⟩
    · rw [h1]
      congr 1
      clear h1 hs
      induction h2 with
      | nil => rfl
      | @cons x r xs rs h _ ih =>
        rw [List.map_cons, ih fun x hx => hg x (by simp [hx])]
        rw [hg x (by simp)] at h
        rw [Except.ok.inj h]
    · rw [h1] at h
      cases h
      exact h2
    · rw [h1] at h
      cases h
  · obtain ⟨x, hx, rfl⟩ := List.mem_map.1 ht
    refine ⟨fun g hg => ?_, fun rs' h => ?_, fun e' h => ?_⟩
    · rw [hg x hx] at h1
      cases h1
    · rw [h2] at h
      cases h
    · rw [h2] at h
      cases h
      exact ⟨x, hx, h1⟩

/-- **C47.**  When every call succeeds the result depends neither on the number of jobs nor on the completion
order. -/
theorem C47_same_for_every_schedule (n₁ n₂ : Int) (h₁ : n₁ ≠ 0) (h₂ : n₂ ≠ 0) (func : α → List β → Except PyErr γ)
    (xs : List α) (other : List β) (s₁ s₂ : List Nat) (c₁ : Complete s₁ xs.length) (c₂ : Complete s₂ xs.length)
    (hok : ∀ x ∈ xs, ∃ r, func x other = .ok r) :
    parloop n₁ func s₁ (some (xs, other)) = parloop n₂ func s₂ (some (xs, other)) := by
  obtain ⟨-, a1, a2⟩ := C47_parloop n₁ h₁ func xs other s₁ c₁
  obtain ⟨-, b1, b2⟩ := C47_parloop n₂ h₂ func xs other s₂ c₂
  have no : ∀ e, ¬ ∃ x ∈ xs, func x other = .error e := by
    rintro e ⟨x, hx, h⟩
    obtain ⟨r, hr⟩ := hok x hx
    rw [hr] at h
    cases h
  cases hp : parloop n₁ func s₁ (some (xs, other)) with
  | error e => exact absurd (a2 e hp) (no e)
  | ok r₁ =>
    cases hq : parloop n₂ func s₂ (some (xs, other)) with
    | error e => exact absurd (b2 e hq) (no e)
    | ok r₂ =>
      have h1 := a1 _ hp
      have h2 := b1 _ hq
      congr 1
      clear a1 a2 b1 b2 no hp hq c₁ c₂ hok
      induction h1 generalizing r₂ with
      | nil => cases h2; rfl
      | cons h _ ih =>
        cases h2 with
        | cons h' h2 =>
          rw [ih _ h2]
          rw [h] at h'
          rw [Except.ok.inj h']

/-- A missing list and `n_jobs=0` raise. -/
theorem C47_bad_calls (nJobs : Int) (func : α → List β → Except PyErr γ) (sched : List Nat) (xs : List α)
    (other : List β) : parloop nJobs func sched none = .error .indexError ∧
      parloop 0 func sched (some (xs, other)) = .error .valueError := ⟨rfl, rfl⟩

/-- Three tasks completing in the order 2, 0, 1. -/
example : parloop 4 (fun x (o : List Nat) => .ok (x * x + o.sum)) [2, 0, 1] (some ([3, 1, 2], [10])) =
    .ok [19, 11, 14] := rfl

example : Complete [2, 0, 1] [3, 1, 2].length := by
  intro i
  simp
  omega

end Nannos
