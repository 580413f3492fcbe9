import Verif.Model.Lattice
import Verif.Spec.Sort
import Verif.Proofs.SMatrix
import Mathlib.Tactic.LinearCombination
import Mathlib.Tactic.FieldSimp
import Mathlib.Tactic.Positivity
import Mathlib.Tactic.Linarith
import Mathlib.Analysis.Real.Pi.Bounds

/-! Helper lemmas for lattices and truncations (C03-C09). -/

set_option linter.unusedSimpArgs false

namespace Nannos

open Matrix Spec

/-! ### gather -/

theorem gather_range {α : Type _} (l : List α) : gather l (List.range l.length) = l := by
  unfold gather
  induction l using List.reverseRecOn with
  | nil => simp
  | append_singleton l a ih =>
    rw [List.length_append, List.length_singleton, List.range_succ, List.filterMap_append]
    have : List.filterMap (fun x => (l ++ [a])[x]?) (List.range l.length) =
        List.filterMap (fun x => l[x]?) (List.range l.length) := by
      apply List.filterMap_congr
      intro x hx
      rw [List.mem_range] at hx
      rw [List.getElem?_append_left hx]
    rw [this, ih]
    simp

theorem gather_perm {α : Type _} (l : List α) {p : List ℕ} (h : p.Perm (List.range l.length)) :
    (gather l p).Perm l := by
  have := h.filterMap (l[·]?)
  rw [show List.filterMap (fun x => l[x]?) (List.range l.length) = l from gather_range l] at this
  exact this

theorem gather_map {α β : Type _} (l : List α) (p : List ℕ) (f : α → β) :
    gather (l.map f) p = (gather l p).map f := by
  unfold gather
  rw [List.map_filterMap]
  apply List.filterMap_congr
  intro x _
  rw [List.getElem?_map]

theorem argsort_gather_sorted {α : Type _} (l : List α) (f : α → ℝ) {p : List ℕ}
    (h : IsArgsort (l.map f) p) : (gather l p).Pairwise fun x y => f x ≤ f y := by
  have hs := h.sorted
  unfold gather
  rw [List.pairwise_filterMap]
  refine hs.imp ?_
  intro i j hij x hx y hy
  simp only [List.getD_eq_getElem?_getD, List.getElem?_map] at hij
  rw [hx, hy] at hij
  simpa using hij

theorem argsort_gather_perm {α : Type _} (l : List α) (f : α → ℝ) {p : List ℕ}
    (h : IsArgsort (l.map f) p) : (gather l p).Perm l :=
  gather_perm l (by simpa using h.perm)

/-! ### Python ranges of integers -/

theorem mem_pyRange {a b x : ℤ} : x ∈ pyRange a b ↔ a ≤ x ∧ x < b := by
  unfold pyRange
  simp only [List.mem_map, List.mem_range, Int.ofNat_eq_natCast]
  constructor
  · rintro ⟨k, hk, rfl⟩; omega
  · rintro ⟨h1, h2⟩; exact ⟨(x - a).toNat, by omega, by omega⟩

theorem pyRange_nodup (a b : ℤ) : (pyRange a b).Nodup := by
  unfold pyRange
  refine List.Nodup.map ?_ List.nodup_range
  intro x y h
  simp only [Int.ofNat_eq_natCast] at h
  omega

theorem pyRange_length (a b : ℤ) : (pyRange a b).length = (b - a).toNat := by
  simp [pyRange]

theorem mem_meshFlat {xs ys : List ℤ} {g : ℤ × ℤ} :
    g ∈ meshFlat xs ys ↔ g.1 ∈ xs ∧ g.2 ∈ ys := by
  unfold meshFlat
  simp only [List.mem_flatMap, List.mem_map]
  constructor
  · rintro ⟨x, hx, y, hy, rfl⟩; exact ⟨hx, hy⟩
  · rintro ⟨h1, h2⟩; exact ⟨g.1, h1, g.2, h2, rfl⟩

theorem meshFlat_nodup {xs ys : List ℤ} (hx : xs.Nodup) (hy : ys.Nodup) : (meshFlat xs ys).Nodup := by
  unfold meshFlat
  rw [List.nodup_flatMap]
  refine ⟨fun x _ => hy.map (by intro a b h; simpa using h), ?_⟩
  refine hx.imp ?_
  intro a b hab
  simp only [Function.onFun]
  intro g h1 h2
  simp only [List.mem_map] at h1 h2
  obtain ⟨y, _, rfl⟩ := h1
  obtain ⟨y', _, h⟩ := h2
  simp at h
  exact hab h.1.symm

theorem meshFlat_length (xs ys : List ℤ) : (meshFlat xs ys).length = xs.length * ys.length := by
  unfold meshFlat
  rw [List.length_flatMap]
  simp

/-! ### downTo -/

theorem downTo_le (cond : ℕ → Prop) [DecidablePred cond] (n : ℕ) : downTo cond n ≤ n := by
  induction n with
  | zero => simp [downTo]
  | succ n ih => simp only [downTo]; split <;> omega

theorem downTo_spec (cond : ℕ → Prop) [DecidablePred cond] (n : ℕ) :
    downTo cond n = 0 ∨ cond (downTo cond n) := by
  induction n with
  | zero => simp [downTo]
  | succ n ih =>
    simp only [downTo]
    split
    · right; assumption
    · exact ih

theorem downTo_max (cond : ℕ → Prop) [DecidablePred cond] (n j : ℕ) (h1 : j ≤ n) (hj : cond j) :
    j ≤ downTo cond n := by
  induction n with
  | zero => omega
  | succ n ih =>
    simp only [downTo]
    split
    · omega
    · rename_i hc
      rcases Nat.lt_or_ge n j with h | h
      · obtain rfl : j = n + 1 := by omega
        exact absurd hj hc
      · exact ih h

/-! ### Sorted lists split at a gap -/

theorem sorted_split {α : Type _} (H : List α) (f : α → ℝ) (hs : H.Pairwise fun x y => f x ≤ f y)
    (i : ℕ) (hi : 0 < i) (tol : ℝ) (hgap : ∀ a b, H[i - 1]? = some a → H[i]? = some b → tol < f b - f a)
    {x y : α} (hx : x ∈ H.take i) (hy : y ∈ H.drop i) : tol < f y - f x := by
  rw [List.mem_iff_getElem?] at hx hy
  obtain ⟨k, hk⟩ := hx
  obtain ⟨l, hl⟩ := hy
  rw [List.getElem?_take] at hk
  rw [List.getElem?_drop] at hl
  split at hk
  · rename_i hki
    have hlen : i + l < H.length := (List.getElem?_eq_some_iff.mp hl).1
    rw [List.pairwise_iff_getElem] at hs
    obtain ⟨h1, rfl⟩ := List.getElem?_eq_some_iff.mp hk
    obtain ⟨h2, rfl⟩ := List.getElem?_eq_some_iff.mp hl
    have g := hgap H[i - 1] H[i] (List.getElem?_eq_getElem (by omega)) (List.getElem?_eq_getElem (by omega))
    have e1 : f H[k] ≤ f H[i - 1] := by
      rcases Nat.lt_or_ge k (i - 1) with h | h
      · exact hs k (i - 1) h1 (by omega) h
      · have : k = i - 1 := by omega
        subst this; exact le_rfl
    have e2 : f H[i] ≤ f H[i + l] := by
      rcases Nat.eq_zero_or_pos l with h | h
      · subst h; exact le_rfl
      · exact hs i (i + l) (by omega) h2 (by omega)
    linarith
  · simp at hk

theorem filter_split {α : Type _} (P : α → Bool) (H : List α)
    (h : H.Pairwise fun x y => P y = true → P x = true) :
    H = H.filter P ++ H.filter (fun x => !P x) := by
  induction H with
  | nil => simp
  | cons a t ih =>
    rw [List.pairwise_cons] at h
    by_cases ha : P a = true
    · simp only [List.filter_cons, ha]
      simp only [if_true, Bool.not_true, Bool.false_eq_true, if_false, List.cons_append]
      rw [← ih h.2]
    · have : ∀ y ∈ t, P y = false := by
        intro y hy
        by_contra hc
        exact ha (h.1 y hy (by simpa using hc))
      have e1 : t.filter P = [] := by
        rw [List.filter_eq_nil_iff]; intro y hy; simp [this y hy]
      have e2 : t.filter (fun x => !P x) = t := by
        rw [List.filter_eq_self]; intro y hy; simp [this y hy]
      simp only [List.filter_cons, ha, e1, e2]
      simp

/-- A separated subset of a sorted list is one of its prefixes. -/
theorem separated_is_prefix {α : Type _} (P : α → Bool) (H : List α) (f : α → ℝ) (tol : ℝ)
    (htol : 0 ≤ tol) (hs : H.Pairwise fun x y => f x ≤ f y)
    (hsep : ∀ x ∈ H, ∀ y ∈ H, P x = true → P y = false → tol < f y - f x) :
    H = H.filter P ++ H.filter (fun x => !P x) := by
  apply filter_split
  refine List.Pairwise.imp_of_mem ?_ hs
  intro x y hx hy hxy hP
  by_contra hc
  have := hsep y hy x hx hP (by simpa using hc)
  linarith

end Nannos
