import Verif.Model.Blocks
import Verif.Proofs.SMatrix
import Mathlib.Data.List.OfFn

/-! Lemmas on block arrays. -/

set_option linter.unusedSimpArgs false

namespace Nannos

open Matrix

/-- The list of rows of a matrix. -/
def Spec.rows {r c : ℕ} (A : Matrix (Fin r) (Fin c) ℂ) : Arr2 :=
  List.ofFn fun i => List.ofFn fun j => A i j

open Spec

/-- `A` is an array of shape `(r, c)`. -/
def Spec.HasShape (A : Arr2) (r c : ℕ) : Prop := A.length = r ∧ ∀ row ∈ A, row.length = c

theorem rows_shape {r c : ℕ} (A : Matrix (Fin r) (Fin c) ℂ) : HasShape (rows A) r c := by
  refine ⟨by simp [rows], ?_⟩
  intro row h
  simp [rows, List.mem_ofFn] at h
  obtain ⟨i, rfl⟩ := h
  simp

theorem exists_rows {A : Arr2} {r c : ℕ} (h : HasShape A r c) :
    ∃ M : Matrix (Fin r) (Fin c) ℂ, A = rows M := by
  obtain ⟨h1, h2⟩ := h
  have hl : ∀ i : Fin r, (A[i.val]'(by rw [h1]; exact i.2)).length = c := fun i => h2 _ (List.getElem_mem _)
  refine ⟨fun i j => (A[i.val]'(by rw [h1]; exact i.2))[j.val]'(by rw [hl i]; exact j.2), ?_⟩
  apply List.ext_getElem
  · simp [rows, h1]
  · intro i h3 h4
    apply List.ext_getElem
    · simp [rows, h2 _ (List.getElem_mem _)]
    · intro j h5 h6
      simp [rows]

theorem rows_inj {r c : ℕ} {A B : Matrix (Fin r) (Fin c) ℂ} (h : rows A = rows B) : A = B := by
  have := List.ofFn_injective h
  ext i j
  have h2 := congrFun this i
  exact congrFun (List.ofFn_injective h2) j

theorem map2_rows {r c : ℕ} (f : ℂ → ℂ → ℂ) (A B : Matrix (Fin r) (Fin c) ℂ) :
    map2 f (rows A) (rows B) = rows (Matrix.of fun i j => f (A i j) (B i j)) := by
  apply List.ext_getElem
  · simp [map2, rows]
  · intro i h1 h2
    apply List.ext_getElem
    · simp [map2, rows]
    · intro j h3 h4
      simp [map2, rows]

theorem neg2_rows {r c : ℕ} (A : Matrix (Fin r) (Fin c) ℂ) : neg2 (rows A) = rows (-A) := by
  apply List.ext_getElem
  · simp [neg2, rows]
  · intro i h1 h2
    apply List.ext_getElem
    · simp [neg2, rows]
    · intro j h3 h4
      simp [neg2, rows]

/-- `block` of four `n × n` arrays is the list of rows of the block matrix. -/
theorem blockL_rows {n : ℕ} (A B C D : Matrix (Fin n) (Fin n) ℂ) :
    blockL (rows A) (rows B) (rows C) (rows D) =
      .ok (rows (reindex finSumFinEquiv finSumFinEquiv (fromBlocks A B C D))) := by
  have h1 : ∀ X Y : Matrix (Fin n) (Fin n) ℂ, hstack2 (rows X) (rows Y) =
      .ok (List.zipWith (· ++ ·) (rows X) (rows Y)) := by
    intro X Y; simp [hstack2, rows]
  unfold blockL
  rw [h1, h1]
  simp only [except_bind_ok]
  unfold vstack2
  rw [if_pos]
  · congr 1
    apply List.ext_getElem
    · simp [rows]
    · intro i h2 h3
      have hi : i < n + n := by simpa [rows] using h3
      apply List.ext_getElem
      · simp only [rows, List.getElem_ofFn, List.length_ofFn, List.getElem_append]
        split <;> simp
      · intro j h4 h5
        have hj : j < n + n := by simpa [rows] using h5
        simp only [rows, List.getElem_ofFn, List.getElem_append, List.length_zipWith, List.length_ofFn,
          min_self, List.getElem_zipWith, reindex_apply, submatrix_apply]
        by_cases hi2 : i < n <;> by_cases hj2 : j < n
        · have ei : finSumFinEquiv.symm ⟨i, hi⟩ = Sum.inl (⟨i, hi2⟩ : Fin n) := by
            rw [Equiv.symm_apply_eq]; rfl
          have ej : finSumFinEquiv.symm ⟨j, hj⟩ = Sum.inl (⟨j, hj2⟩ : Fin n) := by
            rw [Equiv.symm_apply_eq]; rfl
          simp [hi2, hj2, ei, ej, List.getElem_append]
        · have ei : finSumFinEquiv.symm ⟨i, hi⟩ = Sum.inl (⟨i, hi2⟩ : Fin n) := by
            rw [Equiv.symm_apply_eq]; rfl
          have ej : finSumFinEquiv.symm ⟨j, hj⟩ = Sum.inr (⟨j - n, by omega⟩ : Fin n) := by
            rw [Equiv.symm_apply_eq]; apply Fin.ext; simp; omega
          simp [hi2, hj2, ei, ej, List.getElem_append]
        · have ei : finSumFinEquiv.symm ⟨i, hi⟩ = Sum.inr (⟨i - n, by omega⟩ : Fin n) := by
            rw [Equiv.symm_apply_eq]; apply Fin.ext; simp; omega
          have ej : finSumFinEquiv.symm ⟨j, hj⟩ = Sum.inl (⟨j, hj2⟩ : Fin n) := by
            rw [Equiv.symm_apply_eq]; rfl
          simp [hi2, hj2, ei, ej, List.getElem_append]
        · have ei : finSumFinEquiv.symm ⟨i, hi⟩ = Sum.inr (⟨i - n, by omega⟩ : Fin n) := by
            rw [Equiv.symm_apply_eq]; apply Fin.ext; simp; omega
          have ej : finSumFinEquiv.symm ⟨j, hj⟩ = Sum.inr (⟨j - n, by omega⟩ : Fin n) := by
            rw [Equiv.symm_apply_eq]; apply Fin.ext; simp; omega
          simp [hi2, hj2, ei, ej, List.getElem_append]
  · intro r hr r' hr'
    have key : ∀ (X Y : Matrix (Fin n) (Fin n) ℂ) (r : List ℂ),
        r ∈ List.zipWith (· ++ ·) (rows X) (rows Y) → r.length = n + n := by
      intro X Y r hr
      obtain ⟨i, hi, rfl⟩ := List.getElem_of_mem hr
      simp [rows]
    rw [key _ _ r hr, key _ _ r' hr']

theorem getBlock_rows {n : ℕ} (M : Matrix (Fin n ⊕ Fin n) (Fin n ⊕ Fin n) ℂ) :
    getBlock (rows (reindex finSumFinEquiv finSumFinEquiv M)) 0 0 n = rows M.toBlocks₁₁ ∧
    getBlock (rows (reindex finSumFinEquiv finSumFinEquiv M)) 0 1 n = rows M.toBlocks₁₂ ∧
    getBlock (rows (reindex finSumFinEquiv finSumFinEquiv M)) 1 0 n = rows M.toBlocks₂₁ ∧
    getBlock (rows (reindex finSumFinEquiv finSumFinEquiv M)) 1 1 n = rows M.toBlocks₂₂ := by
  have einl : ∀ (i : ℕ) (hi : i < n) (h : i < n + n), finSumFinEquiv.symm ⟨i, h⟩ = Sum.inl (⟨i, hi⟩ : Fin n) := by
    intro i hi h; rw [Equiv.symm_apply_eq]; rfl
  have einr : ∀ (i : ℕ) (hi : i < n) (h : n + i < n + n),
      finSumFinEquiv.symm ⟨n + i, h⟩ = Sum.inr (⟨i, hi⟩ : Fin n) := by
    intro i hi h; rw [Equiv.symm_apply_eq]; rfl
  refine ⟨?_, ?_, ?_, ?_⟩
  all_goals
    apply List.ext_getElem
    · simp [getBlock, slice, rows] <;> omega
    · intro i h1 h2
      have hi : i < n := by simpa [rows] using h2
      apply List.ext_getElem
      · simp [getBlock, slice, rows] <;> omega
      · intro j h3 h4
        have hj : j < n := by simpa [rows] using h4
        simp [getBlock, slice, rows, einl, einr, hi, hj, toBlocks₁₁, toBlocks₁₂, toBlocks₂₁, toBlocks₂₂]

end Nannos
