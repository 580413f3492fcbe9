import Verif.Proofs.Blocks

/-! Properties C16-C18: block arrays. -/

namespace Nannos

open Matrix Spec

/-- **C16**. `block2list` undoes `block` on four `n × n` arrays, and `block` undoes `block2list` on a
`2n × 2n` array. -/
theorem C16_block_and_split_are_inverse (n : ℕ) :
    (∀ A B C D : Arr2, HasShape A n n → HasShape B n n → HasShape C n n → HasShape D n n →
      ∃ M, blockL A B C D = .ok M ∧ HasShape M (n + n) (n + n) ∧ block2list M n = (A, B, C, D)) ∧
    (∀ M : Arr2, HasShape M (n + n) (n + n) →
      let b := block2list M n
      HasShape b.1 n n ∧ HasShape b.2.1 n n ∧ HasShape b.2.2.1 n n ∧ HasShape b.2.2.2 n n ∧
      blockL b.1 b.2.1 b.2.2.1 b.2.2.2 = .ok M) := by
  constructor
  · intro A B C D hA hB hC hD
    obtain ⟨A, rfl⟩ := exists_rows hA
    obtain ⟨B, rfl⟩ := exists_rows hB
    obtain ⟨C, rfl⟩ := exists_rows hC
    obtain ⟨D, rfl⟩ := exists_rows hD
    refine ⟨_, blockL_rows A B C D, rows_shape _, ?_⟩
    obtain ⟨h1, h2, h3, h4⟩ := getBlock_rows (fromBlocks A B C D)
    unfold block2list
    rw [h1, h2, h3, h4]
    simp
  · intro M hM
    obtain ⟨M, rfl⟩ := exists_rows hM
    obtain ⟨M, rfl⟩ := (reindex finSumFinEquiv finSumFinEquiv).surjective M
    obtain ⟨h1, h2, h3, h4⟩ := getBlock_rows M
    unfold block2list
    rw [h1, h2, h3, h4]
    refine ⟨rows_shape _, rows_shape _, rows_shape _, rows_shape _, ?_⟩
    simp only
    rw [blockL_rows, fromBlocks_toBlocks]

/-- The convention of the rest of the model: a `2n × 2n` array built by `block` is the block matrix over
`Fin n ⊕ Fin n`, and `get_block` extracts its blocks. -/
theorem C16_block_is_fromBlocks {n : ℕ} (A B C D : Matrix (Fin n) (Fin n) ℂ) :
    ∃ M, blockL (rows A) (rows B) (rows C) (rows D) = .ok M ∧
      M = rows (reindex finSumFinEquiv finSumFinEquiv (fromBlocks A B C D)) ∧
      getBlock M 0 0 n = rows A ∧ getBlock M 0 1 n = rows B ∧
      getBlock M 1 0 n = rows C ∧ getBlock M 1 1 n = rows D := by
  obtain ⟨h1, h2, h3, h4⟩ := getBlock_rows (fromBlocks A B C D)
  refine ⟨_, blockL_rows A B C D, rfl, ?_, ?_, ?_, ?_⟩
  · rw [h1]; simp
  · rw [h2]; simp
  · rw [h3]; simp
  · rw [h4]; simp

/-- **C16**. `block` accepts four arrays exactly when they fit together: blocks side by side have as many rows, and the two
halves as many columns. Otherwise it raises `ValueError`. -/
theorem C16_block_shapes {A B C D : Arr2} {rA cA rB cB rC cC rD cD : ℕ} (hA : HasShape A rA cA) (hB : HasShape B rB cB)
    (hC : HasShape C rC cC) (hD : HasShape D rD cD) (hpos : 0 < rA ∧ 0 < rC) :
    (rA = rB ∧ rC = rD ∧ cA + cB = cC + cD → ∃ M, blockL A B C D = .ok M ∧ HasShape M (rA + rC) (cA + cB)) ∧
    (¬ (rA = rB ∧ rC = rD ∧ cA + cB = cC + cD) → blockL A B C D = .error .valueError) := by
  have hz : ∀ {X Y : Arr2} {r c c' : ℕ}, HasShape X r c → HasShape Y r c' →
      HasShape (List.zipWith (· ++ ·) X Y) r (c + c') := by
    intro X Y r c c' hX hY
    refine ⟨by simp [hX.1, hY.1], fun row hrow => ?_⟩
    obtain ⟨i, hi, rfl⟩ := List.getElem_of_mem hrow
    rw [List.getElem_zipWith, List.length_append, hX.2 _ (List.getElem_mem _), hY.2 _ (List.getElem_mem _)]
  unfold blockL hstack2
  rw [hA.1, hB.1, hC.1, hD.1]
  by_cases h1 : rA = rB
  · subst h1
    by_cases h2 : rC = rD
    · subst h2
      have l1 := hz hA hB
      have l2 := hz hC hD
      rw [if_pos rfl, if_pos rfl, except_bind_ok, except_bind_ok]
      unfold vstack2
      constructor
      · rintro ⟨-, -, h⟩
        rw [if_pos fun r hr r' hr' => by rw [l1.2 r hr, l2.2 r' hr', h]]
        refine ⟨_, rfl, by rw [List.length_append, l1.1, l2.1], fun r hr => ?_⟩
        rcases List.mem_append.mp hr with hr | hr
        · exact l1.2 r hr
        · rw [h]; exact l2.2 r hr
      · intro h
        refine if_neg fun hall => h ⟨rfl, rfl, ?_⟩
        obtain ⟨x, hx⟩ := List.exists_mem_of_length_pos (by rw [l1.1]; exact hpos.1)
        obtain ⟨y, hy⟩ := List.exists_mem_of_length_pos (by rw [l2.1]; exact hpos.2)
        rw [← l1.2 x hx, ← l2.2 y hy]
        exact hall x hx y hy
    · rw [if_pos rfl, if_neg h2]
      exact ⟨fun h => absurd h.2.1 h2, fun _ => rfl⟩
  · rw [if_neg h1]
    exact ⟨fun h => absurd h.1 h1, fun _ => rfl⟩

example : blockL [[1, 2]] [[3]] [[4], [5]] [[6, 7], [8, 9]] = .ok [[1, 2, 3], [4, 6, 7], [5, 8, 9]] := by
  simp [blockL, hstack2, vstack2, except_bind_ok]

example : blockL [[1, 2]] [[3], [4]] [[5]] [[6, 7]] = .error .valueError := by
  simp [blockL, hstack2]

/-- C16 on a concrete array of shape `(2, 2)` split in blocks of size 1. -/
example : block2list [[1, 2], [3, 4]] 1 = ([[1]], [[2]], [[3]], [[4]]) := rfl

/-- The `N × N` array with all entries equal to `v`. -/
def Spec.full (N : ℕ) (v : ℂ) : Arr2 := List.replicate N (List.replicate N v)

theorem rows_const (N : ℕ) (v : ℂ) : rows (Matrix.of fun (_ _ : Fin N) => v) = full N v := by
  simp [rows, full, List.ofFn_const]

/-- **C17**. `inv2by2block` is the pointwise inverse: it succeeds exactly when no pointwise determinant
vanishes, and its product with `T` by `blockmatmul`, on either side, has all-ones diagonal blocks and
all-zeros off-diagonal blocks. -/
theorem C17_pointwise_inverse (N : ℕ) (T : Arr2) (hT : HasShape T (N + N) (N + N)) :
    ((∃ X, inv2by2block T N = .ok X) ↔ ∃ a b c d : Matrix (Fin N) (Fin N) ℂ,
      block2list T N = (rows a, rows b, rows c, rows d) ∧ ∀ i j, a i j * d i j - b i j * c i j ≠ 0) ∧
    (∀ X, inv2by2block T N = .ok X → ∃ E, blockmatmul X T N = .ok E ∧ blockmatmul T X N = .ok E ∧
      block2list E N = (full N 1, full N 0, full N 0, full N 1)) := by
  obtain ⟨M, rfl⟩ := exists_rows hT
  obtain ⟨M, rfl⟩ := (reindex finSumFinEquiv finSumFinEquiv).surjective M
  obtain ⟨h1, h2, h3, h4⟩ := getBlock_rows M
  set a := M.toBlocks₁₁ with ha
  set b := M.toBlocks₁₂ with hb
  set c := M.toBlocks₂₁ with hc
  set d := M.toBlocks₂₂ with hd
  set det : Matrix (Fin N) (Fin N) ℂ := Matrix.of fun i j => a i j * d i j - c i j * b i j with hdet
  have hinv : inv2by2block (rows (reindex finSumFinEquiv finSumFinEquiv M)) N =
      open Classical in
      if ∃ row ∈ rows det, (0 : ℂ) ∈ row then .error .nonfinite
      else .ok (rows (reindex finSumFinEquiv finSumFinEquiv
        (fromBlocks (Matrix.of fun i j => d i j / det i j) (Matrix.of fun i j => -b i j / det i j)
          (Matrix.of fun i j => -c i j / det i j) (Matrix.of fun i j => a i j / det i j)))) := by
    unfold inv2by2block block2list
    simp only [h1, h2, h3, h4, map2_rows, neg2_rows, of_apply, blockL_rows, Matrix.neg_apply, ← hdet]
  have hz : (∃ row ∈ rows det, (0 : ℂ) ∈ row) ↔ ∃ i j, det i j = 0 := by
    simp only [rows, List.mem_ofFn]
    constructor
    · rintro ⟨row, ⟨i, rfl⟩, h⟩
      rw [List.mem_ofFn] at h
      obtain ⟨j, hj⟩ := h
      exact ⟨i, j, hj⟩
    · rintro ⟨i, j, h⟩
      exact ⟨_, ⟨i, rfl⟩, by rw [List.mem_ofFn]; exact ⟨j, h⟩⟩
  constructor
  · rw [hinv]
    constructor
    · rintro ⟨X, hX⟩
      split at hX
      · simp at hX
      · rename_i hne
        rw [hz] at hne
        push Not at hne
        refine ⟨a, b, c, d, by unfold block2list; rw [h1, h2, h3, h4], fun i j => ?_⟩
        have := hne i j
        rwa [hdet, of_apply, mul_comm (c i j)] at this
    · rintro ⟨a', b', c', d', he, hne⟩
      unfold block2list at he
      rw [h1, h2, h3, h4] at he
      simp only [Prod.mk.injEq] at he
      obtain ⟨e1, e2, e3, e4⟩ := he
      rw [if_neg]
      · exact ⟨_, rfl⟩
      · rw [hz]
        rintro ⟨i, j, h⟩
        apply hne i j
        rw [← rows_inj e1, ← rows_inj e2, ← rows_inj e3, ← rows_inj e4, mul_comm (b i j)]
        exact h
  · intro X hX
    rw [hinv] at hX
    split at hX
    · simp at hX
    · rename_i hne
      rw [hz] at hne
      push Not at hne
      simp only [Except.ok.injEq] at hX
      subst hX
      set Y := fromBlocks (Matrix.of fun i j => d i j / det i j) (Matrix.of fun i j => -b i j / det i j)
          (Matrix.of fun i j => -c i j / det i j) (Matrix.of fun i j => a i j / det i j) with hY
      obtain ⟨y1, y2, y3, y4⟩ := getBlock_rows Y
      rw [hY, toBlocks_fromBlocks₁₁] at y1
      rw [hY, toBlocks_fromBlocks₁₂] at y2
      rw [hY, toBlocks_fromBlocks₂₁] at y3
      rw [hY, toBlocks_fromBlocks₂₂] at y4
      rw [← hY] at y1 y2 y3 y4
      set E : Arr2 := rows (reindex finSumFinEquiv finSumFinEquiv
        (fromBlocks (Matrix.of fun _ _ => (1 : ℂ)) (Matrix.of fun _ _ => 0) (Matrix.of fun _ _ => 0)
          (Matrix.of fun _ _ => 1) : Matrix (Fin N ⊕ Fin N) (Fin N ⊕ Fin N) ℂ)) with hE
      have hd' : ∀ i j, a i j * d i j - c i j * b i j = det i j := fun i j => rfl
      refine ⟨E, ?_, ?_, ?_⟩
      · unfold blockmatmul
        simp only [h1, h2, h3, h4, y1, y2, y3, y4, map2_rows, of_apply, blockL_rows]
        rw [hE]
        congr 3
        congr 1 <;> ext i j <;> simp only [of_apply] <;> have := hne i j <;> field_simp <;>
          (try rw [← hd']) <;> ring
      · unfold blockmatmul
        simp only [h1, h2, h3, h4, y1, y2, y3, y4, map2_rows, of_apply, blockL_rows]
        rw [hE]
        congr 3
        congr 1 <;> ext i j <;> simp only [of_apply] <;> have := hne i j <;> field_simp <;>
          (try rw [← hd']) <;> ring
      · obtain ⟨z1, z2, z3, z4⟩ := getBlock_rows (fromBlocks (Matrix.of fun _ _ => (1 : ℂ))
          (Matrix.of fun _ _ => 0) (Matrix.of fun _ _ => 0)
          (Matrix.of fun _ _ => 1) : Matrix (Fin N ⊕ Fin N) (Fin N ⊕ Fin N) ℂ)
        unfold block2list
        rw [hE, z1, z2, z3, z4]
        simp [rows_const]

/-- C17 on a concrete array. -/
example : ∃ X, inv2by2block [[1, 2], [3, 4]] 1 = .ok X := by
  rw [(C17_pointwise_inverse 1 [[1, 2], [3, 4]] ⟨rfl, by simp⟩).1]
  refine ⟨!![1], !![2], !![3], !![4], ?_, ?_⟩
  · simp [block2list, getBlock, slice, rows]
  · intro i j
    fin_cases i; fin_cases j
    norm_num

/-- **C18**. For diagonal `Kx = diag kx`, `Ky = diag ky` the einsum implementation of the wave-vector
matrix equals `[[Kx u Kx, Kx u Ky], [Ky u Kx, Ky u Ky]]`. -/
theorem C18_kmatrix {n : Type} [Fintype n] [DecidableEq n] (u : Matrix n n ℂ) (kx ky : n → ℂ) :
    buildK u (diagonal kx) (diagonal ky) =
      fromBlocks (diagonal kx * u * diagonal kx) (diagonal kx * u * diagonal ky)
        (diagonal ky * u * diagonal kx) (diagonal ky * u * diagonal ky) := by
  unfold buildK
  refine fromBlocks_inj.2 ⟨?_, ?_, ?_, ?_⟩ <;> ext i j <;> simp [matmuldiag, mul_comm]

end Nannos
