import Verif.Model.Layer

/-! The inverse of the transverse tensors, by shape of the arrays. -/

namespace Nannos

theorem pointwiseInv_square {N : ℕ} (a b c d : Grid N N) :
    pointwiseInv ⟨N, N, a⟩ ⟨N, N, b⟩ ⟨N, N, c⟩ ⟨N, N, d⟩ = inv4 a b c d := by
  unfold pointwiseInv
  simp

theorem pointwiseInv_same {N M : ℕ} (a b c d : Grid N M) :
    pointwiseInv ⟨N, M, a⟩ ⟨N, M, b⟩ ⟨N, M, c⟩ ⟨N, M, d⟩ = if N = M then inv4 a b c d else mixedInv a b c d := by
  unfold pointwiseInv
  simp

theorem pointwiseInv_mixed {N M : ℕ} (h : N ≠ M) (a b c d : Grid N M) :
    pointwiseInv ⟨N, M, a⟩ ⟨N, M, b⟩ ⟨N, M, c⟩ ⟨N, M, d⟩ = mixedInv a b c d := by
  rw [pointwiseInv_same, if_neg h]

theorem inv4_ok {N M : ℕ} {a b c d : Grid N M} {q : Trans4 PGrid} (h : inv4 a b c d = .ok q) :
    (∀ x y, a x y * d x y - c x y * b x y ≠ 0) ∧
    q = ⟨⟨_, _, fun x y => d x y / (a x y * d x y - c x y * b x y)⟩, ⟨_, _, fun x y => -b x y / (a x y * d x y - c x y * b x y)⟩,
      ⟨_, _, fun x y => -c x y / (a x y * d x y - c x y * b x y)⟩, ⟨_, _, fun x y => a x y / (a x y * d x y - c x y * b x y)⟩⟩ := by
  unfold inv4 at h
  dsimp only at h
  split at h
  · cases h
  rename_i hne
  push Not at hne
  exact ⟨hne, (Except.ok.inj h).symm⟩

/-- Whatever the shape, the result has four components of one shape. -/
theorem pointwiseInv_shape {N M : ℕ} {a b c d : Grid N M} {q : Trans4 PGrid}
    (h : pointwiseInv ⟨N, M, a⟩ ⟨N, M, b⟩ ⟨N, M, c⟩ ⟨N, M, d⟩ = .ok q) :
    ∃ e f g k : Grid N N, q = ⟨⟨N, N, e⟩, ⟨N, N, f⟩, ⟨N, N, g⟩, ⟨N, N, k⟩⟩ := by
  rw [pointwiseInv_same] at h
  split at h
  · rename_i hNM
    subst hNM
    exact ⟨_, _, _, _, (inv4_ok h).2⟩
  · unfold mixedInv at h
    split at h
    · cases h
    · exact ⟨_, _, _, _, (inv4_ok h).2⟩

end Nannos
