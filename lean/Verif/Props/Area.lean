import Verif.Props.Lattice
import Mathlib.MeasureTheory.Measure.Lebesgue.EqHaar

/-! C03: the area of the unit cell. -/

namespace Nannos

open Matrix Spec

/-- The parallelogram spanned by two vectors of the plane. -/
def Spec.parallelogram (b : Fin 2 → Fin 2 → ℝ) : Set (Fin 2 → ℝ) :=
  {v | ∃ s t : ℝ, 0 ≤ s ∧ s ≤ 1 ∧ 0 ≤ t ∧ t ≤ 1 ∧ v = fun k => s * b 0 k + t * b 1 k}

theorem parallelogram_area (b : Fin 2 → Fin 2 → ℝ) :
    (MeasureTheory.volume (parallelogram b)).toReal = |b 0 0 * b 1 1 - b 0 1 * b 1 0| := by
  have h : parallelogram b = (Matrix.toLin' (Matrix.of b)ᵀ) '' Set.Icc 0 1 := by
    ext v
    simp only [parallelogram, Set.mem_setOf_eq, Set.mem_image, Set.mem_Icc, Matrix.toLin'_apply]
    constructor
    · rintro ⟨s, t, h1, h2, h3, h4, rfl⟩
      refine ⟨![s, t], ⟨fun k => ?_, fun k => ?_⟩, ?_⟩
      · fin_cases k <;> simp [h1, h3]
      · fin_cases k <;> simp [h2, h4]
      · funext k
        simp [Matrix.mulVec, dotProduct, Fin.sum_univ_two, mul_comm]
    · rintro ⟨w, ⟨h1, h2⟩, rfl⟩
      refine ⟨w 0, w 1, h1 0, h2 0, h1 1, h2 1, ?_⟩
      funext k
      simp [Matrix.mulVec, dotProduct, Fin.sum_univ_two, mul_comm]
  rw [h, MeasureTheory.Measure.addHaar_image_linearMap, Real.volume_Icc_pi, LinearMap.det_toLin', det_transpose, det_fin_two]
  simp

/-- **C03**, the area. For a bi-periodic lattice `area` is the area of the parallelogram spanned by the basis vectors, in
either order; multiplied by the area of the reciprocal cell it makes `(2π)²`; it vanishes when the vectors are
dependent.  For a mono-periodic lattice it is the period. -/
theorem C03_area :
    (∀ l : Lattice, l.is1D = false →
      l.area = (MeasureTheory.volume (parallelogram l.basis)).toReal ∧
      (∀ r, l.reciprocal = .ok r → l.area * (MeasureTheory.volume (parallelogram fun j k => r k j)).toReal = (2 * Real.pi) ^ 2) ∧
      (l.area = 0 ↔ ¬ LinearIndependent ℝ l.basis)) ∧
    (∀ (a : ℝ) (disc : DiscArg) (t : String) (H : Option (List (ℤ × ℤ))) (l : Lattice),
      mkLattice (.period a) disc t H = .ok l → l.area = a) := by
  refine ⟨fun l h1 => ?_, fun a disc t H l h => ?_⟩
  · have ha : l.area = |l.matrix.det| := by
      rw [Lattice.area, h1, Lattice.matrix, det_transpose, det_fin_two]
      rfl
    refine ⟨?_, fun r hr => ?_, ?_⟩
    · rw [parallelogram_area, Lattice.area, h1]
      rfl
    · obtain ⟨hd, rfl⟩ := reciprocal_ok.mp hr
      rw [parallelogram_area, ha]
      have : ∀ X : Matrix (Fin 2) (Fin 2) ℝ, |X 0 0 * X 1 1 - X 1 0 * X 0 1| = |X.det| := fun X => by
        rw [det_fin_two]; congr 1; ring
      rw [this, det_smul, det_transpose, det_nonsing_inv, Ring.inverse_eq_inv', abs_mul, abs_inv]
      have h0 : |l.matrix.det| ≠ 0 := abs_ne_zero.mpr hd
      rw [Fintype.card_fin, abs_of_nonneg (sq_nonneg (2 * Real.pi)), mul_left_comm, mul_inv_cancel₀ h0, mul_one]
    · rw [ha, abs_eq_zero, ← det_ne_zero_iff, not_not]
  · unfold mkLattice at h
    dsimp only at h
    split at h
    · simp at h
    · simp only [Except.ok.injEq] at h
      rw [← h]
      simp [Lattice.area]

/-- C03: an oblique cell given with its vectors in the other order. -/
example : ∃ l, mkLattice (.vectors ![![1, 2], ![1, 0]]) (.int 64) "circular" none = .ok l ∧ l.is1D = false ∧ l.area = 2 := by
  refine ⟨_, rfl, rfl, ?_⟩
  norm_num [Lattice.area]

end Nannos
