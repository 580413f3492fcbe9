import Verif.Proofs.EnergyVectors
import Verif.Proofs.SimCalls

/-! Hermitian and dissipative permittivity operators of a simulation. -/

namespace Nannos

open Matrix Spec

variable {E : Ext} {lats : ℕ → Lattice} {mats : ℕ → LayerSpec} {stack : List ℕ} {exc : PlaneWave} {nh : ℤ}
  {form : String} {c : Static}

/-- The signs of the permittivity operators in every layer. -/
theorem all_forms {S : Set ℝ} {D : ℝ → Prop} (hS : LossCone S D) (hinit : simInit E lats mats stack exc nh form = .ok c)
    (hw : WellPlaced mats stack)
    (hform : form = "original" ∨ c.lattice.is1D = true ∨ (c.harmonics.Nodup ∧ ∀ r ∈ stack, (mats r).isUniform = false →
      (mats r).isAnisotropic = false ∧ ConstantVectorsUsed E c (mats r)))
    {r : ℕ} (hr : r ∈ stack) (hl : LossIn S (mats r)) {P ee} (hm : Medium E c mats r P ee) : Form S P ∧ Form S ee := by
  have hi := simInit_ok hinit
  have hf1 : c.lattice.is1D = true → c.formulation = "original" ∨ c.formulation = "tangent" := by
    intro h1d
    obtain ⟨r0, tl, e0⟩ := List.exists_cons_of_ne_nil hi.ne
    have hhead : stack.head? = some r0 := by rw [e0]; rfl
    rw [hi.form_eq]
    refine hi.form1 r0 hhead ?_
    rw [← hi.lat_eq r0 hhead]; exact h1d
  rcases hform with hform | hform | ⟨hnd, hvec⟩
  · exact medium_form hS (by rw [hi.form_eq]; exact .inl hform) hf1 hw hm hr hl
  · exact medium_form hS (.inr hform) hf1 hw hm hr hl
  · have hf := hi.form
    rw [← hi.form_eq] at hf
    exact medium_form_used hS hnd hf hf1 hw hvec hm hr hl

end Nannos
