import Verif.Proofs.LastLayer
import Verif.Examples.OneOrder

/-! C111: the thickness given to the last layer. -/

namespace Nannos

open Matrix Spec

section
variable {E : Ext} {lats : ℕ → Lattice} {mats mats' : ℕ → LayerSpec} {stack : List ℕ} {exc : PlaneWave} {nh : ℤ} {form : String}
  {c : Static} {rN : ℕ}

/-- **C111**. `mats'` are the layers `mats`, the last one with the thickness `d'` instead of `d`. Whatever is returned for the
first structure is returned for the second: efficiencies by order and in total, complex amplitudes, Fourier components of the
fields in every layer at every depth, and the left half (waves coming from above) of the scattering matrix. The calls before are
any. -/
theorem C111_thickness_of_the_last_layer (hinit : simInit E lats mats stack exc nh form = .ok c) (hlast : stack.getLast? = some rN)
    (d d' : ℝ) (hd : (mats rN).thickness = some d)
    (hm : mats' = Function.update mats rN { mats rN with thickness := some d' }) (hist hist' : List (Call c.nh)) :
    simInit E lats mats' stack exc nh form = .ok c ∧
    (∀ orders X, (diffractionEfficiencies E c orders (afterCalls E c hist (Dyn.fresh mats (unsolved c.nh)))).1 = .ok X →
      (diffractionEfficiencies E c orders (afterCalls E c hist' (Dyn.fresh mats' (unsolved c.nh)))).1 = .ok X) ∧
    (∀ X, (complexEfficiencies E c (afterCalls E c hist (Dyn.fresh mats (unsolved c.nh)))).1 = .ok X →
      (complexEfficiencies E c (afterCalls E c hist' (Dyn.fresh mats' (unsolved c.nh)))).1 = .ok X) ∧
    (∀ id zs Fs, (getFieldFourier E c id zs (afterCalls E c hist (Dyn.fresh mats (unsolved c.nh)))).1 = .ok Fs →
      (getFieldFourier E c id zs (afterCalls E c hist' (Dyn.fresh mats' (unsolved c.nh)))).1 = .ok Fs) ∧
    ∀ S, (getS E c none (afterCalls E c hist (Dyn.fresh mats (unsolved c.nh)))).1 = .ok S →
      ∃ S', (getS E c none (afterCalls E c hist' (Dyn.fresh mats' (unsolved c.nh)))).1 = .ok S' ∧
        S'.s11 = S.s11 ∧ S'.s21 = S.s21 := by
  let t : ℕ → ℝ := fun r => (mats r).thickness.getD 0
  let t' : ℕ → ℝ := Function.update t rN d'
  have e0 : mats = withThicknesses mats t := by
    funext r
    show mats r = { mats r with thickness := (mats r).thickness.map fun _ => (mats r).thickness.getD 0 }
    have : (mats r).thickness.map (fun _ => (mats r).thickness.getD 0) = (mats r).thickness := by
      rcases (mats r).thickness with _ | x <;> rfl
    rw [this]
  have e1 : mats' = withThicknesses mats t' := by
    funext r
    by_cases hr : r = rN
    · subst hr
      rw [hm, Function.update_self]
      show _ = { mats r with thickness := (mats r).thickness.map fun _ => Function.update t r d' r }
      rw [hd, Function.update_self]
      rfl
    · rw [hm, Function.update_of_ne hr]
      show mats r = { mats r with thickness := (mats r).thickness.map fun _ => Function.update t rN d' r }
      rw [Function.update_of_ne hr]
      exact congrFun e0 r
  have hi := simInit_ok hinit
  have hst : c.stack = stack := hi.stack_eq
  have hnd : c.stack.Nodup := hst ▸ hi.nodup
  have h : LastDiffers c rN t t' := ⟨hnd, by rw [hst]; exact hlast, fun r hr => Function.update_of_ne hr _ _⟩
  obtain ⟨A, res, hs⟩ := withThicknesses_spec (E := E) (mats := mats) hnd
  have i0 : ∀ hist, Inv E c (withThicknesses mats t) (unsolved c.nh) A res (afterCalls E c hist (Dyn.fresh mats (unsolved c.nh))) := by
    intro hist
    have := Inv.calls (hs t) hist (inv_fresh (E := E) (mats := withThicknesses mats t) (A0 := unsolved c.nh) (A1 := A) (res := res) _ (.inl rfl))
    rwa [← e0] at this ⊢
  have i1 : ∀ hist, Inv E c (withThicknesses mats t') (unsolved c.nh) A res
      (afterCalls E c hist (Dyn.fresh mats' (unsolved c.nh))) := by
    intro hist
    have := Inv.calls (hs t') hist (inv_fresh (E := E) (mats := withThicknesses mats t') (A0 := unsolved c.nh) (A1 := A) (res := res) _ (.inl rfl))
    rwa [← e1] at this ⊢
  refine ⟨by rw [e1, withThicknesses_init]; exact hinit, fun orders X hX => ?_, fun X hX => ?_, fun id zs Fs hF => ?_, fun S hS => ?_⟩
  · obtain ⟨-, e', h1, -⟩ := h.diffraction hs orders _ _ X _ (i0 hist) (i1 hist') (Prod.ext hX rfl)
    rw [h1]
  · obtain ⟨-, e', h1, -⟩ := h.complexEfficiencies hs _ _ X _ (i0 hist) (i1 hist') (Prod.ext hX rfl)
    rw [h1]
  · obtain ⟨-, e', h1, -⟩ := h.getFieldFourier hs id zs _ _ Fs _ (i0 hist) (i1 hist') (Prod.ext hF rfl)
    rw [h1]
  · rw [(det_getS' (hs t) none _ (i0 hist)).1] at hS
    rw [(det_getS' (hs t') none _ (i1 hist')).1]
    exact h.valS_last le_rfl rfl hS

end

namespace Examples

/-- C111: the columns of `oneMats` in air, formulation `tangent`; the substrate is given the thickness 5. -/
example : ∃ c R T, simInit exE (fun _ => oneLat) oneMats [0, 1, 2] exExc 1 "tangent" = .ok c ∧
    (diffractionEfficiencies exE c false (Dyn.fresh oneMats (unsolved c.nh))).1 = .ok (.total R T) ∧
    (diffractionEfficiencies exE c false
      (Dyn.fresh (Function.update oneMats 2 { oneMats 2 with thickness := some 5 }) (unsolved c.nh))).1 = .ok (.total R T) := by
  obtain ⟨c, hc, h⟩ := one_init
  obtain ⟨R, T, hRT⟩ := h.efficiencies
  exact ⟨c, R, T, hc, hRT, (C111_thickness_of_the_last_layer hc rfl 0 5 (by simp [oneMats, exLayer]) rfl [] []).2.1 _ _ hRT⟩

end Examples

end Nannos
