import Verif.Proofs.ZeroVectors
import Verif.Props.AnyVectors
import Verif.Props.Full

/-! C107: the default simulation with nine harmonics and a pattern clear of the border. -/

namespace Nannos

open Matrix Spec

variable {E : Ext} {c : Static} {mats mats' : ℕ → LayerSpec}

/-- A square pattern of at most 64 pixels a side, which does not reach the border of its cell, with permittivities in one open half
plane, and whose vectors are to be made by the default generator. -/
structure Spec.ClearPattern (L : LayerSpec) (N : ℕ) (g : Grid N N) : Prop where
  small : N ≤ 64
  shape : OptShape N N
  pixels : HasPixels L ⟨N, N, g⟩
  clear : ClearOfBorder g
  half : ∃ s : ℂ, ∀ x y, 0 < (s * g x y).im
  none_given : L.tangentField = none
  default : L.tangentFieldType = "opt"

theorem square_nine_nodup (h5 : c.nh = 5) (hm : ∀ g, g ∈ c.harmonics ↔ g ∈ [((0 : ℤ), (0 : ℤ)), (1, 0), (-1, 0), (0, 1), (0, -1)]) :
    c.harmonics.Nodup := by
  rw [← Multiset.coe_nodup, ← Multiset.toFinset_card_eq_card_iff_nodup, Multiset.coe_card]
  have e : (c.harmonics : Multiset (ℤ × ℤ)).toFinset = [((0 : ℤ), (0 : ℤ)), (1, 0), (-1, 0), (0, 1), (0, -1)].toFinset := by
    ext g
    rw [Multiset.mem_toFinset, Multiset.mem_coe, hm, List.mem_toFinset]
  rw [e, show c.harmonics.length = 5 from h5]
  rfl

/-- **C107 fails**, what becomes of the formulations `'jones'` and `'pol'` (a defect). On the unit square lattice with the default
truncation, nine harmonics asked for and the default generator with its search: if the patterns do not reach the border of
the cell, the vectors made for them vanish, and every call returns or raises exactly what it does with the formulation
`'original'`, after every history. -/
theorem C107_square_nine_is_original (hA : ArgsortContract E.argsort) {lats stack exc form}
    (hinit : simInit (E.withGenerators (optFit newtonCG)) lats mats stack exc 9 form = .ok c) (hf : form = "jones" ∨ form = "pol")
    (hl : c.lattice.truncation = .circular) (hu : c.lattice.harmonicsArray = none) (hb : c.lattice.basis = ![![1, 0], ![0, 1]])
    (h : ∀ r ∈ stack, (mats r).isUniform = true ∨ ∃ N g, ClearPattern (mats r) N g) :
    simInit (E.withGenerators (optFit newtonCG)) lats mats stack exc 9 "original" = .ok { c with formulation := "original" } ∧
    ∀ (hist : List (Call c.nh)) (a : Call c.nh),
      Call.result (E.withGenerators (optFit newtonCG)) { c with formulation := "original" } a
          (afterCalls (E.withGenerators (optFit newtonCG)) { c with formulation := "original" } hist
            (Dyn.fresh mats (unsolved c.nh))) =
        a.result (E.withGenerators (optFit newtonCG)) c
          (afterCalls (E.withGenerators (optFit newtonCG)) c hist (Dyn.fresh mats (unsolved c.nh))) := by
  have hi := simInit_ok hinit
  refine ⟨simInit_reform hinit "original" (.inl rfl) _, fun hist a => ?_⟩
  refine results_alike (E := E.withGenerators (optFit newtonCG)) (t := (E.withGenerators (optFit newtonCG)).tangent) (g := "original")
    (fun r hr => ⟨rfl, rfl, rfl, rfl, rfl, ?_, fun _ => rfl⟩) hist a
  have hr' : r ∈ stack := hi.stack_eq ▸ hr
  rcases h r hr' with h1 | ⟨N, g, hg⟩
  · unfold buildPure
    simp only [h1, if_true]
  · obtain ⟨⟨h5, hm⟩, m, hh⟩ := square_nine (E := E.withGenerators (optFit newtonCG)) hA hinit ⟨r, hr', hg.pixels.1⟩ hl hu hb
    obtain ⟨s, hs⟩ := hg.half
    exact buildPure_zero (List.nodup_iff_injective_get.mp (square_nine_nodup h5 hm)) (by rw [hi.form_eq]; exact hf) hh
      hg.small hg.shape hg.pixels hg.clear hs hg.none_given hg.default

/-- **C107 fails**, the same for the formulation `'tangent'`: the vectors are `(1, 0)` at every pixel, whatever the pattern; giving this
constant field as `tangent_field` changes no result. -/
theorem C107_square_nine_tangent (hA : ArgsortContract E.argsort) {lats stack exc}
    (hinit : simInit (E.withGenerators (optFit newtonCG)) lats mats stack exc 9 "tangent" = .ok c)
    (hp : ∃ r ∈ stack, (mats r).isUniform = false)
    (hl : c.lattice.truncation = .circular) (hu : c.lattice.harmonicsArray = none) (hb : c.lattice.basis = ![![1, 0], ![0, 1]])
    (h : ∀ r ∈ stack, mats' r = mats r ∨ ∃ N g, ClearPattern (mats r) N g ∧
      mats' r = { mats r with tangentField := some ⟨N, N, fun _ _ => 1, fun _ _ => 0⟩ }) :
    simInit (E.withGenerators (optFit newtonCG)) lats mats' stack exc 9 "tangent" = .ok c ∧
    ∀ (hist : List (Call c.nh)) (a : Call c.nh),
      a.result (E.withGenerators (optFit newtonCG)) c
          (afterCalls (E.withGenerators (optFit newtonCG)) c hist (Dyn.fresh mats' (unsolved c.nh))) =
        a.result (E.withGenerators (optFit newtonCG)) c
          (afterCalls (E.withGenerators (optFit newtonCG)) c hist (Dyn.fresh mats (unsolved c.nh))) := by
  obtain ⟨-, m, hh⟩ := square_nine (E := E.withGenerators (optFit newtonCG)) hA hinit hp hl hu hb
  refine given_generated hinit hh fun r hr => ?_
  rcases h r hr with e | ⟨N, g, hg, e⟩
  · exact .inl e
  · obtain ⟨s, hs⟩ := hg.half
    obtain ⟨s1, -, -, -⟩ := optShape_side hg.shape
    have : NeZero N := ⟨by omega⟩
    refine .inr ⟨hg.pixels.1, hg.none_given, .inr hg.default, ⟨N, N, g⟩, _, ?_, ?_, e⟩
    · unfold patternOf
      rw [hg.pixels.2.1]
      exact hg.pixels.2.2
    · rw [hg.default]
      refine (one_order_vectors hg.small hg.shape ⟨0, 0, fun h => ?_⟩ hg.clear true).trans ?_
      · have := hs 0 0
        rw [h] at this
        simp at this
      · simp

end Nannos
