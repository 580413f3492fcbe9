import Verif.Proofs.Reversed
import Verif.Props.Planar
import Verif.Examples.Planar

/-! C104: the stack turned upside down.

Swapping top and bottom of a structure swaps the two sides of its scattering matrix.  The code computes the scattering
matrix of the reversed list of layers by a different sequence of operations; the results agree exactly. -/

namespace Nannos

open Matrix Spec

variable {E : Ext} {lats : ℕ → Lattice} {mats : ℕ → LayerSpec} {stack : List ℕ} {nh : ℤ} {form : String}

/-- C104.  Build a simulation from a list of layers, and a second one from the reversed list, lit at the same wavelength
through the last layer in the same plane of incidence and at the angle given by Snell's law.  (The last layer has to be a
valid superstrate; there are no copies, which must follow their original.)  Then the second constructor succeeds, with the
same orders and wavevectors; the layers of the second simulation can be solved iff those of the first can; and whenever
the scattering matrix of the layers `i .. j` is returned by the first and that of the same layers, now numbered
`N-1-j .. N-1-i`, by the second, whatever was called before on either, the one is the other seen from the other side. -/
theorem C104_stack_upside_down {wl th th' ph ps ps' : ℝ} {exc exc' : PlaneWave} {c : Static} {r0 r1 : ℕ}
    (hp : planeWave wl (th, ph, ps) = .ok exc) (hp' : planeWave wl (th', ph, ps') = .ok exc')
    (hc : simInit E lats mats stack exc nh form = .ok c) (h0 : stack.head? = some r0) (h1 : stack.getLast? = some r1)
    (hu : (mats r1).isUniform = true ∧ (mats r1).isAnisotropic = false) (hn : (mats r1).epsilon.value * (mats r1).mu ≠ 0)
    (hcp : ∀ r ∈ stack, (mats r).iscopy = false)
    (hsnell : csqrt ((mats r0).epsilon.value * (mats r0).mu) * Real.sin (th * (Real.pi / 180)) =
      csqrt ((mats r1).epsilon.value * (mats r1).mu) * Real.sin (th' * (Real.pi / 180))) :
    simInit E lats mats stack.reverse exc' nh form = .ok (c.turned exc' (mats r1)) ∧
    ((solve E c (Dyn.fresh mats (unsolved c.nh))).1 = .ok () ↔
      (solve E (c.turned exc' (mats r1)) (Dyn.fresh mats (unsolved c.nh))).1 = .ok ()) ∧
    ∀ (hist : List (Call c.nh)) (hist' : List (Call (c.turned exc' (mats r1)).nh)) (S S' : SMat (Idx c.nh)),
      (∀ i j : ℕ, (getS E c (some ((i : ℤ), (j : ℤ))) (afterCalls E c hist (Dyn.fresh mats (unsolved c.nh)))).1 = .ok S →
        (getS E (c.turned exc' (mats r1)) (some (((stack.length - 1 - j : ℕ) : ℤ), ((stack.length - 1 - i : ℕ) : ℤ)))
          (afterCalls E (c.turned exc' (mats r1)) hist' (Dyn.fresh mats (unsolved c.nh)))).1 = .ok S' →
        S' = S.turned) ∧
      ((getS E c none (afterCalls E c hist (Dyn.fresh mats (unsolved c.nh)))).1 = .ok S →
        (getS E (c.turned exc' (mats r1)) none
          (afterCalls E (c.turned exc' (mats r1)) hist' (Dyn.fresh mats (unsolved c.nh)))).1 = .ok S' →
        S' = S.turned) := by
  have hi := simInit_ok hc
  obtain ⟨-, w, t, p, -, k, v, -⟩ := planeWave_ok hp
  obtain ⟨-, w', t', p', -, k', v', -⟩ := planeWave_ok hp'
  dsimp only at t t' p p'
  have hst : c.stack = stack := hi.stack_eq
  have hlen : c.stack.length = stack.length := by rw [hst]
  have hpos : 0 < stack.length := List.length_pos_iff.mpr hi.ne
  refine ⟨simInit_turned hc h0 h1 hu hn (by rw [w, w']) ?_, ?_, ?_⟩
  · have hs := hsnell
    push_cast at hs
    unfold k0para
    rw [v, v', k, k', t, t', p, p']
    simp only [cons_val_zero, cons_val_one]
    push_cast
    refine Prod.ext ?_ ?_
    · linear_combination (-(2 * (Real.pi : ℂ) * (1 / (wl : ℂ)) * Complex.cos (ph * (Real.pi / 180)))) * hs
    · linear_combination (-(2 * (Real.pi : ℂ) * (1 / (wl : ℂ)) * Complex.sin (ph * (Real.pi / 180)))) * hs
  · rw [solve_ok_iff (by rw [hst]; exact hcp)]
    refine Iff.trans ?_ (solve_ok_iff (c := c.turned exc' (mats r1)) fun r hr => hcp r (by rw [← hst]; exact List.mem_reverse.mp hr)).symm
    refine ⟨fun h r hr => ?_, fun h r hr => ?_⟩
    · rw [stepOut_turned]
      exact h r (List.mem_reverse.mp hr)
    · have := h r (List.mem_reverse.mpr hr)
      rwa [stepOut_turned] at this
  · intro hist hist' S S'
    have hcp' : ∀ r ∈ c.stack, (mats r).iscopy = false := by rw [hst]; exact hcp
    have hnd : c.stack.Nodup := hi.nodup
    have key := fun i j => getS_turned (E := E) (mats := mats) (exc' := exc') (L := mats r1) hnd hcp' hist hist' (i := i) (j := j) (S := S) (S' := S')
    refine ⟨fun i j h h' => key i j h (by rw [hlen]; exact h'), fun h h' => key 0 (c.stack.length - 1) ?_ ?_⟩
    · have e : (((c.stack.length - 1 : ℕ) : ℕ) : ℤ) = (c.stack.length : ℤ) - 1 := by omega
      rw [e, Nat.cast_zero, ← getS_none_eq hnd]
      exact h
    · rw [Nat.sub_self, Nat.sub_zero]
      have e : (((c.stack.length - 1 : ℕ) : ℕ) : ℤ) = ((c.turned exc' (mats r1)).stack.length : ℤ) - 1 := by
        rw [List.length_reverse]; omega
      rw [e, Nat.cast_zero]
      exact (getS_none_eq (c := c.turned exc' (mats r1)) (List.nodup_reverse.mpr hnd) hist').symm.trans h'

/-- C104: a stack which is its own mirror image (layer `k` from the top has the material, the pattern and the thickness of
layer `k` from the bottom) scatters in the same way from both sides. -/
theorem C104_mirror_stack {exc : PlaneWave} {c : Static} (hc : simInit E lats mats stack exc nh form = .ok c)
    (hcp : ∀ r ∈ stack, (mats r).iscopy = false)
    (hm : ∀ (k r r' : ℕ), stack[k]? = some r → stack.reverse[k]? = some r' → SameSlab (mats r) (mats r'))
    (hist : List (Call c.nh)) (S : SMat (Idx c.nh))
    (h : (getS E c none (afterCalls E c hist (Dyn.fresh mats (unsolved c.nh)))).1 = .ok S) :
    S.s11 = S.s22 ∧ S.s12 = S.s21 := by
  have hi := simInit_ok hc
  have hst : c.stack = stack := hi.stack_eq
  subst hst
  have := getS_mirror hi.ne hi.nodup hcp hm hist h
  exact ⟨congrArg SMat.s11 this, congrArg SMat.s12 this⟩

namespace Examples

/-- The scattering matrix exists if the efficiencies do. -/
theorem getS_of_eff {c : Static} (hnd : c.stack.Nodup) {RT}
    (h : (efficienciesByOrder E c (afterCalls E c [] (Dyn.fresh mats (unsolved c.nh)))).1 = .ok RT) :
    ∃ S, (getS E c none (afterCalls E c [] (Dyn.fresh mats (unsolved c.nh)))).1 = .ok S := by
  obtain ⟨A1, res, hs, -⟩ := solveSpec_of_noStale (E := E) (mats := mats) hnd (noStale_unsolved (c := c) mats c.stack)
  have h1 : Inv E c mats (unsolved c.nh) A1 res (afterCalls E c [] (Dyn.fresh mats (unsolved c.nh))) :=
    (inv_fresh _ (.inl rfl)).calls hs []
  rcases hr : efficienciesByOrder E c (afterCalls E c [] (Dyn.fresh mats (unsolved c.nh))) with ⟨o, d⟩
  rw [hr] at h
  dsimp only at h
  subst h
  obtain ⟨-, S, -, -, -, -, -, -, hS, -⟩ := yields_efficiencies hs _ _ _ h1 hr
  exact ⟨S, by rw [(det_getS' hs _ _ h1).1, hS]⟩

/-- Homogeneous layers of any positive permittivities at normal incidence have a scattering matrix. -/
theorem films_getS (eps : ℕ → ℝ) (d : ℕ → ℝ) (hd : ∀ r, 0 ≤ d r) (he : ∀ r, 0 < eps r) (r0 r1 r2 : ℕ) {exc : PlaneWave} {wl ps : ℝ} (hwl : 0 < wl)
    (hp : planeWave wl (0, 0, ps) = .ok exc) {c : Static}
    (hi : simInit exE (fun _ => exLat) (filmMats (fun r => eps r) 1 d) [r0, r1, r2] exc 1 "original" = .ok c)
    (hH : c.harmonics = [(0, 0)]) (hl : c.lattice = exLat) :
    ∃ S, (getS exE c none (afterCalls exE c [] (Dyn.fresh (filmMats (fun r => eps r) 1 d) (unsolved c.nh)))).1 = .ok S := by
  have ht : exc.theta = 0 := by rw [(planeWave_ok hp).2.2.1]; simp
  obtain ⟨RT, h⟩ := C80_planar_defined (e := eps r0) hi (fun r _ => filmMats_hom _ _ _ r) hp hwl (by rw [ht]; simp) (by rw [hH]; simp) (he r0) rfl
    (filmMats_eps _ _ _ _) rfl exSort_spec (by rw [hl]; rfl) (by simp) (fun r _ => rfl)
    (fun r _ => by rw [filmMats_eps]; exact_mod_cast (he r).ne') (fun r _ => by rw [filmMats_eps, ht]; simpa using (he r).ne')
    (fun k r _ _ _ => ⟨by rw [filmMats_eps]; simp, fun t h => by rw [filmMats_d] at h; rw [← Option.some.inj h]; exact hd r⟩) []
  exact getS_of_eff (simInit_ok hi).nodup h

/-- C104: a film of permittivity 2 between 1 and 4, from above and from below. -/
example : ∃ (exc : PlaneWave) (c : Static) (S S' : SMat (Idx c.nh)), planeWave 1 (0, 0, 30) = .ok exc ∧
    simInit exE (fun _ => exLat) (filmMats (fun r => ((2 ^ r : ℝ) : ℂ)) 1 1) [0, 1, 2] exc 1 "original" = .ok c ∧
    (getS exE c none (Dyn.fresh (filmMats (fun r => ((2 ^ r : ℝ) : ℂ)) 1 1) (unsolved c.nh))).1 = .ok S ∧
    simInit exE (fun _ => exLat) (filmMats (fun r => ((2 ^ r : ℝ) : ℂ)) 1 1) [2, 1, 0] exc 1 "original" =
      .ok (c.turned exc (filmMats (fun r => ((2 ^ r : ℝ) : ℂ)) 1 1 2)) ∧
    (getS exE (c.turned exc (filmMats (fun r => ((2 ^ r : ℝ) : ℂ)) 1 1 2)) none
      (Dyn.fresh (filmMats (fun r => ((2 ^ r : ℝ) : ℂ)) 1 1) (unsolved c.nh))).1 = .ok S' ∧ S' = S.turned := by
  obtain ⟨exc, hp, -⟩ := normal_incidence 1 30 one_pos
  have hpos : ∀ r : ℕ, (0 : ℝ) < 2 ^ r := fun r => by positivity
  obtain ⟨c, hi, hH, hl⟩ := planar_init (filmMats (fun r => ((2 ^ r : ℝ) : ℂ)) 1 1) 0 [1, 2] exc (by simp [filmMats, exLayer])
    (by simp [filmMats, exLayer]) (filmMats_hom _ _ _ _) (by rw [filmMats_eps, filmMats_mu]; simp)
  obtain ⟨h1, -, h3⟩ := C104_stack_upside_down hp hp hi rfl rfl ⟨(filmMats_hom _ _ _ _).2.1, (filmMats_hom _ _ _ _).2.2⟩
    (by rw [filmMats_eps, filmMats_mu]; simp) (fun r _ => rfl) (by simp)
  obtain ⟨S, hS⟩ := films_getS (fun r => 2 ^ r) 1 (fun _ => zero_le_one) hpos 0 1 2 one_pos hp hi hH hl
  obtain ⟨S', hS'⟩ := films_getS (fun r => 2 ^ r) 1 (fun _ => zero_le_one) hpos 2 1 0 one_pos hp h1 hH hl
  exact ⟨exc, c, S, S', hp, hi, hS, h1, hS', (h3 [] [] S S').2 hS hS'⟩

/-- C104: a film of permittivity 2 in vacuum. -/
example : ∃ (exc : PlaneWave) (c : Static) (S : SMat (Idx c.nh)), planeWave 1 (0, 0, 30) = .ok exc ∧
    simInit exE (fun _ => exLat) (filmMats (fun r => ((if r = 1 then 2 else 1 : ℝ) : ℂ)) 1 1) [0, 1, 2] exc 1 "original" = .ok c ∧
    (getS exE c none (Dyn.fresh (filmMats (fun r => ((if r = 1 then 2 else 1 : ℝ) : ℂ)) 1 1) (unsolved c.nh))).1 = .ok S ∧
    S.s11 = S.s22 ∧ S.s12 = S.s21 := by
  obtain ⟨exc, hp, -⟩ := normal_incidence 1 30 one_pos
  obtain ⟨c, hi, hH, hl⟩ := planar_init (filmMats (fun r => ((if r = 1 then 2 else 1 : ℝ) : ℂ)) 1 1) 0 [1, 2] exc (by simp [filmMats, exLayer])
    (by simp [filmMats, exLayer]) (filmMats_hom _ _ _ _) (by rw [filmMats_eps, filmMats_mu]; simp)
  obtain ⟨S, hS⟩ := films_getS (fun r => if r = 1 then 2 else 1) 1 (fun _ => zero_le_one) (fun r => by split_ifs <;> norm_num) 0 1 2 one_pos hp hi hH hl
  refine ⟨exc, c, S, hp, hi, hS, C104_mirror_stack hi (fun r _ => rfl) ?_ [] S hS⟩
  intro k r r' h h'
  have hk : k < 3 := (List.getElem?_eq_some_iff.mp h).1
  interval_cases k <;> simp at h h' <;> subst h h' <;> simp [SameSlab, filmMats, exLayer]

end Examples

end Nannos
