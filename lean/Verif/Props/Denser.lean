import Verif.Proofs.Denser
import Verif.Props.Grating

/-! C103: refractive indices and wavelength multiplied by one number.

A stack in which every refractive index is `p` times as large, lit at a wavelength `p` times as long from the same
direction, is the same problem: the wavelength in every material is unchanged.  The code reproduces this exactly. -/

namespace Nannos

open Matrix Spec

/-- C103.  Multiply every refractive index by `p > 0` (every permittivity by `p²`) and the wavelength by `p`, at the same
angles.  The incident wave is refused for the same reason or is accepted.  The constructor raises the same or returns the
same simulation at the frequency divided by `p`: same orders, same wavevectors, same incident amplitudes.  Then every call
after every history of calls raises the same error or returns the same: scattering matrices, diffraction efficiencies,
complex amplitudes and magnetic fields are equal, electric fields and fluxes are divided by `p`.  Layers of any kind and
any formulation are allowed; a layer whose vectors are left to a generator needs one which does not see the factor. -/
theorem C103_denser_stack {E : Ext} {lats : ℕ → Lattice} {mats : ℕ → LayerSpec} {stack : List ℕ} {nh : ℤ} {form : String}
    {p : ℝ} (hp : 0 < p) (wl : ℝ) (angles : ℝ × ℝ × ℝ) :
    (∀ e, planeWave wl angles = .error e → planeWave (p * wl) angles = .error e) ∧
    ∀ exc, planeWave wl angles = .ok exc → ∃ exc', planeWave (p * wl) angles = .ok exc' ∧
      (∀ e, simInit E lats mats stack exc nh form = .error e →
        simInit E lats (fun r => denser p (mats r)) stack exc' nh form = .error e) ∧
      ∀ c, simInit E lats mats stack exc nh form = .ok c →
        simInit E lats (fun r => denser p (mats r)) stack exc' nh form = .ok (c.slow p exc') ∧
        ((∀ r ∈ stack, FactorUnseen E p c.lattice form (mats r)) → ∀ (hist : List (Call c.nh)) (a : Call c.nh),
          a.result E (c.slow p exc')
              (afterCalls E (c.slow p exc') hist (Dyn.fresh (fun r => denser p (mats r)) (unsolved c.nh))) =
            (a.result E c (afterCalls E c hist (Dyn.fresh mats (unsolved c.nh)))).map (divided p)) := by
  have hw := planeWave_slow hp wl angles
  refine ⟨fun e he => by rw [hw, he]; rfl, fun exc hexc => ⟨slowWave p exc, by rw [hw, hexc]; rfl, fun e he => ?_, fun c hc => ⟨?_, ?_⟩⟩⟩
  · rw [simInit_denser hp, he]; rfl
  · rw [simInit_denser hp, hc]; rfl
  · intro hg hist a
    have hi := simInit_ok hc
    refine results_denser ⟨hp, ?_, ?_⟩ (by rw [hi.exc_eq]; rfl) hist a
    · rw [hi.stack_eq, hi.form_eq]
      exact hg
    · rw [hi.form_eq]
      intro h1
      obtain ⟨r0, hr0⟩ : ∃ r0, stack.head? = some r0 := by
        rcases hs : stack with _ | ⟨r0, tl⟩
        · exact absurd hs hi.ne
        · exact ⟨r0, rfl⟩
      exact hi.form1 r0 hr0 (by rw [← hi.lat_eq r0 hr0]; exact h1)

namespace Examples

/-- C103: a grating between two half-spaces, at an angle, with all indices and the wavelength doubled: the same
efficiencies after any calls. -/
example (g : Grid 256 1) (ph ps : ℝ) : ∃ exc exc' c, planeWave 1 (60, ph, ps) = .ok exc ∧ planeWave (2 * 1) (60, ph, ps) = .ok exc' ∧
    simInit exE (fun _ => exLat) (gridMats "fft" g) [0, 1, 2] exc 11 "tangent" = .ok c ∧
    (denser 2 (gridMats "fft" g 1)).epsilon.data [3, 0] = 4 * (gridMats "fft" g 1).epsilon.data [3, 0] ∧
    ∀ hist o, Call.result exE (c.slow 2 exc') (.diffractionEfficiencies o)
        (afterCalls exE (c.slow 2 exc') hist (Dyn.fresh (fun r => denser 2 (gridMats "fft" g r)) (unsolved c.nh))) =
      Call.result exE c (.diffractionEfficiencies o) (afterCalls exE c hist (Dyn.fresh (gridMats "fft" g) (unsolved c.nh))) := by
  obtain ⟨exc, hexc, -⟩ := oblique_wave 1 ph ps one_pos
  obtain ⟨c, hc, hl, hm, -⟩ := grating_init (E := exE) exSort_spec g exc
  obtain ⟨exc', he', -, h⟩ := (C103_denser_stack (E := exE) (lats := fun _ => exLat) (mats := gridMats "fft" g) (stack := [0, 1, 2])
    (nh := 11) (form := "tangent") two_pos 1 (60, ph, ps)).2 exc hexc
  refine ⟨exc, exc', c, hexc, he', hc, ?_, fun hist o => ?_⟩
  · change ((2 : ℝ) : ℂ) ^ 2 * _ = _
    push_cast
    norm_num
  · rw [((h c hc).2 fun r _ => .inr (.inl (by rw [hl]; rfl))) hist]
    simp only [Call.result]
    rcases (diffractionEfficiencies exE c o (afterCalls exE c hist (Dyn.fresh (gridMats "fft" g) (unsolved c.nh)))).1 with e | x <;> rfl

end Examples

end Nannos
