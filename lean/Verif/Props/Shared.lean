import Verif.Proofs.Shared
import Verif.Props.Sim

/-! Property C69: layer objects used by several simulations. -/

namespace Nannos

open Spec

variable {E : Ext} {lats : ℕ → Lattice} {mats : ℕ → LayerSpec} {stack : List ℕ} {exc : PlaneWave} {nh : ℤ}
  {form : String} {c : Static}

/-- **C69**, partial. The layer objects of a simulation are also used elsewhere, by any number of other
simulations or by `Layer.reset`, which may leave anything in them.  As long as each such use either comes before
the simulation was solved (since its construction or its last reset) or leaves the layers of the simulation
alone, every call returns what it returns on a new simulation.  Missing: uses of the layers between two calls on
a solved simulation, see `C69_other_simulations_overwrite_the_modes`. -/
theorem C69_shared_layers_partial (hinit : simInit E lats mats stack exc nh form = .ok c)
    (hw : WellPlaced mats stack) (A0 : ℕ → LayerAttr c.nh) (l : List (SharedEvent c.nh))
    (hu : Undisturbed E c l (Dyn.fresh mats A0)) (a : Call c.nh) :
    a.result E c (afterShared E c l (Dyn.fresh mats A0)) = a.result E c (Dyn.fresh mats (unsolved c.nh)) := by
  have hi := simInit_ok hinit
  rw [← hi.stack_eq] at hw
  obtain ⟨U, res, hU, -⟩ := solveSpec_of_noStale (E := E) hi.nodup (noStale_unsolved mats c.stack)
  exact (Good.shared hi.nodup hw hU l (good_fresh A0) hu).result hi.nodup hw hU a

/-- **C69**, `reset`. Whatever was done with the layers in between, after `reset()` the simulation is as good as
new, under the same condition from then on. -/
theorem C69_reset_after_sharing (hinit : simInit E lats mats stack exc nh form = .ok c)
    (hw : WellPlaced mats stack) (A0 : ℕ → LayerAttr c.nh) (before after : List (SharedEvent c.nh))
    (hu : Undisturbed E c after (simReset "all" (afterShared E c before (Dyn.fresh mats A0))).2) (a : Call c.nh) :
    a.result E c (afterShared E c (before ++ .call (.reset "all") :: after) (Dyn.fresh mats A0)) =
      a.result E c (Dyn.fresh mats (unsolved c.nh)) := by
  have e : afterShared E c (before ++ .call (.reset "all") :: after) (Dyn.fresh mats A0) =
      afterShared E c after (simReset "all" (afterShared E c before (Dyn.fresh mats A0))).2 := by
    unfold afterShared
    rw [List.foldl_append]
    rfl
  rw [reset_all, shared_mats] at hu
  rw [e, reset_all, shared_mats]
  exact C69_shared_layers_partial hinit hw _ after hu a

/-- **C69**, same settings. Two simulations with the same settings on the same layers: any interleaving of calls
on both returns on both what it returns on a new simulation. -/
theorem C69_same_settings (hinit : simInit E lats mats stack exc nh form = .ok c)
    (hw : WellPlaced mats stack) (A0 : ℕ → LayerAttr c.nh) (l : List (Bool × Call c.nh)) (a : Call c.nh) :
    a.result E c (TwoSims.afterAll E c l ⟨Dyn.fresh mats A0, Dyn.fresh mats A0⟩).first =
      a.result E c (Dyn.fresh mats (unsolved c.nh)) ∧
    a.result E c (TwoSims.afterAll E c l ⟨Dyn.fresh mats A0, Dyn.fresh mats A0⟩).second =
      a.result E c (Dyn.fresh mats (unsolved c.nh)) := by
  have hi := simInit_ok hinit
  rw [← hi.stack_eq] at hw
  obtain ⟨U, res, hU, -⟩ := solveSpec_of_noStale (E := E) hi.nodup (noStale_unsolved mats c.stack)
  obtain ⟨h1, h2⟩ := Good.two hi.nodup hw hU l (p := ⟨Dyn.fresh mats A0, Dyn.fresh mats A0⟩) (good_fresh A0)
    (good_fresh A0) rfl
  exact ⟨h1.result hi.nodup hw hU a, h2.result hi.nodup hw hU a⟩

/-- The attributes of the layers, for simulations with the same number of orders. -/
def attrsAs {n m : ℕ} (h : n = m) (A : ℕ → LayerAttr n) : ℕ → LayerAttr m := h ▸ A

end Nannos

namespace Nannos.Examples

open Matrix Nannos Spec

theorem attrsAs_modes {n m : ℕ} (h : n = m) (A : ℕ → LayerAttr n) (L : LayerSpec) (r : ℕ) (om k : ℂ) (t : Option ℝ)
    (hm : modesOf L (A r) = .ok (scal om k t)) : modesOf L (attrsAs h A r) = .ok (scal om k t) := by
  subst h; exact hm

theorem getS_three {c : Static} {E : Ext} {d : Dyn c.nh} (hv : d.isSolved = true) (hi : d.inter = fun _ => none)
    (hS : d.S = none) (hst : c.stack = [0, 1, 2]) {L0 L1 L2 : Modes (Idx c.nh)} {S1 S2 : SMat (Idx c.nh)}
    (h0 : modesOf (d.mats 0) (d.attrs 0) = .ok L0) (h1 : modesOf (d.mats 1) (d.attrs 1) = .ok L1)
    (h2 : modesOf (d.mats 2) (d.attrs 2) = .ok L2) (s1 : stepS SMat.one L0 L1 = .ok S1)
    (s2 : stepS S1 L1 L2 = .ok S2) : (getS E c none d).1 = .ok S2 := by
  have hI : Inv E c d.mats d.attrs d.attrs (.ok ()) d :=
    ⟨rfl, .inl rfl, fun _ => ⟨rfl, rfl⟩, by simp [hi], by simp [hS]⟩
  have hc := (cachedLoop_spec (i := 0) (j := 2) hI hv).1
  have hr : pyRange 0 2 = [0, 1] := by decide
  have l0 : lmodes c d.mats d.attrs 0 = .ok L0 := by unfold lmodes; rw [hst]; exact h0
  have l1 : lmodes c d.mats d.attrs 1 = .ok L1 := by unfold lmodes; rw [hst]; exact h1
  have l2 : lmodes c d.mats d.attrs 2 = .ok L2 := by unfold lmodes; rw [hst]; exact h2
  have hf : foldS c d.mats d.attrs SMat.one [0, 1] = .ok S2 := by
    rw [foldS_cons, stepD, l0, show (0 : ℤ) + 1 = 1 from rfl, l1]
    simp only [except_bind_ok]
    rw [s1, except_bind_ok, foldS_cons, stepD, l1, show (1 : ℤ) + 1 = 2 from rfl, l2]
    simp only [except_bind_ok]
    rw [s2]
    rfl
  rw [hr, hf] at hc
  simp only [reduceCtorEq, if_false] at hc
  have he : ensureSolved E c d = (.ok (), d) := by unfold ensureSolved; rw [if_pos hv]
  have hint : interfaces c none = [0, 1] := by rw [← hr]; unfold interfaces; rw [hst]; rfl
  unfold getS
  rw [PyM.bind_ok he, hint]
  rcases hx : cachedLoop c [0, 1] d with ⟨r, d'⟩
  rw [hx] at hc
  subst hc
  rw [PyM.bind_ok hx]
  rfl

theorem four_pi_ne : ((4 * Real.pi : ℝ) : ℂ) ≠ 0 := by
  exact_mod_cast (by positivity : (4 * Real.pi : ℝ) ≠ 0)

section
variable {m : Type} [Fintype m] [DecidableEq m]

theorem exp_four_pi : Complex.exp (Complex.I * (1 * ((4 * Real.pi : ℝ) : ℂ)) * ((1 : ℝ) : ℂ)) = 1 := by
  have : Complex.I * (1 * ((4 * Real.pi : ℝ) : ℂ)) * ((1 : ℝ) : ℂ) =
      ((2 : ℤ) : ℂ) * (2 * Real.pi * Complex.I) := by
    push_cast; ring
  rw [this, Complex.exp_int_mul_two_pi_mul_I]

theorem exp_half_wave : Complex.exp (Complex.I * (2 * ((4 * Real.pi : ℝ) : ℂ)) * ((1 / 8 : ℝ) : ℂ)) = -1 := by
  have : Complex.I * (2 * ((4 * Real.pi : ℝ) : ℂ)) * ((1 / 8 : ℝ) : ℂ) = Real.pi * Complex.I := by
    push_cast; ring
  rw [this, Complex.exp_pi_mul_I]

theorem short_step1 : stepS (SMat.one : SMat m) (scal ((4 * Real.pi : ℝ) : ℂ) 1 (some 1))
    (scal ((4 * Real.pi : ℝ) : ℂ) 2 (some (1 / 8))) = .ok (sscal (4 / 3) (1 / 3) (1 / 3) (-2 / 3)) := by
  rw [← sscal_one, scal_step (f := 1) (f' := -1) four_pi_ne one_ne_zero two_ne_zero (some 1) (some (1 / 8)) 1 0 0 1
    exp_four_pi exp_half_wave (3 / 4) (by norm_num) (by norm_num) (4 / 3) (1 / 3) (by norm_num) (by norm_num)]
  norm_num [sscal]

theorem short_step2 : stepS (sscal (4 / 3) (1 / 3) (1 / 3) (-2 / 3) : SMat m) (scal ((4 * Real.pi : ℝ) : ℂ) 2 (some (1 / 8)))
    (scal ((4 * Real.pi : ℝ) : ℂ) 1 (some 1)) = .ok (sscal (-1) 0 0 (-1)) := by
  rw [scal_step (f := -1) (f' := 1) four_pi_ne two_ne_zero one_ne_zero (some (1 / 8)) (some 1) _ _ _ _ exp_half_wave
    exp_four_pi (4 / 3) (by norm_num) (by norm_num) (-1) 0 (by norm_num) (by norm_num)]
  norm_num [sscal]

end

/-- The grating of the examples at half the wavelength. -/
theorem slab_init_short : ∃ c, simInit exE (fun _ => exLat) slabMats [0, 1, 2] (exExcW (1 / 2)) 1 "original" = .ok c ∧
    NormalSim c (1 / 2) ∧ c.stack = [0, 1, 2] := by
  obtain ⟨c, h1, h2, h3, -, -⟩ := exInitW (w := 1 / 2) (by norm_num) (exExcW (1 / 2)) rfl rfl rfl rfl (by simp [exExcW]) slabMats 0 [1, 2] 1
    one_pos (by decide) (by decide) rfl rfl
  exact ⟨c, h1, h2, h3⟩

end Nannos.Examples

namespace Nannos

open Matrix Spec Examples

/-- **C69**, finding. Two simulations of the same grating in air, at wavelengths 1 and 1/2 (the waves are those
`PlaneWave` makes), on the same layer objects: the first one is solved, then the second one; now the first one
returns, without any error, the scattering matrix of the other wavelength (reflection 0) instead of its own
(reflection 3/5): solving stores the modes in the layer objects. -/
theorem C69_other_simulations_overwrite_the_modes :
    planeWave 1 (0, 0, 0) = .ok exExc ∧ planeWave (1 / 2) (0, 0, 0) = .ok (exExcW (1 / 2)) ∧
    ∃ c c', simInit exE (fun _ => exLat) slabMats [0, 1, 2] exExc 1 "original" = .ok c ∧
      simInit exE (fun _ => exLat) slabMats [0, 1, 2] (exExcW (1 / 2)) 1 "original" = .ok c' ∧
      ∃ h : c'.nh = c.nh,
        ∀ d1, d1 = afterCalls exE c [.solve] (Dyn.fresh slabMats (unsolved c.nh)) →
        ∀ d2, d2 = afterCalls exE c' [.solve] (Dyn.fresh slabMats (attrsAs h.symm d1.attrs)) →
        (Call.getSMatrix none).result exE c { d1 with attrs := attrsAs h d2.attrs } =
          .ok (.smatrix (sscal (-1) 0 0 (-1))) ∧
        (Call.getSMatrix none).result exE c d1 =
          .ok (.smatrix (sscal (4 * Complex.I / 5) (3 / 5) (3 / 5) (4 * Complex.I / 5))) := by
  refine ⟨exExc_mk, exExcW_mk (by norm_num), ?_⟩
  obtain ⟨c, hc, hn, hst, -, -⟩ := slab_init
  obtain ⟨c', hc', hn', hst'⟩ := slab_init_short
  have h : c'.nh = c.nh := by rw [hn.nh, hn'.nh]
  refine ⟨c, c', hc, hc', h, fun d1 e1 d2 e2 => ?_⟩
  have hnd : c.stack.Nodup := by rw [hst]; decide
  have hnd' : c'.stack.Nodup := by rw [hst']; decide
  -- the first simulation
  obtain ⟨A1, hs, hm1, -, -⟩ := ex_solve hn (mats := slabMats) slabN hnd fun r _ => slab_index r
  have hd1 : d1.mats = slabMats ∧ d1.isSolved = true ∧ d1.inter = (fun _ => none) ∧ d1.S = none := by
    have hr := hs.run (Dyn.fresh slabMats (unsolved c.nh)) rfl (.inl rfl)
    rw [e1]
    unfold afterCalls
    simp only [List.foldl_cons, List.foldl_nil, Call.after]
    unfold solve
    rw [PyM.bind_ok hr]
    exact ⟨rfl, rfl, rfl, rfl⟩
  -- the second
  have hcp : NoStale slabMats (attrsAs h.symm d1.attrs) c'.stack := by
    have := copiesOk_of_wellPlaced (mats := slabMats) (stack := c'.stack) (hst' ▸ slab_placed)
    exact this.noStale (by simp) hnd'
  obtain ⟨B1, res, hs', -⟩ := solveSpec_of_noStale (E := exE) hnd' hcp
  obtain ⟨hres, hm⟩ := exModes hn' hs' slabN hnd' fun r _ => slab_index r
  subst hres
  have hd2 : d2.attrs = B1 := by
    have hr := hs'.run (Dyn.fresh slabMats (attrsAs h.symm d1.attrs)) rfl (.inl rfl)
    rw [e2]
    unfold afterCalls
    simp only [List.foldl_cons, List.foldl_nil, Call.after]
    unfold solve
    rw [PyM.bind_ok hr]
    rfl
  have hf := hs'.fix hnd' rfl
  have hmod : ∀ r ∈ c'.stack, modesOf (slabMats r) (B1 r) = .ok (scal c'.omega (slabN r) (slabMats r).thickness) := by
    intro r hr
    rw [(hf r hr).form.modesD]
    congr 1
    unfold stackModes at hm
    exact List.map_inj_left.mp hm r hr
  have ho : c'.omega = 4 * Real.pi := by rw [hn'.omegaEq]; ring
  have key : ∀ r ∈ c'.stack, modesOf (slabMats r) (attrsAs h d2.attrs r) =
      .ok (scal ((4 * Real.pi : ℝ) : ℂ) (slabN r) (slabMats r).thickness) := by
    intro r hr
    refine attrsAs_modes h _ _ _ _ _ _ ?_
    rw [hd2, hmod r hr, ho]
  obtain ⟨k1, k2, k3, k4⟩ := hd1
  constructor
  · have := getS_three (E := exE) (d := { d1 with attrs := attrsAs h d2.attrs }) k2 k3 k4 hst
      (L0 := scal ((4 * Real.pi : ℝ) : ℂ) 1 (some 1)) (L1 := scal ((4 * Real.pi : ℝ) : ℂ) 2 (some (1 / 8)))
      (L2 := scal ((4 * Real.pi : ℝ) : ℂ) 1 (some 1))
      (by rw [k1]; exact (key 0 (by rw [hst']; decide)).trans (by simp [slabN, slabMats, exLayer]))
      (by rw [k1]; exact (key 1 (by rw [hst']; decide)).trans (by simp [slabN, slabMats, exLayer]))
      (by rw [k1]; exact (key 2 (by rw [hst']; decide)).trans (by simp [slabN, slabMats, exLayer]))
      short_step1 short_step2
    simp only [Call.result]
    rw [this]
    rfl
  · rw [e1, (C27_calls_do_not_depend_on_history hc _ _).1]
    simp only [Call.result]
    rw [ex_getS hn (mats := slabMats) slabN hnd fun r _ => slab_index r, hst, hn.omega]
    have h2 := slab_02 (m := Idx c.nh)
    simp only [slabModes] at h2
    simp [slabN, slabMats, exLayer]
    norm_num at h2 ⊢
    rw [h2]
    rfl

/-- The hypotheses of C69 on the grating in air: its layers may hold anything, and be used elsewhere before the
first call; after a use elsewhere in between, `reset()` gives the reflection coefficient 3/5 again. -/
example : ∃ c, simInit exE (fun _ => exLat) slabMats [0, 1, 2] exExc 1 "original" = .ok c ∧
    ∀ A B : ℕ → LayerAttr c.nh,
      Undisturbed exE c [.elsewhere B, .call (.getSMatrix none), .call (.diffractionEfficiencies true)]
        (Dyn.fresh slabMats A) ∧
      (Call.getSMatrix none).result exE c (afterShared exE c
        [.call .solve, .elsewhere B, .call (.getSMatrix none), .call (.reset "all"), .call (.diffractionEfficiencies true)]
        (Dyn.fresh slabMats A)) =
          .ok (.smatrix (sscal (4 * Complex.I / 5) (3 / 5) (3 / 5) (4 * Complex.I / 5))) := by
  obtain ⟨c, hc, hn, hst, -, -⟩ := slab_init
  have hnd : c.stack.Nodup := by rw [hst]; decide
  refine ⟨c, hc, fun A B => ⟨⟨.inl rfl, trivial⟩, ?_⟩⟩
  have := C69_reset_after_sharing hc slab_placed A [.call .solve, .elsewhere B, .call (.getSMatrix none)]
    [.call (.diffractionEfficiencies true)] trivial (.getSMatrix none)
  refine this.trans ?_
  simp only [Call.result]
  rw [ex_getS hn (mats := slabMats) slabN hnd fun r _ => slab_index r, hst, hn.omega]
  have h2 := slab_02 (m := Idx c.nh)
  simp only [slabModes] at h2
  simp [slabN, slabMats, exLayer]
  norm_num at h2 ⊢
  rw [h2]
  rfl

/-- Two simulations with the same settings: an interleaving in which both are solved twice. -/
example : ∃ c, simInit exE (fun _ => exLat) slabMats [0, 1, 2] exExc 1 "original" = .ok c ∧
    (Call.getSMatrix none).result exE c (TwoSims.afterAll exE c [(true, .solve), (false, .solve), (true, .getSMatrix none),
      (true, .solve), (false, .diffractionEfficiencies true)]
        ⟨Dyn.fresh slabMats (unsolved c.nh), Dyn.fresh slabMats (unsolved c.nh)⟩).second =
      (Call.getSMatrix none).result exE c (Dyn.fresh slabMats (unsolved c.nh)) := by
  obtain ⟨c, hc, -⟩ := slab_init
  exact ⟨c, hc, (C69_same_settings hc slab_placed _ _ _).2⟩

end Nannos
