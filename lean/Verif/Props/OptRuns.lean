import Verif.Props.GeneratorOrders

/-! # C64 with the default generator of the code, search included -/

namespace Nannos

open Matrix Spec

variable {E : Ext} {c c' : Static} {mats mats' : ℕ → LayerSpec}

/-- The generators of the code, for orders in opposite pairs below half the numbers of pixels. -/
noncomputable def guarded (ty : String) (w : PGrid) (H : List (ℤ × ℤ)) (b : Bool) : Except PyErr Field2 := open Classical in
  if BalancedOrders H w.Nx w.Ny then tangentGenerator (optFit newtonCG) ty w H b else .error .unmodelled

/-- The orders for which vectors are generated are distinct and come in opposite pairs. -/
theorem asked_pairs (hS : ArgsortContract E.argsort) {lats stack exc nh form}
    (hinit : simInit E lats mats stack exc nh form = .ok c) (hu : c.lattice.harmonicsArray = none)
    (ht : c.lattice.truncation = .circular ∨ c.lattice.truncation = .parallelogrammic)
    {H m} (hH : c.lattice.getHarmonics E.argsort c.nh true = .ok (H, m)) : H.Nodup ∧ ∀ g ∈ H, (-g.1, -g.2) ∈ H := by
  have hi := simInit_ok hinit
  obtain ⟨r, hr, -⟩ := hi.recip
  have he : 1 ≤ (c.nh : ℤ) := by
    obtain ⟨M, hM, -⟩ := checkNyquist_ok hi.nyquist
    obtain ⟨g, hg, -⟩ := maxHarmonic_mem hM
    have : 0 < c.nh := List.length_pos_of_mem hg
    omega
  rcases ht with ht | ht
  · obtain ⟨H', m', k1, -, -, k2, -, k3, -⟩ := C07_circular_truncation E.argsort hS c.lattice ht hu r hr _ he true
    obtain ⟨rfl, -⟩ := Prod.mk.inj (Except.ok.inj (hH.symm.trans k1))
    exact ⟨k2, k3⟩
  · have hind : LinearIndependent ℝ c.lattice.basis := (det_ne_zero_iff c.lattice).mp (reciprocal_ok.mp hr).1
    obtain ⟨H', m', M, k1, -, -, -, k3, k2, -⟩ := C06_parallelogrammic_truncation E.argsort hS c.lattice ht hu hind _ he true
    obtain ⟨rfl, -⟩ := Prod.mk.inj (Except.ok.inj (hH.symm.trans k1))
    exact ⟨k2, fun g hg => by rw [k3] at hg ⊢; simpa using hg⟩

/-- The patterns have more than twice as many pixels along each side as the orders for which vectors are generated. -/
def Spec.EnoughPixels (E : Ext) (c : Static) (mats : ℕ → LayerSpec) : Prop :=
  ∀ H m, c.lattice.getHarmonics E.argsort c.nh true = .ok (H, m) → ∀ r ∈ c.stack, ∀ w, patternOf (mats r) = .ok w →
    ∀ g ∈ H, 2 * |g.1| < w.Nx ∧ 2 * |g.2| < w.Ny

theorem results_guarded (hS : ArgsortContract E.argsort) {lats stack exc nh form}
    (hinit : simInit E lats mats stack exc nh form = .ok c) (hu : c.lattice.harmonicsArray = none)
    (ht : c.lattice.truncation = .circular ∨ c.lattice.truncation = .parallelogrammic) (hp : EnoughPixels E c mats)
    (hist : List (Call c.nh)) (a : Call c.nh) :
    a.result (E.regen guarded) c (afterCalls (E.regen guarded) c hist (Dyn.fresh mats (unsolved c.nh))) =
      a.result (E.withGenerators (optFit newtonCG)) c
        (afterCalls (E.withGenerators (optFit newtonCG)) c hist (Dyn.fresh mats (unsolved c.nh))) := by
  refine results_asked (E := E.withGenerators (optFit newtonCG)) (t := guarded) (fun r hr w H m hw hH _ => ?_) hist a
  obtain ⟨h1, h2⟩ := asked_pairs hS hinit hu ht hH
  unfold guarded
  rw [if_pos ⟨h1, h2, hp H m hH r hr w hw⟩]
  rfl

theorem guarded_moves {u v : ℝ} {stack : List ℕ} (hm : ∀ r ∈ stack, PatternMoved 1 1 u v (mats r) (mats' r))
    (ha : AskOptInside mats stack) (ha' : AskOptInside mats' stack) :
    GeneratorMoves 1 1 u v (E.regen guarded) mats mats' stack := by
  intro r hr ht w w' H nrm t t' hw hw' hg h1 h2
  have ht' : (mats' r).tangentField = none := by
    rcases (hm r hr).vectors with ⟨-, k⟩ | ⟨s, s', k, -⟩
    · exact k
    · rw [ht] at k; simp at k
  obtain ⟨e, hc⟩ := ha r hr ht
  obtain ⟨e', hc'⟩ := ha' r hr ht'
  obtain ⟨hc, b1, b2⟩ := hc w hw
  obtain ⟨hc', -, -⟩ := hc' w' hw'
  rw [e] at h1 h2
  simp only [guarded] at h1 h2
  by_cases hB : BalancedOrders H w.Nx w.Ny
  swap
  · rw [if_neg hB] at h1
    cases h1
  rw [if_pos hB] at h1
  obtain ⟨Mx, My, b, b', sx, sy, rfl, rfl, hs, hb⟩ := id hg
  rw [if_pos hB] at h2
  change tangentOpt (optFit newtonCG) _ H nrm = .ok t at h1
  change tangentOpt (optFit newtonCG) _ H nrm = .ok t' at h2
  have hsh := (tangentOpt_ok h1).1
  have hxy : Mx = My := by
    unfold OptShape at hsh
    dsimp only at hsh b1 b2
    omega
  subst hxy
  have h0 : ∃ x y, b x y ≠ 0 := by
    by_contra h0
    push Not at h0
    obtain ⟨e, he⟩ := (C71_shapes (optFit newtonCG) b H nrm).2.2.2.2 h0
    exact absurd (h1.symm.trans he) (by simp)
  obtain ⟨s, s', k1, k2, k3⟩ := C106_displacement_default b1 hsh h0 hc hc' hg hB nrm
  rw [h1] at k1
  rw [h2] at k2
  cases k1
  cases k2
  exact k3

theorem map_ok_iff {α β : Type} {f : α → β} (hf : Function.Injective f) {x y : Except PyErr α} (h : x.map f = y.map f) : x = y := by
  rcases x with x | x <;> rcases y with y | y <;> simp only [Except.map, Except.error.injEq, Except.ok.injEq, reduceCtorEq] at h
  · rw [h]
  · rw [hf h]

/-- **C64**, with the default generator of the code, nothing assumed of its search. As `C64_lateral_displacement`, for layers which
ask the generator `'opt'` and patterns of at most 64 pixels a side which, before and after the displacement, do not reach the border
of the cell, with the orders of a truncation. -/
theorem C64_lateral_displacement_default (hE : EigContract E) (hS : ArgsortContract E.argsort) {u v : ℝ}
    {lats : ℕ → Lattice} {stack : List ℕ} {wl : ℝ} {angles : ℝ × ℝ × ℝ} {exc : PlaneWave}
    {nh : ℤ} {form : String} (hexc : planeWave wl angles = .ok exc)
    (hinit : simInit (E.withGenerators (optFit newtonCG)) lats mats stack exc nh form = .ok c)
    (hinit' : simInit (E.withGenerators (optFit newtonCG)) lats mats' stack exc nh form = .ok c')
    (hm : ∀ r ∈ stack, PatternMoved 1 1 u v (mats r) (mats' r)) (hsq : SquareTensors form mats stack)
    (ha : AskOptInside mats stack) (ha' : AskOptInside mats' stack)
    (hu : c.lattice.harmonicsArray = none)
    (ht : c.lattice.truncation = .circular ∨ c.lattice.truncation = .parallelogrammic)
    (hp : EnoughPixels E c mats) (hp' : EnoughPixels E c' mats')
    (hw : WellPlaced mats stack) (hw' : WellPlaced mats' stack) (hmu : ∀ r ∈ stack, (mats r).mu = 1)
    (hnd : c.harmonics.Nodup) (hzero : ((0 : ℤ), (0 : ℤ)) ∈ c.harmonics)
    (hist : List (Call c.nh)) (hist' : List (Call c'.nh)) :
    (∀ orders X X',
      (diffractionEfficiencies (E.withGenerators (optFit newtonCG)) c orders
        (afterCalls (E.withGenerators (optFit newtonCG)) c hist (Dyn.fresh mats (unsolved c.nh)))).1 = .ok X →
      (diffractionEfficiencies (E.withGenerators (optFit newtonCG)) c' orders
        (afterCalls (E.withGenerators (optFit newtonCG)) c' hist' (Dyn.fresh mats' (unsolved c'.nh)))).1 = .ok X' →
      EfficienciesAlong id c c' X X') ∧
    ∀ layer zs Fs Fs',
      (getFieldFourier (E.withGenerators (optFit newtonCG)) c layer zs
        (afterCalls (E.withGenerators (optFit newtonCG)) c hist (Dyn.fresh mats (unsolved c.nh)))).1 = .ok Fs →
      (getFieldFourier (E.withGenerators (optFit newtonCG)) c' layer zs
        (afterCalls (E.withGenerators (optFit newtonCG)) c' hist' (Dyn.fresh mats' (unsolved c'.nh)))).1 = .ok Fs' →
      List.Forall₂ (FieldsAlong id (displacementPhase u v) 1 c c') Fs Fs' := by
  have hi : simInit E lats mats stack exc nh form = .ok c := hinit
  have hi' : simInit E lats mats' stack exc nh form = .ok c' := hinit'
  have hlat : c'.lattice = c.lattice := by
    obtain ⟨r0, tl, hs⟩ := List.exists_cons_of_ne_nil (simInit_ok hi).ne
    rw [(simInit_ok hi').lat_eq r0 (by rw [hs]; rfl), (simInit_ok hi).lat_eq r0 (by rw [hs]; rfl)]
    have := (hm r0 (by rw [hs]; exact List.mem_cons_self)).same
    rw [this]
  have A := results_guarded hS hi hu ht hp hist
  have A' := results_guarded hS hi' (by rw [hlat]; exact hu) (by rw [hlat]; exact ht) hp' hist'
  obtain ⟨k1, k2⟩ := C64_lateral_displacement (E := E.regen guarded) hE hexc hi hi' hm hsq hw hw' hmu hnd hzero
    (fun _ => guarded_moves hm ha ha') hist hist'
  refine ⟨fun o X X' hX hX' => k1 o X X' ?_ ?_, fun l z F F' hF hF' => k2 l z F F' ?_ ?_⟩
  · rw [← hX]
    exact map_ok_iff (fun _ _ h => by cases h; rfl) (A (.diffractionEfficiencies o))
  · rw [← hX']
    exact map_ok_iff (fun _ _ h => by cases h; rfl) (A' (.diffractionEfficiencies o))
  · rw [← hF]
    exact map_ok_iff (fun _ _ h => by cases h; rfl) (A (.getFieldFourier l z))
  · rw [← hF']
    exact map_ok_iff (fun _ _ h => by cases h; rfl) (A' (.getFieldFourier l z))

end Nannos

namespace Nannos.Examples

open Matrix Spec

theorem enough_nine {x0 : ℕ} {exc : PlaneWave} {c : Static}
    (h : simInit (exE.withGenerators (optFit newtonCG)) (fun _ => cell) (gridMats "opt" (dotSquare x0)) [0, 1, 2] exc 9 "jones" = .ok c)
    (h1 : ∀ g, g ∈ c.harmonics ↔ |g.1| ≤ 1 ∧ |g.2| ≤ 1) (h2 : c.lattice = cell) :
    EnoughPixels exE c (gridMats "opt" (dotSquare x0)) := by
  intro H m hH r hr w hw g hg
  obtain ⟨n, hn⟩ := (simInit_ok h).harm
  obtain ⟨n', hn'⟩ := getHarmonics_again exSort_spec (by rw [h2]; simp [cell]) hn
  obtain ⟨rfl, -⟩ := Prod.mk.inj (Except.ok.inj (hH.symm.trans hn'))
  have hb := (h1 g).mp hg
  by_cases hr1 : r = 1
  · subst hr1
    rw [patternOf_grid _ _ (by decide)] at hw
    obtain rfl := Except.ok.inj hw
    dsimp only
    omega
  · exfalso
    simp [patternOf, gridMats, hr1, exLayer, NdArr.scalar, NdArr.toGrid, LayerSpec.isAnisotropic, isAnisotropic] at hw

/-- C64 with the default generator and its search: nine orders, oblique incidence, a displaced dot. -/
example : ∃ exc c c', planeWave 1 (60, 30, 45) = .ok exc ∧
    simInit (exE.withGenerators (optFit newtonCG)) (fun _ => cell) (gridMats "opt" (dotSquare 2)) [0, 1, 2] exc 9 "jones" = .ok c ∧
    simInit (exE.withGenerators (optFit newtonCG)) (fun _ => cell) (gridMats "opt" (dotSquare 3)) [0, 1, 2] exc 9 "jones" = .ok c' ∧
    (∀ r ∈ [0, 1, 2], PatternMoved 1 1 (1 / 8) 0 (gridMats "opt" (dotSquare 2) r) (gridMats "opt" (dotSquare 3) r)) ∧
    AskOptInside (gridMats "opt" (dotSquare 2)) [0, 1, 2] ∧ AskOptInside (gridMats "opt" (dotSquare 3)) [0, 1, 2] ∧
    c.lattice.harmonicsArray = none ∧ c.lattice.truncation = .parallelogrammic ∧
    EnoughPixels exE c (gridMats "opt" (dotSquare 2)) ∧ EnoughPixels exE c' (gridMats "opt" (dotSquare 3)) ∧
    WellPlaced (gridMats "opt" (dotSquare 2)) [0, 1, 2] ∧ WellPlaced (gridMats "opt" (dotSquare 3)) [0, 1, 2] ∧
    (∀ r ∈ [0, 1, 2], (gridMats "opt" (dotSquare 2) r).mu = 1) ∧ c.harmonics.Nodup ∧ ((0 : ℤ), (0 : ℤ)) ∈ c.harmonics ∧
    UsesGenerator "jones" c.lattice.is1D (gridMats "opt" (dotSquare 2)) [0, 1, 2] := by
  obtain ⟨exc, h1⟩ := oblique 1 30 45 one_pos
  obtain ⟨c, h3, h4, h5, h6⟩ := grid_init (E := exE.withGenerators (optFit newtonCG)) exSort_spec "opt" (dotSquare 2) (by decide) exc
  obtain ⟨c', h3', h4', h5', h6'⟩ := grid_init (E := exE.withGenerators (optFit newtonCG)) exSort_spec "opt" (dotSquare 3) (by decide) exc
  exact ⟨exc, c, c', h1, h3, h3', fun r _ => gridMats_movedSquare "opt" r,
    gridMats_askOpt (dotSquare_clear 2 (by norm_num) (by norm_num)),
    gridMats_askOpt (dotSquare_clear 3 (by norm_num) (by norm_num)), by rw [h6]; rfl, by rw [h6]; rfl,
    enough_nine h3 h5 h6, enough_nine h3' h5' h6', gridMats_placed _ _, gridMats_placed _ _,
    fun r _ => (gridMats_cases _ _ r).2.1, h4, (h5 _).mpr (by simp), by decide, by simp, 1, by simp, rfl⟩

end Nannos.Examples
