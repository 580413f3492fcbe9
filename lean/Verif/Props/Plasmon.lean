import Verif.Props.Guided
import Verif.Proofs.Plasmon
import Verif.Props.Planar
import Verif.Examples.Planar

/-!
C98, the other side: fields which are never returned although the stack responds to the incoming wave in exactly one way.
-/

namespace Nannos

open Matrix Spec

section
variable {E : Ext} {lats : ℕ → Lattice} {mats : ℕ → LayerSpec} {stack : List ℕ} {exc : PlaneWave} {nh : ℤ} {form : String} {c : Static}
  (hinit : simInit E lats mats stack exc nh form = .ok c)
  {wl : ℝ} {ang : ℝ × ℝ × ℝ} (hp : planeWave wl ang = .ok exc) (hwl : 0 < wl)
  (h00 : ((0 : ℤ), (0 : ℤ)) ∈ c.harmonics)
  {e : ℝ} (hpos : 0 < e) {r0 : ℕ} (hr0 : stack.head? = some r0) (he : (mats r0).epsilon.value = e) (hm : (mats r0).mu = 1)
  {l r r' : ℕ} (hr : stack[l]? = some r) (hr' : stack[l + 1]? = some r') (hh : Homogeneous (mats r)) (hh' : Homogeneous (mats r'))
  (hZ : (filmP (2 * Real.pi / wl) (2 * Real.pi / wl * Real.sqrt e * Real.sin exc.theta) (mats r)).Z +
    (filmP (2 * Real.pi / wl) (2 * Real.pi / wl * Real.sqrt e * Real.sin exc.theta) (mats r')).Z = 0)
include hinit hp hwl h00 hpos hr0 he hm hr hr' hh hh' hZ

/-- C98: let the homogeneous layers `l` and `l + 1` have opposite impedances for the magnetic field parallel to the interfaces,
at the tangential wave number of the incoming wave: the condition for a surface plasmon. Whatever was called before,
`get_S_matrix((l, j))` fails for every `j > l`, and if `l` is an inner layer no field in it is ever returned. -/
theorem C98_field_missing_above_plasmon (hist : List (Call c.nh)) :
    (∀ j : ℕ, l < j → j < stack.length → ∀ S,
      (getS E c (some ((l : ℤ), (j : ℤ))) (afterCalls E c hist (Dyn.fresh mats (unsolved c.nh)))).1 ≠ .ok S) ∧
    (0 < l → ∀ (id : LayerId) zs Fs, getLayer c id = .ok (r, (l : ℤ)) →
      (getFieldFourier E c id zs (afterCalls E c hist (Dyn.fresh mats (unsolved c.nh)))).1 ≠ .ok Fs) := by
  have hi := simInit_ok hinit
  have hst : c.stack = stack := hi.stack_eq
  have hnd : c.stack.Nodup := hst ▸ hi.nodup
  have hg := good_sup hi (by rw [(planeWave_ok hp).2.1]; exact hwl) hr0 hm he hpos h00
  obtain ⟨i0, hi0⟩ := hg.idx
  obtain ⟨-, -, hkx, hky⟩ := hg.on i0 hi0
  obtain ⟨-, hwe, -, -, -, hk, hkv, -⟩ := planeWave_ok hp
  have hom : c.omega = 2 * Real.pi / wl := by rw [hg.omk, hwe]; ring
  have huv : ((Real.cos exc.phi : ℝ) : ℂ) ^ 2 + ((Real.sin exc.phi : ℝ) : ℂ) ^ 2 = 1 := by
    exact_mod_cast Real.cos_sq_add_sin_sq exc.phi
  have hx : c.kx i0 = ((c.omega * Real.sqrt e * Real.sin exc.theta : ℝ) : ℂ) * ((Real.cos exc.phi : ℝ) : ℂ) := by
    rw [hkx, hkv, hk, hom]
    simp only [cons_val_zero]
    push_cast; ring
  have hy : c.ky i0 = ((c.omega * Real.sqrt e * Real.sin exc.theta : ℝ) : ℂ) * ((Real.sin exc.phi : ℝ) : ℂ) := by
    rw [hky, hkv, hk, hom]
    simp only [cons_val_one, cons_val_zero]
    push_cast; ring
  rw [← hom] at hZ
  subst hst
  obtain ⟨A1, res, hs, -⟩ := solveSpec_of_noStale (E := E) (mats := mats) hnd
    (noStale_unsolved (c := c) mats c.stack)
  have h0 : Inv E c mats (unsolved c.nh) A1 res (Dyn.fresh mats (unsolved c.nh)) := inv_fresh _ (.inl rfl)
  have h1 := h0.calls hs hist
  generalize afterCalls E c hist (Dyn.fresh mats (unsolved c.nh)) = d at h1
  have key : ∀ j : ℕ, l < j → j < c.stack.length → ∀ S, valS c mats A1 res (some ((l : ℤ), (j : ℤ))) ≠ .ok S := by
    intro j hj hj' S hS
    obtain rfl := valS_ok hS
    have hfix := hs.fix hnd rfl
    rw [valS_solved hfix] at hS
    exact plasmon_loop hfix huv hx hy hr hr' hh hh' hZ hj hj' (freshS_ok.mp hS).2
  have hl := (List.getElem?_eq_some_iff.mp hr').1
  refine ⟨fun j hj hj' S => ?_, fun hl0 id zs Fs hid hF => ?_⟩
  · rw [(det_getS' hs _ d h1).1]
    exact key j hj hj' S
  · obtain ⟨-, -, r1, i1, ab, g1, g2, -⟩ := yields_getFieldFourier hs id zs d Fs _ h1 (Prod.ext hF rfl)
    rw [hid] at g1
    obtain ⟨rfl, rfl⟩ := Prod.mk.inj (Except.ok.inj g1)
    obtain ⟨-, ⟨e0, -⟩ | ⟨-, e0, -⟩ | ⟨-, -, -, S, P, -, hP, -⟩⟩ := g2
    · omega
    · omega
    · rw [show ((c.stack.length : ℤ) - 1) = ((c.stack.length - 1 : ℕ) : ℤ) from by omega] at hP
      exact key _ (by omega) (by omega) P hP

end

/-- Solving a stack of homogeneous layers which has returned efficiencies. -/
theorem planar_solved {E : Ext} {lats : ℕ → Lattice} {mats : ℕ → LayerSpec} {stack : List ℕ} {exc : PlaneWave} {nh : ℤ} {form : String}
    {c : Static} (hinit : simInit E lats mats stack exc nh form = .ok c) (hh : ∀ r ∈ stack, Homogeneous (mats r))
    (hRT : ∃ RT, (efficienciesByOrder E c (Dyn.fresh mats (unsolved c.nh))).1 = .ok RT) :
    ∃ d1, solve E c (Dyn.fresh mats (unsolved c.nh)) = (.ok (), d1) ∧
      ∀ r ∈ stack, ∀ ev, (d1.attrs r).eig = some ev → ev.2 = 1 := by
  have hi := simInit_ok hinit
  have hst : c.stack = stack := hi.stack_eq
  have hnd : c.stack.Nodup := hst ▸ hi.nodup
  obtain ⟨A1, res, hs, -⟩ := solveSpec_of_noStale (E := E) (mats := mats) hnd
    (noStale_unsolved (c := c) mats c.stack)
  obtain ⟨RT, hRT⟩ := hRT
  have h0 : Inv E c mats (unsolved c.nh) A1 res (Dyn.fresh mats (unsolved c.nh)) := inv_fresh _ (.inl rfl)
  obtain ⟨-, S, _, _, _, _, _, _, hS, -⟩ := yields_efficiencies hs (Dyn.fresh mats (unsolved c.nh)) RT _ h0 (Prod.ext hRT rfl)
  obtain rfl := valS_ok hS
  have hfix := hs.fix hnd rfl
  have hrun := hs.run (Dyn.fresh mats (unsolved c.nh)) rfl (.inl rfl)
  subst hst
  have hsol : solve E c (Dyn.fresh mats (unsolved c.nh)) =
      (.ok (), { Dyn.fresh mats (unsolved c.nh) with attrs := A1, isSolved := true }) := by
    unfold solve
    rw [PyM.bind_ok hrun]
    rfl
  refine ⟨_, hsol, ?_⟩
  · intro r hr ev hev
    have hm := (hfix r hr).form.modesD
    have := (planarModes (hfix r hr) (hh r hr) hm).phi
    have hev' : (A1 r).eig = some ev := hev
    unfold modesD at this
    rw [hev'] at this
    exact this

namespace Examples

/-- A prism, a gap of air and a metal. -/
noncomputable def ottoMats (r : ℕ) : LayerSpec :=
  filmMats (fun r => if r = 0 then ((8 / 3 : ℝ) : ℂ) else if r = 1 then 1 else -2) (fun _ => 1) (fun _ => 1) r

theorem ottoMats_mu (r : ℕ) : (ottoMats r).mu = 1 := rfl

theorem ottoMats_eps : (ottoMats 0).epsilon.value = ((8 / 3 : ℝ) : ℂ) ∧ (ottoMats 1).epsilon.value = 1 ∧
    (ottoMats 2).epsilon.value = -2 := by
  refine ⟨?_, ?_, ?_⟩ <;> simp [ottoMats, filmMats_eps]

theorem otto_Z {w s : ℝ} (hw : 0 < w) (hs : s ^ 2 = 3 / 4) :
    (filmP w (w * Real.sqrt (8 / 3) * s) (ottoMats 1)).Z + (filmP w (w * Real.sqrt (8 / 3) * s) (ottoMats 2)).Z = 0 := by
  have hk : ((w * Real.sqrt (8 / 3) * s : ℝ) : ℂ) ^ 2 = ((2 * w ^ 2 : ℝ) : ℂ) := by
    rw [← Complex.ofReal_pow]
    congr 1
    rw [mul_pow, mul_pow, hs, Real.sq_sqrt (by norm_num)]
    ring
  have hw2 : 0 < w ^ 2 := by positivity
  have e1 : Spec.normalK w (w * Real.sqrt (8 / 3) * s) (ottoMats 1) = Complex.I * (w : ℝ) := by
    unfold Spec.normalK
    rw [ottoMats_eps.2.1, ottoMats_mu, hk, show (1 : ℂ) * 1 * (w : ℂ) ^ 2 - ((2 * w ^ 2 : ℝ) : ℂ) = ((-(w ^ 2) : ℝ) : ℂ) from by
      push_cast; ring, csqrt_neg_ofReal (by linarith), neg_neg, Real.sqrt_sq hw.le]
  have e2 : Spec.normalK w (w * Real.sqrt (8 / 3) * s) (ottoMats 2) = Complex.I * ((2 * w : ℝ) : ℂ) := by
    unfold Spec.normalK
    rw [ottoMats_eps.2.2, ottoMats_mu, hk, show (-2 : ℂ) * 1 * (w : ℂ) ^ 2 - ((2 * w ^ 2 : ℝ) : ℂ) = ((-((2 * w) ^ 2) : ℝ) : ℂ) from by
      push_cast; ring, csqrt_neg_ofReal (by nlinarith), neg_neg, Real.sqrt_sq (by linarith)]
  simp only [filmP, e1, e2, ottoMats_eps.2.1, ottoMats_eps.2.2]
  push_cast
  ring

end Examples

open Examples in
/-- C98 is false as stated: a prism of permittivity `8/3`, a gap of air and a metal of permittivity `-2`, a wave incident at
60 degrees with any polarisation. Whatever was called before, the efficiencies are returned, and the stack supports no wave
by itself, so it responds in exactly one way; but no field in the gap is ever returned and `get_S_matrix((1, 2))` raises
`LinAlgError`. -/
theorem C98_otto_counterexample (ps : ℝ) : ∃ (exc : PlaneWave) (c : Static), planeWave 1 (60, 0, ps) = .ok exc ∧
    simInit exE (fun _ => exLat) ottoMats [0, 1, 2] exc 1 "original" = .ok c ∧ EigContract exE ∧ ArgsortContract exE.argsort ∧
    (∃ d1 Ls, solve exE c (Dyn.fresh ottoMats (unsolved c.nh)) = (.ok (), d1) ∧
      List.Forall₂ (fun r L => modesOf (ottoMats r) (d1.attrs r) = .ok L) [0, 1, 2] Ls ∧
      (∀ k, 0 < k → k ≤ 2 → ¬GuidedWave Ls 0 k) ∧ GuidedWave Ls 1 2) ∧
    ∀ hist : List (Call c.nh),
      (∃ RT, (efficienciesByOrder exE c (afterCalls exE c hist (Dyn.fresh ottoMats (unsolved c.nh)))).1 = .ok RT) ∧
      (getS exE c (some (1, 2)) (afterCalls exE c hist (Dyn.fresh ottoMats (unsolved c.nh)))).1 = .error .linAlgError ∧
      getLayer c (.idx 1) = .ok (1, 1) ∧
      ∀ zs Fs, (getFieldFourier exE c (.idx 1) zs (afterCalls exE c hist (Dyn.fresh ottoMats (unsolved c.nh)))).1 ≠ .ok Fs := by
  obtain ⟨exc, hp, hsin, hcos, -⟩ := oblique_wave 1 0 ps one_pos
  obtain ⟨c, hinit, hharm, hlat⟩ := planar_init ottoMats 0 [1, 2] exc (by simp [ottoMats, filmMats, exLayer]) (fun r _ => rfl)
    (filmMats_hom _ _ _ _) (by rw [ottoMats_eps.1, ottoMats_mu]; norm_num)
  have hi := simInit_ok hinit
  have hst : c.stack = [0, 1, 2] := hi.stack_eq
  have h00 : ((0 : ℤ), (0 : ℤ)) ∈ c.harmonics := by rw [hharm]; simp
  have hpos : (0 : ℝ) < 8 / 3 := by norm_num
  have hmu : ∀ r ∈ [0, 1, 2], (ottoMats r).mu = 1 := fun r _ => rfl
  have hw : WellPlaced ottoMats [0, 1, 2] := fun k r _ hc => by cases hc
  have hhom : ∀ r, Homogeneous (ottoMats r) := fun r => filmMats_hom _ _ _ _
  have hg := good_sup hi (by rw [(planeWave_ok hp).2.1]; exact one_pos) rfl rfl ottoMats_eps.1 hpos h00
  have hZ := otto_Z (w := 2 * Real.pi / 1) (s := Real.sin exc.theta) (by positivity) hsin
  have hc0 : 0 < Real.cos exc.theta := by rw [hcos]; norm_num
  have heff : ∀ hist : List (Call c.nh),
      ∃ RT, (efficienciesByOrder exE c (afterCalls exE c hist (Dyn.fresh ottoMats (unsolved c.nh)))).1 = .ok RT := by
    refine C80_planar_defined hinit (fun r _ => hhom r) hp one_pos hc0 h00 hpos rfl ottoMats_eps.1 rfl exSort_spec
      (by rw [hlat]; rfl) (by simp) hmu ?_ ?_ ?_
    · intro r hr
      obtain ⟨e0, e1, e2⟩ := ottoMats_eps
      simp only [List.mem_cons, List.not_mem_nil, or_false] at hr
      rcases hr with rfl | rfl | rfl
      · rw [e0]; norm_num
      · rw [e1]; norm_num
      · rw [e2]; norm_num
    · intro r hr
      obtain ⟨e0, e1, e2⟩ := ottoMats_eps
      simp only [List.mem_cons, List.not_mem_nil, or_false] at hr
      rcases hr with rfl | rfl | rfl
      · rw [e0, hsin]; norm_num
      · rw [e1, hsin]; norm_num
      · rw [e2, hsin]; norm_num
    · intro k r h1 h2 hr
      obtain rfl : k = 1 := by simp at h2; omega
      obtain rfl : 1 = r := by simpa using hr
      rw [ottoMats_eps.2.1]
      refine ⟨by norm_num, fun t ht => ?_⟩
      obtain rfl : (1 : ℝ) = t := by simpa [ottoMats, filmMats_d] using ht
      exact zero_le_one
  obtain ⟨d1, hsolve, hone⟩ := planar_solved hinit (fun r _ => hhom r) (heff [])
  have hdet : ∀ r ∈ [0, 1, 2], ∀ ev, (d1.attrs r).eig = some ev → ev.2.det ≠ 0 := fun r hr ev hev => by
    rw [hone r hr ev hev, det_one]; exact one_ne_zero
  obtain ⟨A1, hA, hs, hfix, f1, f2, f3⟩ := solved_run hinit exE_eig hw hmu hg.omega.ne' hsolve hdet
  have hpl := fun hist => C98_field_missing_above_plasmon hinit hp one_pos h00 hpos rfl ottoMats_eps.1 rfl (l := 1) (r := 1) (r' := 2) rfl rfl
    (hhom 1) (hhom 2) hZ hist
  have h0 : Inv exE c ottoMats (unsolved c.nh) A1 (.ok ()) (Dyn.fresh ottoMats (unsolved c.nh)) := inv_fresh _ (.inl rfl)
  obtain ⟨RT, hRT⟩ := heff []
  obtain ⟨-, S, _, _, _, _, _, _, hS, -⟩ := yields_efficiencies hs (Dyn.fresh ottoMats (unsolved c.nh)) RT _ h0 (Prod.ext hRT rfl)
  rw [valS_none, show ((c.stack.length : ℤ) - 1) = ((2 : ℕ) : ℤ) from by rw [hst]; rfl] at hS
  obtain ⟨q02, g02⟩ := ((f3 0 2 (by norm_num) (by simp)).1).mp ⟨S, hS⟩
  have hno : ∀ S, valS c ottoMats A1 (.ok ()) (some (((1 : ℕ) : ℤ), ((2 : ℕ) : ℤ))) ≠ .ok S := by
    intro S h
    refine (hpl []).1 2 (by norm_num) (by simp) S ?_
    rw [(det_getS' hs _ _ (h0.calls hs [])).1]
    exact h
  have q12 : ∀ (k : ℕ) (L : Modes (Idx c.nh)), 1 ≤ k → k ≤ 2 → (stackModes c ottoMats A1)[k]? = some L → ∀ p, L.q p ≠ 0 :=
    fun k L _ h2 hk => q02 k L (Nat.zero_le _) h2 hk
  have g12 : GuidedWave (stackModes c ottoMats A1) 1 2 := by
    by_contra hcon
    obtain ⟨S, hS⟩ := ((f3 1 2 (by norm_num) (by simp)).1).mpr ⟨q12, fun k h1 h2 => by
      obtain rfl : k = 2 := by omega
      exact hcon⟩
    exact hno S hS
  have hgl : getLayer c (.idx 1) = .ok (1, 1) := by
    have : pyGet c.stack 1 = .ok 1 := by rw [hst]; rfl
    unfold getLayer
    simp only [this, except_bind_ok]
    rfl
  refine ⟨exc, c, hp, hinit, exE_eig, exSort_spec, ⟨d1, _, hsolve, f1, fun k h1 h2 => g02 k h1 h2, g12⟩, fun hist =>
    ⟨heff hist, ?_, hgl, fun zs Fs => (hpl hist).2 one_pos (.idx 1) zs Fs hgl⟩⟩
  rw [(det_getS' hs _ _ (h0.calls hs hist)).1]
  exact (f3 1 2 (by norm_num) (by simp)).2 q12 ⟨2, by norm_num, le_rfl, g12⟩

open Examples in
/-- C97, C98: a slab of index 2 in air has all the scattering matrices, so no part of it supports a wave by itself. (For a part
which does, see `C98_otto_counterexample`.) -/
example : ∃ (c : Static) (d1 : Dyn c.nh) (Ls : List (Modes (Idx c.nh))),
    simInit exE (fun _ => exLat) slabMats [0, 1, 2] exExc 1 "original" = .ok c ∧ EigContract exE ∧
    WellPlaced slabMats [0, 1, 2] ∧ c.omega ≠ 0 ∧ c.incidentFlux ≠ 0 ∧
    solve exE c (Dyn.fresh slabMats (unsolved c.nh)) = (.ok (), d1) ∧
    (∀ r ∈ [0, 1, 2], ∀ ev, (d1.attrs r).eig = some ev → ev.2.det ≠ 0) ∧
    List.Forall₂ (fun r L => modesOf (slabMats r) (d1.attrs r) = .ok L) [0, 1, 2] Ls ∧
    (∀ L ∈ Ls, ∀ p, L.q p ≠ 0) ∧ ∀ i k, i < k → k < 3 → ¬GuidedWave Ls i k := by
  obtain ⟨c, hc, hn, hst, -, hfl⟩ := slab_init
  have hi := simInit_ok hc
  have hnd : c.stack.Nodup := by rw [hst]; decide
  obtain ⟨A1, res, hs, -⟩ := solveSpec_of_noStale (E := exE) (mats := slabMats) hnd
    (noStale_unsolved (c := c) slabMats c.stack)
  obtain ⟨hres, hmodes, v02, v01, v12⟩ := slab_solved hn hst hs
  subst hres
  have hfix := hs.fix hnd rfl
  have hrun := hs.run (Dyn.fresh slabMats (unsolved c.nh)) rfl (.inl rfl)
  have hsol : solve exE c (Dyn.fresh slabMats (unsolved c.nh)) =
      (.ok (), { Dyn.fresh slabMats (unsolved c.nh) with attrs := A1, isSolved := true }) := by
    unfold solve
    rw [PyM.bind_ok hrun]
    rfl
  have hom : c.omega ≠ 0 := hn.omega_pos.ne'
  have hmem : ∀ r ∈ [0, 1, 2], modesD (slabMats r) (A1 r) ∈ slabModes (Idx c.nh) := by
    intro r hr
    rw [← hmodes]
    exact List.mem_map.mpr ⟨r, by rw [hst]; exact hr, rfl⟩
  have hdet : ∀ r ∈ [0, 1, 2], ∀ ev, (A1 r).eig = some ev → ev.2.det ≠ 0 := by
    intro r hr ev hev
    have h1 := hmem r hr
    have h2 : (modesD (slabMats r) (A1 r)).phi = 1 := by
      unfold slabModes at h1
      simp only [List.mem_cons, List.not_mem_nil, or_false] at h1
      rcases h1 with h | h | h <;> rw [h] <;> rfl
    have h3 : ev.2 = 1 := by
      unfold modesD at h2
      rw [hev] at h2
      exact h2
    rw [h3, det_one]
    exact one_ne_zero
  obtain ⟨B, hB, hs', -, f1, f2, f3⟩ := solved_run hc exE_eig slab_placed (fun r _ => slab_mu r) hom hsol hdet
  obtain rfl : A1 = B := hB
  rw [valS_none, hst] at v02
  have g02 := ((f3 0 2 (by norm_num) (by simp)).1).mp ⟨_, v02⟩
  have g12 := ((f3 1 2 (by norm_num) (by simp)).1).mp ⟨_, v12⟩
  refine ⟨c, _, _, hc, exE_eig, slab_placed, hom, by rw [hfl]; exact one_ne_zero, hsol, hdet, f1, ?_, ?_⟩
  · intro L hL
    obtain ⟨k, hk⟩ := List.mem_iff_getElem?.mp hL
    have := (List.getElem?_eq_some_iff.mp hk).1
    rw [stackModes_length, hst] at this
    exact g02.1 k L (Nat.zero_le _) (by simp at this; omega) hk
  · intro i k h1 h2
    rcases (by omega : i = 0 ∨ i = 1) with rfl | rfl
    · exact g02.2 k h1 (by omega)
    · exact g12.2 k h1 (by omega)

end Nannos
