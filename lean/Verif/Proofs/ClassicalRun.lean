import Verif.Proofs.Classical

/-! Efficiencies and fields of one simulation (C90). -/

namespace Nannos

open Matrix Spec

variable {E : Ext} {lats : ℕ → Lattice} {mats : ℕ → LayerSpec} {stack : List ℕ} {wl : ℝ} {ang : ℝ × ℝ × ℝ}
  {exc : PlaneWave} {nh : ℤ} {form : String} {c : Static}

theorem eff_field (hi : simInit E lats mats stack exc nh form = .ok c) {hist hist' : List (Call c.nh)} {RT id z F}
    (h : (efficienciesByOrder E c (afterCalls E c hist (Dyn.fresh mats (unsolved c.nh)))).1 = .ok RT)
    (h' : (getFieldFourier E c id [z] (afterCalls E c hist' (Dyn.fresh mats (unsolved c.nh)))).1 = .ok [F]) :
    ∃ A, (∀ r ∈ c.stack, LayerFix E c mats A r) ∧ EffV c mats A (.ok ()) RT ∧ ∃ r j ab,
      getLayer c id = .ok (r, j) ∧ AmpV c mats A (.ok ()) j ab ∧ fieldAt c (mats r) (A r) ab.1 ab.2 z = .ok F := by
  have hnd : c.stack.Nodup := (simInit_ok hi).nodup
  obtain ⟨A, res, hs, -⟩ := solveSpec_of_noStale (E := E) hnd (noStale_unsolved mats c.stack)
  have hinv := fun l => Inv.calls hs l (inv_fresh _ (.inl rfl))
  have hv := yields_efficiencies hs _ RT _ (hinv hist) (Prod.ext h rfl)
  obtain rfl : res = .ok () := hv.1
  obtain ⟨-, -, r, j, ab, hg, hab, hm⟩ := yields_getFieldFourier hs id _ _ _ _ (hinv hist') (Prod.ext_iff.mpr ⟨h', rfl⟩)
  obtain ⟨y, ys, y1, -, y3⟩ := mapM_ok_cons.mp hm
  obtain ⟨rfl, -⟩ := List.cons.inj y3
  exact ⟨A, hs.fix hnd rfl, hv, r, j, ab, hg, hab, y1⟩

theorem pyGet_neg_one {α : Type} {l : List α} {x : α} (h : pyGet l (-1) = .ok x) : l.getLast? = some x := by
  rcases l with _ | ⟨y, l⟩
  · simp [pyGet, pyIdx] at h
  unfold pyGet at h
  have e3 : pyIdx (y :: l).length (-1) = some ((y :: l).length - 1) := by
    unfold pyIdx
    rw [if_neg (by omega), if_pos (by simp)]
    congr 1
    simp
  rw [e3] at h
  dsimp only at h
  rw [List.getElem?_eq_getElem (by simp)] at h
  rw [List.getLast?_eq_getElem?, List.getElem?_eq_getElem (by simp)]
  exact congrArg some (Except.ok.inj h)

theorem last_not_copy (hw : WellPlaced mats stack) {r : ℕ} {k : ℕ} (hr : stack[k]? = some r) (hu : (mats r).isUniform = true) :
    (mats r).iscopy = false := by
  by_contra hcon
  obtain ⟨-, hu', -⟩ := hw k r hr (by simpa using hcon)
  rw [hu] at hu'
  simp at hu'

/-- What the superstrate gives. -/
theorem superstrate_facts (hinit : simInit E lats mats stack exc nh form = .ok c) (hp : planeWave wl ang = .ok exc)
    (hwl : 0 < wl) (h00 : ((0 : ℤ), (0 : ℤ)) ∈ c.harmonics) {n : ℝ} (hn : 0 < n) {r0 : ℕ} (hr0 : stack.head? = some r0)
    (hsup : (mats r0).epsilon.value = ((n ^ 2 : ℝ) : ℂ)) (hmu : (mats r0).mu = 1) : GoodSup c exc n := by
  have := good_sup (simInit_ok hinit) (by rw [(planeWave_ok hp).2.1]; exact hwl) hr0 hmu hsup (by positivity) h00
  rwa [Real.sqrt_sq hn.le] at this

theorem transmitted (hinit : simInit E lats mats stack exc nh form = .ok c) (hw : WellPlaced mats stack)
    (hp : planeWave wl ang = .ok exc) (hwl : 0 < wl) (hcos : 0 < Real.cos exc.theta) (h00 : ((0 : ℤ), (0 : ℤ)) ∈ c.harmonics)
    {n : ℝ} (hn : 0 < n) (hsup : ∀ r0, stack.head? = some r0 → (mats r0).epsilon.value = ((n ^ 2 : ℝ) : ℂ) ∧ (mats r0).mu = 1)
    {e : ℝ} (hlast : ∀ r, stack.getLast? = some r → (mats r).isUniform = true ∧ (mats r).epsilon.value = (e : ℂ) ∧ (mats r).mu = 1)
    {hist hist' : List (Call c.nh)} {RT} {id z F r j}
    (h : (efficienciesByOrder E c (afterCalls E c hist (Dyn.fresh mats (unsolved c.nh)))).1 = .ok RT)
    (hid : getLayer c id = .ok (r, j)) (hj : j = (stack.length : ℤ) - 1 ∨ j = -1)
    (h' : (getFieldFourier E c id [z] (afterCalls E c hist' (Dyn.fresh mats (unsolved c.nh)))).1 = .ok [F]) (i : Fin c.nh) :
    RT.2 i = normalWavenumber c wl e i / (n * (2 * Real.pi / wl) * Real.cos exc.theta) * (intensity F i / (1 / n) ^ 2) := by
  have hi := simInit_ok hinit
  have hst : c.stack = stack := hi.stack_eq
  obtain ⟨A, hfix, ⟨-, S, r0, rN, M0, MN, f0, fN, hS, hr0, hrN, hM0, hMN, hf0, hfN, hne, rfl⟩, r', j', ab, hg, hab, hF⟩ :=
    eff_field hinit h h'
  obtain ⟨rfl, rfl⟩ := Prod.ext_iff.mp (Except.ok.inj (hid.symm.trans hg))
  dsimp only at *
  have hr0' : c.stack[0]? = some r0 := (pyGet_nat c.stack 0 r0).mp hr0
  have hhead : stack.head? = some r0 := by rw [← hst, List.head?_eq_getElem?, hr0']
  have hlen : 1 < c.stack.length := by
    rw [valS_none, valS_solved hfix] at hS
    have hl : 0 < c.stack.length := by
      rcases hc : c.stack with _ | _
      · rw [hc] at hr0'; simp at hr0'
      · simp
    have hl2 := stackModes_length c mats A
    have : ((c.stack.length : ℤ) - 1) = (((stackModes c mats A).length - 1 : ℕ) : ℤ) := by rw [hl2]; omega
    rw [this] at hS
    have := ((freshS_ok (i := 0)).mp hS).1
    omega
  have hj0 : j ≠ 0 := by
    rw [← hst] at hj
    omega
  obtain ⟨hr, ⟨h0, -⟩ | ⟨-, -, S', hS', hab⟩ | ⟨-, h1, h2, -⟩⟩ := hab
  · exact absurd h0 hj0
  · obtain rfl := Except.ok.inj (hS.symm.trans hS')
    have hlastN := pyGet_neg_one hrN
    have hrr : r = rN := by
      have hpg := getLayer_pyGet hid
      rcases hj with hj | hj
      · have : j = ((c.stack.length - 1 : ℕ) : ℤ) := by rw [hj, ← hst]; omega
        rw [this, pyGet_nat] at hpg
        rw [List.getLast?_eq_getElem?, hpg] at hlastN
        exact Option.some.inj hlastN
      · rw [hj] at hpg
        exact Except.ok.inj (hpg.symm.trans hrN)
    subst hrr
    obtain ⟨hu, heN, hmuN⟩ := hlast r (by rw [← hst]; exact hlastN)
    obtain ⟨hs1, hs2⟩ := hsup r0 hhead
    have hgood := superstrate_facts hinit hp hwl h00 hn hhead hs1 hs2
    have hom := hgood.omega
    have hc := last_not_copy (k := stack.length - 1) hw
      (by rw [← hst, ← List.getLast?_eq_getElem?]; exact hlastN) hu
    obtain ⟨he0, g, hU⟩ := uniform_flux (hfix r (pyGet_mem hrN)) hc hu hmuN hMN
    rw [heN] at hU he0
    have he0' : e ≠ 0 := by exact_mod_cast he0
    obtain ⟨M, d, m1, -, -, hFS⟩ := fieldAt_spec hF
    obtain rfl := Except.ok.inj (hMN.symm.trans m1)
    rw [hab] at hFS
    obtain ⟨p, q, hp1, -, f1, f2, f3⟩ := uniform_field hom hu heN hU hFS i
    have hwE : c.omega = 2 * Real.pi / wl := by rw [hi.omega_eq, (planeWave_ok hp).2.1]; ring
    rw [flux_forward hfN, hgood.flux]
    rw [orderFlux_real he0' hom hU hgood.kxr hgood.kyr (poyntingFlux_ok hfN) _ i p
      (fun h => by rw [hp1]; exact phase_normSq h z)]
    unfold intensity normalWavenumber
    rw [f1, f2, f3]
    simp only [Pi.zero_apply, mul_zero, add_zero, neg_zero, sub_zero, zero_div]
    rw [← hwE]
    field_simp
  · rcases hj with hj | hj
    · exact absurd (by rw [hst]; exact hj) h1
    · exact absurd hj h2

theorem reflected (hA : ArgsortContract E.argsort) (hd : DistinctOrders lats) (hnh : 1 ≤ nh)
    (hinit : simInit E lats mats stack exc nh form = .ok c) (hw : WellPlaced mats stack)
    (hp : planeWave wl ang = .ok exc) (hwl : 0 < wl) (hcos : 0 < Real.cos exc.theta) (h00 : ((0 : ℤ), (0 : ℤ)) ∈ c.harmonics)
    {n : ℝ} (hn : 0 < n) (hsup : ∀ r0, stack.head? = some r0 → (mats r0).epsilon.value = ((n ^ 2 : ℝ) : ℂ) ∧ (mats r0).mu = 1)
    {hist hist' : List (Call c.nh)} {RT} {id z F r}
    (h : (efficienciesByOrder E c (afterCalls E c hist (Dyn.fresh mats (unsolved c.nh)))).1 = .ok RT)
    (hid : getLayer c id = .ok (r, 0))
    (h' : (getFieldFourier E c id [z] (afterCalls E c hist' (Dyn.fresh mats (unsolved c.nh)))).1 = .ok [F]) (i : Fin c.nh) :
    RT.1 i = normalWavenumber c wl (n ^ 2) i / (n * (2 * Real.pi / wl) * Real.cos exc.theta) *
      (reflectedIntensity c exc n z F i / (1 / n) ^ 2) := by
  have hi := simInit_ok hinit
  have hst : c.stack = stack := hi.stack_eq
  obtain ⟨A, hfix, ⟨-, S, r0, rN, M0, MN, f0, fN, hS, hr0, hrN, hM0, hMN, hf0, hfN, hne, rfl⟩, r', j', ab, hg, hab, hF⟩ :=
    eff_field hinit h h'
  obtain ⟨rfl, rfl⟩ := Prod.ext_iff.mp (Except.ok.inj (hid.symm.trans hg))
  dsimp only at *
  have hr0' : c.stack[0]? = some r0 := (pyGet_nat c.stack 0 r0).mp hr0
  have hhead : stack.head? = some r0 := by rw [← hst, List.head?_eq_getElem?, hr0']
  obtain ⟨-, ⟨-, S', hS', hab⟩ | ⟨h0, -⟩ | ⟨h0, -⟩⟩ := hab
  · obtain rfl := Except.ok.inj (hS.symm.trans hS')
    obtain rfl : r = r0 := Except.ok.inj ((getLayer_pyGet hid).symm.trans hr0)
    obtain ⟨hs1, hs2⟩ := hsup r hhead
    have hgood := superstrate_facts hinit hp hwl h00 hn hhead hs1 hs2
    have hom := hgood.omega
    have hu := (hi.sup r hhead).1
    have hc := last_not_copy (k := 0) hw (by rw [← hst]; exact hr0') hu
    obtain ⟨-, g, hU⟩ := uniform_flux (hfix r (pyGet_mem hr0)) hc hu hs2 hM0
    rw [hs1] at hU
    obtain ⟨M, d, m1, -, -, hFS⟩ := fieldAt_spec hF
    obtain rfl := Except.ok.inj (hM0.symm.trans m1)
    rw [hab] at hFS
    obtain ⟨p, q, hp1, hq1, f1, f2, f3⟩ := uniform_field hom hu hs1 hU hFS i
    have hwE : c.omega = 2 * Real.pi / wl := by rw [hi.omega_eq, (planeWave_ok hp).2.1]; ring
    have hq0 := poyntingFlux_ok hf0
    obtain ⟨hev, -⟩ := incident_flux hgood hp hcos hwl hU hq0
    rw [flux_backward hU hgood.kxr hgood.kyr hf0 hev, hgood.flux]
    rw [orderFlux_real (by positivity) hom hU hgood.kxr hgood.kyr hq0 _ i q
      (fun h => by rw [hq1]; exact phase_normSq h _)]
    -- the incident wave
    have hinc : p * ((coefA c.omega ((n ^ 2 : ℝ) : ℂ) (c.kx i) (c.ky i) (g i)).2.1 * c.a0 (.inl i) +
          (coefA c.omega ((n ^ 2 : ℝ) : ℂ) (c.kx i) (c.ky i) (g i)).2.2 * c.a0 (.inr i)) =
          incidentE exc n z (c.harmonics.get i) 0 ∧
        p * -((coefA c.omega ((n ^ 2 : ℝ) : ℂ) (c.kx i) (c.ky i) (g i)).1 * c.a0 (.inl i) +
          (coefA c.omega ((n ^ 2 : ℝ) : ℂ) (c.kx i) (c.ky i) (g i)).2.1 * c.a0 (.inr i)) =
          incidentE exc n z (c.harmonics.get i) 1 ∧
        p * ((c.ky i * c.a0 (.inl i) - c.kx i * c.a0 (.inr i)) / c.omega / ((n ^ 2 : ℝ) : ℂ)) =
          incidentE exc n z (c.harmonics.get i) 2 := by
      by_cases hz : (i : ℕ) = c.indexZerothOrder
      · obtain ⟨g1, g2, g3, g4⟩ := incident_intensity_field hgood hp hcos hwl hz hU
        have hget : c.harmonics.get i = (0, 0) := by
          obtain ⟨hlt, hget⟩ := zerothIndex_spec h00
          rw [← hget]
          congr 1
          exact Fin.ext (hz.trans hi.idx)
        rw [g2, g3, g4, hp1, g1]
        unfold incidentE
        rw [if_pos hget, if_pos hget, if_pos hget, (planeWave_ok hp).2.1, ← hwE]
        have : Complex.I * ((n * c.omega * Real.cos exc.theta : ℝ) : ℂ) * (z : ℂ) =
          Complex.I * ((n * c.omega * Real.cos exc.theta * z : ℝ) : ℂ) := by push_cast; ring
        rw [this]
        exact ⟨mul_comm _ _, mul_comm _ _, mul_comm _ _⟩
      · obtain ⟨a1, a2⟩ := hgood.a0_off i hz
        have hget : c.harmonics.get i ≠ (0, 0) := by
          intro hget
          have hnd : c.harmonics.Nodup := by
            have hlat := hi.lat_eq r hhead
            exact harmonics_distinct hA hinit hnh fun H hH => hd _ H (by rw [← hlat]; exact hH)
          obtain ⟨hlt, hget'⟩ := zerothIndex_spec h00
          have := (List.Nodup.get_inj_iff hnd).mp (hget.trans hget'.symm)
          apply hz
          rw [hi.idx, this]
        unfold incidentE
        simp only [if_neg hget, a1, a2]
        simp
    obtain ⟨i1, i2, i3⟩ := hinc
    unfold reflectedIntensity normalWavenumber
    rw [f1, f2, f3, i1, i2, i3]
    simp only [sub_sub_cancel_left, add_sub_cancel_left, Complex.normSq_neg]
    rw [← hwE]
    field_simp
  · exact absurd rfl h0
  · exact absurd rfl h0

end Nannos
