import Verif.Proofs.ScaledSim

/-! Properties C63-C67: unit of length, lateral displacement, rotation, reflection, listing of the orders. -/

namespace Nannos

open Matrix Spec

/-! ### C63 -/

/-- **C63**. A simulation whose lattice vectors, thicknesses and wavelength are multiplied by the same number can be
constructed whenever the original can, retains the same orders, and gives after any histories of calls the same
efficiencies, and the same fields at depths multiplied by that number. -/
theorem C63_unit_of_length {E : Ext} (hE : EigContract E) (hA : ComparisonSort E.argsort) {s : ℝ} (hs : 0 < s)
    {lats lats' : ℕ → Lattice}
    (hlats : ∀ k, ∃ b disc t h, mkLattice b disc t h = .ok (lats k) ∧ mkLattice (scaledBasis s b) disc t h = .ok (lats' k))
    {mats : ℕ → LayerSpec} {stack : List ℕ} {wl : ℝ} {angles : ℝ × ℝ × ℝ} {exc exc' : PlaneWave} {nh : ℤ} {form : String} {c : Static}
    (hexc : planeWave wl angles = .ok exc) (hexc' : planeWave (s * wl) angles = .ok exc')
    (hinit : simInit E lats mats stack exc nh form = .ok c) (hw : WellPlaced mats stack)
    (hmu : ∀ r ∈ stack, (mats r).mu = 1) (hnd : c.harmonics.Nodup) (hzero : ((0 : ℤ), (0 : ℤ)) ∈ c.harmonics)
    (h1D : c.lattice.is1D = true → ∀ g ∈ c.harmonics, g.2 = 0) :
    ∃ c', simInit E lats' (fun r => scaledLayer s (mats r)) stack exc' nh form = .ok c' ∧ c'.harmonics = c.harmonics ∧
      ∀ (hist : List (Call c.nh)) (hist' : List (Call c'.nh)),
        (∀ orders X X',
          (diffractionEfficiencies E c orders (afterCalls E c hist (Dyn.fresh mats (unsolved c.nh)))).1 = .ok X →
          (diffractionEfficiencies E c' orders
            (afterCalls E c' hist' (Dyn.fresh (fun r => scaledLayer s (mats r)) (unsolved c'.nh)))).1 = .ok X' →
          EfficienciesAlong id c c' X X') ∧
        ∀ layer zs Fs Fs',
          (getFieldFourier E c layer zs (afterCalls E c hist (Dyn.fresh mats (unsolved c.nh)))).1 = .ok Fs →
          (getFieldFourier E c' layer (zs.map (s * ·))
            (afterCalls E c' hist' (Dyn.fresh (fun r => scaledLayer s (mats r)) (unsolved c'.nh)))).1 = .ok Fs' →
          List.Forall₂ (FieldsAlong id (fun _ => 1) 1 c c') Fs Fs' := by
  have hi := simInit_ok hinit
  obtain ⟨r0, tl, rfl⟩ : ∃ r0 tl, stack = r0 :: tl := List.exists_cons_of_ne_nil hi.ne
  have hl := hi.lat_eq r0 rfl
  obtain ⟨b, disc, t, hh, m1, m2⟩ := hlats (mats r0).lattice
  obtain ⟨q1, q2, q3, q4, q5⟩ := mkLattice_scaled m1 m2
  obtain ⟨n, hn⟩ := hi.harm
  have hb : (lats (mats r0).lattice).truncation = .oneD ∨
      ∀ k i, (lats' (mats r0).lattice).basis k i = s * (lats (mats r0).lattice).basis k i := by
    rcases q5 with ⟨-, h, -⟩ | ⟨-, h⟩
    · exact .inl h
    · exact .inr h
  have hn' : (lats' (mats r0).lattice).getHarmonics E.argsort
      (effectiveNh nh ((r0 :: tl).all fun r => (scaledLayer s (mats r)).isUniform)) true = .ok (c.harmonics, n) :=
    harmonics_scaled hA hs hb q1 q4 (hl ▸ hn)
  obtain ⟨r, hr, -⟩ := hi.recip
  obtain ⟨s1, s2, s3, -⟩ := hi.sup r0 rfl
  have hr' : ∃ r', (lats' (mats r0).lattice).reciprocal = .ok r' := by
    rcases q5 with ⟨-, -, a, ha, ha'⟩ | ⟨-, h⟩
    · rw [hl] at hr
      have hd := (reciprocal_ok.mp hr).1
      refine ⟨_, reciprocal_ok.mpr ⟨?_, rfl⟩⟩
      rw [Lattice.matrix, det_transpose, det_fin_two] at hd ⊢
      rw [ha] at hd
      rw [ha']
      simp only [of_apply, cons_val_zero, cons_val_one, cons_val_fin_one, mul_one, mul_zero, sub_zero] at hd ⊢
      exact mul_ne_zero hs.ne' hd
    · exact ⟨_, reciprocal_scaled hs h (hl ▸ hr)⟩
  obtain ⟨r', hr'⟩ := hr'
  have hny : checkNyquist (lats' (mats r0).lattice) c.harmonics = .ok () := by
    have := hi.nyquist
    rw [hl] at this
    unfold checkNyquist at this ⊢
    rw [q2, q3]
    exact this
  obtain ⟨c', hinit'⟩ := simInit_exists (E := E) (lats := lats') (mats := fun r => scaledLayer s (mats r)) (r0 := r0) (tl := tl)
    (exc := exc') (nh := nh) (form := form) hi.names (fun r hr => hi.lat r hr r0 rfl) hi.form
    (fun hd => hi.form1 r0 rfl (q2 ▸ hd)) hn' hny ⟨s1, s2⟩ s3 hr'
  have hi' := simInit_ok hinit'
  have hl' : c'.lattice = lats' (mats r0).lattice := hi'.lat_eq r0 rfl
  have hharm : c'.harmonics = c.harmonics := by
    obtain ⟨k, hk⟩ := hi'.harm
    rw [hl', hn'] at hk
    simp only [Except.ok.injEq, Prod.mk.injEq] at hk
    exact hk.1.symm
  have hnh : c'.nh = c.nh := by unfold Static.nh; rw [hharm]
  refine ⟨c', hinit', hharm, fun hist hist' => ?_⟩
  have hset : (scaleMotion s hs).Setup E E lats lats' mats (fun r => scaledLayer s (mats r)) (r0 :: tl) exc exc' nh nh form c c' := by
    refine ⟨hinit, hinit', hE, hE, hw, ?_, hmu, hnd, by rw [hharm]; exact hnd, hzero, ?_, ?_, by rw [hl, hl', q2], ?_,
      fun r hr => scale_layer form rfl rfl rfl rfl rfl rfl, .inr (.inl rfl), ?_⟩
    · intro k r hk hc
      exact hw k r hk hc
    · rw [scale_transf.1]
      intro g
      rw [hharm]
      simp
    · obtain ⟨th, ph, ps⟩ := angles
      refine ⟨wl, th, ph, ps, ph, ps, hexc, hexc', ?_, ?_, rfl, ?_⟩
      · change _ = (1 : ℝ) * 1 * _ - 0 * _
        ring
      · change _ = (1 : ℝ) * 0 * _ + 1 * _
        ring
      · change _ = (1 : ℝ) * _
        ring
    · rw [hl, hl']
      rcases q5 with ⟨h1, -, a, ha, ha'⟩ | ⟨-, h⟩
      · refine .inr ⟨rfl, h1D (by rw [hl]; exact h1), a, ha, ?_⟩
        rw [ha']
        change _ = ![![s * ((1 : ℤ) : ℝ) * (1 * 1) * a, 0], ![0, 1]]
        simp
      · refine .inl fun i => ?_
        rw [h, h]
        change _ = s * ((1 : ℤ) : ℝ) * (![(1 : ℝ) * 1 * _ - 0 * _, 1 * 0 * _ + 1 * _] i) ∧
          _ = s * ((1 : ℤ) : ℝ) * (![(1 : ℝ) * 1 * _ - 0 * _, 1 * 0 * _ + 1 * _] i)
        fin_cases i <;> simp
    · intro hno r hr w w' H H' k k' nrm t t' _ _ b1 b2 b3 b4 b5
      have hb2 : c'.lattice.getHarmonics E.argsort c'.nh true = .ok (H, k) := by
        rw [hnh, hl']
        exact harmonics_scaled hA hs hb q1 q4 (hl ▸ b1)
      rw [hb2] at b2
      simp only [Except.ok.injEq, Prod.mk.injEq] at b2
      obtain ⟨rfl, rfl⟩ := b2
      rw [scale_grid b3] at b5
      have : getTangentField E (scaledLayer s (mats r)) w H nrm = getTangentField E (mats r) w H nrm := rfl
      rw [this, b4] at b5
      obtain rfl := Except.ok.inj b5
      exact scale_field t
  have hres := hset.pair.results hist hist'
  rw [scale_transf.1, scale_transf.2.1, scale_transf.2.2] at hres
  exact hres

/-! ### C64, C66 -/

/-- Reflected and displaced structures. -/
theorem reflected_results {E : Ext} (hE : EigContract E) {e1 e2 : ℤ} (h1 : e1 * e1 = 1) (h2 : e2 * e2 = 1) {u v : ℝ}
    {lats : ℕ → Lattice} {mats mats' : ℕ → LayerSpec} {stack : List ℕ} {wl th ph ps ph' ps' : ℝ} {exc exc' : PlaneWave}
    {nh : ℤ} {form : String} {c c' : Static} (hexc : planeWave wl (th, ph, ps) = .ok exc)
    (hexc' : planeWave wl (th, ph', ps') = .ok exc') (hang : AnglesReflected e1 e2 ph ps ph' ps')
    (hinit : simInit E lats mats stack exc nh form = .ok c) (hinit' : simInit E lats mats' stack exc' nh form = .ok c')
    (hm : ∀ r ∈ stack, PatternMoved e1 e2 u v (mats r) (mats' r)) (hsq : SquareTensors form mats stack)
    (hw : WellPlaced mats stack) (hw' : WellPlaced mats' stack) (hmu : ∀ r ∈ stack, (mats r).mu = 1)
    (hnd : c.harmonics.Nodup) (hzero : ((0 : ℤ), (0 : ℤ)) ∈ c.harmonics)
    (hsym : ∀ g ∈ c.harmonics, (e1 * g.1, e2 * g.2) ∈ c.harmonics)
    (hlat : (c.lattice.basis 0 1 = 0 ∧ c.lattice.basis 1 0 = 0) ∨ e1 = e2) (hj : form = "jones" → e1 = e2)
    (hgen : UsesGenerator form c.lattice.is1D mats stack → GeneratorMoves e1 e2 u v E mats mats' stack)
    (hist : List (Call c.nh)) (hist' : List (Call c'.nh)) :
    (∀ orders X X',
      (diffractionEfficiencies E c orders (afterCalls E c hist (Dyn.fresh mats (unsolved c.nh)))).1 = .ok X →
      (diffractionEfficiencies E c' orders (afterCalls E c' hist' (Dyn.fresh mats' (unsolved c'.nh)))).1 = .ok X' →
      EfficienciesAlong (fun g => (e1 * g.1, e2 * g.2)) c c' X X') ∧
    ∀ layer zs Fs Fs',
      (getFieldFourier E c layer zs (afterCalls E c hist (Dyn.fresh mats (unsolved c.nh)))).1 = .ok Fs →
      (getFieldFourier E c' layer zs (afterCalls E c' hist' (Dyn.fresh mats' (unsolved c'.nh)))).1 = .ok Fs' →
      List.Forall₂ (FieldsAlong (fun g => (e1 * g.1, e2 * g.2)) (displacementPhase u v) (reflection e1 e2) c c') Fs Fs' := by
  have hset := refl_setup (h1 := h1) (h2 := h2) hE hinit hinit' hw hw' hmu hm hsq ⟨wl, th, ph, ps, ph', ps', hexc, hexc', hang⟩ hnd hzero
    hsym hlat hj hgen
  have hres := hset.pair.results hist hist'
  rw [refl_transf.1, refl_transf.2.1, refl_transf.2.2] at hres
  refine ⟨hres.1, fun layer zs Fs Fs' a1 a2 => hres.2 layer zs Fs Fs' a1 ?_⟩
  rw [show (reflMotion e1 e2 h1 h2 u v).transf.s = 1 from rfl]
  simpa using a2

/-- **C64**. Displacing the patterns of all layers together, by whole pixels, changes no efficiency; the field of every
order is multiplied by the phase `exp(-2πi(g1 u + g2 v))` of the displacement. Formulations which ask a generator for
tangent vectors need a generator which displaces its vectors along with the pattern, and square arrays of tensors. -/
theorem C64_lateral_displacement {E : Ext} (hE : EigContract E) {u v : ℝ}
    {lats : ℕ → Lattice} {mats mats' : ℕ → LayerSpec} {stack : List ℕ} {wl : ℝ} {angles : ℝ × ℝ × ℝ} {exc : PlaneWave}
    {nh : ℤ} {form : String} {c c' : Static} (hexc : planeWave wl angles = .ok exc)
    (hinit : simInit E lats mats stack exc nh form = .ok c) (hinit' : simInit E lats mats' stack exc nh form = .ok c')
    (hm : ∀ r ∈ stack, PatternMoved 1 1 u v (mats r) (mats' r)) (hsq : SquareTensors form mats stack)
    (hw : WellPlaced mats stack) (hw' : WellPlaced mats' stack) (hmu : ∀ r ∈ stack, (mats r).mu = 1)
    (hnd : c.harmonics.Nodup) (hzero : ((0 : ℤ), (0 : ℤ)) ∈ c.harmonics)
    (hgen : UsesGenerator form c.lattice.is1D mats stack → GeneratorMoves 1 1 u v E mats mats' stack)
    (hist : List (Call c.nh)) (hist' : List (Call c'.nh)) :
    (∀ orders X X',
      (diffractionEfficiencies E c orders (afterCalls E c hist (Dyn.fresh mats (unsolved c.nh)))).1 = .ok X →
      (diffractionEfficiencies E c' orders (afterCalls E c' hist' (Dyn.fresh mats' (unsolved c'.nh)))).1 = .ok X' →
      EfficienciesAlong id c c' X X') ∧
    ∀ layer zs Fs Fs',
      (getFieldFourier E c layer zs (afterCalls E c hist (Dyn.fresh mats (unsolved c.nh)))).1 = .ok Fs →
      (getFieldFourier E c' layer zs (afterCalls E c' hist' (Dyn.fresh mats' (unsolved c'.nh)))).1 = .ok Fs' →
      List.Forall₂ (FieldsAlong id (displacementPhase u v) 1 c c') Fs Fs' := by
  obtain ⟨th, ph, ps⟩ := angles
  have hres := reflected_results hE (e1 := 1) (e2 := 1) rfl rfl hexc hexc ⟨by simp, by simp, rfl, by simp⟩ hinit hinit' hm hsq hw hw'
    hmu hnd hzero (fun g hg => by simpa using hg) (.inr rfl) (fun _ => rfl) hgen hist hist'
  have e : (fun g : ℤ × ℤ => ((1 : ℤ) * g.1, (1 : ℤ) * g.2)) = id := by
    funext g
    simp
  have e' : reflection 1 1 = 1 := by
    unfold reflection
    ext i j
    fin_cases i <;> fin_cases j <;> simp [Matrix.one_apply]
  rw [e, e'] at hres
  exact hres

/-- **C66**. Reflecting the patterns of all layers together in a coordinate axis of a rectangular lattice (sign `-1` for
the axis which is reversed), or turning them by half a turn on any lattice, together with the wave, exchanges the
efficiencies of the orders accordingly, and reflects the fields. -/
theorem C66_reflection {E : Ext} (hE : EigContract E) (hA : ArgsortContract E.argsort)
    {e1 e2 : ℤ} (h1 : e1 = 1 ∨ e1 = -1) (h2 : e2 = 1 ∨ e2 = -1) {u v : ℝ}
    {lats : ℕ → Lattice} {mats mats' : ℕ → LayerSpec} {stack : List ℕ} {wl th ph ps ph' ps' : ℝ} {exc exc' : PlaneWave}
    {nh : ℤ} {form : String} {c c' : Static} (hexc : planeWave wl (th, ph, ps) = .ok exc)
    (hexc' : planeWave wl (th, ph', ps') = .ok exc') (hang : AnglesReflected e1 e2 ph ps ph' ps')
    (hinit : simInit E lats mats stack exc nh form = .ok c) (hinit' : simInit E lats mats' stack exc' nh form = .ok c')
    (hm : ∀ r ∈ stack, PatternMoved e1 e2 u v (mats r) (mats' r)) (hsq : SquareTensors form mats stack)
    (hw : WellPlaced mats stack) (hw' : WellPlaced mats' stack) (hmu : ∀ r ∈ stack, (mats r).mu = 1)
    (hnd : c.harmonics.Nodup) (hzero : ((0 : ℤ), (0 : ℤ)) ∈ c.harmonics)
    (huser : c.lattice.harmonicsArray ≠ none → ∀ g ∈ c.harmonics, (e1 * g.1, e2 * g.2) ∈ c.harmonics)
    (hlat : (c.lattice.basis 0 1 = 0 ∧ c.lattice.basis 1 0 = 0) ∨ e1 = e2) (hj : form = "jones" → e1 = e2)
    (hgen : UsesGenerator form c.lattice.is1D mats stack → GeneratorMoves e1 e2 u v E mats mats' stack)
    (hist : List (Call c.nh)) (hist' : List (Call c'.nh)) :
    (∀ orders X X',
      (diffractionEfficiencies E c orders (afterCalls E c hist (Dyn.fresh mats (unsolved c.nh)))).1 = .ok X →
      (diffractionEfficiencies E c' orders (afterCalls E c' hist' (Dyn.fresh mats' (unsolved c'.nh)))).1 = .ok X' →
      EfficienciesAlong (fun g => (e1 * g.1, e2 * g.2)) c c' X X') ∧
    ∀ layer zs Fs Fs',
      (getFieldFourier E c layer zs (afterCalls E c hist (Dyn.fresh mats (unsolved c.nh)))).1 = .ok Fs →
      (getFieldFourier E c' layer zs (afterCalls E c' hist' (Dyn.fresh mats' (unsolved c'.nh)))).1 = .ok Fs' →
      List.Forall₂ (FieldsAlong (fun g => (e1 * g.1, e2 * g.2)) (displacementPhase u v) (reflection e1 e2) c c') Fs Fs' := by
  have k1 : e1 * e1 = 1 := mul_self_eq_one_iff.mpr h1
  have k2 : e2 * e2 = 1 := mul_self_eq_one_iff.mpr h2
  refine reflected_results hE k1 k2 hexc hexc' hang hinit hinit' hm hsq hw hw' hmu hnd hzero ?_ hlat hj hgen hist hist'
  by_cases hu : c.lattice.harmonicsArray = none
  · obtain ⟨n, hn⟩ := (simInit_ok hinit).harm
    exact reflected_orders hA hn hu k1 k2 hlat
  · exact huser hu

/-- The angles of the reflected waves: reversal of `x`, of `y`, and half a turn. -/
theorem C66_angles (ph ps : ℝ) : AnglesReflected (-1) 1 ph ps (180 - ph) (-ps) ∧ AnglesReflected 1 (-1) ph ps (-ph) (-ps) ∧
    AnglesReflected (-1) (-1) ph ps (180 + ph) ps := by
  have e1 : (180 - ph) * (Real.pi / 180) = Real.pi - ph * (Real.pi / 180) := by ring
  have e2 : (180 + ph) * (Real.pi / 180) = ph * (Real.pi / 180) + Real.pi := by ring
  have e3 : ∀ z : ℝ, -z * (Real.pi / 180) = -(z * (Real.pi / 180)) := fun z => by ring
  unfold AnglesReflected
  rw [e1, e2, e3, e3, Real.cos_pi_sub, Real.sin_pi_sub, Real.cos_neg, Real.sin_neg, Real.cos_add_pi, Real.sin_add_pi,
    Real.cos_neg, Real.sin_neg]
  refine ⟨⟨?_, ?_, ?_, ?_⟩, ⟨?_, ?_, ?_, ?_⟩, ?_, ?_, ?_, ?_⟩ <;> push_cast <;> ring

/-! ### C67 -/

/-- **C67**. The results do not depend on the order in which the retained orders are listed: not on how the sort breaks
ties, not on the order of the columns of a harmonics array given by the user, nor on the eigenvalue solver. Formulations
which ask a generator for tangent vectors need generators which agree whatever the order of the harmonics they are
given. -/
theorem C67_listing_of_orders {E E' : Ext} (hE : EigContract E) (hE' : EigContract E') (hA : ArgsortContract E.argsort)
    (hA' : ArgsortContract E'.argsort) {lats lats' : ℕ → Lattice}
    (hlats : ∀ k, ∃ H H', lats' k = { lats k with harmonicsArray := H' } ∧ (lats k).harmonicsArray = H ∧ Option.Rel List.Perm H H')
    {mats : ℕ → LayerSpec} {stack : List ℕ} {wl : ℝ} {angles : ℝ × ℝ × ℝ} {exc : PlaneWave} {nh : ℤ} {form : String}
    {c c' : Static} (hexc : planeWave wl angles = .ok exc) (hinit : simInit E lats mats stack exc nh form = .ok c)
    (hinit' : simInit E' lats' mats stack exc nh form = .ok c') (hw : WellPlaced mats stack)
    (hmu : ∀ r ∈ stack, (mats r).mu = 1) (hnd : c.harmonics.Nodup) (hzero : ((0 : ℤ), (0 : ℤ)) ∈ c.harmonics)
    (hgen : UsesGenerator form c.lattice.is1D mats stack → ∀ ty w H H' nrm, H.Perm H' →
      E'.tangent ty w H' nrm = E.tangent ty w H nrm)
    (hist : List (Call c.nh)) (hist' : List (Call c'.nh)) :
    OrdersAlong id c c' ∧
    (∀ orders X X',
      (diffractionEfficiencies E c orders (afterCalls E c hist (Dyn.fresh mats (unsolved c.nh)))).1 = .ok X →
      (diffractionEfficiencies E' c' orders (afterCalls E' c' hist' (Dyn.fresh mats (unsolved c'.nh)))).1 = .ok X' →
      EfficienciesAlong id c c' X X') ∧
    ∀ layer zs Fs Fs',
      (getFieldFourier E c layer zs (afterCalls E c hist (Dyn.fresh mats (unsolved c.nh)))).1 = .ok Fs →
      (getFieldFourier E' c' layer zs (afterCalls E' c' hist' (Dyn.fresh mats (unsolved c'.nh)))).1 = .ok Fs' →
      List.Forall₂ (FieldsAlong id (fun _ => 1) 1 c c') Fs Fs' := by
  have hi := simInit_ok hinit
  have hi' := simInit_ok hinit'
  obtain ⟨r0, tl, rfl⟩ : ∃ r0 tl, stack = r0 :: tl := List.exists_cons_of_ne_nil hi.ne
  have hl := hi.lat_eq r0 rfl
  have hl' := hi'.lat_eq r0 rfl
  obtain ⟨G, G', m1, m2, m3⟩ := hlats (mats r0).lattice
  have hb : c'.lattice.basis = c.lattice.basis := by rw [hl, hl', m1]
  have ht : c'.lattice.truncation = c.lattice.truncation := by rw [hl, hl', m1]
  have h1 : c'.lattice.is1D = c.lattice.is1D := by rw [hl, hl', m1]
  have hG : Option.Rel List.Perm c.lattice.harmonicsArray c'.lattice.harmonicsArray := by
    rw [hl, hl', m1, m2]
    exact m3
  obtain ⟨n, hn⟩ := hi.harm
  obtain ⟨n', hn'⟩ := hi'.harm
  have hp : c.harmonics.Perm c'.harmonics := harmonics_perm hA hA' hb ht hG hn hn'
  have hord : OrdersAlong id c c' := by
    intro g
    rw [← hp.mem_iff]
    simp
  have hset : (scaleMotion 1 one_pos).Setup E E' lats lats' mats mats (r0 :: tl) exc exc nh nh form c c' := by
    refine ⟨hinit, hinit', hE, hE', hw, hw, hmu, hnd, hp.nodup_iff.mp hnd, hzero, ?_, ?_, h1, .inl ?_,
      fun r hr => scale_layer form rfl rfl rfl rfl ?_ rfl, .inr (.inl rfl), ?_⟩
    · rw [scale_transf.1]
      exact hord
    · obtain ⟨th, ph, ps⟩ := angles
      refine ⟨wl, th, ph, ps, ph, ps, hexc, ?_, ?_, ?_, rfl, ?_⟩
      · change planeWave (1 * wl) _ = _
        rw [one_mul]
        exact hexc
      · change _ = (1 : ℝ) * 1 * _ - 0 * _
        ring
      · change _ = (1 : ℝ) * 0 * _ + 1 * _
        ring
      · change _ = (1 : ℝ) * _
        ring
    · intro i
      rw [hb]
      change _ = (1 : ℝ) * ((1 : ℤ) : ℝ) * (![(1 : ℝ) * 1 * _ - 0 * _, 1 * 0 * _ + 1 * _] i) ∧
        _ = (1 : ℝ) * ((1 : ℤ) : ℝ) * (![(1 : ℝ) * 1 * _ - 0 * _, 1 * 0 * _ + 1 * _] i)
      fin_cases i <;> simp
    · rcases (mats r).thickness with _ | z <;> simp
    · intro hno r hr w w' H H' k k' nrm t t' _ _ b1 b2 b3 b4 b5
      have hnh : c'.nh = c.nh := by
        unfold Static.nh
        exact hp.length_eq.symm
      rw [hnh] at b2
      have hHp := harmonics_perm hA hA' hb ht hG b1 b2
      rw [scale_grid b3] at b5
      have : getTangentField E' (mats r) w H' nrm = getTangentField E (mats r) w H nrm := by
        unfold getTangentField
        rcases htf : (mats r).tangentField with _ | t0
        · dsimp only
          push Not at hno
          rw [hgen ⟨hno.1, fun hh => absurd hh.2 (hno.2 hh.1), r, hr, htf⟩ _ _ H H' nrm hHp]
        · rfl
      rw [this, b4] at b5
      obtain rfl := Except.ok.inj b5
      exact scale_field t
  have hres := hset.pair.results hist hist'
  rw [scale_transf.1, scale_transf.2.1, scale_transf.2.2] at hres
  refine ⟨hord, hres.1, fun layer zs Fs Fs' a1 a2 => hres.2 layer zs Fs Fs' a1 ?_⟩
  rw [show (scaleMotion 1 one_pos).transf.s = 1 from rfl]
  simpa using a2

/-! ### C65 -/

/-- **C65** (part). Turning the lattice of a bi-periodic structure, its tensors, the tangent vectors given by the user and the azimuth
of the wave by the same angle changes no efficiency and turns the fields, when the same orders are retained: by any angle in the
formulation `original`, by multiples of 90 degrees in the other formulations. Missing: other angles in the other formulations, whose
projectors exchange the components of the tangent vectors (C55); generated tangent vectors, since the generators do not receive the
lattice; the circular truncation, which may retain other orders after the rotation (`C65_truncation_depends_on_orientation`). -/
theorem C65_rotation_partial {E E' : Ext} (hE : EigContract E) (hE' : EigContract E') {al : ℝ} {lats lats' : ℕ → Lattice}
    {mats mats' : ℕ → LayerSpec} {stack : List ℕ} {wl th ph ps : ℝ} {exc exc' : PlaneWave} {nh nh' : ℤ} {form : String}
    {c c' : Static} (hexc : planeWave wl (th, ph, ps) = .ok exc) (hexc' : planeWave wl (th, ph + al, ps) = .ok exc')
    (hinit : simInit E lats mats stack exc nh form = .ok c)
    (hinit' : simInit E' lats' mats' stack exc' nh' form = .ok c')
    (hrot : ∀ k : Fin 2, c'.lattice.basis k 0 =
        Real.cos (al * (Real.pi / 180)) * c.lattice.basis k 0 - Real.sin (al * (Real.pi / 180)) * c.lattice.basis k 1 ∧
      c'.lattice.basis k 1 =
        Real.sin (al * (Real.pi / 180)) * c.lattice.basis k 0 + Real.cos (al * (Real.pi / 180)) * c.lattice.basis k 1)
    (h2D : c.lattice.is1D = false) (h2D' : c'.lattice.is1D = false)
    (hlay : ∀ r ∈ stack, LayerTurned (al * (Real.pi / 180)) (mats r) (mats' r)) (hsq : SquareTensors form mats stack)
    (hform : form = "original" ∨ (∃ k : ℤ, al = 90 * k) ∧ ∀ r ∈ stack, (mats r).isUniform = false → (mats r).tangentField ≠ none)
    (hw : WellPlaced mats stack) (hw' : WellPlaced mats' stack) (hmu : ∀ r ∈ stack, (mats r).mu = 1)
    (horders : OrdersAlong id c c') (hnd : c.harmonics.Nodup) (hnd' : c'.harmonics.Nodup)
    (hzero : ((0 : ℤ), (0 : ℤ)) ∈ c.harmonics) (hist : List (Call c.nh)) (hist' : List (Call c'.nh)) :
    (∀ orders X X',
      (diffractionEfficiencies E c orders (afterCalls E c hist (Dyn.fresh mats (unsolved c.nh)))).1 = .ok X →
      (diffractionEfficiencies E' c' orders (afterCalls E' c' hist' (Dyn.fresh mats' (unsolved c'.nh)))).1 = .ok X' →
      EfficienciesAlong id c c' X X') ∧
    ∀ layer zs Fs Fs',
      (getFieldFourier E c layer zs (afterCalls E c hist (Dyn.fresh mats (unsolved c.nh)))).1 = .ok Fs →
      (getFieldFourier E' c' layer zs (afterCalls E' c' hist' (Dyn.fresh mats' (unsolved c'.nh)))).1 = .ok Fs' →
      List.Forall₂ (FieldsAlong id (fun _ => 1)
        !![Real.cos (al * (Real.pi / 180)), -Real.sin (al * (Real.pi / 180)), 0;
          Real.sin (al * (Real.pi / 180)), Real.cos (al * (Real.pi / 180)), 0; 0, 0, 1] c c') Fs Fs' := by
  have hq : form = "original" ∨ Real.sin (al * (Real.pi / 180)) = 0 ∨ Real.cos (al * (Real.pi / 180)) = 0 := by
    refine hform.imp_right ?_
    rintro ⟨⟨k, rfl⟩, -⟩
    have e : (90 * k : ℝ) * (Real.pi / 180) = k * Real.pi / 2 := by ring
    rcases Int.even_or_odd k with ⟨j, rfl⟩ | ⟨j, rfl⟩
    · left
      rw [e, show ((j + j : ℤ) : ℝ) * Real.pi / 2 = j * Real.pi by push_cast; ring]
      exact Real.sin_int_mul_pi j
    · right
      rw [e, Real.cos_eq_zero_iff]
      exact ⟨j, by push_cast; ring⟩
  have hset : (turnMotion (al * (Real.pi / 180))).Setup E E' lats lats' mats mats' stack exc exc' nh nh' form c c' := by
    refine ⟨hinit, hinit', hE, hE', hw, hw', hmu, hnd, hnd', hzero, ?_, ?_, h2D'.trans h2D.symm, .inl ?_,
      fun r hr => turn_layer (hlay r hr) hq (hsq.imp_right fun h => h r hr), .inr (.inr h2D), ?_⟩
    · rw [turn_transf.1]
      exact horders
    · refine ⟨wl, th, ph, ps, ph + al, ps, hexc, ?_, ?_, ?_, rfl, ?_⟩
      · change planeWave (1 * wl) _ = _
        rw [one_mul]
        exact hexc'
      · change _ = (1 : ℝ) * Real.cos (al * (Real.pi / 180)) * _ - Real.sin (al * (Real.pi / 180)) * _
        rw [add_mul, Real.cos_add]
        ring
      · change _ = (1 : ℝ) * Real.sin (al * (Real.pi / 180)) * _ + Real.cos (al * (Real.pi / 180)) * _
        rw [add_mul, Real.sin_add]
        ring
      · change _ = (1 : ℝ) * _
        ring
    · intro i
      change c'.lattice.basis 0 i = (1 : ℝ) * ((1 : ℤ) : ℝ) *
          (![(1 : ℝ) * Real.cos (al * (Real.pi / 180)) * _ - Real.sin (al * (Real.pi / 180)) * _,
            1 * Real.sin (al * (Real.pi / 180)) * _ + Real.cos (al * (Real.pi / 180)) * _] i) ∧
        c'.lattice.basis 1 i = (1 : ℝ) * ((1 : ℤ) : ℝ) *
          (![(1 : ℝ) * Real.cos (al * (Real.pi / 180)) * _ - Real.sin (al * (Real.pi / 180)) * _,
            1 * Real.sin (al * (Real.pi / 180)) * _ + Real.cos (al * (Real.pi / 180)) * _] i)
      fin_cases i
      · exact ⟨by simp [(hrot 0).1], by simp [(hrot 1).1]⟩
      · exact ⟨by simp [(hrot 0).2], by simp [(hrot 1).2]⟩
    · intro hno r hr w w' H H' k k' nrm t t' p1 p2 b1 b2 b3 b4 b5
      push Not at hno
      have hgiven := (hform.resolve_left hno.1).2 r hr
      have hun : (mats r).isUniform = false := by
        unfold patternOf at p1
        unfold LayerSpec.isUniform
        cases ha : (mats r).isAnisotropic
        · rw [ha] at p1
          simp only [Bool.false_eq_true, if_false] at p1
          obtain ⟨Nx, Ny, e1, -⟩ := toGrid_data p1
          unfold LayerSpec.isAnisotropic at ha
          unfold isUniform
          rw [ha, e1]
          rfl
        · rw [ha] at p1
          simp only [if_true] at p1
          obtain ⟨Nx, Ny, e1, -⟩ := aniso_shape ha p1
          rw [e1]
          rfl
      rcases (hlay r hr).vectors with ⟨k1, k2⟩ | ⟨t0, t0', k1, k2, k3⟩
      · exact absurd k1 (hgiven hun)
      · unfold getTangentField at b4 b5
        rw [k1] at b4
        rw [k2] at b5
        simp only [Except.ok.injEq] at b4 b5
        subst b4 b5
        exact turn_field k3
  have hres := hset.pair.results hist hist'
  rw [turn_transf.1, turn_transf.2.1, turn_transf.2.2] at hres
  refine ⟨hres.1, fun layer zs Fs Fs' a1 a2 => hres.2 layer zs Fs Fs' a1 ?_⟩
  rw [show (turnMotion (al * (Real.pi / 180))).transf.s = 1 from rfl]
  simpa using a2

end Nannos
