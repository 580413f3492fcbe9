import Verif.Proofs.Superpose
import Verif.Spec.Results
import Verif.Props.Orders
import Verif.Examples.Polarised
import Verif.Proofs.AllWaves

/-! Property C74: dependence of the results on the polarisation of the incident wave. -/

namespace Nannos

open Matrix Spec

variable {E : Ext} {lats : ℕ → Lattice} {mats : ℕ → LayerSpec} {stack : List ℕ} {nh : ℤ} {form : String} {wl θ φ ψ : ℝ}

/-- Some simulation gives the efficiencies by order `RT` for the polarisation angle `ψ`. -/
private def Runs (E : Ext) (lats : ℕ → Lattice) (mats : ℕ → LayerSpec) (stack : List ℕ) (nh : ℤ) (form : String) (wl θ φ : ℝ)
    (c : Static) (ψ : ℝ) (RT : (Fin c.nh → ℝ) × (Fin c.nh → ℝ)) : Prop :=
  ∃ exc, planeWave wl (θ, φ, ψ) = .ok exc ∧ simInit E lats mats stack exc nh form = .ok (c.withWave exc) ∧
    ∃ hist : List (Call c.nh), (efficienciesByOrder E (c.withWave exc)
      (afterCalls E (c.withWave exc) hist (Dyn.fresh mats (unsolved c.nh)))).1 = .ok RT

private theorem transfer {c c' : Static} {exc exc' : PlaneWave} {ψ'} (he : planeWave wl (θ, φ, ψ) = .ok exc)
    (hc : simInit E lats mats stack exc nh form = .ok c) (he' : planeWave wl (θ, φ, ψ') = .ok exc')
    (hc' : simInit E lats mats stack exc' nh form = .ok c') : c' = c.withWave exc' := by
  obtain ⟨a1, a2, a3⟩ := planeWave_same he he'
  have := simInit_withWave hc a1 a2 a3
  rw [hc'] at this
  exact Except.ok.inj this

/-- The quadratic law, for the efficiencies by order. -/
private theorem quad {c : Static} {exc : PlaneWave} (hc : simInit E lats mats stack exc nh form = .ok c)
    {RT0 RT90 : (Fin c.nh → ℝ) × (Fin c.nh → ℝ)} (h0 : Runs E lats mats stack nh form wl θ φ c 0 RT0)
    (h90 : Runs E lats mats stack nh form wl θ φ c 90 RT90) :
    ∃ K K' : Fin c.nh → ℝ, ∀ ψ RT, Runs E lats mats stack nh form wl θ φ c ψ RT → ∀ i,
      RT.1 i = Real.cos (ψ * (Real.pi / 180)) ^ 2 * RT0.1 i + Real.sin (ψ * (Real.pi / 180)) ^ 2 * RT90.1 i +
        Real.cos (ψ * (Real.pi / 180)) * Real.sin (ψ * (Real.pi / 180)) * K i ∧
      RT.2 i = Real.cos (ψ * (Real.pi / 180)) ^ 2 * RT0.2 i + Real.sin (ψ * (Real.pi / 180)) ^ 2 * RT90.2 i +
        Real.cos (ψ * (Real.pi / 180)) * Real.sin (ψ * (Real.pi / 180)) * K' i := by
  obtain ⟨A1, hA⟩ := eff_withWave hc
  obtain ⟨e0, p0, -, hist0, r0⟩ := h0
  obtain ⟨e1, p1, -, hist1, r1⟩ := h90
  obtain ⟨K, K', hK⟩ := eff_quad (hA e0 hist0 RT0 r0) (hA e1 hist1 RT90 r1)
  refine ⟨K, K', ?_⟩
  rintro ψ RT ⟨e, p, -, hist, r⟩ i
  exact hK e _ _ RT (planeWave_lin p p0 p1) (hA e hist RT r) i

private theorem trig45 : Real.cos (45 * (Real.pi / 180)) ^ 2 = 1 / 2 ∧ Real.sin (45 * (Real.pi / 180)) ^ 2 = 1 / 2 ∧
    Real.cos (45 * (Real.pi / 180)) * Real.sin (45 * (Real.pi / 180)) = 1 / 2 := by
  have e : (45 * (Real.pi / 180) : ℝ) = Real.pi / 4 := by ring
  rw [e, Real.cos_pi_div_four, Real.sin_pi_div_four]
  have := Real.sq_sqrt (show (0 : ℝ) ≤ 2 by norm_num)
  refine ⟨?_, ?_, ?_⟩ <;> nlinarith

private theorem combine {x y R R0 R90 R45 K : ℝ} (h : R = x ^ 2 * R0 + y ^ 2 * R90 + x * y * K)
    (h45 : R45 = Real.cos (45 * (Real.pi / 180)) ^ 2 * R0 + Real.sin (45 * (Real.pi / 180)) ^ 2 * R90 +
        Real.cos (45 * (Real.pi / 180)) * Real.sin (45 * (Real.pi / 180)) * K) :
    R = x ^ 2 * R0 + y ^ 2 * R90 + x * y * (2 * R45 - R0 - R90) := by
  obtain ⟨a, b, d⟩ := trig45
  rw [a, b, d] at h45
  rw [h, h45]
  ring

/-- The runs of several polarisations, brought to one simulation. -/
private theorem runs_of_order (hA : ArgsortContract E.argsort) (hn : 1 ≤ nh) (hd : DistinctOrders lats) {g : ℤ × ℤ} {ψ0 R0 T0 : ℝ}
    (h0 : OrderEfficiencies E lats mats stack wl (θ, φ, ψ0) nh form g R0 T0) :
    ∃ (c : Static) (exc : PlaneWave) (i : Fin c.nh), simInit E lats mats stack exc nh form = .ok c ∧
      ∀ ψ R T, OrderEfficiencies E lats mats stack wl (θ, φ, ψ) nh form g R T →
        ∃ RT, Runs E lats mats stack nh form wl θ φ c ψ RT ∧ R = RT.1 i ∧ T = RT.2 i := by
  obtain ⟨exc, c, he, hc, hist, Rs, Ts, i, hr, hi, rfl, rfl⟩ := h0
  refine ⟨c, exc, i, hc, ?_⟩
  rintro ψ R T ⟨exc', c', he', hc', hist', Rs', Ts', i', hr', hi', rfl, rfl⟩
  obtain rfl := transfer he hc he' hc'
  have hnd : c.harmonics.Nodup := by
    obtain ⟨r0, tl, hs⟩ := List.exists_cons_of_ne_nil (simInit_ok hc).ne
    have hlat := (simInit_ok hc).lat_eq r0 (by rw [hs]; rfl)
    exact harmonics_distinct hA hc hn fun H hH => hd _ H (by rw [← hlat]; exact hH)
  have : i' = i := hnd.get_inj_iff.mp (hi'.trans hi.symm)
  subst this
  exact ⟨(Rs', Ts'), ⟨exc', he', hc', hist', efficiencies_by_order hr'⟩, rfl, rfl⟩

/-- **C74**. The efficiencies of every order, as functions of the polarisation angle, are determined by their values at 0,
45 and 90 degrees: they depend quadratically on the amplitude of the wave. -/
theorem C74_efficiencies_of_polarisation (hA : ArgsortContract E.argsort) (hn : 1 ≤ nh) (hd : DistinctOrders lats) {g : ℤ × ℤ}
    {R T R0 T0 R45 T45 R90 T90 : ℝ} (h : OrderEfficiencies E lats mats stack wl (θ, φ, ψ) nh form g R T)
    (h0 : OrderEfficiencies E lats mats stack wl (θ, φ, 0) nh form g R0 T0)
    (h45 : OrderEfficiencies E lats mats stack wl (θ, φ, 45) nh form g R45 T45)
    (h90 : OrderEfficiencies E lats mats stack wl (θ, φ, 90) nh form g R90 T90) :
    let x := Real.cos (ψ * (Real.pi / 180))
    let y := Real.sin (ψ * (Real.pi / 180))
    R = x ^ 2 * R0 + y ^ 2 * R90 + x * y * (2 * R45 - R0 - R90) ∧
    T = x ^ 2 * T0 + y ^ 2 * T90 + x * y * (2 * T45 - T0 - T90) := by
  obtain ⟨c, exc, i, hc, hall⟩ := runs_of_order hA hn hd h0
  obtain ⟨RT0, r0, rfl, rfl⟩ := hall _ _ _ h0
  obtain ⟨RT90, r90, rfl, rfl⟩ := hall _ _ _ h90
  obtain ⟨RT45, r45, rfl, rfl⟩ := hall _ _ _ h45
  obtain ⟨RT, r, rfl, rfl⟩ := hall _ _ _ h
  obtain ⟨K, K', hK⟩ := quad hc r0 r90
  exact ⟨combine (hK ψ RT r i).1 (hK 45 RT45 r45 i).1, combine (hK ψ RT r i).2 (hK 45 RT45 r45 i).2⟩

/-- **C74**. If the efficiencies of an order are returned for one polarisation, they are returned for every polarisation. -/
theorem C74_defined {g : ℤ × ℤ} {R T : ℝ} (h : OrderEfficiencies E lats mats stack wl (θ, φ, ψ) nh form g R T) (ψ' : ℝ) :
    ∃ R' T', OrderEfficiencies E lats mats stack wl (θ, φ, ψ') nh form g R' T' := by
  obtain ⟨exc, c, he, hc, hist, Rs, Ts, i, hr, hi, rfl, rfl⟩ := h
  obtain ⟨exc', he'⟩ := planeWave_any he φ ψ'
  obtain ⟨a1, a2, a3⟩ := planeWave_same he he'
  obtain ⟨c, rfl, hb⟩ : ∃ b, c = Static.withWave b exc ∧ simInit E lats mats stack exc nh form = .ok b :=
    ⟨c, transfer he hc he hc, hc⟩
  have hc' := simInit_withWave hb a1 a2 a3
  obtain ⟨RT, hRT⟩ := eff_any hb (efficiencies_by_order hr) exc' []
  exact ⟨_, _, exc', _, he', hc', [], RT.1, RT.2, i, (efficiencies_listed hRT).1, hi, rfl, rfl⟩

/-- **C74**. The same for the total efficiencies. -/
theorem C74_total_defined {R T : ℝ} (h : TotalEfficiencies E lats mats stack wl (θ, φ, ψ) nh form R T) (ψ' : ℝ) :
    ∃ R' T', TotalEfficiencies E lats mats stack wl (θ, φ, ψ') nh form R' T' := by
  obtain ⟨exc, c, he, hc, hist, hr⟩ := h
  obtain ⟨exc', he'⟩ := planeWave_any he φ ψ'
  obtain ⟨a1, a2, a3⟩ := planeWave_same he he'
  obtain ⟨c, rfl, hb⟩ : ∃ b, c = Static.withWave b exc ∧ simInit E lats mats stack exc nh form = .ok b :=
    ⟨c, transfer he hc he hc, hc⟩
  have hc' := simInit_withWave hb a1 a2 a3
  obtain ⟨Rs, Ts, h1, -⟩ := efficiencies_total hr
  obtain ⟨RT, hRT⟩ := eff_any hb h1 exc' []
  exact ⟨_, _, exc', _, he', hc', [], (efficiencies_listed hRT).2⟩

/-- **C74**. The same for the fields. -/
theorem C74_fields_defined {g : ℤ × ℤ} {id : LayerId} {z : ℝ} {e h : Fin 3 → ℂ}
    (hF : OrderField E lats mats stack wl (θ, φ, ψ) nh form id z g e h) (ψ' : ℝ) :
    ∃ e' h', OrderField E lats mats stack wl (θ, φ, ψ') nh form id z g e' h' := by
  obtain ⟨exc, c, he, hc, hist, F, i, hr, hi, rfl, rfl⟩ := hF
  obtain ⟨exc', he'⟩ := planeWave_any he φ ψ'
  obtain ⟨a1, a2, a3⟩ := planeWave_same he he'
  obtain ⟨c, rfl, hb⟩ : ∃ b, c = Static.withWave b exc ∧ simInit E lats mats stack exc nh form = .ok b :=
    ⟨c, transfer he hc he hc, hc⟩
  have hc' := simInit_withWave hb a1 a2 a3
  obtain ⟨F', hF'⟩ := field_any hb hr exc' [] z
  exact ⟨_, _, exc', _, he', hc', [], F', i, hF', hi, rfl, rfl⟩

private theorem trig90 (ψ : ℝ) : Real.cos ((ψ + 90) * (Real.pi / 180)) = -Real.sin (ψ * (Real.pi / 180)) ∧
    Real.sin ((ψ + 90) * (Real.pi / 180)) = Real.cos (ψ * (Real.pi / 180)) := by
  have e : ((ψ + 90) * (Real.pi / 180) : ℝ) = ψ * (Real.pi / 180) + Real.pi / 2 := by ring
  rw [e, Real.cos_add_pi_div_two, Real.sin_add_pi_div_two]
  exact ⟨rfl, rfl⟩

/-- **C74**. The average over two orthogonal polarisations, which is the efficiency for unpolarised light, does not depend on
the choice of the two. -/
theorem C74_unpolarised_light (hA : ArgsortContract E.argsort) (hn : 1 ≤ nh) (hd : DistinctOrders lats) {g : ℤ × ℤ}
    {R T R' T' R0 T0 R90 T90 : ℝ} (h : OrderEfficiencies E lats mats stack wl (θ, φ, ψ) nh form g R T)
    (h' : OrderEfficiencies E lats mats stack wl (θ, φ, ψ + 90) nh form g R' T')
    (h0 : OrderEfficiencies E lats mats stack wl (θ, φ, 0) nh form g R0 T0)
    (h90 : OrderEfficiencies E lats mats stack wl (θ, φ, 90) nh form g R90 T90) :
    (R + R') / 2 = (R0 + R90) / 2 ∧ (T + T') / 2 = (T0 + T90) / 2 := by
  obtain ⟨c, exc, i, hc, hall⟩ := runs_of_order hA hn hd h0
  obtain ⟨RT0, r0, rfl, rfl⟩ := hall _ _ _ h0
  obtain ⟨RT90, r90, rfl, rfl⟩ := hall _ _ _ h90
  obtain ⟨RT, r, rfl, rfl⟩ := hall _ _ _ h
  obtain ⟨RT', r', rfl, rfl⟩ := hall _ _ _ h'
  obtain ⟨K, K', hK⟩ := quad hc r0 r90
  obtain ⟨a, b⟩ := hK _ _ r i
  obtain ⟨a', b'⟩ := hK _ _ r' i
  obtain ⟨t1, t2⟩ := trig90 ψ
  have t := Real.sin_sq_add_cos_sq (ψ * (Real.pi / 180))
  rw [t1, t2] at a' b'
  constructor
  · rw [a, a']
    linear_combination (RT0.1 i + RT90.1 i) / 2 * t
  · rw [b, b']
    linear_combination (RT0.2 i + RT90.2 i) / 2 * t

private theorem runs_of_total {ψ0 R0 T0 : ℝ}
    (h0 : TotalEfficiencies E lats mats stack wl (θ, φ, ψ0) nh form R0 T0) :
    ∃ (c : Static) (exc : PlaneWave), simInit E lats mats stack exc nh form = .ok c ∧
      ∀ ψ R T, TotalEfficiencies E lats mats stack wl (θ, φ, ψ) nh form R T →
        ∃ RT, Runs E lats mats stack nh form wl θ φ c ψ RT ∧ R = ∑ i, RT.1 i ∧ T = ∑ i, RT.2 i := by
  obtain ⟨exc, c, he, hc, hist, hr⟩ := h0
  refine ⟨c, exc, hc, ?_⟩
  rintro ψ R T ⟨exc', c', he', hc', hist', hr'⟩
  obtain rfl := transfer he hc he' hc'
  obtain ⟨Rs, Ts, h1, rfl, rfl⟩ := efficiencies_total hr'
  exact ⟨(Rs, Ts), ⟨exc', he', hc', hist', h1⟩, rfl, rfl⟩

/-- **C74**. The same law for the total efficiencies. -/
theorem C74_total_efficiencies_of_polarisation {R T R0 T0 R45 T45 R90 T90 : ℝ}
    (h : TotalEfficiencies E lats mats stack wl (θ, φ, ψ) nh form R T)
    (h0 : TotalEfficiencies E lats mats stack wl (θ, φ, 0) nh form R0 T0)
    (h45 : TotalEfficiencies E lats mats stack wl (θ, φ, 45) nh form R45 T45)
    (h90 : TotalEfficiencies E lats mats stack wl (θ, φ, 90) nh form R90 T90) :
    let x := Real.cos (ψ * (Real.pi / 180))
    let y := Real.sin (ψ * (Real.pi / 180))
    R = x ^ 2 * R0 + y ^ 2 * R90 + x * y * (2 * R45 - R0 - R90) ∧
    T = x ^ 2 * T0 + y ^ 2 * T90 + x * y * (2 * T45 - T0 - T90) := by
  obtain ⟨c, exc, hc, hall⟩ := runs_of_total h0
  obtain ⟨RT0, r0, rfl, rfl⟩ := hall _ _ _ h0
  obtain ⟨RT90, r90, rfl, rfl⟩ := hall _ _ _ h90
  obtain ⟨RT45, r45, rfl, rfl⟩ := hall _ _ _ h45
  obtain ⟨RT, r, rfl, rfl⟩ := hall _ _ _ h
  obtain ⟨K, K', hK⟩ := quad hc r0 r90
  dsimp only
  simp only [mul_sub, Finset.mul_sum, ← Finset.sum_add_distrib, ← Finset.sum_sub_distrib]
  constructor
  · refine Finset.sum_congr rfl fun i _ => ?_
    rw [combine (hK ψ RT r i).1 (hK 45 RT45 r45 i).1]
    ring
  · refine Finset.sum_congr rfl fun i _ => ?_
    rw [combine (hK ψ RT r i).2 (hK 45 RT45 r45 i).2]
    ring

/-- **C74**. The fields are superpositions of those of the two polarisations 0 and 90, in every layer, at every depth and in
every order. -/
theorem C74_fields_of_polarisation (hA : ArgsortContract E.argsort) (hn : 1 ≤ nh) (hd : DistinctOrders lats) {g : ℤ × ℤ}
    {id : LayerId} {z : ℝ} {e h e0 h0 e90 h90 : Fin 3 → ℂ} (hψ : OrderField E lats mats stack wl (θ, φ, ψ) nh form id z g e h)
    (hp0 : OrderField E lats mats stack wl (θ, φ, 0) nh form id z g e0 h0)
    (hp90 : OrderField E lats mats stack wl (θ, φ, 90) nh form id z g e90 h90) :
    e = Real.cos (ψ * (Real.pi / 180)) • e0 + Real.sin (ψ * (Real.pi / 180)) • e90 ∧
    h = Real.cos (ψ * (Real.pi / 180)) • h0 + Real.sin (ψ * (Real.pi / 180)) • h90 := by
  obtain ⟨exc, c, he, hc, hist, F, i, hr, hi, rfl, rfl⟩ := hψ
  obtain ⟨exc0, c0, he0, hc0, hist0, F0, i0, hr0, hi0, rfl, rfl⟩ := hp0
  obtain ⟨exc1, c1, he1, hc1, hist1, F1, i1, hr1, hi1, rfl, rfl⟩ := hp90
  obtain ⟨c, rfl, hb⟩ : ∃ b, c = Static.withWave b exc ∧ simInit E lats mats stack exc nh form = .ok b :=
    ⟨c, transfer he hc he hc, hc⟩
  obtain rfl := transfer he hb he0 hc0
  obtain rfl := transfer he hb he1 hc1
  have hnd : c.harmonics.Nodup := by
    obtain ⟨r0, tl, hs⟩ := List.exists_cons_of_ne_nil (simInit_ok hb).ne
    have hlat := (simInit_ok hb).lat_eq r0 (by rw [hs]; rfl)
    exact harmonics_distinct hA hb hn fun H hH => hd _ H (by rw [← hlat]; exact hH)
  obtain rfl : i0 = i := hnd.get_inj_iff.mp (hi0.trans hi.symm)
  obtain rfl : i1 = i0 := hnd.get_inj_iff.mp (hi1.trans hi.symm)
  obtain ⟨A1, hall⟩ := field_withWave hb
  obtain ⟨r, k, ab, g1, a1, f1⟩ := hall exc hist id z F hr
  obtain ⟨r', k', ab0, g2, a2, f2⟩ := hall exc0 hist0 id z F0 hr0
  obtain ⟨r'', k'', ab1, g3, a3, f3⟩ := hall exc1 hist1 id z F1 hr1
  obtain ⟨rfl, rfl⟩ := Prod.mk.inj (Except.ok.inj (g1.symm.trans g2))
  obtain ⟨rfl, rfl⟩ := Prod.mk.inj (Except.ok.inj (g1.symm.trans g3))
  obtain ⟨l1, l2⟩ := amp_lin (planeWave_lin he he0 he1) a1 a2 a3
  rw [l1, l2] at f1
  obtain ⟨M, t, m1, -, -, s1⟩ := fieldAt_spec f1
  obtain ⟨M0, t0, m2, -, -, s2⟩ := fieldAt_spec f2
  obtain ⟨M1, t1, m3, -, -, s3⟩ := fieldAt_spec f3
  obtain rfl := Except.ok.inj (m1.symm.trans m2)
  obtain rfl := Except.ok.inj (m1.symm.trans m3)
  obtain ⟨⟨x1, x2, x3⟩, y1, y2, y3⟩ := s1.lin s2 s3
  constructor <;> funext j <;> fin_cases j <;>
    simp only [x1, x2, x3, y1, y2, y3, Pi.add_apply, Pi.smul_apply] <;> rfl

open Examples in
private theorem slab_distinct : DistinctOrders (fun _ => exLat) := by
  intro k H h
  simp [exLat] at h

open Examples in
/-- The laws apply to a half-wave stack, whose efficiencies do not depend on the polarisation. -/
example (ph ps : ℝ) : (9 / 25 : ℝ) = Real.cos (ps * (Real.pi / 180)) ^ 2 * (9 / 25) + Real.sin (ps * (Real.pi / 180)) ^ 2 * (9 / 25) +
    Real.cos (ps * (Real.pi / 180)) * Real.sin (ps * (Real.pi / 180)) * (2 * (9 / 25) - 9 / 25 - 9 / 25) :=
  (C74_efficiencies_of_polarisation (g := (0, 0)) exSort_spec le_rfl slab_distinct (slab_normal [0, 1, 2] (.inl rfl) ph ps)
    (slab_normal [0, 1, 2] (.inl rfl) ph 0) (slab_normal [0, 1, 2] (.inl rfl) ph 45) (slab_normal [0, 1, 2] (.inl rfl) ph 90)).1

open Examples in
example (ph ps : ℝ) : (16 / 25 + 16 / 25 : ℝ) / 2 = (16 / 25 + 16 / 25) / 2 :=
  (C74_unpolarised_light (g := (0, 0)) exSort_spec le_rfl slab_distinct (slab_normal [0, 1, 2] (.inl rfl) ph ps)
    (slab_normal [0, 1, 2] (.inl rfl) ph (ps + 90)) (slab_normal [0, 1, 2] (.inl rfl) ph 0)
    (slab_normal [0, 1, 2] (.inl rfl) ph 90)).2

open Examples in
private theorem slab_orderField (ph ps z : ℝ) :
    ∃ e h, OrderField exE (fun _ => exLat) slabMats [0, 1, 2] 1 (0, ph, ps) 1 "original" (.idx 0) z (0, 0) e h := by
  obtain ⟨_, exc, c, he, hc, hist, F, i, h1, h2, -⟩ := slab_field [0, 1, 2] (.inl rfl) ph ps 0 (.inl rfl) z
  exact ⟨_, _, exc, c, he, hc, hist, F, i, h1, h2, rfl, rfl⟩

open Examples in
/-- Fields of the same stack, for all polarisations. -/
example (ph ps z : ℝ) : ∃ e h e0 h0 e90 h90,
    OrderField exE (fun _ => exLat) slabMats [0, 1, 2] 1 (0, ph, ps) 1 "original" (.idx 0) z (0, 0) e h ∧
    OrderField exE (fun _ => exLat) slabMats [0, 1, 2] 1 (0, ph, 0) 1 "original" (.idx 0) z (0, 0) e0 h0 ∧
    OrderField exE (fun _ => exLat) slabMats [0, 1, 2] 1 (0, ph, 90) 1 "original" (.idx 0) z (0, 0) e90 h90 ∧
    e = Real.cos (ps * (Real.pi / 180)) • e0 + Real.sin (ps * (Real.pi / 180)) • e90 := by
  obtain ⟨e, h, k⟩ := slab_orderField ph ps z
  obtain ⟨e0, h0, k0⟩ := slab_orderField ph 0 z
  obtain ⟨e90, h90, k90⟩ := slab_orderField ph 90 z
  exact ⟨e, h, e0, h0, e90, h90, k, k0, k90, (C74_fields_of_polarisation exSort_spec le_rfl slab_distinct k k0 k90).1⟩

open Examples in
/-- Total efficiencies of the same stack. -/
example (ph ps : ℝ) : ∃ R T : ℝ, TotalEfficiencies exE (fun _ => exLat) slabMats [0, 1, 2] 1 (0, ph, ps) 1 "original" R T := by
  obtain ⟨exc, c, he, hc, hist, Rs, Ts, i, h, -⟩ := slab_normal [0, 1, 2] (.inl rfl) ph ps
  refine ⟨∑ i, Rs i, ∑ i, Ts i, exc, c, he, hc, hist, ?_⟩
  have := efficiencies_by_order h
  unfold diffractionEfficiencies
  rw [PyM.bind_def]
  rcases hx : efficienciesByOrder exE c (afterCalls exE c hist (Dyn.fresh slabMats (unsolved c.nh))) with ⟨e | ⟨R', T'⟩, d'⟩
  · rw [hx] at this; simp at this
  · rw [hx] at this
    simp only [Except.ok.injEq, Prod.mk.injEq] at this
    simp [PyM.pure_def, this.1, this.2]

end Nannos
