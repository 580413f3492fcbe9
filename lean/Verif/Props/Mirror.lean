import Verif.Spec.Mirror
import Verif.Props.Symmetry
import Verif.Props.Polarisation

/-! Property C78: structures with a plane of symmetry, or unchanged by half a turn. -/

namespace Nannos

open Matrix Spec

variable {E : Ext} {lats : ℕ → Lattice} {mats : ℕ → LayerSpec} {stack : List ℕ} {nh : ℤ} {form : String} {wl θ φ ψ : ℝ}
  {e1 e2 : ℤ} {u v : ℝ}

private theorem nodup_of (hA : ArgsortContract E.argsort) (hn : 1 ≤ nh) (hd : DistinctOrders lats) {exc : PlaneWave} {c : Static}
    (hc : simInit E lats mats stack exc nh form = .ok c) : c.harmonics.Nodup := by
  obtain ⟨r0, tl, hs⟩ := List.exists_cons_of_ne_nil (simInit_ok hc).ne
  have hlat := (simInit_ok hc).lat_eq r0 (by rw [hs]; rfl)
  exact harmonics_distinct hA hc hn fun H hH => hd _ H (by rw [← hlat]; exact hH)

/-- The results for a wave and for the reflected wave. -/
private theorem images (hE : EigContract E) (hA : ArgsortContract E.argsort) (hn : 1 ≤ nh) (hd : DistinctOrders lats)
    (hsym : Symmetric e1 e2 u v E lats mats stack nh form) (hsq : SquareTensors form mats stack) (hw : WellPlaced mats stack) (hmu : ∀ r ∈ stack, (mats r).mu = 1)
    (hj : form = "jones" → e1 = e2) {φ' ψ' : ℝ} (hang : AnglesReflected e1 e2 φ ψ φ' ψ') {exc exc' : PlaneWave} {c c' : Static}
    (he : planeWave wl (θ, φ, ψ) = .ok exc) (he' : planeWave wl (θ, φ', ψ') = .ok exc')
    (hc : simInit E lats mats stack exc nh form = .ok c) (hc' : simInit E lats mats stack exc' nh form = .ok c')
    (hist : List (Call c.nh)) (hist' : List (Call c'.nh)) :
    (∀ orders X X',
      (diffractionEfficiencies E c orders (afterCalls E c hist (Dyn.fresh mats (unsolved c.nh)))).1 = .ok X →
      (diffractionEfficiencies E c' orders (afterCalls E c' hist' (Dyn.fresh mats (unsolved c'.nh)))).1 = .ok X' →
      EfficienciesAlong (fun g => (e1 * g.1, e2 * g.2)) c c' X X') ∧
    ∀ layer zs Fs Fs',
      (getFieldFourier E c layer zs (afterCalls E c hist (Dyn.fresh mats (unsolved c.nh)))).1 = .ok Fs →
      (getFieldFourier E c' layer zs (afterCalls E c' hist' (Dyn.fresh mats (unsolved c'.nh)))).1 = .ok Fs' →
      List.Forall₂ (FieldsAlong (fun g => (e1 * g.1, e2 * g.2)) (displacementPhase u v) (reflection e1 e2) c c') Fs Fs' := by
  have hi := simInit_ok hc
  obtain ⟨r0, tl, hs⟩ := List.exists_cons_of_ne_nil hi.ne
  have hlat := hi.lat_eq r0 (by rw [hs]; rfl)
  have hr0 : r0 ∈ stack := by rw [hs]; simp
  refine C66_reflection hE hA hsym.signs.1 hsym.signs.2 he he' hang hc hc' hsym.layers hsq hw hw hmu (nodup_of hA hn hd hc)
    (hsym.zero _ _ hc) (fun hne g hg => ?_) (by rw [hlat]; exact hsym.lattice r0 hr0) hj
    (fun hu => hsym.generator r0 hr0 (by rw [← hlat]; exact hu)) hist hist'
  obtain ⟨H, hH⟩ := Option.ne_none_iff_exists'.mp hne
  obtain ⟨k, hk⟩ := hi.harm
  have hperm : c.harmonics.Perm H := by
    unfold Lattice.getHarmonics Lattice.getHarmonics' at hk
    rw [hH] at hk
    simp only [except_bind_ok, if_true, except_pure_eq_ok, Except.ok.injEq, Prod.mk.injEq] at hk
    rw [← hk.1]
    exact argsort_gather_perm H (fun g => (g.1 : ℝ)) (hA _)
  rw [hperm.mem_iff] at hg ⊢
  exact hsym.orders r0 hr0 H (by rw [← hlat]; exact hH) g hg

/-- **C78**. On a structure unchanged by a reflection (or by half a turn), the order `g` of a wave has the efficiencies of
the reflected order of the reflected wave. -/
theorem C78_reflected_wave (hE : EigContract E) (hA : ArgsortContract E.argsort) (hn : 1 ≤ nh) (hd : DistinctOrders lats)
    (hsym : Symmetric e1 e2 u v E lats mats stack nh form) (hsq : SquareTensors form mats stack) (hw : WellPlaced mats stack) (hmu : ∀ r ∈ stack, (mats r).mu = 1)
    (hj : form = "jones" → e1 = e2) {φ' ψ' : ℝ} (hang : AnglesReflected e1 e2 φ ψ φ' ψ') {g : ℤ × ℤ} {R T R' T' : ℝ}
    (h : OrderEfficiencies E lats mats stack wl (θ, φ, ψ) nh form g R T)
    (h' : OrderEfficiencies E lats mats stack wl (θ, φ', ψ') nh form (e1 * g.1, e2 * g.2) R' T') : R' = R ∧ T' = T := by
  obtain ⟨exc, c, he, hc, hist, Rs, Ts, i, hr, rfl, rfl, rfl⟩ := h
  obtain ⟨exc', c', he', hc', hist', Rs', Ts', i', hr', hi', rfl, rfl⟩ := h'
  exact (images hE hA hn hd hsym hsq hw hmu hj hang he he' hc hc' hist hist').1 true _ _ hr hr' i i' hi'

theorem total_reflected (hE : EigContract E) (hA : ArgsortContract E.argsort) (hn : 1 ≤ nh) (hd : DistinctOrders lats)
    (hsym : Symmetric e1 e2 u v E lats mats stack nh form) (hsq : SquareTensors form mats stack) (hw : WellPlaced mats stack) (hmu : ∀ r ∈ stack, (mats r).mu = 1)
    (hj : form = "jones" → e1 = e2) {φ' ψ' : ℝ} (hang : AnglesReflected e1 e2 φ ψ φ' ψ') {R T R' T' : ℝ}
    (h : TotalEfficiencies E lats mats stack wl (θ, φ, ψ) nh form R T)
    (h' : TotalEfficiencies E lats mats stack wl (θ, φ', ψ') nh form R' T') : R' = R ∧ T' = T := by
  obtain ⟨exc, c, he, hc, hist, hr⟩ := h
  obtain ⟨exc', c', he', hc', hist', hr'⟩ := h'
  exact (images hE hA hn hd hsym hsq hw hmu hj hang he he' hc hc' hist hist').1 false _ _ hr hr'

theorem field_reflected (hE : EigContract E) (hA : ArgsortContract E.argsort) (hn : 1 ≤ nh) (hd : DistinctOrders lats)
    (hsym : Symmetric e1 e2 u v E lats mats stack nh form) (hsq : SquareTensors form mats stack) (hw : WellPlaced mats stack) (hmu : ∀ r ∈ stack, (mats r).mu = 1)
    (hj : form = "jones" → e1 = e2) {φ' ψ' : ℝ} (hang : AnglesReflected e1 e2 φ ψ φ' ψ') {id : LayerId} {z : ℝ} {g : ℤ × ℤ}
    {e h e' h' : Fin 3 → ℂ} (hF : OrderField E lats mats stack wl (θ, φ, ψ) nh form id z g e h)
    (hF' : OrderField E lats mats stack wl (θ, φ', ψ') nh form id z (e1 * g.1, e2 * g.2) e' h') :
    e' = displacementPhase u v g • ((reflection e1 e2).map Complex.ofReal) *ᵥ e ∧
    h' = (displacementPhase u v g * (reflection e1 e2).det) • ((reflection e1 e2).map Complex.ofReal) *ᵥ h := by
  obtain ⟨exc, c, he, hc, hist, F, i, hr, rfl, rfl, rfl⟩ := hF
  obtain ⟨exc', c', he', hc', hist', F', i', hr', hi', rfl, rfl⟩ := hF'
  have := (images hE hA hn hd hsym hsq hw hmu hj hang he he' hc hc' hist hist').2 id [z] _ _ hr hr'
  rw [List.forall₂_cons] at this
  exact this.1 i i' hi'

/-- The wave in the mirror plane, reflected. -/
private theorem angles_mirror {n : Fin 3} (hm : Mirror n e1 e2 u v) (hφ : AzimuthInPlane n φ) (ψ : ℝ) :
    AnglesReflected e1 e2 φ ψ φ (-ψ) := by
  have e3 : ∀ z : ℝ, -z * (Real.pi / 180) = -(z * (Real.pi / 180)) := fun z => by ring
  unfold AnglesReflected
  rw [e3, Real.cos_neg, Real.sin_neg]
  rcases hm with ⟨rfl, rfl, rfl, -⟩ | ⟨rfl, rfl, rfl, -⟩
  · rcases hφ with ⟨-, h⟩ | ⟨h, -⟩
    · rw [h]; simp
    · simp at h
  · rcases hφ with ⟨h, -⟩ | ⟨-, h⟩
    · simp at h
    · rw [h]; simp

private theorem trig_neg (ψ : ℝ) : Real.cos (-ψ * (Real.pi / 180)) = Real.cos (ψ * (Real.pi / 180)) ∧
    Real.sin (-ψ * (Real.pi / 180)) = -Real.sin (ψ * (Real.pi / 180)) := by
  rw [neg_mul, Real.cos_neg, Real.sin_neg]
  exact ⟨rfl, rfl⟩

private theorem trig_main {ψ : ℝ} (h : ψ = 0 ∨ ψ = 90) :
    Real.cos (ψ * (Real.pi / 180)) * Real.sin (ψ * (Real.pi / 180)) = 0 := by
  rcases h with rfl | rfl
  · simp
  · rw [show (90 : ℝ) * (Real.pi / 180) = Real.pi / 2 by ring]
    simp

/-- **C78**. When the plane of incidence is a mirror plane of the structure and the wave is polarised in it or
perpendicularly to it (angle 0 or 90), the orders on either side of the plane have the same efficiencies. -/
theorem C78_orders_in_pairs (hE : EigContract E) (hA : ArgsortContract E.argsort) (hn : 1 ≤ nh) (hd : DistinctOrders lats)
    (hsym : Symmetric e1 e2 u v E lats mats stack nh form) (hsq : SquareTensors form mats stack) (hw : WellPlaced mats stack) (hmu : ∀ r ∈ stack, (mats r).mu = 1)
    (hj : form ≠ "jones") {n : Fin 3} (hm : Mirror n e1 e2 u v) (hφ : AzimuthInPlane n φ) (hψ : ψ = 0 ∨ ψ = 90)
    {g : ℤ × ℤ} {R T R' T' : ℝ} (h : OrderEfficiencies E lats mats stack wl (θ, φ, ψ) nh form g R T)
    (h' : OrderEfficiencies E lats mats stack wl (θ, φ, ψ) nh form (e1 * g.1, e2 * g.2) R' T') : R' = R ∧ T' = T := by
  obtain ⟨R'', T'', h''⟩ := C74_defined h' (-ψ)
  obtain ⟨rfl, rfl⟩ := C78_reflected_wave hE hA hn hd hsym hsq hw hmu (absurd · hj) (angles_mirror hm hφ ψ) h h''
  obtain ⟨R0, T0, h0⟩ := C74_defined h' 0
  obtain ⟨R45, T45, h45⟩ := C74_defined h' 45
  obtain ⟨R90, T90, h90⟩ := C74_defined h' 90
  obtain ⟨a, b⟩ := C74_efficiencies_of_polarisation hA hn hd h' h0 h45 h90
  obtain ⟨a', b'⟩ := C74_efficiencies_of_polarisation hA hn hd h'' h0 h45 h90
  obtain ⟨t1, t2⟩ := trig_neg ψ
  have t := trig_main hψ
  rw [t1, t2] at a' b'
  rw [a, b, a', b']
  exact ⟨by linear_combination 2 * (2 * R45 - R0 - R90) * t, by linear_combination 2 * (2 * T45 - T0 - T90) * t⟩

/-- **C78**. In the orders of the mirror plane the two polarisations do not interfere: the efficiencies for an intermediate
polarisation are the averages with the squares of the cosine and of the sine. -/
theorem C78_no_interference (hE : EigContract E) (hA : ArgsortContract E.argsort) (hn : 1 ≤ nh) (hd : DistinctOrders lats)
    (hsym : Symmetric e1 e2 u v E lats mats stack nh form) (hsq : SquareTensors form mats stack) (hw : WellPlaced mats stack) (hmu : ∀ r ∈ stack, (mats r).mu = 1)
    (hj : form ≠ "jones") {n : Fin 3} (hm : Mirror n e1 e2 u v) (hφ : AzimuthInPlane n φ)
    {g : ℤ × ℤ} (hg : (e1 * g.1, e2 * g.2) = g) {R T R0 T0 R90 T90 : ℝ}
    (h : OrderEfficiencies E lats mats stack wl (θ, φ, ψ) nh form g R T)
    (h0 : OrderEfficiencies E lats mats stack wl (θ, φ, 0) nh form g R0 T0)
    (h90 : OrderEfficiencies E lats mats stack wl (θ, φ, 90) nh form g R90 T90) :
    R = Real.cos (ψ * (Real.pi / 180)) ^ 2 * R0 + Real.sin (ψ * (Real.pi / 180)) ^ 2 * R90 ∧
    T = Real.cos (ψ * (Real.pi / 180)) ^ 2 * T0 + Real.sin (ψ * (Real.pi / 180)) ^ 2 * T90 := by
  obtain ⟨R'', T'', h''⟩ := C74_defined h (-ψ)
  obtain ⟨rfl, rfl⟩ := C78_reflected_wave hE hA hn hd hsym hsq hw hmu (absurd · hj) (angles_mirror hm hφ ψ) h (by rw [hg]; exact h'')
  obtain ⟨R45, T45, h45⟩ := C74_defined h 45
  obtain ⟨a, b⟩ := C74_efficiencies_of_polarisation hA hn hd h h0 h45 h90
  obtain ⟨a', b'⟩ := C74_efficiencies_of_polarisation hA hn hd h'' h0 h45 h90
  obtain ⟨t1, t2⟩ := trig_neg ψ
  rw [t1, t2] at a' b'
  exact ⟨by linear_combination (a + a') / 2, by linear_combination (b + b') / 2⟩

/-- **C78**. The same for the total efficiencies. -/
theorem C78_no_interference_total (hE : EigContract E) (hA : ArgsortContract E.argsort) (hn : 1 ≤ nh) (hd : DistinctOrders lats)
    (hsym : Symmetric e1 e2 u v E lats mats stack nh form) (hsq : SquareTensors form mats stack) (hw : WellPlaced mats stack) (hmu : ∀ r ∈ stack, (mats r).mu = 1)
    (hj : form ≠ "jones") {n : Fin 3} (hm : Mirror n e1 e2 u v) (hφ : AzimuthInPlane n φ)
    {R T R0 T0 R90 T90 : ℝ} (h : TotalEfficiencies E lats mats stack wl (θ, φ, ψ) nh form R T)
    (h0 : TotalEfficiencies E lats mats stack wl (θ, φ, 0) nh form R0 T0)
    (h90 : TotalEfficiencies E lats mats stack wl (θ, φ, 90) nh form R90 T90) :
    R = Real.cos (ψ * (Real.pi / 180)) ^ 2 * R0 + Real.sin (ψ * (Real.pi / 180)) ^ 2 * R90 ∧
    T = Real.cos (ψ * (Real.pi / 180)) ^ 2 * T0 + Real.sin (ψ * (Real.pi / 180)) ^ 2 * T90 := by
  obtain ⟨R'', T'', h''⟩ := C74_total_defined h (-ψ)
  obtain ⟨rfl, rfl⟩ := total_reflected hE hA hn hd hsym hsq hw hmu (absurd · hj) (angles_mirror hm hφ ψ) h h''
  obtain ⟨R45, T45, h45⟩ := C74_total_defined h 45
  obtain ⟨a, b⟩ := C74_total_efficiencies_of_polarisation h h0 h45 h90
  obtain ⟨a', b'⟩ := C74_total_efficiencies_of_polarisation h'' h0 h45 h90
  obtain ⟨t1, t2⟩ := trig_neg ψ
  rw [t1, t2] at a' b'
  exact ⟨by linear_combination (a + a') / 2, by linear_combination (b + b') / 2⟩

/-- The orders in the mirror plane are not displaced. -/
private theorem phase_in_plane {n : Fin 3} (hm : Mirror n e1 e2 u v) {g : ℤ × ℤ} (hg : (e1 * g.1, e2 * g.2) = g) :
    displacementPhase u v g = 1 := by
  have h1 := congrArg Prod.fst hg
  have h2 := congrArg Prod.snd hg
  unfold displacementPhase
  rcases hm with ⟨-, rfl, rfl, rfl⟩ | ⟨-, rfl, rfl, rfl⟩
  · have : g.1 = 0 := by simp at h1; omega
    simp [this]
  · have : g.2 = 0 := by simp at h2; omega
    simp [this]

private theorem eq_neg_zero {a : ℂ} (h : a = -a) : a = 0 := by linear_combination h / 2

/-- **C78**. When the plane of incidence is a mirror plane of the structure, a wave with polarisation angle 0 has, in the
orders of this plane, its electric field in the plane and its magnetic field perpendicular to it; a wave with polarisation
angle 90 has its electric field perpendicular and its magnetic field in the plane: the two polarisations do not mix. -/
theorem C78_polarisations_do_not_mix (hE : EigContract E) (hA : ArgsortContract E.argsort) (hn : 1 ≤ nh) (hd : DistinctOrders lats)
    (hsym : Symmetric e1 e2 u v E lats mats stack nh form) (hsq : SquareTensors form mats stack) (hw : WellPlaced mats stack) (hmu : ∀ r ∈ stack, (mats r).mu = 1)
    (hj : form ≠ "jones") {n : Fin 3} (hm : Mirror n e1 e2 u v) (hφ : AzimuthInPlane n φ)
    {g : ℤ × ℤ} (hg : (e1 * g.1, e2 * g.2) = g) {id : LayerId} {z : ℝ} {e h : Fin 3 → ℂ} :
    (OrderField E lats mats stack wl (θ, φ, 0) nh form id z g e h → e n = 0 ∧ ∀ k, k ≠ n → h k = 0) ∧
    (OrderField E lats mats stack wl (θ, φ, 90) nh form id z g e h → h n = 0 ∧ ∀ k, k ≠ n → e k = 0) := by
  have hp := phase_in_plane hm hg
  constructor
  · intro hF
    have hF' : OrderField E lats mats stack wl (θ, φ, -0) nh form id z (e1 * g.1, e2 * g.2) e h := by rw [hg, neg_zero]; exact hF
    obtain ⟨a, b⟩ := field_reflected hE hA hn hd hsym hsq hw hmu (absurd · hj) (angles_mirror hm hφ 0) hF hF'
    rw [hp, one_smul] at a
    rw [hp, one_mul] at b
    have a0 := congrFun a 0
    have a1 := congrFun a 1
    have b0 := congrFun b 0
    have b1 := congrFun b 1
    have b2 := congrFun b 2
    rcases hm with ⟨rfl, rfl, rfl, -⟩ | ⟨rfl, rfl, rfl, -⟩
    · simp [reflection, mulVec, dotProduct, Fin.sum_univ_three, det_diagonal, Fin.prod_univ_three] at a0 a1 b0 b1 b2
      refine ⟨eq_neg_zero a0, fun k hk => ?_⟩
      fin_cases k
      · simp at hk
      · exact eq_neg_zero b1
      · exact eq_neg_zero b2
    · simp [reflection, mulVec, dotProduct, Fin.sum_univ_three, det_diagonal, Fin.prod_univ_three] at a0 a1 b0 b1 b2
      refine ⟨eq_neg_zero a1, fun k hk => ?_⟩
      fin_cases k
      · exact eq_neg_zero b0
      · simp at hk
      · exact eq_neg_zero b2
  · intro hF
    obtain ⟨e0, h0, hF0⟩ := C74_fields_defined hF 0
    obtain ⟨e', h', hF'⟩ := C74_fields_defined hF (-90)
    have hF'' := hF'
    rw [← hg] at hF''
    obtain ⟨a, b⟩ := field_reflected hE hA hn hd hsym hsq hw hmu (absurd · hj) (angles_mirror hm hφ 90) hF hF''
    obtain ⟨x, y⟩ := C74_fields_of_polarisation hA hn hd hF' hF0 hF
    obtain ⟨t1, t2⟩ := trig_neg 90
    rw [t1, t2, show (90 : ℝ) * (Real.pi / 180) = Real.pi / 2 by ring, Real.cos_pi_div_two, Real.sin_pi_div_two] at x y
    rw [x, hp, one_smul] at a
    rw [y, hp, one_mul] at b
    have a0 := congrFun a 0
    have a1 := congrFun a 1
    have a2 := congrFun a 2
    have b0 := congrFun b 0
    have b1 := congrFun b 1
    rcases hm with ⟨rfl, rfl, rfl, -⟩ | ⟨rfl, rfl, rfl, -⟩
    · simp [reflection, mulVec, dotProduct, Fin.sum_univ_three, det_diagonal, Fin.prod_univ_three] at a0 a1 a2 b0 b1
      refine ⟨eq_neg_zero b0.symm, fun k hk => ?_⟩
      fin_cases k
      · simp at hk
      · exact eq_neg_zero a1.symm
      · exact eq_neg_zero a2.symm
    · simp [reflection, mulVec, dotProduct, Fin.sum_univ_three, det_diagonal, Fin.prod_univ_three] at a0 a1 a2 b0 b1
      refine ⟨eq_neg_zero b1.symm, fun k hk => ?_⟩
      fin_cases k
      · exact eq_neg_zero a0.symm
      · simp at hk
      · exact eq_neg_zero a2.symm

/-- At normal incidence only the direction of the electric field matters, up to its sign. -/
private theorem normal_turned {g : ℤ × ℤ} {R T : ℝ}
    (h : OrderEfficiencies E lats mats stack wl (0, φ, ψ) nh form g R T) :
    OrderEfficiencies E lats mats stack wl (0, 180 + φ, ψ) nh form g R T := by
  obtain ⟨exc, c, he, hc, hist, Rs, Ts, i, hr, hi, rfl, rfl⟩ := h
  obtain ⟨c, rfl, hb⟩ : ∃ b, c = Static.withWave b exc ∧ simInit E lats mats stack exc nh form = .ok b :=
    ⟨c, Except.ok.inj (hc.symm.trans (simInit_withWave hc rfl rfl rfl)), hc⟩
  obtain ⟨w, hw⟩ := planeWave_any he (180 + φ) ψ
  obtain ⟨w0, hw0⟩ := planeWave_any he φ (180 + ψ)
  obtain ⟨e0, p0⟩ := planeWave_any he φ 0
  obtain ⟨e1, p1⟩ := planeWave_any he φ 90
  obtain ⟨a1, a2, a3, a4⟩ := planeWave_normal hw (φ0 := φ) (by rw [show 180 + φ + ψ - φ = 180 + ψ by ring]; exact hw0)
  obtain ⟨d1, d2, d3⟩ := planeWave_same he hw0
  have hinit := simInit_withWave hb (a1.trans d1) (a2.trans d2) (a3.trans d3)
  obtain ⟨RT, hRT⟩ := eff_any hb (efficiencies_by_order hr) w []
  obtain ⟨A1, hAll⟩ := eff_withWave hb
  obtain ⟨RTa, ra⟩ := eff_any hb (efficiencies_by_order hr) e0 []
  obtain ⟨RTb, rb⟩ := eff_any hb (efficiencies_by_order hr) e1 []
  obtain ⟨K, K', hK⟩ := eff_quad (hAll e0 [] RTa ra) (hAll e1 [] RTb rb)
  obtain ⟨k1, k2⟩ := hK exc _ _ _ (planeWave_lin he p0 p1) (hAll exc hist _ (efficiencies_by_order hr)) i
  obtain ⟨l1, l2⟩ := hK w _ _ _ (a4.trans (planeWave_lin hw0 p0 p1)) (hAll w [] _ hRT) i
  have e : (180 + ψ) * (Real.pi / 180) = ψ * (Real.pi / 180) + Real.pi := by ring
  rw [e, Real.cos_add_pi, Real.sin_add_pi] at l1 l2
  refine ⟨w, _, hw, hinit, [], RT.1, RT.2, i, (efficiencies_listed hRT).1, hi, ?_, ?_⟩
  · rw [l1]; exact k1.trans (by ring)
  · rw [l2]; exact k2.trans (by ring)

/-- **C78**. At normal incidence on a structure unchanged by half a turn (on any lattice), opposite orders have the same
efficiencies, whatever the polarisation. -/
theorem C78_opposite_orders (hE : EigContract E) (hA : ArgsortContract E.argsort) (hn : 1 ≤ nh) (hd : DistinctOrders lats)
    (hsym : Symmetric (-1) (-1) u v E lats mats stack nh form) (hsq : SquareTensors form mats stack) (hw : WellPlaced mats stack)
    (hmu : ∀ r ∈ stack, (mats r).mu = 1) {g : ℤ × ℤ} {R T R' T' : ℝ}
    (h : OrderEfficiencies E lats mats stack wl (0, φ, ψ) nh form g R T)
    (h' : OrderEfficiencies E lats mats stack wl (0, φ, ψ) nh form (-g.1, -g.2) R' T') : R' = R ∧ T' = T :=
  C78_reflected_wave hE hA hn hd hsym hsq hw hmu (fun _ => rfl) (C66_angles φ ψ).2.2 h
    (by simpa using normal_turned h')

/-- A mono-periodic grating of isotropic materials is unchanged by the reflection of the axis of its grooves. -/
theorem grating_symmetric (hA : ArgsortContract E.argsort) (hform : form = "original" ∨ form = "tangent")
    (hlat : ∀ r ∈ stack, (lats (mats r).lattice).truncation = .oneD ∧ (lats (mats r).lattice).is1D = true ∧
      (lats (mats r).lattice).harmonicsArray = none ∧
      (lats (mats r).lattice).basis 0 1 = 0 ∧ (lats (mats r).lattice).basis 1 0 = 0)
    (hlay : ∀ r ∈ stack, (mats r).isAnisotropic = false ∧ (mats r).tangentField = none ∧
      ((mats r).isUniform = false → ∃ Nx, (mats r).epsilon.shape = [Nx, 1])) :
    Symmetric 1 (-1) 0 0 E lats mats stack nh form := by
  refine ⟨⟨.inl rfl, .inr rfl⟩, fun r hr => .inl (hlat r hr).2.2.2, fun r hr => ?_, fun exc c hc => ?_, fun r hr H hH => ?_, fun r hr hu => ?_⟩
  · obtain ⟨h1, h2, h3⟩ := hlay r hr
    refine ⟨rfl, rfl, fun _ => rfl, fun Nx Ny hu hs => ⟨0, 0, ⟨by simp, by simp⟩, fun x hx y hy => ?_⟩, fun Nx Ny hs => ?_, .inl ⟨h2, h2⟩⟩
    · obtain ⟨N, hN⟩ := h3 hu
      rw [hN] at hs
      simp only [List.cons.injEq, and_true] at hs
      obtain ⟨rfl, rfl⟩ := hs
      obtain rfl : y = 0 := by omega
      have : pixel N (1 * x - 0) = x := by
        unfold pixel
        rw [one_mul, sub_zero, Int.emod_eq_of_lt (by omega) (by omega)]
        simp
      rw [this]
      simp [pixel]
    · exfalso
      have : (mats r).isAnisotropic = true := by
        unfold LayerSpec.isAnisotropic
        rw [hs]
        rfl
      rw [h1] at this
      simp at this
  · obtain ⟨r0, tl, hs⟩ := List.exists_cons_of_ne_nil (simInit_ok hc).ne
    have hl := (simInit_ok hc).lat_eq r0 (by rw [hs]; rfl)
    have hr0 : r0 ∈ stack := by rw [hs]; simp
    obtain ⟨k, hk⟩ := (simInit_ok hc).harm
    exact C08_specular_order_retained_partial E.argsort hA c.lattice (by rw [hl]; exact (hlat r0 hr0).2.2.1) _ _ _ _ hk
      (.inl (by rw [hl]; exact (hlat r0 hr0).1))
  · rw [(hlat r hr).2.2.1] at hH
    simp at hH
  · exfalso
    obtain ⟨u1, u2, -⟩ := hu
    rcases hform with rfl | rfl
    · exact u1 rfl
    · exact u2 ⟨rfl, (hlat r hr).2.1⟩

/-- **C78**. For a mono-periodic grating in its plane of incidence (azimuth 0) the two polarisations do not mix in any
order: with polarisation angle 0 the electric field is in the plane of incidence and the magnetic field along the grooves,
with 90 the electric field is along the grooves. The efficiencies for other polarisations are averages of the two. -/
theorem C78_gratings (hE : EigContract E) (hA : ArgsortContract E.argsort) (hn : 1 ≤ nh)
    (hform : form = "original" ∨ form = "tangent")
    (hlat : ∀ k, (lats k).truncation = .oneD ∧ (lats k).is1D = true ∧ (lats k).harmonicsArray = none ∧
      (lats k).basis 0 1 = 0 ∧ (lats k).basis 1 0 = 0)
    (hlay : ∀ r ∈ stack, (mats r).isAnisotropic = false ∧ (mats r).tangentField = none ∧
      ((mats r).isUniform = false → ∃ Nx, (mats r).epsilon.shape = [Nx, 1]))
    (hw : WellPlaced mats stack) (hmu : ∀ r ∈ stack, (mats r).mu = 1) {g : ℤ × ℤ} :
    (∀ id z e h, OrderField E lats mats stack wl (θ, 0, 0) nh form id z g e h → e 1 = 0 ∧ h 0 = 0 ∧ h 2 = 0) ∧
    (∀ id z e h, OrderField E lats mats stack wl (θ, 0, 90) nh form id z g e h → h 1 = 0 ∧ e 0 = 0 ∧ e 2 = 0) ∧
    ∀ ψ R T R0 T0 R90 T90, OrderEfficiencies E lats mats stack wl (θ, 0, ψ) nh form g R T →
      OrderEfficiencies E lats mats stack wl (θ, 0, 0) nh form g R0 T0 →
      OrderEfficiencies E lats mats stack wl (θ, 0, 90) nh form g R90 T90 →
      R = Real.cos (ψ * (Real.pi / 180)) ^ 2 * R0 + Real.sin (ψ * (Real.pi / 180)) ^ 2 * R90 ∧
      T = Real.cos (ψ * (Real.pi / 180)) ^ 2 * T0 + Real.sin (ψ * (Real.pi / 180)) ^ 2 * T90 := by
  have hd : DistinctOrders lats := fun k H hH => by rw [(hlat k).2.2.1] at hH; simp at hH
  have hsq : SquareTensors form mats stack := squareTensors_of_iso fun r hr => (hlay r hr).1
  have hsym := grating_symmetric (nh := nh) hA hform (fun r _ => hlat (mats r).lattice) hlay
  have hj : form ≠ "jones" := by rcases hform with rfl | rfl <;> decide
  have hm : Mirror 1 1 (-1) 0 0 := .inr ⟨rfl, rfl, rfl, rfl⟩
  have hφ : AzimuthInPlane 1 0 := .inr ⟨rfl, by simp⟩
  have hord : ∀ {exc c}, simInit E lats mats stack exc nh form = .ok c → ∀ i : Fin c.nh,
      ((1 : ℤ) * (c.harmonics.get i).1, (-1 : ℤ) * (c.harmonics.get i).2) = c.harmonics.get i := by
    intro exc c hc i
    obtain ⟨r0, tl, hs⟩ := List.exists_cons_of_ne_nil (simInit_ok hc).ne
    have hl := (simInit_ok hc).lat_eq r0 (by rw [hs]; rfl)
    obtain ⟨k, hk⟩ := (simInit_ok hc).harm
    rw [hl] at hk
    obtain ⟨H, n', h1, h2, -⟩ := C05_mono_periodic_truncation E.argsort hA (lats (mats r0).lattice) (hlat _).1 (hlat _).2.2.1
      (effectiveNh nh (stack.all fun r => (mats r).isUniform)) true
    have := hk.symm.trans h1
    simp only [Except.ok.injEq, Prod.mk.injEq] at this
    have hmem := List.get_mem c.harmonics i
    generalize c.harmonics.get i = g' at hmem ⊢
    rw [this.1, h2] at hmem
    ext
    · simp
    · simp [hmem.1]
  have hg : ∀ {id z ψ e h}, OrderField E lats mats stack wl (θ, 0, ψ) nh form id z g e h →
      ((1 : ℤ) * g.1, (-1 : ℤ) * g.2) = g := by
    rintro id z ψ e h ⟨exc, c, -, hc, hist, F, i, -, rfl, -⟩
    exact hord hc i
  refine ⟨fun id z e h hF => ?_, fun id z e h hF => ?_, fun ψ R T R0 T0 R90 T90 h h0 h90 => ?_⟩
  · obtain ⟨k1, k2⟩ := (C78_polarisations_do_not_mix hE hA hn hd hsym hsq hw hmu hj hm hφ (hg hF)).1 hF
    exact ⟨k1, k2 0 (by decide), k2 2 (by decide)⟩
  · obtain ⟨k1, k2⟩ := (C78_polarisations_do_not_mix hE hA hn hd hsym hsq hw hmu hj hm hφ (hg hF)).2 hF
    exact ⟨k1, k2 0 (by decide), k2 2 (by decide)⟩
  · refine C78_no_interference hE hA hn hd hsym hsq hw hmu hj hm hφ ?_ h h0 h90
    obtain ⟨exc, c, -, hc, hist, Rs, Ts, i, -, rfl, -⟩ := h
    exact hord hc i

namespace Examples

theorem slab_gratings (r : ℕ) : (slabMats r).isAnisotropic = false ∧ (slabMats r).tangentField = none ∧
    ((slabMats r).isUniform = false → ∃ Nx, (slabMats r).epsilon.shape = [Nx, 1]) := by
  by_cases h1 : r = 1
  · subst h1
    exact ⟨rfl, rfl, fun _ => ⟨4, rfl⟩⟩
  · have : ∃ n, slabMats r = exLayer n 1 (NdArr.scalar (((1 : ℝ) ^ 2 : ℝ) : ℂ)) := by
      by_cases h0 : r = 0
      · exact ⟨_, by simp [slabMats, h0]; rfl⟩
      · exact ⟨_, by simp [slabMats, h0, h1]; rfl⟩
    obtain ⟨n, hn⟩ := this
    rw [hn]
    exact ⟨rfl, rfl, fun h => (by cases h)⟩

/-- C78 for a grating under normally incident waves: the fields returned in front of it. -/
example (z : ℝ) : ∃ e h, OrderField exE (fun _ => exLat) slabMats [0, 1, 2] 1 (0, 0, 0) 1 "original" (.idx 0) z (0, 0) e h ∧
    e 1 = 0 ∧ h 0 = 0 ∧ h 2 = 0 := by
  obtain ⟨_, exc, c, he, hc, hist, F, i, h1, h2, -⟩ := slab_field [0, 1, 2] (.inl rfl) 0 0 0 (.inl rfl) z
  have hF : OrderField exE (fun _ => exLat) slabMats [0, 1, 2] 1 (0, 0, 0) 1 "original" (.idx 0) z (0, 0) _ _ :=
    ⟨exc, c, he, hc, hist, F, i, h1, h2, rfl, rfl⟩
  exact ⟨_, _, hF, (C78_gratings exE_eig exSort_spec le_rfl (.inl rfl) (fun _ => ⟨rfl, rfl, rfl, by simp [exLat], by simp [exLat]⟩)
    (fun r _ => slab_gratings r) slab_placed (fun r _ => slab_mu r)).1 _ _ _ _ hF⟩

/-- Efficiencies of the same grating. -/
example (ps : ℝ) {R T : ℝ} (h : OrderEfficiencies exE (fun _ => exLat) slabMats [0, 1, 2] 1 (0, 0, ps) 1 "original" (0, 0) R T) :
    R = Real.cos (ps * (Real.pi / 180)) ^ 2 * (9 / 25) + Real.sin (ps * (Real.pi / 180)) ^ 2 * (9 / 25) :=
  ((C78_gratings exE_eig exSort_spec le_rfl (.inl rfl) (fun _ => ⟨rfl, rfl, rfl, by simp [exLat], by simp [exLat]⟩)
    (fun r _ => slab_gratings r) slab_placed (fun r _ => slab_mu r)).2.2 _ _ _ _ _ _ _ h (slab_normal [0, 1, 2] (.inl rfl) 0 0)
    (slab_normal [0, 1, 2] (.inl rfl) 0 90)).1

/-- A lattice for which three orders are listed. -/
noncomputable def three : Lattice := { exLat with harmonicsArray := some [(0, 0), (1, 0), (-1, 0)] }

/-- A grating with one groove per period, on seven pixels: unchanged by the reflection of its periodic axis, for every
formulation other than `jones` and for any generator of tangent vectors (none is used). -/
noncomputable def groove (N : ℕ) : ℕ → LayerSpec :=
  fun r => if r = 1 then exLayer "Slab" (1 / 8) (NdArr.ofGrid (fun (x : Fin (2 * N + 1)) (_ : Fin 1) => if (x : ℕ) = N then 7 else 1)) else slabMats r

theorem groove_symmetric (N : ℕ) {e2 : ℤ} (he2 : e2 = 1 ∨ e2 = -1) : Symmetric (-1) e2 (1 / (2 * N + 1)) 0 exE (fun _ => three) (groove N) [0, 1, 2] 3 "tangent" := by
  have hl : ∀ r, (groove N r).isAnisotropic = false ∧ (groove N r).tangentField = none := by
    intro r
    by_cases h1 : r = 1
    · subst h1
      simp only [groove, if_true]
      exact ⟨by simp [exLayer, LayerSpec.isAnisotropic, NdArr.ofGrid, isAnisotropic], rfl⟩
    · simp only [groove, h1, if_false]
      exact ⟨(slab_gratings r).1, (slab_gratings r).2.1⟩
  refine ⟨⟨.inr rfl, he2⟩, fun r _ => .inl (by simp [three, exLat]), fun r hr => ?_, fun exc c hc => ?_, fun r _ H hH => ?_, fun r hr hu => ?_⟩
  · refine ⟨rfl, rfl, fun _ => rfl, fun Nx Ny hu hs => ?_, fun Nx Ny hs => ?_, .inl ⟨(hl r).2, (hl r).2⟩⟩
    · have h1 : r = 1 := by
        by_contra h1
        have hr' : r = 0 ∨ r = 2 := by
          simp only [List.mem_cons, List.not_mem_nil, or_false] at hr
          omega
        rcases hr' with rfl | rfl <;> simp [groove, slabMats, exLayer, LayerSpec.isUniform, NdArr.scalar, isUniform, isAnisotropic] at hu
      subst h1
      have hs' : [2 * N + 1, 1] = [Nx, Ny] := hs
      simp only [List.cons.injEq, and_true] at hs'
      obtain ⟨rfl, rfl⟩ := hs'
      have hN : (2 * (N : ℝ) + 1) ≠ 0 := by positivity
      refine ⟨1, 0, ⟨by push_cast; field_simp, by simp⟩, fun x hx y hy => ?_⟩
      obtain rfl : y = 0 := by omega
      have hp : pixel (2 * N + 1) (-1 * (x : ℤ) - 1) = 2 * N - x := by
        unfold pixel
        have : (-1 * (x : ℤ) - 1) % ((2 * N + 1 : ℕ) : ℤ) = ((2 * N - x : ℕ) : ℤ) := by
          rw [← Int.add_emod_right, Int.emod_eq_of_lt] <;> push_cast <;> omega
        rw [this]
        simp
      rw [hp, show pixel 1 (e2 * ((0 : ℕ) : ℤ) - 0) = 0 by simp [pixel]]
      simp only [groove, if_true, exLayer, NdArr.ofGrid]
      have hx' : 2 * N - x < 2 * N + 1 := by omega
      simp [hx]
      by_cases hxN : x = N
      · subst hxN
        simp
        omega
      · rw [if_neg hxN, if_neg (by omega)]
    · exfalso
      have h2 : (groove N r).isAnisotropic = true := by
        unfold LayerSpec.isAnisotropic
        rw [hs]
        rfl
      rw [(hl r).1] at h2
      simp at h2
  · obtain ⟨k, hk⟩ := (simInit_ok hc).harm
    have hlat := (simInit_ok hc).lat_eq 0 rfl
    unfold Lattice.getHarmonics Lattice.getHarmonics' at hk
    rw [hlat] at hk
    simp only [three, except_bind_ok, if_true, except_pure_eq_ok, Except.ok.injEq, Prod.mk.injEq] at hk
    rw [← hk.1]
    exact (argsort_gather_perm _ (fun g : ℤ × ℤ => (g.1 : ℝ)) (exSort_spec _)).mem_iff.mpr (by simp)
  · simp only [three, Option.some.injEq] at hH
    subst hH
    rcases he2 with rfl | rfl <;> decide
  · exact absurd ⟨rfl, rfl⟩ hu.2.1

theorem groove_plain (N : ℕ) : WellPlaced (groove N) [0, 1, 2] ∧ ∀ r ∈ [0, 1, 2], (groove N r).mu = 1 := by
  have h : ∀ r, (groove N r).iscopy = false ∧ (groove N r).mu = 1 := by
    intro r
    by_cases h1 : r = 1
    · subst h1
      exact ⟨rfl, rfl⟩
    · simp only [groove, h1, if_false]
      exact ⟨(slab_index r).2.1, slab_mu r⟩
  refine ⟨fun k r hk hc => ?_, fun r _ => (h r).2⟩
  rw [(h r).1] at hc
  cases hc

theorem groove_iso (N : ℕ) {form : String} : SquareTensors form (groove N) [0, 1, 2] := by
  refine squareTensors_of_iso fun r _ => ?_
  by_cases h1 : r = 1
  · subst h1
    simp [groove, exLayer, LayerSpec.isAnisotropic, NdArr.ofGrid, isAnisotropic]
  · simp only [groove, h1, if_false]
    exact (slab_gratings r).1

theorem three_distinct : DistinctOrders (fun _ => three) := by
  intro k H hH
  simp only [three, Option.some.injEq] at hH
  subst hH
  decide

/-- C78 for this grating: at normal incidence, the orders 1 and -1 have the same efficiencies; by half a turn, for every
polarisation. -/
example (N : ℕ) {R T R' T' : ℝ} (h : OrderEfficiencies exE (fun _ => three) (groove N) [0, 1, 2] 1 (0, 90, 0) 3 "tangent" (1, 0) R T)
    (h' : OrderEfficiencies exE (fun _ => three) (groove N) [0, 1, 2] 1 (0, 90, 0) 3 "tangent" (-1, 0) R' T') : R' = R ∧ T' = T := by
  refine C78_orders_in_pairs exE_eig exSort_spec (by norm_num) three_distinct (groove_symmetric N (.inl rfl)) (groove_iso N) (groove_plain N).1
    (groove_plain N).2 (by decide) (n := 0) (.inl ⟨rfl, rfl, rfl, rfl⟩) (.inl ⟨rfl, ?_⟩) (.inl rfl) h (by simpa using h')
  rw [show (90 : ℝ) * (Real.pi / 180) = Real.pi / 2 by ring, Real.cos_pi_div_two]

example (N : ℕ) {ph ps R T R' T' : ℝ}
    (h : OrderEfficiencies exE (fun _ => three) (groove N) [0, 1, 2] 1 (0, ph, ps) 3 "tangent" (1, 0) R T)
    (h' : OrderEfficiencies exE (fun _ => three) (groove N) [0, 1, 2] 1 (0, ph, ps) 3 "tangent" (-1, 0) R' T') : R' = R ∧ T' = T :=
  C78_opposite_orders exE_eig exSort_spec (by norm_num) three_distinct (groove_symmetric N (.inr rfl)) (groove_iso N) (groove_plain N).1
    (groove_plain N).2 h (by simpa using h')

end Examples

end Nannos
