import Verif.Proofs.UnitCell
import Verif.Props.Stress
import Verif.Props.GeneratorsMoved
import Verif.Proofs.AllWaves
import Verif.Spec.Results
import Verif.Props.Orders
import Verif.Examples.Polarised

/-! Properties C76 (choice of the unit cell, of the axes and of the origin) and C77 (structures with rotation symmetry). -/

namespace Nannos

open Matrix Spec

/-- **C76**. One structure of isotropic materials described twice: with other lattice vectors for the same lattice (integer
combinations `A` with determinant `±1`), another sampling of the patterns, another origin (displaced by the fractions `u`,
`v` of the periods) and other axes (turned or reflected by `R`), the wave being turned along with the structure and the
retained orders being the same. Each order has the same efficiencies in the two simulations, and the fields of the second
are those of the first, turned by `R` and multiplied by the phase of the displacement. Formulation `original`. -/
theorem C76_unit_cell {E E' : Ext} (hE : EigContract E) (hE' : EigContract E') {A : Matrix (Fin 2) (Fin 2) ℤ}
    (hA : A.det = 1 ∨ A.det = -1) {u v : ℝ} {R : Matrix (Fin 2) (Fin 2) ℝ} (hR : Rᵀ * R = 1)
    {lats lats' : ℕ → Lattice} {mats mats' : ℕ → LayerSpec} {stack : List ℕ} {wl th ph ps ph' ps' : ℝ}
    {exc exc' : PlaneWave} {nh nh' : ℤ} {c c' : Static} (hexc : planeWave wl (th, ph, ps) = .ok exc)
    (hexc' : planeWave wl (th, ph', ps') = .ok exc') (hang : AnglesTurned R ph ps ph' ps')
    (hinit : simInit E lats mats stack exc nh "original" = .ok c)
    (hinit' : simInit E' lats' mats' stack exc' nh' "original" = .ok c')
    (hlat : CellChanged A R c.lattice c'.lattice) (hord : OrdersAlong (changedOrder A) c c')
    (hnd : c.harmonics.Nodup) (hnd' : c'.harmonics.Nodup) (hzero : ((0 : ℤ), (0 : ℤ)) ∈ c.harmonics)
    (hm : ∀ r ∈ stack, CellPattern A u v (mats r) (mats' r))
    (hw : WellPlaced mats stack) (hw' : WellPlaced mats' stack) (hmu : ∀ r ∈ stack, (mats r).mu = 1)
    (hist : List (Call c.nh)) (hist' : List (Call c'.nh)) :
    (∀ orders X X',
      (diffractionEfficiencies E c orders (afterCalls E c hist (Dyn.fresh mats (unsolved c.nh)))).1 = .ok X →
      (diffractionEfficiencies E' c' orders (afterCalls E' c' hist' (Dyn.fresh mats' (unsolved c'.nh)))).1 = .ok X' →
      EfficienciesAlong (changedOrder A) c c' X X') ∧
    ∀ layer zs Fs Fs',
      (getFieldFourier E c layer zs (afterCalls E c hist (Dyn.fresh mats (unsolved c.nh)))).1 = .ok Fs →
      (getFieldFourier E' c' layer zs (afterCalls E' c' hist' (Dyn.fresh mats' (unsolved c'.nh)))).1 = .ok Fs' →
      List.Forall₂ (FieldsAlong (changedOrder A) (displacementPhase u v) (inSpace R) c c') Fs Fs' := by
  have hmu' : ∀ r ∈ stack, (mats' r).mu = 1 := fun r hr => by rw [(hm r hr).same]; exact hmu r hr
  obtain ⟨o1, o2, o3, o4⟩ := ortho_numbers hR
  have hpair : InitPair (cellTransf A hA u v R hR) E E' lats lats' mats mats' stack exc exc' nh nh' "original" "original" c c' := by
    refine ⟨hinit, hinit', hE, hE', hw, hw', hmu, hmu', hnd, hnd', hzero, hord, ?_, ?_, ?_, ?_, ?_, ?_, ?_⟩
    · obtain ⟨h1, h2, h3⟩ := hang
      have a0 := congrFun h1 0
      have a1 := congrFun h1 1
      simp [mulVec, dotProduct, Fin.sum_univ_two] at a0 a1
      refine ⟨wl, th, ph, ps, ph', ps', hexc, by change planeWave (1 * wl) _ = _; rw [one_mul]; exact hexc', ?_, ?_, h2, h3⟩
      · change _ = R.det * R 1 1 * _ - -R 0 1 * _
        rw [a0, o3]; ring
      · change _ = R.det * -R 0 1 * _ + R 1 1 * _
        rw [a1, o4]
    · intro r r' hr hr' g _
      obtain ⟨k1, k2⟩ := reciprocal_cell hR hlat hr hr' g
      constructor
      · change 1 * (r' 0 0 * (changedOrder A g).1 + r' 0 1 * (changedOrder A g).2) = R.det * R 1 1 * _ - -R 0 1 * _
        rw [one_mul, k1, o3]; ring
      · change 1 * (r' 1 0 * (changedOrder A g).1 + r' 1 1 * (changedOrder A g).2) = R.det * -R 0 1 * _ + R 1 1 * _
        rw [one_mul, k2, o4]
    · intro r hr; rw [(hm r hr).same]
    · intro r hr
      rw [(hm r hr).same]
      change _ = Option.map (fun x => 1 * x) _
      simp
    · exact fun r hr => (hm r hr).unif
    · intro r hr hu; rw [(hm r hr).uniform hu]
    · intro σ hσ r hr P e P' e' hM hM'
      have he := medium_cell (hA := hA) (hR := hR) hσ hm hmu hw hM hr P' e' hM'
      refine ⟨?_, he⟩
      have h1 := medium_original (simInit_ok hinit).form_eq hw hmu hM hr (hm r hr).iso.1
      have h2 := medium_original (simInit_ok hinit').form_eq hw' hmu' hM' hr (hm r hr).iso.2
      rw [h1, h2]
      exact OrderMap.diag2_intertwine _ he
  have hres := hpair.results hist hist'
  have hR3 : (cellTransf A hA u v R hR).R3 = inSpace R := by
    unfold Transf.R3 inSpace
    change !![R.det * R 1 1, -(-R 0 1), 0; R.det * -R 0 1, R 1 1, 0; 0, 0, 1] = _
    rw [← o3, ← o4, neg_neg]
  rw [hR3] at hres
  refine ⟨hres.1, fun layer zs Fs Fs' a1 a2 => hres.2 layer zs Fs Fs' a1 ?_⟩
  rw [show (cellTransf A hA u v R hR).s = 1 from rfl]
  simpa using a2

/-- The rotation by an angle is orthogonal. -/
theorem turned_ortho (al : ℝ) : (turned al)ᵀ * turned al = 1 := by
  have t := Real.sin_sq_add_cos_sq (al * (Real.pi / 180))
  ext i j
  fin_cases i <;> fin_cases j <;> simp [turned, mul_apply, Fin.sum_univ_two] <;> nlinarith

theorem turned_det (al : ℝ) : (turned al).det = 1 := by
  have t := Real.sin_sq_add_cos_sq (al * (Real.pi / 180))
  rw [turned, det_fin_two]
  simp
  linear_combination t

/-- An injective map of a finite set of orders to itself is onto. -/
theorem ordersAlong_self {f : ℤ × ℤ → ℤ × ℤ} (hf : Function.Injective f) {c c' : Static} (hcc : c'.harmonics = c.harmonics)
    (h : ∀ g ∈ c.harmonics, f g ∈ c.harmonics) : OrdersAlong f c c' := by
  intro g'
  rw [hcc]
  have hsub : c.harmonics.toFinset.image f ⊆ c.harmonics.toFinset := by
    intro x hx
    simp only [Finset.mem_image, List.mem_toFinset] at hx ⊢
    obtain ⟨g, hg, rfl⟩ := hx
    exact h g hg
  have heq := Finset.eq_of_subset_of_card_le hsub (by rw [Finset.card_image_of_injective _ hf])
  have := congrArg (g' ∈ ·) heq
  simp only [Finset.mem_image, List.mem_toFinset, eq_iff_iff] at this
  rw [← this]
  simp only [eq_comm]

section rotation
variable {E : Ext} {A : Matrix (Fin 2) (Fin 2) ℤ} {u v al : ℝ} {lats : ℕ → Lattice} {mats : ℕ → LayerSpec} {stack : List ℕ}
  {nh : ℤ} {wl : ℝ}

/-- All normally incident waves on a structure with rotation symmetry. -/
private theorem normal_law (hE : EigContract E) (hsym : RotationSymmetric A u v al E lats mats stack nh)
    (hw : WellPlaced mats stack) (hmu : ∀ r ∈ stack, (mats r).mu = 1) {φ ψ : ℝ} {exc : PlaneWave} {c : Static}
    (he : planeWave wl (0, φ, ψ) = .ok exc) (hc : simInit E lats mats stack exc nh "original" = .ok c)
    (hnd : c.harmonics.Nodup) {hist0 : List (Call c.nh)} {RT0}
    (h0 : (efficienciesByOrder E (c.withWave exc)
      (afterCalls E (c.withWave exc) hist0 (Dyn.fresh mats (unsolved c.nh)))).1 = .ok RT0) :
    ∃ a b K a' b' K' : Fin c.nh → ℝ,
      (∀ φ ψ exc c', planeWave wl (0, φ, ψ) = .ok exc → simInit E lats mats stack exc nh "original" = .ok c' →
        c' = c.withWave exc) ∧
      (∀ φ ψ exc, planeWave wl (0, φ, ψ) = .ok exc → ∀ (hist : List (Call c.nh)) (RT : (Fin c.nh → ℝ) × (Fin c.nh → ℝ)),
        (efficienciesByOrder E (c.withWave exc) (afterCalls E (c.withWave exc) hist (Dyn.fresh mats (unsolved c.nh)))).1 =
          .ok RT → ∀ i,
        let x := (φ + ψ) * (Real.pi / 180)
        RT.1 i = Real.cos x ^ 2 * a i + Real.sin x ^ 2 * b i + Real.cos x * Real.sin x * K i ∧
        RT.2 i = Real.cos x ^ 2 * a' i + Real.sin x ^ 2 * b' i + Real.cos x * Real.sin x * K' i) ∧
      ∀ i j, c.harmonics.get j = changedOrder A (c.harmonics.get i) → ∀ x,
        let y := x + al * (Real.pi / 180)
        (Real.cos y ^ 2 * a j + Real.sin y ^ 2 * b j + Real.cos y * Real.sin y * K j =
          Real.cos x ^ 2 * a i + Real.sin x ^ 2 * b i + Real.cos x * Real.sin x * K i) ∧
        (Real.cos y ^ 2 * a' j + Real.sin y ^ 2 * b' j + Real.cos y * Real.sin y * K' j =
          Real.cos x ^ 2 * a' i + Real.sin x ^ 2 * b' i + Real.cos x * Real.sin x * K' i) := by
  obtain ⟨e0, p0⟩ := planeWave_any he 0 0
  obtain ⟨e1, p1⟩ := planeWave_any he 0 90
  have hall : ∀ φ' ψ' exc', planeWave wl (0, φ', ψ') = .ok exc' →
      simInit E lats mats stack exc' nh "original" = .ok (c.withWave exc') ∧
      exc'.a0 = Real.cos ((φ' + ψ') * (Real.pi / 180)) • e0.a0 + Real.sin ((φ' + ψ') * (Real.pi / 180)) • e1.a0 := by
    intro φ' ψ' exc' h'
    obtain ⟨w, hw0⟩ := planeWave_any he 0 (φ' + ψ')
    obtain ⟨v, hv0⟩ := planeWave_any he 0 (φ + ψ)
    obtain ⟨a1, a2, a3, a4⟩ := planeWave_normal h' (by rw [sub_zero]; exact hw0)
    obtain ⟨b1, b2, b3, b4⟩ := planeWave_normal he (by rw [sub_zero]; exact hv0)
    obtain ⟨d1, d2, d3⟩ := planeWave_same hv0 hw0
    refine ⟨simInit_withWave hc (by rw [a1, d1, b1]) (by rw [a2, d2, b2]) (by rw [a3, d3, b3]), ?_⟩
    rw [a4]
    exact planeWave_lin hw0 p0 p1
  have hrun : ∀ exc' (hist : List (Call c.nh)), ∃ RT : (Fin c.nh → ℝ) × (Fin c.nh → ℝ),
      (efficienciesByOrder E (c.withWave exc') (afterCalls E (c.withWave exc') hist (Dyn.fresh mats (unsolved c.nh)))).1 =
        .ok RT := fun exc' hist => eff_any hc h0 exc' hist
  obtain ⟨A1, hA⟩ := eff_withWave hc
  obtain ⟨RTa, ra⟩ := hrun e0 []
  obtain ⟨RTb, rb⟩ := hrun e1 []
  obtain ⟨K, K', hK⟩ := eff_quad (hA e0 [] RTa ra) (hA e1 [] RTb rb)
  have hlaw : ∀ φ ψ exc, planeWave wl (0, φ, ψ) = .ok exc → ∀ (hist : List (Call c.nh)) (RT : (Fin c.nh → ℝ) × (Fin c.nh → ℝ)),
      (efficienciesByOrder E (c.withWave exc) (afterCalls E (c.withWave exc) hist (Dyn.fresh mats (unsolved c.nh)))).1 =
        .ok RT → ∀ i,
      let x := (φ + ψ) * (Real.pi / 180)
      RT.1 i = Real.cos x ^ 2 * RTa.1 i + Real.sin x ^ 2 * RTb.1 i + Real.cos x * Real.sin x * K i ∧
      RT.2 i = Real.cos x ^ 2 * RTa.2 i + Real.sin x ^ 2 * RTb.2 i + Real.cos x * Real.sin x * K' i :=
    fun φ' ψ' exc' h' hist RT hr i => hK exc' _ _ RT (hall φ' ψ' exc' h').2 (hA exc' hist RT hr) i
  refine ⟨RTa.1, RTb.1, K, RTa.2, RTb.2, K', fun φ' ψ' exc' c' h' hc' =>
    Except.ok.inj (hc'.symm.trans (hall φ' ψ' exc' h').1), hlaw, fun i j hij x => ?_⟩
  obtain ⟨w, hw0⟩ := planeWave_any he 0 (x / (Real.pi / 180))
  obtain ⟨w', hw1⟩ := planeWave_any he al (x / (Real.pi / 180))
  obtain ⟨RT, hRT⟩ := hrun w []
  obtain ⟨RT', hRT'⟩ := hrun w' []
  obtain ⟨r0, tl, hs⟩ := List.exists_cons_of_ne_nil (simInit_ok hc).ne
  have hlat := (simInit_ok hc).lat_eq r0 (by rw [hs]; rfl)
  have hor := hsym.orders exc c hc
  have hpi : Real.pi / 180 ≠ 0 := by positivity
  have key := (C76_unit_cell hE hE hsym.det (u := u) (v := v) (turned_ortho al) hw0 hw1
    ⟨by ext i; fin_cases i <;> simp [turned, mulVec, dotProduct], rfl, by rw [turned_det, one_mul]⟩
    (hall _ _ _ hw0).1 (hall _ _ _ hw1).1
    (by
      change CellChanged A (turned al) c.lattice c.lattice
      rw [hlat]
      exact hsym.lattice r0 (by rw [hs]; simp))
    (ordersAlong_self (c := c.withWave w) (changedOrder_inj hsym.det) rfl hor.2) hnd hnd hor.1 hsym.layers hw hw hmu [] []).1 true _ _
    (efficiencies_listed hRT).1 (efficiencies_listed hRT').1
  obtain ⟨k1, k2⟩ := key i j hij
  obtain ⟨l1, l2⟩ := hlaw _ _ _ hw0 [] RT hRT i
  obtain ⟨l1', l2'⟩ := hlaw _ _ _ hw1 [] RT' hRT' j
  have ex : (0 + x / (Real.pi / 180)) * (Real.pi / 180) = x := by field_simp; ring
  have ey : (al + x / (Real.pi / 180)) * (Real.pi / 180) = x + al * (Real.pi / 180) := by field_simp; ring
  rw [ex] at l1 l2
  rw [ey] at l1' l2'
  exact ⟨l1'.symm.trans (k1.trans l1), l2'.symm.trans (k2.trans l2)⟩

/-- **C77**. A structure which is unchanged by a rotation about the normal, other than half a turn, reflects and transmits a
normally incident wave in the specular order alike whatever its polarisation (formulation `original`, isotropic
materials). -/
theorem C77_specular_order (hE : EigContract E) (hA : ArgsortContract E.argsort) (hn : 1 ≤ nh) (hd : DistinctOrders lats)
    (hal : Real.sin (al * (Real.pi / 180)) ≠ 0) (hsym : RotationSymmetric A u v al E lats mats stack nh)
    (hw : WellPlaced mats stack) (hmu : ∀ r ∈ stack, (mats r).mu = 1) {φ ψ φ' ψ' R T R' T' : ℝ}
    (h : OrderEfficiencies E lats mats stack wl (0, φ, ψ) nh "original" (0, 0) R T)
    (h' : OrderEfficiencies E lats mats stack wl (0, φ', ψ') nh "original" (0, 0) R' T') : R' = R ∧ T' = T := by
  obtain ⟨exc, c, he, hc, hist, Rs, Ts, i, hr, hi, rfl, rfl⟩ := h
  obtain ⟨exc', c', he', hc', hist', Rs', Ts', i', hr', hi', rfl, rfl⟩ := h'
  have hnd : c.harmonics.Nodup := by
    obtain ⟨r0, tl, hs⟩ := List.exists_cons_of_ne_nil (simInit_ok hc).ne
    have hlat := (simInit_ok hc).lat_eq r0 (by rw [hs]; rfl)
    exact harmonics_distinct hA hc hn fun H hH => hd _ H (by rw [← hlat]; exact hH)
  obtain ⟨c, rfl, hb⟩ : ∃ b, c = Static.withWave b exc ∧ simInit E lats mats stack exc nh "original" = .ok b :=
    ⟨c, Except.ok.inj (hc.symm.trans (simInit_withWave hc rfl rfl rfl)), hc⟩
  obtain ⟨a, b, K, a', b', K', k1, k2, k3⟩ := normal_law hE hsym hw hmu he hb hnd (efficiencies_by_order hr)
  obtain rfl := k1 _ _ _ _ he' hc'
  obtain rfl : i' = i := hnd.get_inj_iff.mp (hi'.trans hi.symm)
  have hz : changedOrder A (0, 0) = (0, 0) := by simp [changedOrder]
  have k4 := k3 i' i' (by rw [show c.harmonics.get i' = (0, 0) from hi, hz])
  obtain ⟨q1, q2⟩ := quad_const hal fun x => (k4 x).1
  obtain ⟨q3, q4⟩ := quad_const hal fun x => (k4 x).2
  obtain ⟨l1, l2⟩ := k2 _ _ _ he hist _ (efficiencies_by_order hr) i'
  obtain ⟨l1', l2'⟩ := k2 _ _ _ he' hist' _ (efficiencies_by_order hr') i'
  have t := Real.sin_sq_add_cos_sq ((φ + ψ) * (Real.pi / 180))
  have t' := Real.sin_sq_add_cos_sq ((φ' + ψ') * (Real.pi / 180))
  dsimp only at l1 l2 l1' l2'
  rw [l1, l2, l1', l2', q1, q2, q3, q4]
  exact ⟨by linear_combination a i' * (t' - t), by linear_combination a' i' * (t' - t)⟩

/-- **C77**. The same for the total efficiencies. -/
theorem C77_total (hE : EigContract E) (hA : ArgsortContract E.argsort) (hn : 1 ≤ nh) (hd : DistinctOrders lats)
    (hal : Real.sin (al * (Real.pi / 180)) ≠ 0) (hsym : RotationSymmetric A u v al E lats mats stack nh)
    (hw : WellPlaced mats stack) (hmu : ∀ r ∈ stack, (mats r).mu = 1) {φ ψ φ' ψ' R T R' T' : ℝ}
    (h : TotalEfficiencies E lats mats stack wl (0, φ, ψ) nh "original" R T)
    (h' : TotalEfficiencies E lats mats stack wl (0, φ', ψ') nh "original" R' T') : R' = R ∧ T' = T := by
  obtain ⟨exc, c, he, hc, hist, hr⟩ := h
  obtain ⟨exc', c', he', hc', hist', hr'⟩ := h'
  have hnd : c.harmonics.Nodup := by
    obtain ⟨r0, tl, hs⟩ := List.exists_cons_of_ne_nil (simInit_ok hc).ne
    have hlat := (simInit_ok hc).lat_eq r0 (by rw [hs]; rfl)
    exact harmonics_distinct hA hc hn fun H hH => hd _ H (by rw [← hlat]; exact hH)
  obtain ⟨c, rfl, hb⟩ : ∃ b, c = Static.withWave b exc ∧ simInit E lats mats stack exc nh "original" = .ok b :=
    ⟨c, Except.ok.inj (hc.symm.trans (simInit_withWave hc rfl rfl rfl)), hc⟩
  obtain ⟨Rs, Ts, f1, rfl, rfl⟩ := efficiencies_total hr
  obtain ⟨a, b, K, a', b', K', k1, k2, k3⟩ := normal_law hE hsym hw hmu he hb hnd f1
  obtain rfl := k1 _ _ _ _ he' hc'
  obtain ⟨Rs', Ts', f1', rfl, rfl⟩ := efficiencies_total hr'
  have hor := (hsym.orders _ _ hb).2
  have hex : ∀ i : Fin c.nh, ∃ j : Fin c.nh, c.harmonics.get j = changedOrder A (c.harmonics.get i) := fun i =>
    List.mem_iff_get.mp (hor _ (List.get_mem _ _))
  choose σ hσ using hex
  have hbij : Function.Bijective σ := by
    rw [Fintype.bijective_iff_injective_and_card]
    refine ⟨fun i j hij => ?_, rfl⟩
    have h1 := hσ i
    rw [hij, hσ j] at h1
    exact (hnd.get_inj_iff.mp (changedOrder_inj hsym.det h1)).symm
  have hsum : ∀ f : Fin c.nh → ℝ, ∑ i, f (σ i) = ∑ i, f i := fun f => (Equiv.ofBijective σ hbij).sum_comp f
  have k4 : ∀ p q r : Fin c.nh → ℝ, (∀ i j, c.harmonics.get j = changedOrder A (c.harmonics.get i) → ∀ x,
        Real.cos (x + al * (Real.pi / 180)) ^ 2 * p j + Real.sin (x + al * (Real.pi / 180)) ^ 2 * q j +
          Real.cos (x + al * (Real.pi / 180)) * Real.sin (x + al * (Real.pi / 180)) * r j =
        Real.cos x ^ 2 * p i + Real.sin x ^ 2 * q i + Real.cos x * Real.sin x * r i) →
      ∑ i, q i = ∑ i, p i ∧ ∑ i, r i = 0 := by
    intro p q r hpq
    refine quad_const hal fun x => ?_
    have : ∀ y, Real.cos y ^ 2 * ∑ i, p i + Real.sin y ^ 2 * ∑ i, q i + Real.cos y * Real.sin y * ∑ i, r i =
        ∑ i, (Real.cos y ^ 2 * p i + Real.sin y ^ 2 * q i + Real.cos y * Real.sin y * r i) := by
      intro y
      simp only [Finset.mul_sum, Finset.sum_add_distrib]
    rw [this, this, ← hsum]
    exact Finset.sum_congr rfl fun i _ => hpq i (σ i) (hσ i) x
  obtain ⟨q1, q2⟩ := k4 a b K fun i j hij x => (k3 i j hij x).1
  obtain ⟨q3, q4⟩ := k4 a' b' K' fun i j hij x => (k3 i j hij x).2
  have fin : ∀ (p q r F : Fin c.nh → ℝ) (y : ℝ), ∑ i, q i = ∑ i, p i → ∑ i, r i = 0 →
      (∀ i, F i = Real.cos y ^ 2 * p i + Real.sin y ^ 2 * q i + Real.cos y * Real.sin y * r i) → ∑ i, F i = ∑ i, p i := by
    intro p q r F y h1 h2 h3
    rw [Finset.sum_congr rfl fun i _ => h3 i]
    simp only [Finset.sum_add_distrib, ← Finset.mul_sum]
    rw [h1, h2]
    linear_combination (∑ i, p i) * Real.sin_sq_add_cos_sq y
  have g1 := fun i => k2 _ _ _ he hist _ f1 i
  have g2 := fun i => k2 _ _ _ he' hist' _ f1' i
  exact ⟨(fin _ _ _ Rs' _ q1 q2 fun i => (g2 i).1).trans (fin _ _ _ Rs _ q1 q2 fun i => (g1 i).1).symm,
    (fin _ _ _ Ts' _ q3 q4 fun i => (g2 i).2).trans (fin _ _ _ Ts _ q3 q4 fun i => (g1 i).2).symm⟩

end rotation

namespace Examples

/-- A simulation of a patterned layer with orders listed by the user. -/
theorem listed_init {E : Ext} (hA : ArgsortContract E.argsort) {l : Lattice} {H : List (ℤ × ℤ)} (h2 : l.is1D = false)
    (hd : l.discretization = (64, 64)) (hH : l.harmonicsArray = some H) (hb : l.matrix.det ≠ 0)
    (h0 : ((0 : ℤ), (0 : ℤ)) ∈ H) (h1 : ∀ g ∈ H, g.1 ≤ 1 ∧ g.2 ≤ 1) (ty : String) (g : Grid Nx Ny) (exc : PlaneWave) (nh : ℤ)
    (form : String) (hf : form = "original" ∨ form = "tangent" ∨ form = "jones" ∨ form = "pol") :
    ∃ c, simInit E (fun _ => l) (gridMats ty g) [0, 1, 2] exc nh form = .ok c ∧ c.harmonics.Perm H ∧ c.lattice = l := by
  have hG : ∀ n, l.getHarmonics E.argsort n true = .ok (gather H (E.argsort (H.map fun g => (g.1 : ℝ))), H.length) := by
    intro n
    unfold Lattice.getHarmonics Lattice.getHarmonics'
    rw [hH]
    rfl
  have hp : (gather H (E.argsort (H.map fun g => (g.1 : ℝ)))).Perm H := argsort_gather_perm H _ (hA _)
  have hny : checkNyquist l (gather H (E.argsort (H.map fun g => (g.1 : ℝ)))) = .ok () := by
    refine checkNyquist_of ⟨(0, 0), hp.mem_iff.mpr h0⟩ (M := 1) (fun g hg => h1 g (hp.mem_iff.mp hg)) (by rw [hd]; norm_num)
      (.inr (by rw [hd]; norm_num))
  obtain ⟨c, hc⟩ := simInit_exists (E := E) (lats := fun _ => l) (mats := gridMats ty g)
    (r0 := 0) (tl := [1, 2]) (exc := exc) (nh := nh) (form := form)
    (by simp [gridMats, exLayer]) (fun r _ => by rw [(gridMats_cases ty g r).2.2.1, (gridMats_cases ty g 0).2.2.1])
    hf (fun h => by rw [h2] at h; cases h) (hG _) hny ⟨rfl, rfl⟩
    (by simp [gridMats, exLayer, NdArr.scalar, NdArr.value]) (reciprocal_ok.mpr ⟨hb, rfl⟩)
  have hi := simInit_ok hc
  have hl := hi.lat_eq 0 rfl
  refine ⟨c, hc, ?_, hl⟩
  obtain ⟨k, hk⟩ := hi.harm
  rw [hl, hG] at hk
  simp only [Except.ok.injEq, Prod.mk.injEq] at hk
  rw [← hk.1]
  exact hp

/-- A cell with three orders, and the same lattice with other vectors and other axes. -/
noncomputable def square3 : Lattice := ⟨![![1, 0], ![0, 1]], false, .circular, (64, 64), some [(0, 0), (1, 0), (0, 1)]⟩
noncomputable def sheared3 : Lattice := ⟨![![-1, 1], ![-1, 0]], false, .circular, (64, 64), some [(0, 0), (1, 0), (1, 1)]⟩

/-- C76: a square cell and a sheared cell turned by a quarter turn; the pattern of the second is the pattern of the first,
sheared. -/
example (g : Grid 4 4) : ∃ exc exc' c c', planeWave 1 (60, 30, 45) = .ok exc ∧ planeWave 1 (60, 120, 45) = .ok exc' ∧
    AnglesTurned !![0, -1; 1, 0] 30 45 120 45 ∧
    simInit exE (fun _ => square3) (gridMats "fft" g) [0, 1, 2] exc 3 "original" = .ok c ∧
    simInit exE (fun _ => sheared3) (gridMats "fft" fun x y => g x (x + y)) [0, 1, 2] exc' 3 "original" = .ok c' ∧
    CellChanged !![1, 1; 0, 1] !![0, -1; 1, 0] c.lattice c'.lattice ∧ OrdersAlong (changedOrder !![1, 1; 0, 1]) c c' ∧
    c.harmonics.Nodup ∧ c'.harmonics.Nodup ∧ ((0 : ℤ), (0 : ℤ)) ∈ c.harmonics ∧
    ∀ r ∈ [0, 1, 2], CellPattern !![1, 1; 0, 1] 0 0 (gridMats "fft" g r) (gridMats "fft" (fun x y => g x (x + y)) r) := by
  obtain ⟨exc, h1⟩ := oblique 1 30 45 one_pos
  obtain ⟨exc', h1'⟩ := oblique 1 120 45 one_pos
  obtain ⟨c, hc, hp, hl⟩ := listed_init (E := exE) exSort_spec (l := square3) rfl rfl rfl
    (by simp [square3, Lattice.matrix, det_fin_two]) (by simp) (by simp) "fft" g exc 3 "original" (.inl rfl)
  obtain ⟨c', hc', hp', hl'⟩ := listed_init (E := exE) exSort_spec (l := sheared3) rfl rfl rfl
    (by simp [sheared3, Lattice.matrix, det_fin_two]) (by simp) (by simp) "fft" (fun x y => g x (x + y)) exc' 3 "original" (.inl rfl)
  refine ⟨exc, exc', c, c', h1, h1', ⟨?_, rfl, ?_⟩, hc, hc', ?_, ?_, hp.nodup_iff.mpr (by decide),
    hp'.nodup_iff.mpr (by decide), hp.mem_iff.mpr (by simp), ?_⟩
  · have e : (120 : ℝ) * (Real.pi / 180) = 30 * (Real.pi / 180) + Real.pi / 2 := by ring
    rw [e, Real.cos_add_pi_div_two, Real.sin_add_pi_div_two]
    ext i
    fin_cases i <;> simp
  · simp [det_fin_two]
  · rw [hl, hl']
    intro k
    ext i
    fin_cases k <;> fin_cases i <;> simp [square3, sheared3, Fin.sum_univ_two, dotProduct]
  · intro x
    rw [hp'.mem_iff]
    constructor
    · intro hx
      simp only [List.mem_cons, List.not_mem_nil, or_false] at hx
      rcases hx with rfl | rfl | rfl
      · exact ⟨(0, 0), hp.mem_iff.mpr (by simp), by simp [changedOrder]⟩
      · exact ⟨(1, 0), hp.mem_iff.mpr (by simp), by simp [changedOrder]⟩
      · exact ⟨(0, 1), hp.mem_iff.mpr (by simp), by simp [changedOrder]⟩
    · rintro ⟨y, hy, rfl⟩
      have hy := hp.mem_iff.mp hy
      simp only [List.mem_cons, List.not_mem_nil, or_false] at hy
      rcases hy with rfl | rfl | rfl <;> simp [changedOrder]
  · intro r hr
    by_cases hr1 : r = 1
    · subst hr1
      refine ⟨rfl, ⟨rfl, rfl⟩, rfl, fun h => (by cases h), fun _ => ⟨4, 4, 4, 4, rfl, rfl, rfl, fun x hx y hy => ?_⟩⟩
      obtain ⟨k, hk⟩ : ∃ k : ℕ, (x + y) % 4 + 4 * k = x + y := ⟨_, Nat.mod_add_div (x + y) 4⟩
      refine ⟨x, hx, (x + y) % 4, Nat.mod_lt _ (by norm_num), ⟨⟨0, by simp⟩, ⟨k, ?_⟩⟩, ?_⟩
      · have : (((x + y) % 4 : ℕ) : ℝ) + 4 * k = (x : ℝ) + y := by exact_mod_cast hk
        simp
        linarith
      · simp [gridMats, exLayer, NdArr.ofGrid, hx, hy, Nat.mod_lt]
        congr 1
    · have : ∀ g' : Grid 4 4, gridMats "fft" g' r = exLayer (if r = 0 then "Superstrate" else "Substrate") 1 (NdArr.scalar 1) := by
        intro g'
        simp [gridMats, hr1, exLayer]
      rw [this, this]
      exact ⟨rfl, ⟨rfl, rfl⟩, rfl, fun _ => rfl, fun h => (by cases h)⟩

/-- A checkerboard of permittivities 1 and 7, between two half-spaces of vacuum. -/
noncomputable def checker : Grid 2 2 := fun x y => if x = y then 1 else 7

noncomputable def checkerMats : ℕ → LayerSpec := fun r => if r = 1 then exLayer "Slab" (1 / 8) (NdArr.ofGrid checker) else slabMats r

theorem checker_index (r : ℕ) : 0 < slabN r ∧ HasIndex (checkerMats r) (slabN r) := by
  by_cases h1 : r = 1
  · subst h1
    refine ⟨by norm_num [slabN], rfl, rfl, .inr ⟨2, 2, checker, rfl, by norm_num, by norm_num, by decide, ?_⟩⟩
    simp [Fin.sum_univ_succ, checker, slabN]
    norm_num
  · have : checkerMats r = slabMats r := by simp [checkerMats, h1]
    rw [this]
    exact slab_index r

theorem checker_normal (ph ps : ℝ) :
    OrderEfficiencies exE (fun _ => exLat) checkerMats [0, 1, 2] 1 (0, ph, ps) 1 "original" (0, 0) (9 / 25) (16 / 25) ∧
    TotalEfficiencies exE (fun _ => exLat) checkerMats [0, 1, 2] 1 (0, ph, ps) 1 "original" (9 / 25) (16 / 25) := by
  obtain ⟨exc, he, h1, h2, h3, h4, h5⟩ := normal_wave ph ps
  obtain ⟨c, hc, hn, hs, -, hfl⟩ := exInitW one_pos exc h1 h2 h3 h4 h5 checkerMats 0 [1, 2] 1 one_pos (by decide) (by decide) rfl rfl
  have hfl : c.incidentFlux = 1 := by rw [hfl]; norm_num
  have hS : freshS (c.stack.map fun r => (scal c.omega (slabN r) (checkerMats r).thickness : Modes (Idx c.nh))) 0
      ((c.stack.length : ℤ) - 1) = .ok (sscal (4 * Complex.I / 5) (3 / 5) (3 / 5) (4 * Complex.I / 5)) := by
    rw [hs, hn.omega]
    have h2 := slab_02 (m := Idx c.nh)
    simp only [slabModes] at h2
    simp [slabN, checkerMats, slabMats, exLayer]
    norm_num at h2 ⊢
    rw [h2]
  have hnd : c.stack.Nodup := by rw [hs]; decide
  have htot : (diffractionEfficiencies exE c false (Dyn.fresh checkerMats (unsolved c.nh))).1 = .ok (.total (9 / 25) (16 / 25)) := by
    rw [ex_efficiencies hn (mats := checkerMats) slabN hnd (fun r _ => checker_index r) hS (r0 := 0) (rN := 2) (by rw [hs]; rfl)
      (by rw [hs]; rfl) (by rw [hfl]; norm_num), hfl]
    norm_num [slabN]
  obtain ⟨R, T, e1, e2, e3⟩ := efficiencies_total htot
  have hpos : 0 < c.nh := by rw [hn.nh]; norm_num
  exact ⟨⟨exc, c, he, hc, [], R, T, ⟨0, hpos⟩, (efficiencies_listed e1).1, hn.get _, by rw [e2, hn.fin R ⟨0, hpos⟩],
    by rw [e3, hn.fin T ⟨0, hpos⟩]⟩, exc, c, he, hc, [], htot⟩

theorem checker_symmetric : RotationSymmetric !![0, -1; 1, 0] 0 0 90 exE (fun _ => exLat) checkerMats [0, 1, 2] 1 := by
  have e : (90 : ℝ) * (Real.pi / 180) = Real.pi / 2 := by ring
  refine ⟨.inl (by simp [det_fin_two]), fun r _ k => ?_, fun r hr => ?_, fun exc c hc => ?_⟩
  · ext i
    fin_cases k <;> fin_cases i <;> simp [exLat, turned, e, Fin.sum_univ_two, dotProduct]
  · by_cases hr1 : r = 1
    · subst hr1
      refine ⟨rfl, ⟨rfl, rfl⟩, rfl, fun h => (by cases h), fun _ => ⟨2, 2, 2, 2, rfl, rfl, rfl, fun x hx y hy => ?_⟩⟩
      refine ⟨y, hy, x, hx, ⟨⟨0, by simp⟩, ⟨-x, ?_⟩⟩, ?_⟩
      · simp
        ring
      · simp [checkerMats, exLayer, NdArr.ofGrid, checker, eq_comm, and_comm]
    · have : ∃ n, checkerMats r = exLayer n 1 (NdArr.scalar (((1 : ℝ) ^ 2 : ℝ) : ℂ)) := by
        by_cases h0 : r = 0
        · exact ⟨_, by simp [checkerMats, slabMats, h0]; rfl⟩
        · exact ⟨_, by simp [checkerMats, slabMats, h0, hr1]; rfl⟩
      obtain ⟨n, hn⟩ := this
      rw [hn]
      exact ⟨rfl, ⟨rfl, rfl⟩, rfl, fun _ => rfl, fun h => (by cases h)⟩
  · have hi := simInit_ok hc
    have hl := hi.lat_eq 0 rfl
    obtain ⟨k, hk⟩ := hi.harm
    have heff : ∀ b, effectiveNh 1 b = ((2 : ℕ) : ℤ) := by intro b; cases b <;> rfl
    rw [hl, heff, show exE.argsort = exSort from rfl, exHarm 2 le_rfl] at hk
    simp only [Except.ok.injEq, Prod.mk.injEq] at hk
    rw [← hk.1]
    simp [changedOrder]

/-- C77: the checkerboard under two normally incident waves. -/
example (ph ps ph' ps' : ℝ) {R T R' T' : ℝ}
    (h : OrderEfficiencies exE (fun _ => exLat) checkerMats [0, 1, 2] 1 (0, ph', ps') 1 "original" (0, 0) R T)
    (h' : TotalEfficiencies exE (fun _ => exLat) checkerMats [0, 1, 2] 1 (0, ph', ps') 1 "original" R' T') :
    (R = 9 / 25 ∧ T = 16 / 25) ∧ (R' = 9 / 25 ∧ T' = 16 / 25) := by
  have hs : Real.sin (90 * (Real.pi / 180)) ≠ 0 := by
    rw [show (90 : ℝ) * (Real.pi / 180) = Real.pi / 2 by ring, Real.sin_pi_div_two]
    exact one_ne_zero
  have hd : DistinctOrders (fun _ => exLat) := by
    intro k H h
    simp [exLat] at h
  have hw : WellPlaced checkerMats [0, 1, 2] := by
    intro k r hk hc
    rw [(checker_index r).2.1] at hc
    cases hc
  exact ⟨C77_specular_order exE_eig exSort_spec le_rfl hd hs checker_symmetric hw (fun r _ => (checker_index r).2.2.1)
    (checker_normal ph ps).1 h, C77_total exE_eig exSort_spec le_rfl hd hs checker_symmetric hw
    (fun r _ => (checker_index r).2.2.1) (checker_normal ph ps).2 h'⟩

end Examples

end Nannos
