import Verif.Proofs.GratingModes
import Verif.Props.Guided
import Verif.Props.Absorbing

/-! **C100**, **C101**: the modes of mono-periodic gratings. -/

namespace Nannos

open Matrix Spec

variable {E : Ext} {lats : ℕ → Lattice} {mats : ℕ → LayerSpec} {stack : List ℕ} {exc : PlaneWave} {nh : ℤ} {form : String}
  {c : Static}

theorem dielectric_waves {lats stack exc nh form} (hi : InitSpec E lats mats stack exc nh form c)
    (hmu : ∀ r ∈ stack, (mats r).mu = 1) (hsup : ∀ r0, stack.head? = some r0 → Dielectric (mats r0)) :
    (∀ i, star (c.kx i) = c.kx i) ∧ c.k0para.2.im = 0 := by
  obtain ⟨r0, tl, hrt⟩ := List.exists_cons_of_ne_nil hi.ne
  have hhead : stack.head? = some r0 := by rw [hrt]; rfl
  obtain ⟨hu, -, -, -, hk0⟩ := hi.sup r0 hhead
  obtain ⟨v1, v2⟩ := dielectric_value (hsup r0 hhead) hu
  obtain ⟨R, -, hkx, -⟩ := hi.recip
  have hv : (mats r0).epsilon.value = (((mats r0).epsilon.value.re : ℝ) : ℂ) := Complex.ext rfl (by simp [v1])
  rw [hmu r0 (by rw [hrt]; simp), mul_one, hv, csqrt_ofReal v2.le] at hk0
  refine ⟨fun i => ?_, ?_⟩
  · rw [hkx, hk0]; simp [kxOf, k0para]
  · rw [hk0]; simp [k0para]

/-- **C100**: the modes of a lossless grating. The lattice has one period, the layers are homogeneous or have a real
positive permittivity at every point, and the eigenvalue routine returns all the eigenvalues and a basis of eigenvectors
when there is one. Then every propagation constant of a layer of real positive permittivity is real and not negative, or
imaginary with a positive imaginary part: no mode is damped while it propagates. The modes of every layer are complete
(the matrix of the eigenvectors is invertible) if the plane of incidence contains the period, and in any other mounting
if no mode of the layer has `q^2 = -ky^2`. -/
theorem C100_lossless_grating_modes (hinit : simInit E lats mats stack exc nh form = .ok c) (hS : EigSpectrum E)
    (hB : EigBasis E) (hsort : ArgsortContract E.argsort) (hl : MonoPeriodic c.lattice) (hw : WellPlaced mats stack)
    (hmu : ∀ r ∈ stack, (mats r).mu = 1) (hsup : ∀ r0, stack.head? = some r0 → Dielectric (mats r0))
    (hlay : ∀ r ∈ stack, Homogeneous (mats r) ∨ Dielectric (mats r))
    {d1 : Dyn c.nh} (hsolve : solve E c (Dyn.fresh mats (unsolved c.nh)) = (.ok (), d1)) :
    ∀ r ∈ stack, ∃ q V, (d1.attrs r).eig = some (q, V) ∧
      (Dielectric (mats r) → ∀ p, ((q p).im = 0 ∧ 0 ≤ (q p).re) ∨ ((q p).re = 0 ∧ 0 < (q p).im)) ∧
      ((c.k0para.2 = 0 ∨ ∀ p, q p ^ 2 ≠ -c.k0para.2 ^ 2) → V.det ≠ 0) := by
  intro r hr
  have hi := simInit_ok hinit
  obtain ⟨h1, h2⟩ := dielectric_waves hi hmu hsup
  obtain ⟨⟨q, V⟩, e1, e2, e3⟩ := grating_layer hi hS hB hsort hl hw hmu h1 h2 hlay (solved_fix hinit hsolve) hr
  refine ⟨q, V, e1, e2, fun h => e3 ?_⟩
  refine h.imp_right fun h p h0 => h p ?_
  linear_combination h0

/-- **C100**, what it gives: the results of a lossless grating, with the plane of incidence containing the period. `solve`
succeeds, and with `Ls` the modes of the layers, if no mode is constant in depth and none of the parts `0..k` of the stack
supports a wave by itself, the efficiencies are returned, at any time. -/
theorem C100_lossless_grating_results (hinit : simInit E lats mats stack exc nh form = .ok c) (hE : EigContract E)
    (hS : EigSpectrum E) (hB : EigBasis E) (hret : ∀ n M, ∃ wv, E.eig n M = .ok wv) (hsort : ArgsortContract E.argsort)
    (hl : MonoPeriodic c.lattice) (hw : WellPlaced mats stack) (hmu : ∀ r ∈ stack, (mats r).mu = 1)
    (hom : c.omega ≠ 0) (hflux : c.incidentFlux ≠ 0) (htwo : 1 < stack.length) (hy : c.k0para.2 = 0)
    (hsup : ∀ r0, stack.head? = some r0 → Dielectric (mats r0))
    (hlay : ∀ r ∈ stack, (Homogeneous (mats r) ∧ (mats r).epsilon.value ≠ 0) ∨ (Dielectric (mats r) ∧
      (mats r).epsilon.shape = [c.lattice.discretization.1, c.lattice.discretization.2])) :
    ∃ d1, solve E c (Dyn.fresh mats (unsolved c.nh)) = (.ok (), d1) ∧
    ∃ Ls : List (Modes (Idx c.nh)), List.Forall₂ (fun r L => modesOf (mats r) (d1.attrs r) = .ok L) stack Ls ∧
      ((∀ L ∈ Ls, ∀ p, L.q p ≠ 0) → (∀ k, 0 < k → k < stack.length → ¬GuidedWave Ls 0 k) → ∀ hist : List (Call c.nh),
        ∃ RT, (efficienciesByOrder E c (afterCalls E c hist (Dyn.fresh mats (unsolved c.nh)))).1 = .ok RT) := by
  have hi := simInit_ok hinit
  obtain ⟨m1, -⟩ := mono_orders hi hl
  have hs := C86_solve_succeeds hinit hret (mono_good hi hsort hl) hw (fun r hr => by rw [hmu r hr]; exact one_ne_zero)
    (.inr m1) (fun r hr hc => (hlay r hr).imp_right fun h => ⟨h.1.1, h.2, Complex.I, fun idx hidx => by
      simpa using (h.1.2 idx hidx).2⟩) []
  obtain ⟨d1, hsolve⟩ : ∃ d1, solve E c (Dyn.fresh mats (unsolved c.nh)) = (.ok (), d1) := ⟨_, Prod.ext_iff.mpr ⟨hs, rfl⟩⟩
  have hdet : ∀ r ∈ stack, ∀ ev, (d1.attrs r).eig = some ev → ev.2.det ≠ 0 := by
    intro r hr ev hev
    obtain ⟨q, V, e1, -, e2⟩ := C100_lossless_grating_modes hinit hS hB hsort hl hw hmu hsup
      (fun r hr => (hlay r hr).imp And.left And.left) hsolve r hr
    rw [e1] at hev
    obtain rfl := Option.some.inj hev
    exact e2 (.inl hy)
  obtain ⟨Ls, a1, a2⟩ := C98_results_without_guided_waves_partial hinit hE hw hmu hom hflux htwo hsolve hdet
  exact ⟨d1, hsolve, Ls, a1, fun b1 b2 hist => (a2 b1 b2 hist).1⟩

/-- **C101**: conical mounting. Two simulations of the same isotropic layers on a lattice with one period, with waves of
the same wavelength and the same wave vector component along the period. In every layer `q^2 + ky^2` takes the same
values, with the same multiplicities, in both: the component of the wave vector along the grooves only shifts the squares
of the propagation constants. -/
theorem C101_conical_modes {exc' : PlaneWave} {c' : Static} (hinit : simInit E lats mats stack exc nh form = .ok c)
    (hinit' : simInit E lats mats stack exc' nh form = .ok c') (hS : EigSpectrum E) (hl : MonoPeriodic c.lattice)
    (hw : WellPlaced mats stack) (hmu : ∀ r ∈ stack, (mats r).mu = 1) (hiso : ∀ r ∈ stack, (mats r).isAnisotropic = false)
    (hwl : exc'.wavelength = exc.wavelength) (hx : exc'.wavevector 0 = exc.wavevector 0)
    {d1 : Dyn c.nh} (hsolve : solve E c (Dyn.fresh mats (unsolved c.nh)) = (.ok (), d1))
    {d1' : Dyn c'.nh} (hsolve' : solve E c' (Dyn.fresh mats (unsolved c'.nh)) = (.ok (), d1')) :
    ∀ r ∈ stack, ∃ ev ev', (d1.attrs r).eig = some ev ∧ (d1'.attrs r).eig = some ev' ∧
      (Finset.univ.val.map fun p => ev.1 p ^ 2 + c.k0para.2 ^ 2) =
        Finset.univ.val.map fun p => ev'.1 p ^ 2 + c'.k0para.2 ^ 2 := by
  intro r hr
  have hi := simInit_ok hinit
  have hi' := simInit_ok hinit'
  obtain ⟨r0, tl, hrt⟩ := List.exists_cons_of_ne_nil hi.ne
  have hhead : stack.head? = some r0 := by rw [hrt]; rfl
  have hlat : c'.lattice = c.lattice := by rw [hi.lat_eq r0 hhead, hi'.lat_eq r0 hhead]
  have hH : c.harmonics = c'.harmonics := by
    obtain ⟨n, h1⟩ := hi.harm
    obtain ⟨n', h2⟩ := hi'.harm
    rw [hlat, h1] at h2
    exact (Prod.ext_iff.mp (Except.ok.inj h2)).1
  have hom : c'.omega = c.omega := by rw [hi.omega_eq, hi'.omega_eq, hwl]
  have hk0 : c'.k0para.1 = c.k0para.1 := by
    obtain ⟨-, -, -, -, e1⟩ := hi.sup r0 hhead
    obtain ⟨-, -, -, -, e2⟩ := hi'.sup r0 hhead
    rw [e1, e2]
    simp [k0para, hx]
  have hkx : ∀ (i : ℕ) h h', c.kx ⟨i, h⟩ = c'.kx ⟨i, h'⟩ := by
    intro i h h'
    obtain ⟨R, r1, r2, -⟩ := hi.recip
    obtain ⟨R', r1', r2', -⟩ := hi'.recip
    obtain rfl : R = R' := by rw [hlat, r1] at r1'; exact Except.ok.inj r1'
    rw [r2, r2']
    unfold kxOf
    rw [hk0]
    simp [hH]
  obtain ⟨m1, m2, m3, m4⟩ := mono_orders hi hl
  obtain ⟨m1', m2', m3', m4'⟩ := mono_orders hi' (hlat ▸ hl)
  have hform : form = "original" ∨ form = "tangent" := hi.form1 r0 hhead (by rw [← hi.lat_eq r0 hhead]; exact m1)
  obtain ⟨k, hk⟩ := List.getElem?_of_mem hr
  obtain ⟨P, e, ev, h1, h2, h3, h4, -⟩ := solved_spectrum hmu hS hw (solved_fix hinit hsolve) k r hk
  obtain ⟨P', e', ev', h1', h2', h3', h4', -⟩ := solved_spectrum hmu hS hw (solved_fix hinit' hsolve') k r hk
  obtain ⟨n, rfl, g⟩ := medium_grating m1 (hi.form_eq ▸ hform) hw h1 hr (hiso r hr)
  obtain ⟨n', rfl, g'⟩ := medium_grating m1' (hi'.form_eq ▸ hform) hw h1' hr (hiso r hr)
  rw [wave_charpoly _ _ m4 h3] at h4
  rw [wave_charpoly _ _ m4' h3'] at h4'
  rw [hi.form_eq] at g
  rw [hi'.form_eq] at g'
  refine ⟨ev, ev', h2, h2', ?_⟩
  rw [← prod_shift h4, ← prod_shift h4', hom, grating_poly hH g g' c.omega hkx]

namespace Examples

open Polynomial in
/-- A routine which finds all the eigenvalues, and a basis of eigenvectors when there is one. -/
theorem exists_complete_eig : ∃ E : Ext, EigContract E ∧ EigSpectrum E ∧ EigBasis E ∧ ArgsortContract E.argsort ∧
    ∀ n M, ∃ wv, E.eig n M = .ok wv := by
  have key : ∀ (n : ℕ) (M : Matrix (Idx n) (Idx n) ℂ), ∃ wv : (Idx n → ℂ) × Matrix (Idx n) (Idx n) ℂ,
      (∀ j, (∀ i, ∑ k, M i k * wv.2 k j = wv.1 j * wv.2 i j) ∧ ∃ i, wv.2 i j ≠ 0) ∧
      M.charpoly = ∏ j, (X - C (wv.1 j)) ∧ (Diagonalisable M → wv.2.det ≠ 0) := by
    intro n M
    by_cases hd : Diagonalisable M
    · obtain ⟨V, d, hV, hVd⟩ := hd
      refine ⟨(d, V), fun j => ⟨fun i => ?_, ?_⟩, ?_, fun _ => hV⟩
      · have := congrFun (congrFun hVd i) j
        rw [mul_apply, mul_diagonal] at this
        rw [this, mul_comm]
      · by_contra h
        push Not at h
        exact hV (det_eq_zero_of_column_eq_zero j h)
      · rw [charpoly_conj hV hVd, charpoly_diag]
    · have hroots : (M.charpoly.roots.map fun a => X - C a).prod = M.charpoly :=
        prod_multiset_X_sub_C_of_monic_of_roots_card_eq (charpoly_monic M)
          (splits_iff_card_roots.mp (IsAlgClosed.splits M.charpoly))
      have hcard : M.charpoly.roots.card = Fintype.card (Idx n) := by
        rw [splits_iff_card_roots.mp (IsAlgClosed.splits M.charpoly), charpoly_natDegree_eq_dim]
      obtain ⟨l, hl⟩ := Quot.exists_rep M.charpoly.roots
      have hlen : Fintype.card (Idx n) = l.length := by
        rw [← hcard, ← hl]; rfl
      obtain ⟨w, hw⟩ : ∃ w : Idx n → ℂ, Finset.univ.val.map w = M.charpoly.roots := by
        let e := (Fintype.equivFin (Idx n)).trans (finCongr hlen)
        refine ⟨fun j => l.get (e j), ?_⟩
        rw [← hl]
        have h1 : Finset.univ.val.map (fun j => l.get (e j)) = Finset.univ.val.map l.get := by
          have : (Finset.univ : Finset (Fin l.length)) = Finset.univ.map e.toEmbedding := by simp
          rw [this, Finset.map_val, Multiset.map_map]
          rfl
        rw [h1, Fin.univ_val_map, List.ofFn_get]
        rfl
      have hv : ∀ j, ∃ v : Idx n → ℂ, v ≠ 0 ∧ M *ᵥ v = w j • v := by
        intro j
        have hr : M.charpoly.eval (w j) = 0 := by
          have : w j ∈ M.charpoly.roots := by
            rw [← hw]; exact Multiset.mem_map_of_mem _ (Finset.mem_univ_val j)
          exact (mem_roots'.mp this).2
        rw [eval_charpoly] at hr
        obtain ⟨v, v1, v2⟩ := Matrix.exists_mulVec_eq_zero_iff.mpr hr
        refine ⟨v, v1, ?_⟩
        rw [sub_mulVec, sub_eq_zero] at v2
        rw [← v2]
        simp [Matrix.scalar_apply, ← smul_one_eq_diagonal, smul_mulVec]
      choose v v1 v2 using hv
      refine ⟨(w, fun i j => v j i), fun j => ⟨fun i => ?_, Function.ne_iff.mp (v1 j)⟩, ?_, fun h => absurd h hd⟩
      · have := congrFun (v2 j) i
        simpa [mulVec, dotProduct] using this
      · rw [← hroots, ← hw, Multiset.map_map]
        rfl
  choose f hf using key
  refine ⟨⟨fun n M => .ok (f n M), exSort, fun _ _ _ _ => .error .unmodelled⟩, ?_, ?_, ?_, exSort_spec, fun n M => ⟨_, rfl⟩⟩
  · intro n A w v h j
    simp only [Except.ok.injEq] at h
    have := (hf n A).1 j
    rw [h] at this
    exact this
  · intro n A w v h
    simp only [Except.ok.injEq] at h
    have := (hf n A).2.1
    rw [h] at this
    exact this
  · intro n A w v h
    simp only [Except.ok.injEq] at h
    have := (hf n A).2.2
    rw [h] at this
    exact this

/-- Eleven orders of a grating. -/
theorem grating_init {E : Ext} (hA : ArgsortContract E.argsort) (g : Grid 256 1) (exc : PlaneWave) :
    ∃ c, simInit E (fun _ => exLat) (gridMats "fft" g) [0, 1, 2] exc 11 "tangent" = .ok c ∧ c.lattice = exLat ∧
      MonoPeriodic c.lattice ∧ c.nh = 11 := by
  have hu : ([0, 1, 2].all fun r => (gridMats "fft" g r).isUniform) = false := by
    simp [gridMats, exLayer, LayerSpec.isUniform, NdArr.ofGrid, NdArr.scalar, isUniform, isAnisotropic]
  have hG : exLat.getHarmonics E.argsort (effectiveNh 11 ([0, 1, 2].all fun r => (gridMats "fft" g r).isUniform)) true =
      .ok (gather (oneDimTruncation 11).1 (E.argsort ((oneDimTruncation 11).1.map fun g => (g.1 : ℝ))), 11) := by
    rw [hu]
    rfl
  have hp : (gather (oneDimTruncation 11).1 (E.argsort ((oneDimTruncation 11).1.map fun g => (g.1 : ℝ)))).Perm
      (oneDimTruncation 11).1 := argsort_gather_perm _ _ (hA _)
  have hny : checkNyquist exLat (gather (oneDimTruncation 11).1 (E.argsort ((oneDimTruncation 11).1.map fun g => (g.1 : ℝ)))) =
      .ok () := by
    refine checkNyquist_of ⟨(0, 0), hp.mem_iff.mpr (by decide)⟩ (M := 5) (fun g hg => ?_) (by simp [exLat]) (.inl rfl)
    have h := (oneDim_mem _ _).mp (hp.mem_iff.mp hg)
    have h2 : |g.1| ≤ 5 := by simpa using h.2
    exact ⟨(abs_le.mp h2).2, by rw [h.1]; norm_num⟩
  obtain ⟨c, hc⟩ := simInit_exists (E := E) (lats := fun _ => exLat) (mats := gridMats "fft" g)
    (r0 := 0) (tl := [1, 2]) (exc := exc) (nh := 11) (form := "tangent")
    (by simp [gridMats, exLayer]) (fun r _ => by rw [(gridMats_cases _ g r).2.2.1, (gridMats_cases _ g 0).2.2.1])
    (by simp) (fun h => by simp) hG hny ⟨rfl, rfl⟩
    (by simp [gridMats, exLayer, NdArr.scalar, NdArr.value]) exRecip
  have hi := simInit_ok hc
  have hl : c.lattice = exLat := hi.lat_eq 0 rfl
  refine ⟨c, hc, hl, ⟨1, .int 256, "circular", by rw [hl]; exact exLat_mk⟩, ?_⟩
  obtain ⟨k, hk⟩ := hi.harm
  rw [hl, hG] at hk
  simp only [Except.ok.injEq, Prod.mk.injEq] at hk
  have := hp.length_eq
  rw [hk.1] at this
  exact this

theorem grid_layers {g : Grid 256 1} (hg : ∀ x y, ∃ t : ℝ, 0 < t ∧ g x y = t) (r : ℕ) :
    Dielectric (gridMats "fft" g r) ∧ ((Homogeneous (gridMats "fft" g r) ∧ (gridMats "fft" g r).epsilon.value ≠ 0) ∨
      (gridMats "fft" g r).epsilon.shape = [256, 1]) := by
  by_cases hr : r = 1
  · subst hr
    refine ⟨⟨by simp [gridMats, exLayer, LayerSpec.isAnisotropic, NdArr.ofGrid, isAnisotropic], fun idx hidx => ?_⟩, .inr rfl⟩
    rw [show (gridMats "fft" g 1).epsilon.shape = [256, 1] from rfl] at hidx
    rcases hidx with _ | @⟨x, _, _, _, hx, h2⟩
    rcases h2 with _ | @⟨y, _, _, _, hy, h3⟩
    cases h3
    obtain ⟨t, ht, e⟩ := hg ⟨x, hx⟩ ⟨y, hy⟩
    have : (gridMats "fft" g 1).epsilon.data [x, y] = g ⟨x, hx⟩ ⟨y, hy⟩ := by
      change (NdArr.ofGrid g).data [x, y] = _
      unfold NdArr.ofGrid
      exact dif_pos ⟨hx, hy⟩
    rw [this, e]
    exact ⟨Complex.ofReal_im _, by rw [Complex.ofReal_re]; exact ht⟩
  · unfold gridMats
    rw [if_neg hr]
    refine ⟨⟨rfl, fun idx _ => ?_⟩, .inl ⟨⟨rfl, rfl, rfl⟩, by simp [exLayer, NdArr.scalar, NdArr.value]⟩⟩
    simp [exLayer, NdArr.scalar]

/-- C100: any dielectric grating, eleven orders, wave in the plane of the period at 60 degrees, formulation `tangent`. -/
example (g : Grid 256 1) (hg : ∀ x y, ∃ t : ℝ, 0 < t ∧ g x y = t) : ∃ E exc c,
    planeWave 1 (60, 0, 45) = .ok exc ∧ EigContract E ∧ EigSpectrum E ∧ EigBasis E ∧ c.nh = 11 ∧
    simInit E (fun _ => exLat) (gridMats "fft" g) [0, 1, 2] exc 11 "tangent" = .ok c ∧ c.k0para.2 = 0 ∧
    ∃ d1, solve E c (Dyn.fresh (gridMats "fft" g) (unsolved c.nh)) = (.ok (), d1) ∧
      ∃ q V, (d1.attrs 1).eig = some (q, V) ∧ V.det ≠ 0 ∧ ∀ p, (q p).im = 0 ∨ (q p).re = 0 := by
  obtain ⟨E, hE, hS, hB, hA, hret⟩ := exists_complete_eig
  obtain ⟨exc, h1, -, hcos, -⟩ := oblique_wave 1 0 45 one_pos
  obtain ⟨c, hc, hl, hm, hn⟩ := grating_init hA g exc
  have hi := simInit_ok hc
  obtain ⟨-, w1, w2, w3, -, w5, w6, -⟩ := planeWave_ok h1
  obtain ⟨-, -, -, hfl, hk0⟩ := hi.sup 0 rfl
  have hv : (gridMats "fft" g 0).epsilon.value * (gridMats "fft" g 0).mu = ((1 : ℝ) : ℂ) := by
    simp [gridMats, exLayer, NdArr.scalar, NdArr.value]
  rw [hv, csqrt_ofReal zero_le_one, Real.sqrt_one] at hk0 hfl
  have hy : c.k0para.2 = 0 := by
    rw [hk0, k0para, w6]
    simp [w3]
  have hom : c.omega ≠ 0 := by rw [hi.omega_eq, w1]; positivity
  have hflux : c.incidentFlux ≠ 0 := by rw [hfl, hcos]; norm_num
  have hmu : ∀ r ∈ [0, 1, 2], (gridMats "fft" g r).mu = 1 := fun r _ => (gridMats_cases _ g r).2.1
  have hsup : ∀ r0, [0, 1, 2].head? = some r0 → Dielectric (gridMats "fft" g r0) := fun r _ => (grid_layers hg r).1
  obtain ⟨d1, hd, -⟩ := C100_lossless_grating_results hc hE hS hB hret hA hm (gridMats_placed _ g) hmu hom hflux
    (by simp) hy hsup (fun r _ => by
      rw [hl]
      exact (grid_layers hg r).2.imp_right fun h => ⟨(grid_layers hg r).1, h⟩)
  obtain ⟨q, V, e1, e2, e3⟩ := C100_lossless_grating_modes hc hS hB hA hm (gridMats_placed _ g) hmu hsup
    (fun r _ => .inr (grid_layers hg r).1) hd 1 (by simp)
  refine ⟨E, exc, c, h1, hE, hS, hB, hn, hc, hy, d1, hd, q, V, e1, e3 (.inl hy), fun p => ?_⟩
  exact (e2 (grid_layers hg 1).1 p).imp And.left And.left

/-- C101: any dielectric grating, a wave at 30 degrees in the plane of the period, and one at 45 degrees in the plane at
45 degrees, which has the same wave vector component along the period. -/
example (g : Grid 256 1) (hg : ∀ x y, ∃ t : ℝ, 0 < t ∧ g x y = t) : ∃ E exc exc' c c',
    planeWave 1 (30, 0, 0) = .ok exc ∧ planeWave 1 (45, 45, 0) = .ok exc' ∧ EigSpectrum E ∧
    simInit E (fun _ => exLat) (gridMats "fft" g) [0, 1, 2] exc 11 "tangent" = .ok c ∧
    simInit E (fun _ => exLat) (gridMats "fft" g) [0, 1, 2] exc' 11 "tangent" = .ok c' ∧ c.k0para.2 ^ 2 ≠ c'.k0para.2 ^ 2 ∧
    ∃ d1 d1', solve E c (Dyn.fresh (gridMats "fft" g) (unsolved c.nh)) = (.ok (), d1) ∧
      solve E c' (Dyn.fresh (gridMats "fft" g) (unsolved c'.nh)) = (.ok (), d1') ∧
      ∃ ev ev', (d1.attrs 1).eig = some ev ∧ (d1'.attrs 1).eig = some ev' ∧
      (Finset.univ.val.map fun p => ev.1 p ^ 2 + c.k0para.2 ^ 2) =
        Finset.univ.val.map fun p => ev'.1 p ^ 2 + c'.k0para.2 ^ 2 := by
  obtain ⟨E, hE, hS, hB, hA, hret⟩ := exists_complete_eig
  have a30 : (30 : ℝ) * (Real.pi / 180) = Real.pi / 6 := by ring
  have a45 : (45 : ℝ) * (Real.pi / 180) = Real.pi / 4 := by ring
  obtain ⟨exc, h1⟩ := ((C02_modal_amplitude_is_magnetic_amplitude 1 one_pos (30, 0, 0)).1).mpr
    (by rw [a30, Real.cos_pi_div_six]; positivity)
  obtain ⟨exc', h1'⟩ := ((C02_modal_amplitude_is_magnetic_amplitude 1 one_pos (45, 45, 0)).1).mpr
    (by rw [a45, Real.cos_pi_div_four]; positivity)
  obtain ⟨c, hc, hl, hm, hn⟩ := grating_init hA g exc
  obtain ⟨c', hc', hl', hm', hn'⟩ := grating_init hA g exc'
  obtain ⟨-, w1, w2, w3, -, w5, w6, -⟩ := planeWave_ok h1
  obtain ⟨-, w1', w2', w3', -, w5', w6', -⟩ := planeWave_ok h1'
  have hsolve : ∀ {exc c}, simInit E (fun _ => exLat) (gridMats "fft" g) [0, 1, 2] exc 11 "tangent" = .ok c →
      ∃ d1, solve E c (Dyn.fresh (gridMats "fft" g) (unsolved c.nh)) = (.ok (), d1) := by
    intro exc c hc
    have hi := simInit_ok hc
    have hl : c.lattice = exLat := hi.lat_eq 0 rfl
    refine ⟨_, Prod.ext_iff.mpr ⟨C86_solve_succeeds hc hret (mono_good hi hA ⟨1, .int 256, "circular", by rw [hl]; exact exLat_mk⟩)
      (gridMats_placed _ g) (fun r _ => by rw [(gridMats_cases _ g r).2.1]; exact one_ne_zero) (.inr (by rw [hl]; rfl))
      (fun r _ _ => ?_) [], rfl⟩⟩
    refine (grid_layers hg r).2.imp_right fun h => ⟨(grid_layers hg r).1.1, by rw [hl]; exact h, Complex.I, fun idx hidx => ?_⟩
    simpa using ((grid_layers hg r).1.2 idx hidx).2
  obtain ⟨d1, hd⟩ := hsolve hc
  obtain ⟨d1', hd'⟩ := hsolve hc'
  have hx : exc'.wavevector 0 = exc.wavevector 0 := by
    rw [w6, w6', w5, w5']
    simp [w2, w3, w2', w3', a30, a45]
    have := Real.sq_sqrt (show (0 : ℝ) ≤ 2 by norm_num)
    linear_combination (1 / 4) * this
  have hy : c.k0para.2 ^ 2 ≠ c'.k0para.2 ^ 2 := by
    obtain ⟨-, -, -, -, hk0⟩ := (simInit_ok hc).sup 0 rfl
    obtain ⟨-, -, -, -, hk0'⟩ := (simInit_ok hc').sup 0 rfl
    have hv : (gridMats "fft" g 0).epsilon.value * (gridMats "fft" g 0).mu = ((1 : ℝ) : ℂ) := by
      simp [gridMats, exLayer, NdArr.scalar, NdArr.value]
    rw [hv, csqrt_ofReal zero_le_one, Real.sqrt_one] at hk0 hk0'
    rw [hk0, hk0', k0para, k0para, w6, w6', w5']
    simp only [w3, w2', w3', a45]
    have hs : ((√2 : ℝ) : ℂ) ≠ 0 := by simp
    have hp : ((Real.pi : ℝ) : ℂ) ≠ 0 := by simp [Real.pi_ne_zero]
    simp [a45]
    exact (pow_ne_zero 2 (mul_ne_zero (mul_ne_zero two_ne_zero hp) (mul_ne_zero (div_ne_zero hs two_ne_zero)
      (div_ne_zero hs two_ne_zero)))).symm
  refine ⟨E, exc, exc', c, c', h1, h1', hS, hc, hc', hy, d1, d1', hd, hd', ?_⟩
  exact C101_conical_modes hc hc' hS hm (gridMats_placed _ g) (fun r _ => (gridMats_cases _ g r).2.1)
    (fun r _ => (grid_layers hg r).1.1) (by rw [w1, w1']) hx hd hd' 1 (by simp)

end Examples

end Nannos
