import Verif.Props.ThickAbsorbing
import Verif.Props.Planar

/-! **C119**, frustrated total reflection: a gap in which the wave is evanescent between two media in which it propagates. -/

namespace Nannos

open Matrix Spec Filter Topology

/-- **C119**, frustrated total reflection. A wave in a lossless medium falls on a gap beyond the critical angle, and propagates again
below the gap: as the gap gets wide everything is reflected and nothing transmitted. -/
theorem C119_frustrated_total_reflection {E : Ext} {c : Static} {mats : ℕ → LayerSpec} {lats : ℕ → Lattice} {exc : PlaneWave} {nh : ℤ}
    {form : String} {r0 z r2 : ℕ} {names : List String} {wl : ℝ} {ang : ℝ × ℝ × ℝ}
    (hinit : simInit E lats mats [r0, z, r2] exc nh form = .ok c)
    (hinit' : simInit E lats mats [r0, z] exc nh form = .ok { c with stack := [r0, z], layerNames := names })
    (hh : ∀ r ∈ [r0, z, r2], Homogeneous (mats r)) (hmu : ∀ r ∈ [r0, z, r2], (mats r).mu = 1)
    (hA : ArgsortContract E.argsort) (hu : c.lattice.harmonicsArray = none)
    (hp : planeWave wl ang = .ok exc) (hwl : 0 < wl) (hcos : 0 < Real.cos exc.theta)
    (h00 : ((0 : ℤ), (0 : ℤ)) ∈ c.harmonics) {d0 : ℝ} (hd : (mats z).thickness = some d0)
    {e e1 e2 : ℝ} (hpos : 0 < e) (he : (mats r0).epsilon.value = e) (he1 : (mats z).epsilon.value = e1) (hne : e1 ≠ 0)
    (hlt : e1 < e * Real.sin exc.theta ^ 2) (he2 : (mats r2).epsilon.value = e2) (hgt : e * Real.sin exc.theta ^ 2 < e2)
    (hist : ℝ → List (Call c.nh)) :
    ∃ R T : ℝ → ℝ, (∀ᶠ d in atTop, (diffractionEfficiencies E c false (afterCalls E c (hist d)
        (Dyn.fresh (Function.update mats z { mats z with thickness := some d }) (unsolved c.nh)))).1 = .ok (.total (R d) (T d))) ∧
      Tendsto R atTop (𝓝 1) ∧ Tendsto T atTop (𝓝 0) := by
  have hi := simInit_ok hinit
  have hst : c.stack = [r0, z, r2] := hi.stack_eq
  have hnd : c.stack.Nodup := hst ▸ hi.nodup
  have hm0 := hmu r0 (by simp)
  have hmz := hmu z (by simp)
  have hm2 := hmu r2 (by simp)
  have he2pos : 0 < e2 := lt_of_le_of_lt (by positivity) hgt
  -- the cut stack
  obtain ⟨⟨R0, T0⟩, hRT, hR0, hT0⟩ := C80_total_reflection (c := { c with stack := [r0, z], layerNames := names }) hinit'
    (fun r hr => hh r (by simp at hr ⊢; tauto)) hp hwl hcos h00 hpos (r0 := r0) rfl he hm0 hA hu rfl hmz he1 hne hlt []
  -- the tangential wave vector
  have hem2 : ((mats r0).epsilon.value * (mats r0).mu) = (e : ℂ) := by rw [he, hm0, mul_one]
  have hg := good_sup_mu hi (by rw [(planeWave_ok hp).2.1]; exact hwl) (r0 := r0) rfl hem2 hpos h00
  have hone := planar_harmonics hinit hA hh hu h00
  have hom := hg.omega
  have hom' : (c.omega : ℂ) ≠ 0 := by exact_mod_cast hom.ne'
  have hk2 : ∀ i, c.kx i ^ 2 + c.ky i ^ 2 = ((c.omega ^ 2 * (e * Real.sin exc.theta ^ 2) : ℝ) : ℂ) := by
    intro i
    obtain ⟨h1, h2⟩ := hg.k2 hp hone i
    have f := Real.sin_sq_add_cos_sq exc.phi
    have hs := Real.sq_sqrt hpos.le
    rw [h1, h2]
    norm_cast
    linear_combination c.omega ^ 2 * Real.sin exc.theta ^ 2 * hs +
      c.omega ^ 2 * Real.sqrt e ^ 2 * Real.sin exc.theta ^ 2 * f
  have hkr : ∀ i, (c.kx i).re ^ 2 + (c.ky i).re ^ 2 = c.omega ^ 2 * (e * Real.sin exc.theta ^ 2) := by
    intro i
    have hx : c.kx i = ((c.kx i).re : ℂ) := (Complex.conj_eq_iff_re.mp (hg.kxr i)).symm
    have hy : c.ky i = ((c.ky i).re : ℂ) := (Complex.conj_eq_iff_re.mp (hg.kyr i)).symm
    have := hk2 i
    rw [hx, hy] at this
    exact_mod_cast this
  have hop : Opaque c.omega c.kx c.ky (mats z).epsilon.value := by
    intro i
    have e3 : (mats z).epsilon.value * (c.omega : ℂ) ^ 2 - c.kx i ^ 2 - c.ky i ^ 2 =
        ((c.omega ^ 2 * (e1 - e * Real.sin exc.theta ^ 2) : ℝ) : ℂ) := by
      rw [sub_sub, hk2, he1]
      push_cast
      ring
    have h4 : c.omega ^ 2 * (e1 - e * Real.sin exc.theta ^ 2) < 0 := mul_neg_of_pos_of_neg (by positivity) (by linarith)
    rw [e3, Complex.ofReal_im, Complex.ofReal_re]
    exact ⟨le_rfl, fun h => absurd h.2 (not_le.mpr h4)⟩
  -- the part below
  obtain ⟨A, res, sp, -⟩ := solveSpec_of_noStale (E := E) (mats := mats) hnd (noStale_unsolved (c := c) mats c.stack)
  have hres : res = .ok () := by
    have h1 := sp.run (Dyn.fresh mats (unsolved c.nh)) rfl (.inl rfl)
    have h2 := planar_solve (E := E) (c := c) c.stack (Dyn.fresh mats (unsolved c.nh)) (by
      rw [hst]
      intro r hr
      refine ⟨hh r hr, ?_⟩
      have : r = r0 ∨ r = z ∨ r = r2 := by simpa using hr
      change (mats r).epsilon.value ≠ 0
      rcases this with rfl | rfl | rfl
      · rw [he]; exact_mod_cast hpos.ne'
      · rw [he1]; exact_mod_cast hne
      · rw [he2]; exact_mod_cast he2pos.ne')
    rw [h1] at h2
    exact h2
  have hfix := sp.fix hnd hres
  subst hres
  have hinv : Inv E c mats (unsolved c.nh) A (.ok ()) (afterCalls E c [] (Dyn.fresh mats (unsolved c.nh))) :=
    Inv.calls sp [] (inv_fresh _ (.inl rfl))
  have hlen := stackModes_length c mats A
  have hl3 : c.stack.length = 3 := by rw [hst]; rfl
  have hh' : ∀ r ∈ c.stack, Homogeneous (mats r) := by rw [hst]; exact hh
  have hmu' : ∀ r ∈ c.stack, (mats r).mu = 1 := by rw [hst]; exact hmu
  have hpl : ∀ (k : ℕ) L, (stackModes c mats A)[k]? = some L → ∃ r, c.stack[k]? = some r ∧ PlanarModes c (mats r) L := by
    intro k L hL
    have hk := (List.getElem?_eq_some_iff.mp hL).1
    obtain ⟨r, hr⟩ : ∃ r, c.stack[k]? = some r := ⟨_, List.getElem?_eq_getElem (by omega)⟩
    exact ⟨r, hr, planar_stack hfix hh' hr hL⟩
  have hqr : ∀ r ∈ [r0, z, r2], ∀ i : Fin c.nh, (mats r).epsilon.value * (c.omega : ℂ) ^ 2 ≠ c.kx i ^ 2 + c.ky i ^ 2 := by
    intro r hr i
    rw [hk2]
    have t := Real.sin_sq_add_cos_sq exc.theta
    have hc2 : 0 < e * Real.cos exc.theta ^ 2 := by positivity
    have hw2 : 0 < c.omega ^ 2 := by positivity
    have : r = r0 ∨ r = z ∨ r = r2 := by simpa using hr
    rcases this with rfl | rfl | rfl
    · rw [he]; norm_cast
      intro h
      have h5 : c.omega ^ 2 * (e * Real.cos exc.theta ^ 2) = 0 := by linear_combination h + e * c.omega ^ 2 * t
      exact (mul_pos hw2 hc2).ne' h5
    · rw [he1]; norm_cast
      intro h
      nlinarith
    · rw [he2]; norm_cast
      intro h
      nlinarith
  have hqs : ∀ (k : ℕ) L, (stackModes c mats A)[k]? = some L → ∀ i, L.q i ≠ 0 := by
    intro k L hL
    obtain ⟨r, hr, p⟩ := hpl k L hL
    have hrm := List.mem_of_getElem? hr
    have key : ∀ i, L.q (.inl i) ≠ 0 := by
      intro i h0
      have := p.q_sq i
      rw [h0, hmu' r hrm] at this
      exact hqr r (hst ▸ hrm) i (by linear_combination -this)
    rintro (i | i)
    · exact key i
    · rw [p.q_inr]; exact key i
  obtain ⟨S, hS⟩ := loopS_total_from hqs (fun k L hL => by
    obtain ⟨r, hr, p⟩ := hpl k L hL
    exact p.det hom.ne' (by rw [hmu' r (List.mem_of_getElem? hr)]; exact one_ne_zero) (hqs k L hL)) 1 2 (by omega) (by omega) (by
    intro k hk hk' amp hc ha hb
    obtain rfl : k = 2 := by omega
    obtain ⟨L1, hL1⟩ : ∃ L, (stackModes c mats A)[1]? = some L := ⟨_, List.getElem?_eq_getElem (by omega)⟩
    obtain ⟨L2, hL2⟩ : ∃ L, (stackModes c mats A)[2]? = some L := ⟨_, List.getElem?_eq_getElem (by omega)⟩
    obtain ⟨s1, hs1, p1⟩ := hpl 1 L1 hL1
    obtain ⟨s2, hs2, p2⟩ := hpl 2 L2 hL2
    rw [hst] at hs1 hs2
    obtain rfl : z = s1 := by simpa using hs1
    obtain rfl : r2 = s2 := by simpa using hs2
    have hm := power_match (hc 1 L1 L2 le_rfl (by omega) hL1 hL2)
    have u1 := p1.uniform hmz
    rw [he1] at u1
    have u2 := p2.uniform hm2
    rw [he2] at u2
    have hq1 : ∀ k, (c.omega : ℂ) * L1.q k ≠ 0 := fun k => mul_ne_zero hom' (hqs 1 L1 hL1 k)
    have hq2 : ∀ k, (c.omega : ℂ) * L2.q k ≠ 0 := fun k => mul_ne_zero hom' (hqs 2 L2 hL2 k)
    have pB := power_bottom hom.ne' u1 hg.kxr hg.kyr (a := 0) (b := (amp 1).2) hq1 (fun _ _ => ⟨rfl, rfl⟩)
    have pT := power_forward (c := c) hom.ne' (M := L2) (a := (amp 2).1)
    have z0 : ∑ i, orderFlux c L1 0 i = 0 := Finset.sum_eq_zero fun i _ => by unfold orderFlux; simp
    rw [ha, hb, pB, pT, z0, zero_sub] at hm
    have f1 : ∀ i, 0 ≤ orderFlux c L1 (amp 1).2 i :=
      fun i => orderFlux_nonneg (by exact_mod_cast hne) hom u1 hg.kxr hg.kyr hq1 _ i
    have f2 : ∀ i, 0 ≤ orderFlux c L2 (amp 2).1 i :=
      fun i => orderFlux_nonneg (by exact_mod_cast he2pos.ne') hom u2 hg.kxr hg.kyr hq2 _ i
    have hsum : ∑ i, orderFlux c L2 (amp 2).1 i = 0 := by
      have g1 := Finset.sum_nonneg fun i (_ : i ∈ Finset.univ) => f1 i
      have g2 := Finset.sum_nonneg fun i (_ : i ∈ Finset.univ) => f2 i
      have := mul_left_cancel₀ hom.ne' hm
      linarith
    have hz := (Finset.sum_eq_zero_iff_of_nonneg fun i _ => f2 i).mp hsum
    have hcut : ∀ i, (c.kx i).re ^ 2 + (c.ky i).re ^ 2 < e2 * c.omega ^ 2 := by
      intro i
      rw [hkr i]
      have : 0 < c.omega ^ 2 := by positivity
      nlinarith
    funext a
    rcases a with i | i
    · exact (orderFlux_zero he2pos hom u2 hg.kxr hg.kyr hq2 (hcut i) (hz i (Finset.mem_univ _))).1
    · exact (orderFlux_zero he2pos hom u2 hg.kxr hg.kyr hq2 (hcut i) (hz i (Finset.mem_univ _))).2)
  have hB : (getS E c (some ((([r0] : List ℕ).length : ℤ), (([r0] ++ z :: [r2] : List ℕ).length : ℤ) - 1))
      (afterCalls E c [] (Dyn.fresh mats (unsolved c.nh)))).1 = .ok S := by
    rw [(det_getS' sp _ _ hinv).1, valS_solved hfix]
    exact (freshS_ok (i := 1) (j := 2)).mpr ⟨by omega, hS⟩
  obtain ⟨R, T, h3, h4⟩ := C118_thick_layer (pre := [r0]) (post := [r2]) (z := z) (by simp) (by simp) hinit hinit' (fun r hr => by
    rw [List.mem_singleton.mp hr]; exact (hh r0 (by simp)).1) (hh z (by simp)) hmz hd hop hB hRT hist
  refine ⟨fun d => ∑ i, R d i, fun d => ∑ i, T d i, ?_, ?_, ?_⟩
  · filter_upwards [h3] with d h
    unfold diffractionEfficiencies
    rw [PyM.bind_ok (Prod.ext_iff.mpr ⟨h, rfl⟩)]
    rfl
  · rw [← hR0]
    exact tendsto_finset_sum _ fun i _ => (h4 i).1
  · simpa using tendsto_finset_sum Finset.univ fun i _ => (h4 i).2

namespace Examples

/-- C119, frustrated total reflection: two media of index 2 separated by air, incidence at 60 degrees. -/
example : ∃ (exc : PlaneWave) (c : Static) (R T : ℝ → ℝ), planeWave 1 (60, 30, 45) = .ok exc ∧
    simInit exE (fun _ => exLat) (filmMats (fun r => if r = 1 then 1 else 4) 1 1) [0, 1, 2] exc 1 "original" = .ok c ∧
    (∀ᶠ d in atTop, (diffractionEfficiencies exE c false (Dyn.fresh (Function.update (filmMats (fun r => if r = 1 then 1 else 4) 1 1) 1
        { filmMats (fun r => if r = 1 then 1 else 4) 1 1 1 with thickness := some d }) (unsolved c.nh))).1 = .ok (.total (R d) (T d))) ∧
      Tendsto R atTop (𝓝 1) ∧ Tendsto T atTop (𝓝 0) := by
  obtain ⟨exc, hp, hs, hc, -⟩ := oblique_wave 1 30 45 one_pos
  obtain ⟨c, hi, hH, hl⟩ := planar_init (filmMats (fun r => if r = 1 then 1 else 4) 1 1) 0 [1, 2] exc (by simp [filmMats, exLayer])
    (fun _ _ => rfl) (filmMats_hom _ _ _ _) (by rw [filmMats_eps, filmMats_mu]; norm_num)
  obtain ⟨c', hi', -⟩ := planar_init (filmMats (fun r => if r = 1 then 1 else 4) 1 1) 0 [1] exc (by simp [filmMats, exLayer])
    (fun _ _ => rfl) (filmMats_hom _ _ _ _) (by rw [filmMats_eps, filmMats_mu]; norm_num)
  obtain rfl := simInit_restack rfl hi hi' rfl (by rintro r r' ⟨⟩ ⟨⟩; exact ⟨rfl, rfl, rfl⟩)
  obtain ⟨R, T, h⟩ := C119_frustrated_total_reflection hi hi' (fun r _ => filmMats_hom _ _ _ r) (fun r _ => rfl) exSort_spec
    (by rw [hl]; rfl) hp one_pos (by rw [hc]; norm_num) (by rw [hH]; simp) (d0 := 1) rfl (e := 4) (e1 := 1) (e2 := 4) (by norm_num)
    (by rw [filmMats_eps]; norm_num) (by rw [filmMats_eps]; norm_num) one_ne_zero (by rw [hs]; norm_num)
    (by rw [filmMats_eps]; norm_num) (by rw [hs]; norm_num) (fun _ => [])
  exact ⟨exc, c, R, T, hp, hi, h⟩

end Examples

end Nannos
