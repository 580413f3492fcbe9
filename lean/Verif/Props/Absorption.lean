import Verif.Proofs.Absorption
import Verif.Props.Stress

/-! Property C75: Poynting's theorem and absorption. -/

namespace Nannos

open Matrix Spec

variable {E : Ext} {lats : ℕ → Lattice} {mats : ℕ → LayerSpec} {stack : List ℕ} {exc : PlaneWave} {nh : ℤ} {form : String}
  {c : Static}

private theorem normSq_series {v : Fin c.nh → ℂ} {u : ℂ} {w : ℝ} : ((w : ℂ) * (star (∑ i, v i) * u * ∑ i, v i)).im =
    w * (u.im * Complex.normSq (∑ i, v i)) := by
  generalize (∑ i, v i) = s
  rw [show star s * u * s = ((Complex.normSq s : ℝ) : ℂ) * u by rw [Complex.normSq_eq_conj_mul_self]; simp; ring]
  rw [Complex.im_ofReal_mul, Complex.im_ofReal_mul]
  ring

/-- In the formulation `original` the dissipated power is that of the pixels. -/
theorem dissipation_pixels (hform : c.formulation = "original") (hw : WellPlaced mats stack)
    (hmu : ∀ r ∈ stack, (mats r).mu = 1) {r P e} (hm : Medium E c mats r P e) :
    r ∈ stack → (mats r).isAnisotropic = false → ∀ F, dissipation P e F = lossDensity c.harmonics.get (mats r) F := by
  intro hr ha F
  have hP := medium_original hform hw hmu hm hr ha
  have hd : dissipation P e F = (star F.ex ⬝ᵥ e *ᵥ F.ex).im + (star F.ey ⬝ᵥ e *ᵥ F.ey).im + (star F.ez ⬝ᵥ e *ᵥ F.ez).im := by
    rw [hP, ← Complex.add_im, ← Complex.add_im]
    unfold dissipation
    congr 1
    simp only [dotProduct, ← Finset.sum_add_distrib, Pi.star_apply]
    refine Finset.sum_congr rfl fun i _ => ?_
    simp [dispX, dispY, mulVec, dotProduct]
  rw [hd]
  clear hd hP
  induction hm with
  | uniform r hc hu ha =>
    unfold lossDensity
    rw [if_pos hu]
    have : ∀ v : Fin c.nh → ℂ, (star v ⬝ᵥ ((mats r).epsilon.value • (1 : Matrix (Fin c.nh) (Fin c.nh) ℂ)) *ᵥ v).im =
        (mats r).epsilon.value.im * ∑ i, Complex.normSq (v i) := by
      intro v
      rw [smul_mulVec, one_mulVec, dotProduct_smul, smul_eq_mul]
      have : star v ⬝ᵥ v = ((∑ i, Complex.normSq (v i) : ℝ) : ℂ) := by
        rw [Complex.ofReal_sum, dotProduct]
        refine Finset.sum_congr rfl fun i _ => ?_
        rw [Complex.normSq_eq_conj_mul_self]
        rfl
      rw [this, Complex.im_mul_ofReal]
    rw [this, this, this, Finset.sum_add_distrib, Finset.sum_add_distrib]
    ring
  | patterned r M p Q hc hb =>
    obtain ⟨hu, -, -, -, -, -, -, zz, para, eph, Ht, n, h1, h2, -⟩ := buildPure_patterned_ok (hmu r hr) hb
    rw [if_neg (by rw [ha]; simp)] at h1
    obtain ⟨s1, s2⟩ := toGrid_ok h1
    unfold lossDensity
    rw [if_neg (by rw [hu]; simp), s1]
    dsimp only
    by_cases hnh : Nonempty (Fin c.nh)
    · obtain ⟨i0⟩ := hnh
      obtain ⟨nx, ny⟩ := toep_pos (A := p.epsHat) h2 i0
      haveI : NeZero zz.Nx := ⟨nx⟩
      haveI : NeZero zz.Ny := ⟨ny⟩
      have key : ∀ v : Fin c.nh → ℂ, (star v ⬝ᵥ p.epsHat *ᵥ v).im = ((zz.Nx : ℝ) * zz.Ny)⁻¹ * ∑ x : Fin zz.Nx, ∑ y : Fin zz.Ny,
          ((mats r).epsilon.data [(x : ℕ), (y : ℕ)]).im * Complex.normSq (series c.harmonics.get v zz.Nx zz.Ny x y) := by
        intro v
        rw [toep_dot (H := c.harmonics.get) (u := zz.g) h2, Complex.im_sum, Finset.mul_sum]
        refine Finset.sum_congr rfl fun x _ => ?_
        rw [Complex.im_sum, Finset.mul_sum]
        refine Finset.sum_congr rfl fun y _ => ?_
        rw [← s2]
        exact normSq_series
      rw [key, key, key]
      simp only [mul_add, Finset.sum_add_distrib]
    · have hem : IsEmpty (Fin c.nh) := not_nonempty_iff.mp hnh
      simp [dotProduct, series, Finset.univ_eq_empty]
  | copy r P e hc ho ih =>
    obtain ⟨k, hk⟩ := List.getElem?_of_mem hr
    obtain ⟨⟨j, -, hj⟩, -, he⟩ := hw k r hk hc
    have := ih (List.mem_of_getElem? hj) (by unfold LayerSpec.isAnisotropic at ha ⊢; rw [← he]; exact ha)
    rw [this]
    unfold lossDensity LayerSpec.isUniform
    rw [he]

/-- **C75**, one layer. Poynting's theorem, in every formulation: the flux which enters at one depth and does not leave at
another is the dissipated power between them. `P`, `e` are the permittivity operators of the layer. -/
theorem C75_poynting_theorem (hinit : simInit E lats mats stack exc nh form = .ok c)
    (hE : EigContract E) (hw : WellPlaced mats stack) (hmu : ∀ r ∈ stack, (mats r).mu = 1)
    (hwl : 0 < exc.wavelength) (e0 : ℝ) (hpos : 0 < e0)
    (hsup : ∀ r0, stack.head? = some r0 → (mats r0).epsilon.value = (e0 : ℂ))
    (hist : List (Call c.nh)) (id : LayerId) (r : ℕ) (i : ℤ) (hl : getLayer c id = .ok (r, i)) (F : ℝ → FieldF c.nh)
    (hF : ∀ z, (getFieldFourier E c id [z] (afterCalls E c hist (Dyn.fresh mats (unsolved c.nh)))).1 = .ok [F z]) :
    (∃ P e, Medium E c mats r P e) ∧ ∀ P e, Medium E c mats r P e → ∀ z z',
      ∑ i, Spec.orderFlux (F z) i - ∑ i, Spec.orderFlux (F z') i =
        2 * Real.pi / exc.wavelength * ∫ t in z..z', dissipation P e (F t) := by
  have hi := simInit_ok hinit
  obtain ⟨hkx, hky⟩ := real_k hi hpos fun r0 hr0 => ⟨hsup r0 hr0, hmu r0 (List.mem_of_mem_head? hr0)⟩
  have hom : c.omega ≠ 0 := by rw [hi.omega_eq]; positivity
  have hom' : c.omega = 2 * Real.pi / exc.wavelength := by rw [hi.omega_eq]; ring
  obtain ⟨A1, hA⟩ := fields_of_history hinit hE hw hmu
  obtain ⟨hfix, s, j, ab, h1, h2, ⟨P, e, h3, h4⟩, M, d, G, h5, h6, h7, h8, h9, h10⟩ := hA hist id [0] _ (by simp) (hF 0)
  rw [hl] at h1
  obtain ⟨rfl, rfl⟩ := Prod.mk.inj (Except.ok.inj h1)
  have hG : F = G := by
    funext z
    have := (hF z).symm.trans (h9 [z])
    simpa using this
  subst hG
  refine ⟨⟨P, e, h3⟩, fun P' e' hm z z' => ?_⟩
  obtain ⟨rfl, rfl⟩ := Medium.unique h3 hm
  rw [← hom']
  exact flux_integral hom hkx hky h4 h5 (fun k hk => h7 k (by rw [hk, mul_zero])) h8 z z'

/-- **C75**, one layer, formulation `original`, isotropic material: the same with the permittivity of the pixels and the
fields in real space. -/
theorem C75_poynting_theorem_pixels (hinit : simInit E lats mats stack exc nh "original" = .ok c)
    (hE : EigContract E) (hw : WellPlaced mats stack) (hmu : ∀ r ∈ stack, (mats r).mu = 1)
    (hwl : 0 < exc.wavelength) (e0 : ℝ) (hpos : 0 < e0)
    (hsup : ∀ r0, stack.head? = some r0 → (mats r0).epsilon.value = (e0 : ℂ))
    (hist : List (Call c.nh)) (id : LayerId) (r : ℕ) (i : ℤ) (hl : getLayer c id = .ok (r, i))
    (ha : (mats r).isAnisotropic = false) (F : ℝ → FieldF c.nh)
    (hF : ∀ z, (getFieldFourier E c id [z] (afterCalls E c hist (Dyn.fresh mats (unsolved c.nh)))).1 = .ok [F z]) (z z' : ℝ) :
    ∑ i, Spec.orderFlux (F z) i - ∑ i, Spec.orderFlux (F z') i =
      2 * Real.pi / exc.wavelength * ∫ t in z..z', lossDensity c.harmonics.get (mats r) (F t) := by
  have hi := simInit_ok hinit
  obtain ⟨⟨P, e, hm⟩, h⟩ := C75_poynting_theorem hinit hE hw hmu hwl e0 hpos hsup hist id r i hl F hF
  rw [h P e hm z z']
  simp only [dissipation_pixels hi.form_eq hw hmu hm (hi.stack_eq ▸ getLayer_mem hl) ha]

/-- **C75**, the stack. In every formulation, what is neither reflected nor transmitted is dissipated in the layers between
the first and the last one: `F k` are the fields retrieved in the layer at position `k`, `n` is the refractive index of the
first layer. -/
theorem C75_absorption (hinit : simInit E lats mats stack exc nh form = .ok c)
    (hE : EigContract E) (hw : WellPlaced mats stack) (hmu : ∀ r ∈ stack, (mats r).mu = 1)
    (wl : ℝ) (ang : ℝ × ℝ × ℝ) (hp : planeWave wl ang = .ok exc) (hwl : 0 < wl)
    (hcos : 0 < Real.cos exc.theta) (h00 : ((0 : ℤ), (0 : ℤ)) ∈ c.harmonics) (n : ℝ) (hpos : 0 < n)
    (hsup : ∀ r0, stack.head? = some r0 → (mats r0).epsilon.value = ((n ^ 2 : ℝ) : ℂ))
    (hist hist' : List (Call c.nh)) (R T : ℝ)
    (h : (diffractionEfficiencies E c false
      (afterCalls E c hist (Dyn.fresh mats (unsolved c.nh)))).1 = .ok (.total R T))
    (F : ℕ → ℝ → FieldF c.nh) (P : ℕ → Matrix (Idx c.nh) (Idx c.nh) ℂ) (e : ℕ → Matrix (Fin c.nh) (Fin c.nh) ℂ) (t : ℕ → ℝ)
    (hF : ∀ k r, 0 < k → k + 1 < stack.length → stack[k]? = some r → (mats r).thickness = some (t k) ∧
      Medium E c mats r (P k) (e k) ∧ ∀ z, (getFieldFourier E c (.idx k) [z]
        (afterCalls E c hist' (Dyn.fresh mats (unsolved c.nh)))).1 = .ok [F k z]) :
    1 - R - T = 2 * Real.pi / wl * n / Real.cos exc.theta *
      ∑ k ∈ Finset.range (stack.length - 2), ∫ z in 0..t (k + 1), dissipation (P (k + 1)) (e (k + 1)) (F (k + 1) z) := by
  have hi := simInit_ok hinit
  have hst : c.stack = stack := hi.stack_eq
  obtain ⟨R', T', h1, rfl, rfl⟩ := efficiencies_total h
  obtain ⟨A1, res, hs, hA⟩ := fields_of_history_spec hinit hE hw hmu
  obtain ⟨hg, hfix, hlt, amp, M0, MN, hsol, hM0, hMN, hqs, p0, pN⟩ := flux_balance hinit hw hmu hp hwl hcos h00
    (e := n ^ 2) (by positivity) hsup hs hist (R', T') h1
  rw [Real.sqrt_sq hpos.le] at hg
  have hom := hg.omega
  have hlen := stackModes_length c mats A1
  obtain ⟨m, hm⟩ : ∃ m, c.stack.length - 1 = m + 1 := ⟨c.stack.length - 2, by omega⟩
  have hmm : stack.length - 2 = m := by rw [← hst]; omega
  have key := stack_power hM0 (amp := amp)
    (loss := fun k => c.omega ^ 2 * ∫ z in 0..t k, dissipation (P k) (e k) (F k z)) m (by rw [hlen]; omega)
    (by have := hsol.1; rwa [hlen, hm] at this) (by
      intro k L hk0 hkm hL
      obtain ⟨r, hr⟩ : ∃ r, c.stack[k]? = some r := ⟨_, List.getElem?_eq_getElem (by omega)⟩
      obtain ⟨ht, hmed, hFk⟩ := hF k r hk0 (by rw [← hst]; omega) (hst ▸ hr)
      obtain ⟨-, s, j, ab, q1, q2, ⟨P', e', q3, q4⟩, M, d, G, q5, q6, q7, q8, q9, q10⟩ :=
        hA hist' (.idx k) [0] _ (by simp) (hFk 0)
      have gl : getLayer c (.idx (k : ℤ)) = .ok (r, (k : ℤ)) := by
        unfold getLayer
        dsimp only
        rw [(pyGet_nat c.stack k r).mpr hr]
        rfl
      rw [gl] at q1
      obtain ⟨rfl, rfl⟩ := Prod.mk.inj (Except.ok.inj q1)
      obtain ⟨rfl, rfl⟩ := Medium.unique q3 hmed
      have hG : F k = G := by
        funext z
        have := (hFk z).symm.trans (q9 [z])
        simpa using this
      rw [hG]
      obtain ⟨k1, u1, amp', v1, v2, v3⟩ := ampV_solution hfix q2
      have hk1 : k1 = k := by
        unfold pyIdx at u1
        rw [if_pos (by omega), if_pos (by omega)] at u1
        have := Option.some.inj u1
        omega
      subst hk1
      have hab : amp k1 = ab := by rw [v3 amp hsol k1 (by omega), v2]
      have hLM : L = M := by
        have hs' := hfix r (List.mem_of_getElem? hr)
        rw [hs'.form.modesD] at q5
        unfold stackModes at hL
        rw [List.getElem?_map, hr] at hL
        rw [← Except.ok.inj q5]
        exact (Option.some.inj hL).symm
      subst hLM
      have hz : L.z = t k1 := by
        have : L.thickness = (mats r).thickness := by
          unfold modesOf at q5
          rw [bind_eq_ok] at q5
          obtain ⟨ev, -, q5⟩ := q5
          rw [bind_eq_ok] at q5
          obtain ⟨Q, -, q5⟩ := q5
          simp only [except_pure_eq_ok, Except.ok.injEq] at q5
          rw [← q5]
        simp [Modes.z, this, ht]
      rw [hab, hz, power_flux hom.ne' (q8 0), power_flux hom.ne' (q8 (t k1)), ← mul_sub,
        flux_integral hom.ne' hg.kxr hg.kyr q4 q5 (fun k hk => q7 k (by rw [hk, mul_zero])) q8]
      ring) MN (by rw [← hm]; exact hMN)
  rw [p0, ← hm, pN, hg.flux, ← Finset.mul_sum] at key
  rw [hmm]
  have hom' : c.omega = 2 * Real.pi / wl := by rw [hg.omk, (planeWave_ok hp).2.1]; ring
  rw [← hom']
  have hc0 := hcos.ne'
  have hw0 := hom.ne'
  field_simp at key ⊢
  linarith

/-- **C75**, the stack, formulation `original`, isotropic materials: `1 - R - T` is the power absorbed by the pixels. -/
theorem C75_absorption_pixels (hinit : simInit E lats mats stack exc nh "original" = .ok c)
    (hE : EigContract E) (hw : WellPlaced mats stack) (hmu : ∀ r ∈ stack, (mats r).mu = 1)
    (wl : ℝ) (ang : ℝ × ℝ × ℝ) (hp : planeWave wl ang = .ok exc) (hwl : 0 < wl)
    (hcos : 0 < Real.cos exc.theta) (h00 : ((0 : ℤ), (0 : ℤ)) ∈ c.harmonics) (n : ℝ) (hpos : 0 < n)
    (hsup : ∀ r0, stack.head? = some r0 → (mats r0).epsilon.value = ((n ^ 2 : ℝ) : ℂ))
    (hist hist' : List (Call c.nh)) (R T : ℝ)
    (h : (diffractionEfficiencies E c false
      (afterCalls E c hist (Dyn.fresh mats (unsolved c.nh)))).1 = .ok (.total R T))
    (L : ℕ → LayerSpec) (F : ℕ → ℝ → FieldF c.nh) (t : ℕ → ℝ)
    (hF : ∀ k r, 0 < k → k + 1 < stack.length → stack[k]? = some r → L k = mats r ∧ (mats r).isAnisotropic = false ∧
      (mats r).thickness = some (t k) ∧ ∀ z, (getFieldFourier E c (.idx k) [z]
        (afterCalls E c hist' (Dyn.fresh mats (unsolved c.nh)))).1 = .ok [F k z]) :
    1 - R - T = 2 * Real.pi / wl * n / Real.cos exc.theta *
      ∑ k ∈ Finset.range (stack.length - 2), ∫ z in 0..t (k + 1), lossDensity c.harmonics.get (L (k + 1)) (F (k + 1) z) := by
  have hi := simInit_ok hinit
  have hst : c.stack = stack := hi.stack_eq
  obtain ⟨A1, hA⟩ := fields_of_history hinit hE hw hmu
  have hmed : ∀ k, ∃ P : Matrix (Idx c.nh) (Idx c.nh) ℂ, ∃ e : Matrix (Fin c.nh) (Fin c.nh) ℂ,
      ∀ r, 0 < k → k + 1 < stack.length → stack[k]? = some r → Medium E c mats r P e := by
    intro k
    by_cases hk : 0 < k ∧ k + 1 < stack.length
    · have hr : stack[k]? = some stack[k] := List.getElem?_eq_getElem _
      obtain ⟨-, -, -, hFk⟩ := hF k _ hk.1 hk.2 hr
      obtain ⟨-, s, j, ab, q1, q2, ⟨P', e', q3, q4⟩, -⟩ := hA hist' (.idx k) [0] _ (by simp) (hFk 0)
      have gl : getLayer c (.idx (k : ℤ)) = .ok (stack[k], (k : ℤ)) := by
        unfold getLayer
        dsimp only
        rw [(pyGet_nat c.stack k stack[k]).mpr (by rw [hst]; exact hr)]
        rfl
      rw [gl] at q1
      obtain ⟨rfl, rfl⟩ := Prod.mk.inj (Except.ok.inj q1)
      refine ⟨P', e', fun r _ _ hr' => ?_⟩
      rw [hr] at hr'
      exact Option.some.inj hr' ▸ q3
    · exact ⟨0, 0, fun r a b _ => absurd ⟨a, b⟩ hk⟩
  choose P e hPe using hmed
  rw [C75_absorption hinit hE hw hmu wl ang hp hwl hcos h00 n hpos hsup hist hist' R T h F P e t
    (fun k r a b d => ⟨(hF k r a b d).2.2.1, hPe k r a b d, (hF k r a b d).2.2.2⟩)]
  congr 1
  refine Finset.sum_congr rfl fun k hk => ?_
  have hk' : k + 1 + 1 < stack.length := by
    have := Finset.mem_range.mp hk
    omega
  have hr : stack[k + 1]? = some stack[k + 1] := List.getElem?_eq_getElem _
  obtain ⟨a, b, -⟩ := hF (k + 1) _ (by omega) hk' hr
  simp only [dissipation_pixels hi.form_eq hw hmu (hPe (k + 1) _ (by omega) hk' hr) (List.mem_of_getElem? hr) b, a]

open Examples in
/-- C75 on the grating in air: the efficiencies after one history, the fields after another one. -/
example : ∃ (c : Static) (F : ℕ → ℝ → FieldF c.nh) (R T : ℝ), (diffractionEfficiencies exE c false
      (afterCalls exE c [] (Dyn.fresh slabMats (unsolved c.nh)))).1 = .ok (.total R T) ∧ R = 9 / 25 ∧
    (∀ z, (getFieldFourier exE c (.idx (1 : ℕ)) [z] (afterCalls exE c [.solve] (Dyn.fresh slabMats (unsolved c.nh)))).1 =
      .ok [F 1 z]) ∧
    1 - R - T = 2 * Real.pi / 1 * 1 / Real.cos exExc.theta *
      ∑ k ∈ Finset.range 1, ∫ z in 0..1 / 8, lossDensity c.harmonics.get (slabMats (k + 1)) (F (k + 1) z) := by
  obtain ⟨c, hc, hn, hst, -, hfl⟩ := slab_init
  have h00 : ((0 : ℤ), (0 : ℤ)) ∈ c.harmonics := by rw [hn.harm]; simp
  obtain ⟨c', F, h1, h2, h3, h4, h5⟩ := slab_retrieval (fun _ => [.solve]) 1 (by norm_num)
  obtain rfl : c = c' := Except.ok.inj (hc.symm.trans h1)
  have ht := slab_total hn hst hfl
  refine ⟨c, fun _ => F, _, _, ht, rfl, fun z => h5 [z], ?_⟩
  exact C75_absorption_pixels hc h2 h3 h4 1 (0, 0, 0) exExc_mk one_pos (by simp [exExc]) h00 1 one_pos
    (by intro r0 hr; simp at hr; subst hr; simp [slabMats, exLayer, NdArr.scalar, NdArr.value]) [] [.solve] _ _ ht slabMats (fun _ => F)
    (fun _ => 1 / 8) (by
      intro k r h0 hk hr
      obtain rfl : k = 1 := by simp at hk; omega
      obtain rfl : 1 = r := by simpa using hr
      refine ⟨rfl, ?_, ?_, fun z => h5 [z]⟩
      · simp [slabMats, exLayer, LayerSpec.isAnisotropic, NdArr.ofGrid, isAnisotropic]
      · simp [slabMats, exLayer])

end Nannos
