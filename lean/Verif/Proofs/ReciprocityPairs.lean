import Verif.Proofs.ReciprocityInit
import Verif.Props.Orders
import Verif.Props.Energy

/-! Reciprocity (C72, C73): amplitudes of the specular order. -/

namespace Nannos

open Matrix Spec

variable {E : Ext} {c c' : Static} {lats : ℕ → Lattice} {mats : ℕ → LayerSpec} {stack stack' : List ℕ} {exc exc' : PlaneWave}
  {nh : ℤ} {form : String}

/-- A product of amplitudes along a polarisation. -/
noncomputable def along (exc : PlaneWave) (x : Idx c.nh → ℂ) (i : Fin c.nh) : ℂ :=
  -(exc.amplitude 1 : ℂ) * x (.inl i) + (exc.amplitude 0 : ℂ) * x (.inr i)

theorem zero_of_opposite {σ : Fin c.nh ≃ Fin c'.nh} (h : Opposite c c' σ) {i0 : Fin c.nh} (h0 : c.harmonics.get i0 = (0, 0)) :
    c'.harmonics.get (σ i0) = (0, 0) := by
  rw [h.harm, h0]; simp

/-- The incident wave is in the specular order. -/
theorem sum_specular {σ : Fin c.nh ≃ Fin c'.nh} {n n' : ℝ} (g : GoodSup c exc n) (g' : GoodSup c' exc' n')
    {i0 : Fin c.nh} (hi : (i0 : ℕ) = c.indexZerothOrder) (hj : (σ i0 : ℕ) = c'.indexZerothOrder) :
    ∀ i, i ≠ i0 → (c.a0 (.inl i) = 0 ∧ c.a0 (.inr i) = 0) ∧ c'.a0 (.inl (σ i)) = 0 ∧ c'.a0 (.inr (σ i)) = 0 := by
  intro i hne
  refine ⟨g.a0_off i ?_, g'.a0_off _ ?_⟩
  · rw [← hi]; exact fun h => hne (Fin.ext h)
  · rw [← hj]; exact fun h => hne (σ.injective (Fin.ext h))

theorem crossFlux_zero (w : ℝ) (e X Y g y1 y2 : ℂ) : crossFlux w e X Y g 0 0 y1 y2 = 0 := by
  unfold crossFlux; ring

theorem incident_cross {n : ℝ} (g : GoodSup c exc n) {wl ang} (hwl : 0 < wl)
    (hp : planeWave wl ang = .ok exc) (hcos : 0 < Real.cos exc.theta) {M : Modes (Idx c.nh)}
    {gz} (h : UniformFlux c ((n ^ 2 : ℝ) : ℂ) M gz) {i : Fin c.nh} (hi : (i : ℕ) = c.indexZerothOrder) (y1 y2 : ℂ) :
    crossFlux c.omega ((n ^ 2 : ℝ) : ℂ) (c.kx i) (c.ky i) (gz i) (c.a0 (.inl i)) (c.a0 (.inr i)) y1 y2 =
      (-(exc.amplitude 1 : ℂ) * y1 + (exc.amplitude 0 : ℂ) * y2) / n := by
  obtain ⟨q1, q2, q3, q4⟩ := incident_on g hp hcos h hi
  obtain ⟨s1, s2, -, -⟩ := g.on i hi
  rw [q1, q2, q3, q4, s1, s2, wave_cross g.pos hwl hp hcos]

/-- The same in the numbering of the other simulation. -/
theorem incident_cross' {σ : Fin c.nh ≃ Fin c'.nh} (ho : Opposite c c' σ) {n : ℝ} (g : GoodSup c' exc' n) {wl ang} (hwl : 0 < wl)
    (hp : planeWave wl ang = .ok exc') (hcos : 0 < Real.cos exc'.theta) {M : Modes (Idx c.nh)} {M' : Modes (Idx c'.nh)}
    {gz gz'} (h : UniformFlux c ((n ^ 2 : ℝ) : ℂ) M gz) (h' : UniformFlux c' ((n ^ 2 : ℝ) : ℂ) M' gz') {i : Fin c.nh}
    (hi : (σ i : ℕ) = c'.indexZerothOrder) (y1 y2 : ℂ) :
    crossFlux c.omega ((n ^ 2 : ℝ) : ℂ) (c.kx i) (c.ky i) (gz i) (c'.a0 (.inl (σ i))) (c'.a0 (.inr (σ i))) y1 y2 =
      (-(exc'.amplitude 1 : ℂ) * y1 + (exc'.amplitude 0 : ℂ) * y2) / n := by
  rw [← incident_cross g hwl hp hcos h' hi, ho.kx, ho.ky, ho.omega, h.opposite ho h', crossFlux_neg]

/-- The uniform layers of a solved stack. -/
theorem EffRun.uniform {e : ℝ} {RT A SM n amp r0 rN M0 MN} (hr : EffRun E c mats exc e RT A SM n amp r0 rN M0 MN)
    (hw : WellPlaced mats c.stack) (hmu : ∀ r ∈ c.stack, (mats r).mu = 1) {k r : ℕ} (hk : c.stack[k]? = some r)
    (hu : (mats r).isUniform = true) {M} (hM : modesOf (mats r) (A r) = .ok M) :
    ∃ g, UniformFlux c (mats r).epsilon.value M g :=
  (uniform_flux (hr.st.fix r (List.mem_of_getElem? hk)) (not_copy_uniform hw hk hu) hu (hmu r (List.mem_of_getElem? hk)) hM).2

theorem refl_pair {σ : Fin c.nh ≃ Fin c'.nh} (h : OppositePair E c c' mats σ) (hst : c'.stack = c.stack) {e : ℝ} (hpos : 0 < e)
    {RT RT' A A' SM SM' n n' amp amp' r0 r0' rN rN' M0 M0' MN MN'} (hr : EffRun E c mats exc e RT A SM n amp r0 rN M0 MN)
    (hr' : EffRun E c' mats exc' e RT' A' SM' n' amp' r0' rN' M0' MN') (he : (mats r0).epsilon.value = (e : ℂ))
    (huN : (mats rN).isUniform = true) {wl ang ang'} (hwl : 0 < wl) (hp : planeWave wl ang = .ok exc)
    (hp' : planeWave wl ang' = .ok exc') (hcos : 0 < Real.cos exc.theta) (hcos' : 0 < Real.cos exc'.theta) {i0 : Fin c.nh}
    (hi : (i0 : ℕ) = c.indexZerothOrder) (hj : (σ i0 : ℕ) = c'.indexZerothOrder) :
    along exc (SM'.s21 *ᵥ c'.a0) (σ i0) = along exc' (SM.s21 *ᵥ c.a0) i0 := by
  obtain ⟨g, hu, hsum⟩ := h.same_side hst hr.st hr'.st hr.first hr.uni (fun r hrr => by
    rw [hr.last] at hrr; cases hrr; exact huN) hr.m0
  obtain rfl : r0' = r0 := by
    have := hr'.first
    rw [hst, hr.first] at this
    exact (Option.some.inj this).symm
  obtain ⟨g', hu'⟩ := hr'.uniform h.placed' (fun r hr => h.mu r ((h.mem r).mp hr)) hr'.first hr.uni hr'.m0
  rw [he] at hu hu' hsum
  have off := sum_specular hr.sup hr'.sup hi hj
  rw [Finset.sum_eq_single i0 (fun i _ hne => by
    obtain ⟨⟨a, b⟩, a', b'⟩ := off i hne
    rw [a, b, a', b', crossFlux_zero, crossFlux_zero]; ring) (fun h => absurd (Finset.mem_univ _) h)] at hsum
  replace hsum := sub_eq_zero.mp ((mul_eq_zero.mp hsum).resolve_left (Complex.exp_ne_zero _))
  have hn : ((Real.sqrt e : ℝ) : ℂ) ≠ 0 := by exact_mod_cast hr.sup.pos.ne'
  have hsq : ((Real.sqrt e ^ 2 : ℝ) : ℂ) = (e : ℂ) := by rw [Real.sq_sqrt hpos.le]
  rw [← hsq] at hu hu' hsum
  rw [incident_cross hr.sup hwl hp hcos hu hi, incident_cross' h.opp hr'.sup hwl hp' hcos' hu hu' hj, div_left_inj' hn] at hsum
  exact hsum

/-- Amplitudes of waves through the stack, in both directions. -/
theorem trans_amp {σ : Fin c.nh ≃ Fin c'.nh} (h : OppositePair E c c' mats σ) (hst : c'.stack = c.stack.reverse)
    {e e' : ℝ} (hpos : 0 < e) (hpos' : 0 < e')
    {RT RT' A A' SM SM' n n' amp amp' r0 r0' rN rN' M0 M0' MN MN'} (hr : EffRun E c mats exc e RT A SM n amp r0 rN M0 MN)
    (hr' : EffRun E c' mats exc' e' RT' A' SM' n' amp' r0' rN' M0' MN') (he : (mats r0).epsilon.value = (e : ℂ))
    (he' : (mats r0').epsilon.value = (e' : ℂ)) {wl ang ang'} (hwl : 0 < wl) (hp : planeWave wl ang = .ok exc)
    (hp' : planeWave wl ang' = .ok exc') (hcos : 0 < Real.cos exc.theta) (hcos' : 0 < Real.cos exc'.theta) {i0 : Fin c.nh}
    (hi : (i0 : ℕ) = c.indexZerothOrder) (hj : (σ i0 : ℕ) = c'.indexZerothOrder) :
    Complex.exp (Complex.I * ((Real.sqrt e * c.omega * Real.cos exc.theta : ℝ) : ℂ) * (M0.z : ℂ)) *
        (along exc (SM'.s11 *ᵥ c'.a0) (σ i0) / Real.sqrt e) =
      Complex.exp (Complex.I * ((Real.sqrt e' * c'.omega * Real.cos exc'.theta : ℝ) : ℂ) * (MN.z : ℂ)) *
        (along exc' (SM.s11 *ᵥ c.a0) i0 / Real.sqrt e') := by
  have hlen := hr.st.len
  have hlen' : c'.stack.length = c.stack.length := by rw [hst, List.length_reverse]
  have hN : rN = r0' := by
    have := hr'.first
    rw [hst, List.getElem?_reverse (by omega), show c.stack.length - 1 - 0 = n + 1 by omega, hr.last] at this
    exact Option.some.inj this
  subst hN
  obtain ⟨g, gN, hu, hv, hsum⟩ := h.both_sides hst hr.st hr'.st hr.first hr'.first hr.uni hr'.uni hr.m0 hr.mN
  obtain ⟨g', hv'⟩ := hr'.uniform h.placed' (fun r hr => h.mu r ((h.mem r).mp hr)) hr'.first hr'.uni hr'.m0
  rw [he] at hu hsum
  rw [he'] at hv hv' hsum
  have off := sum_specular hr.sup hr'.sup hi hj
  rw [Finset.sum_eq_single i0 (fun i _ hne => by
      obtain ⟨⟨a, b⟩, a', b'⟩ := off i hne
      rw [a, b, crossFlux_zero, mul_zero]) (fun h => absurd (Finset.mem_univ _) h),
    Finset.sum_eq_single i0 (fun i _ hne => by
      obtain ⟨⟨a, b⟩, a', b'⟩ := off i hne
      rw [a', b', crossFlux_zero, mul_zero]) (fun h => absurd (Finset.mem_univ _) h)] at hsum
  have hsq : ((Real.sqrt e ^ 2 : ℝ) : ℂ) = (e : ℂ) := by rw [Real.sq_sqrt hpos.le]
  have hsq' : ((Real.sqrt e' ^ 2 : ℝ) : ℂ) = (e' : ℂ) := by rw [Real.sq_sqrt hpos'.le]
  rw [← hsq] at hu
  rw [← hsq'] at hv hv'
  rw [← hsq, ← hsq'] at hsum
  obtain ⟨q1, q2, -⟩ := incident_on hr.sup hp hcos hu hi
  obtain ⟨q1', q2', -⟩ := incident_on hr'.sup hp' hcos' hv' hj
  rw [hv.opposite h.opp hv'] at q1'
  rw [incident_cross hr.sup hwl hp hcos hu hi, incident_cross' h.opp hr'.sup hwl hp' hcos' hv hv' hj, q1, q1'] at hsum
  rw [← q2, ← q2'] at hsum
  exact hsum

theorem trans_pair {σ : Fin c.nh ≃ Fin c'.nh} (h : OppositePair E c c' mats σ) (hst : c'.stack = c.stack.reverse)
    {e e' : ℝ} (hpos : 0 < e) (hpos' : 0 < e')
    {RT RT' A A' SM SM' n n' amp amp' r0 r0' rN rN' M0 M0' MN MN'} (hr : EffRun E c mats exc e RT A SM n amp r0 rN M0 MN)
    (hr' : EffRun E c' mats exc' e' RT' A' SM' n' amp' r0' rN' M0' MN') (he : (mats r0).epsilon.value = (e : ℂ))
    (he' : (mats r0').epsilon.value = (e' : ℂ)) {wl ang ang'} (hwl : 0 < wl) (hp : planeWave wl ang = .ok exc)
    (hp' : planeWave wl ang' = .ok exc') (hcos : 0 < Real.cos exc.theta) (hcos' : 0 < Real.cos exc'.theta) {i0 : Fin c.nh}
    (hi : (i0 : ℕ) = c.indexZerothOrder) (hj : (σ i0 : ℕ) = c'.indexZerothOrder) :
    Complex.normSq (along exc (SM'.s11 *ᵥ c'.a0) (σ i0) / Real.sqrt e) =
      Complex.normSq (along exc' (SM.s11 *ᵥ c.a0) i0 / Real.sqrt e') := by
  have hsum := trans_amp h hst hpos hpos' hr hr' he he' hwl hp hp' hcos hcos' hi hj
  have hexp : ∀ x y : ℝ, Complex.normSq (Complex.exp (Complex.I * (x : ℂ) * (y : ℂ))) = 1 := by
    intro x y
    rw [show Complex.I * (x : ℂ) * (y : ℂ) = ((x * y : ℝ) : ℂ) * Complex.I by push_cast; ring, Complex.normSq_eq_norm_sq,
      Complex.norm_exp_ofReal_mul_I, one_pow]
  have := congrArg Complex.normSq hsum
  rw [Complex.normSq_mul, Complex.normSq_mul, hexp, hexp, one_mul, one_mul] at this
  exact this

/-- The flux of the specular order, in terms of two orthogonal waves of the other simulation. -/
theorem flux_other {σ : Fin c.nh ≃ Fin c'.nh} (ho : Opposite c c' σ) {n : ℝ} (g : GoodSup c' exc' n) {exc'' : PlaneWave}
    {wl th ph ps} (hwl : 0 < wl) (hp : planeWave wl (th, ph, ps) = .ok exc') (hp' : planeWave wl (th, ph, ps + 90) = .ok exc'')
    (hcos : 0 < Real.cos exc'.theta) {M : Modes (Idx c.nh)} {M' : Modes (Idx c'.nh)}
    {gz gz'} (h : UniformFlux c ((n ^ 2 : ℝ) : ℂ) M gz) (h' : UniformFlux c' ((n ^ 2 : ℝ) : ℂ) M' gz') {i : Fin c.nh}
    (hi : (σ i : ℕ) = c'.indexZerothOrder) (x : Idx c.nh → ℂ) :
    orderFlux c M x i = (Complex.normSq (along exc' x i / n) + Complex.normSq (along exc'' x i / n)) /
      (Real.cos exc'.theta / n) := by
  obtain ⟨q1, q2, q3, q4⟩ := incident_on g hp hcos h' hi
  have hc : coefA c.omega ((n ^ 2 : ℝ) : ℂ) (c.kx i) (c.ky i) (gz i) =
      coefA exc'.wavenumber ((n ^ 2 : ℝ) : ℂ) ((exc'.wavevector 0 * n : ℝ) : ℂ) ((exc'.wavevector 1 * n : ℝ) : ℂ)
        ((n * exc'.wavenumber * Real.cos exc'.theta : ℝ) : ℂ) := by
    rw [← q1, ← q2, ← q3, ← q4, ho.kx, ho.ky, ho.omega, h.opposite ho h', coefA_neg]
  rw [orderFlux_coef h, hc, flux_unpolarised hwl g.pos hp hp' hcos]
  rfl

/-- A simulation with a specular order. -/
structure SpecRun (E : Ext) (lats : ℕ → Lattice) (mats : ℕ → LayerSpec) (stack : List ℕ) (wl : ℝ) (ang : ℝ × ℝ × ℝ) (nh : ℤ)
    (form : String) (e : ℝ) (R T : ℝ) (exc : PlaneWave) (c : Static) (i : Fin c.nh) (RT : (Fin c.nh → ℝ) × (Fin c.nh → ℝ))
    (A : ℕ → LayerAttr c.nh) (SM : SMat (Idx c.nh)) (n : ℕ) (amp : ℕ → (Idx c.nh → ℂ) × (Idx c.nh → ℂ)) (r0 rN : ℕ)
    (M0 MN : Modes (Idx c.nh)) : Prop where
  wave : planeWave wl ang = .ok exc
  init : InitSpec E lats mats stack exc nh form c
  nodup : c.harmonics.Nodup
  closed : c.lattice.harmonicsArray ≠ none → ∀ g ∈ c.harmonics, (-g.1, -g.2) ∈ c.harmonics
  zero : c.harmonics.get i = (0, 0)
  idx : (i : ℕ) = c.indexZerothOrder
  eff : EffRun E c mats exc e RT A SM n amp r0 rN M0 MN
  cos : 0 < Real.cos exc.theta
  eps : (mats r0).epsilon.value = (e : ℂ)
  refl : R = orderFlux c M0 (SM.s21 *ᵥ c.a0) i / c.incidentFlux
  trans : T = orderFlux c MN (SM.s11 *ᵥ c.a0) i / c.incidentFlux

theorem specRun (hA : ArgsortContract E.argsort) (hn : 1 ≤ nh) (hu : OppositeOrders lats) (hw : WellPlaced mats stack)
    (hmu : ∀ r ∈ stack, (mats r).mu = 1) {wl th ph ps} (hwl : 0 < wl) (hcos : 0 < Real.cos (th * (Real.pi / 180)))
    {e : ℝ} (hpos : 0 < e) (hsup : ∀ r0, stack.head? = some r0 → (mats r0).epsilon.value = (e : ℂ)) {R T : ℝ}
    (h : SpecularEfficiencies E lats mats stack wl (th, ph, ps) nh form R T) :
    ∃ exc c i RT A SM n amp r0 rN M0 MN,
      SpecRun E lats mats stack wl (th, ph, ps) nh form e R T exc c i RT A SM n amp r0 rN M0 MN := by
  obtain ⟨exc, c, hp, hinit, hist, Rs, Ts, i, he, h0, rfl, rfl⟩ := h
  have hi := simInit_ok hinit
  obtain ⟨q, tl, hq⟩ := List.exists_cons_of_ne_nil hi.ne
  have hl := hi.lat_eq q (by rw [hq]; rfl)
  have hnd := harmonics_distinct hA hinit hn (fun H hH => (hu _ H (hl ▸ hH)).1)
  have h00 : ((0 : ℤ), (0 : ℤ)) ∈ c.harmonics := h0 ▸ List.get_mem _ _
  have hcl : c.lattice.harmonicsArray ≠ none → ∀ g ∈ c.harmonics, (-g.1, -g.2) ∈ c.harmonics := by
    intro hne
    obtain ⟨H, hH⟩ := Option.ne_none_iff_exists'.mp hne
    obtain ⟨n, hn⟩ := hi.harm
    obtain ⟨H', h1, hp, -⟩ := getHarmonics_ok hA hn
    unfold Lattice.getHarmonics' at h1
    rw [hH] at h1
    cases h1
    intro g hg
    exact hp.mem_iff.mpr ((hu _ H (hl ▸ hH)).2 g (hp.mem_iff.mp hg))
  have hcos' : 0 < Real.cos exc.theta := by rw [(planeWave_ok hp).2.2.1]; exact hcos
  obtain ⟨A, SM, n, amp, r0, rN, M0, MN, hr⟩ := effRun hinit hw hmu hp hwl hcos' h00 hpos hsup (efficiencies_by_order he)
  have hst := hi.stack_eq
  exact ⟨exc, c, i, _, A, SM, n, amp, r0, rN, M0, MN, hp, hi, hnd, hcl, h0, by
    rw [hi.idx]; exact (zerothIndex_eq hnd h00 i).mpr h0, hr, hcos',
    hsup r0 (by rw [← hst, List.head?_eq_getElem?, hr.first]), hr.refl i, hr.trans i⟩

section
variable {wl th ph ps th' ph' ps' e e' R T R' T' : ℝ}
  {i : Fin c.nh} {RT A SM n amp r0 rN M0 MN} {i' : Fin c'.nh} {RT' A' SM' n' amp' r0' rN' M0' MN'}

theorem SpecRun.flux (h : SpecRun E lats mats stack wl (th, ph, ps) nh form e R T exc c i RT A SM n amp r0 rN M0 MN) :
    c.incidentFlux = Real.cos (th * (Real.pi / 180)) / Real.sqrt e := by
  rw [h.eff.sup.flux, (planeWave_ok h.wave).2.2.1]

/-- Two simulations with opposite waves. -/
theorem SpecRun.pair (hA : ArgsortContract E.argsort) (hE : EigContract E) (hperm : stack'.Perm stack) (hwl : 0 < wl)
    (hpos : 0 < e) (hpos' : 0 < e')
    (h : SpecRun E lats mats stack wl (th, ph, ps) nh form e R T exc c i RT A SM n amp r0 rN M0 MN)
    (h' : SpecRun E lats mats stack' wl (th', ph + 180, ps') nh form e' R' T' exc' c' i' RT' A' SM' n' amp' r0' rN' M0' MN')
    (hsnell : Real.sqrt e * Real.sin (th * (Real.pi / 180)) = Real.sqrt e' * Real.sin (th' * (Real.pi / 180)))
    (hform : ∀ k, ∀ r ∈ stack, SymmetricFormulation form (lats k).is1D (mats r)) (hw : WellPlaced mats stack) (hw' : WellPlaced mats stack')
    (hmu : ∀ r ∈ stack, (mats r).mu = 1) (hrec : ∀ r ∈ stack, Reciprocal (mats r)) :
    ∃ σ, OppositePair E c c' mats σ ∧ σ i = i' := by
  obtain ⟨-, hl1, ht1, hf1, -, hk1, hv1, -⟩ := planeWave_ok h.wave
  obtain ⟨-, hl2, ht2, hf2, -, hk2, hv2, -⟩ := planeWave_ok h'.wave
  have hd : stack.head? = some r0 := by rw [← h.init.stack_eq, List.head?_eq_getElem?, h.eff.first]
  have hd' : stack'.head? = some r0' := by rw [← h'.init.stack_eq, List.head?_eq_getElem?, h'.eff.first]
  have m0 := List.mem_of_head? hd
  have m0' := hperm.mem_iff.mp (List.mem_of_head? hd')
  obtain ⟨-, -, -, -, a1⟩ := h.init.sup r0 hd
  obtain ⟨-, -, -, -, a2⟩ := h'.init.sup r0' hd'
  rw [hmu r0 m0, mul_one, h.eps, csqrt_ofReal hpos.le] at a1
  rw [hmu r0' m0', mul_one, h'.eps, csqrt_ofReal hpos'.le] at a2
  have hang : (ph + 180) * (Real.pi / 180) = ph * (Real.pi / 180) + Real.pi := by ring
  have hk : c'.k0para = (-c.k0para.1, -c.k0para.2) := by
    rw [a1, a2, hv1, hv2, hk1, hk2, ht1, ht2, hf1, hf2]
    simp only [k0para, cons_val_zero, cons_val_one]
    rw [hang, Real.cos_add_pi, Real.sin_add_pi]
    have : ((Real.sqrt e : ℝ) : ℂ) * (Real.sin (th * (Real.pi / 180)) : ℝ) = (Real.sqrt e' : ℝ) * (Real.sin (th' * (Real.pi / 180)) : ℝ) := by
      exact_mod_cast hsnell
    ext <;> dsimp only <;> push_cast
    · push_cast at this
      linear_combination (2 * Real.pi * (1 / wl) * Complex.cos (ph * (Real.pi / 180))) * this
    · push_cast at this
      linear_combination (2 * Real.pi * (1 / wl) * Complex.sin (ph * (Real.pi / 180))) * this
  obtain ⟨σ, hσ⟩ := oppositePair_init hA hE h.init h'.init hperm (by rw [hl1, hl2]) (by rw [hl1]; exact hwl) hk h.nodup h.closed
    (by rw [h.init.lat_eq r0 hd]; exact hform _) hw hw' hmu hrec
  refine ⟨σ, hσ, ?_⟩
  have := zero_of_opposite hσ.opp h.zero
  exact (List.nodup_iff_injective_get.mp h'.nodup) (this.trans h'.zero.symm)

theorem SpecRun.refl_value {exc'' : PlaneWave} {σ : Fin c.nh ≃ Fin c'.nh} (hσ : OppositePair E c c' mats σ) (hi : σ i = i')
    (hst : stack' = stack) (hwl : 0 < wl) (hpos : 0 < e)
    (h : SpecRun E lats mats stack wl (th, ph, ps) nh form e R T exc c i RT A SM n amp r0 rN M0 MN)
    (h' : SpecRun E lats mats stack' wl (th', ph', ps') nh form e R' T' exc' c' i' RT' A' SM' n' amp' r0' rN' M0' MN')
    (hx : planeWave wl (th', ph', ps' + 90) = .ok exc'') :
    R = (Complex.normSq (along exc' (SM.s21 *ᵥ c.a0) i / Real.sqrt e) +
      Complex.normSq (along exc'' (SM.s21 *ᵥ c.a0) i / Real.sqrt e)) /
        (Real.cos (th' * (Real.pi / 180)) / Real.sqrt e) / (Real.cos (th * (Real.pi / 180)) / Real.sqrt e) := by
  subst hi hst
  have hrr : r0' = r0 := by
    have h1 := h.eff.first
    have h2 := h'.eff.first
    rw [h.init.stack_eq] at h1
    rw [h'.init.stack_eq, h1] at h2
    exact (Option.some.inj h2).symm
  subst hrr
  obtain ⟨g, hu⟩ := h.eff.uniform hσ.placed hσ.mu h.eff.first h.eff.uni h.eff.m0
  obtain ⟨g', hu'⟩ := h'.eff.uniform hσ.placed' (fun r hr => hσ.mu r ((hσ.mem r).mp hr)) h'.eff.first h.eff.uni h'.eff.m0
  have hsq : ((Real.sqrt e ^ 2 : ℝ) : ℂ) = (e : ℂ) := by rw [Real.sq_sqrt hpos.le]
  rw [h.eps, ← hsq] at hu hu'
  have := flux_other hσ.opp h'.eff.sup hwl h'.wave hx h'.cos hu hu' h'.idx (SM.s21 *ᵥ c.a0)
  rw [h.refl, h.flux, this, (planeWave_ok h'.wave).2.2.1]

theorem SpecRun.trans_value {exc'' : PlaneWave} {σ : Fin c.nh ≃ Fin c'.nh} (hσ : OppositePair E c c' mats σ) (hi : σ i = i')
    (hst : stack' = stack.reverse) (hwl : 0 < wl) (hpos' : 0 < e')
    (h : SpecRun E lats mats stack wl (th, ph, ps) nh form e R T exc c i RT A SM n amp r0 rN M0 MN)
    (h' : SpecRun E lats mats stack' wl (th', ph', ps') nh form e' R' T' exc' c' i' RT' A' SM' n' amp' r0' rN' M0' MN')
    (hx : planeWave wl (th', ph', ps' + 90) = .ok exc'') :
    T = (Complex.normSq (along exc' (SM.s11 *ᵥ c.a0) i / Real.sqrt e') +
      Complex.normSq (along exc'' (SM.s11 *ᵥ c.a0) i / Real.sqrt e')) /
        (Real.cos (th' * (Real.pi / 180)) / Real.sqrt e') / (Real.cos (th * (Real.pi / 180)) / Real.sqrt e) := by
  subst hi hst
  have hrr : r0' = rN := by
    have h1 := h.eff.last
    have h2 := h'.eff.first
    have hlen := h.eff.st.len
    rw [h.init.stack_eq] at h1 hlen
    rw [h'.init.stack_eq, List.getElem?_reverse (by omega), show stack.length - 1 - 0 = n + 1 by omega, h1] at h2
    exact (Option.some.inj h2).symm
  subst hrr
  obtain ⟨g, hu⟩ := h.eff.uniform hσ.placed hσ.mu h.eff.last h'.eff.uni h.eff.mN
  obtain ⟨g', hu'⟩ := h'.eff.uniform hσ.placed' (fun r hr => hσ.mu r ((hσ.mem r).mp hr)) h'.eff.first h'.eff.uni h'.eff.m0
  have hsq : ((Real.sqrt e' ^ 2 : ℝ) : ℂ) = (e' : ℂ) := by rw [Real.sq_sqrt hpos'.le]
  rw [h'.eps, ← hsq] at hu hu'
  have := flux_other hσ.opp h'.eff.sup hwl h'.wave hx h'.cos hu hu' h'.idx (SM.s11 *ᵥ c.a0)
  rw [h.trans, h.flux, this, (planeWave_ok h'.wave).2.2.1]

end

theorem OppositePair.symm {σ : Fin c.nh ≃ Fin c'.nh} (h : OppositePair E c c' mats σ) : OppositePair E c' c mats σ.symm := by
  have hh : ∀ j, c.harmonics.get (σ.symm j) = (-(c'.harmonics.get j).1, -(c'.harmonics.get j).2) := by
    intro j
    have := h.opp.harm (σ.symm j)
    rw [Equiv.apply_symm_apply] at this
    rw [this]; simp
  refine ⟨⟨h.opp.omega.symm, fun j => ?_, fun j => ?_, hh, h.opp.form.symm, h.opp.oneD.symm⟩, by rw [h.opp.omega]; exact h.om,
    h.opp.nodup h.nd, fun r hr => by rw [h.opp.form, h.opp.oneD]; exact h.form r ((h.mem r).mp hr), by rw [h.opp.form, h.opp.oneD]; exact h.form1, h.eig, h.placed', h.placed,
    fun r hr => h.mu r ((h.mem r).mp hr), fun r hr => h.recip r ((h.mem r).mp hr), fun r => (h.mem r).symm⟩
  · have := h.opp.kx (σ.symm j)
    rw [Equiv.apply_symm_apply] at this
    rw [this, neg_neg]
  · have := h.opp.ky (σ.symm j)
    rw [Equiv.apply_symm_apply] at this
    rw [this, neg_neg]

end Nannos
