import Verif.Proofs.ReciprocityFields
import Verif.Examples.Polarised

/-!
Properties C72, C73: Lorentz reciprocity.

Hypotheses on the structure: the materials are reciprocal (they may absorb or amplify); the wave comes from above in a
medium of real positive permittivity; the permeability is one; the formulation is `"original"`, or the grating is
one-dimensional, or (formulations `"tangent"` and `"pol"`) each patterned layer has one real tangent vector; arrays of harmonics given by the user contain the opposite of each of their columns. For C72 the last
layer is uniform (of any complex permittivity). `WellPlaced` for the stack and its reverse (C73) leaves out copies.
-/

namespace Nannos

open Matrix Spec

variable {E : Ext} {lats : ℕ → Lattice} {mats : ℕ → LayerSpec} {stack : List ℕ} {nh : ℤ} {form : String}

/-- **C72**. The reflected power in the specular order of unpolarised light (any two orthogonal polarisations added) is
the same for a wave and for the wave which comes back along it (azimuth turned by 180 degrees), with absorbing layers too. -/
theorem C72_reflection_reciprocity (hE : EigContract E) (hA : ArgsortContract E.argsort) (hn : 1 ≤ nh)
    (hu : OppositeOrders lats) (hw : WellPlaced mats stack) (hmu : ∀ r ∈ stack, (mats r).mu = 1)
    (hrec : ∀ r ∈ stack, Reciprocal (mats r)) (hform : ∀ k, ∀ r ∈ stack, SymmetricFormulation form (lats k).is1D (mats r))
    (hlast : ∀ r, stack.getLast? = some r → (mats r).isUniform = true) {e : ℝ} (hpos : 0 < e)
    (hsup : ∀ r, stack.head? = some r → (mats r).epsilon.value = (e : ℂ)) {wl th ph ps ps' : ℝ} (hwl : 0 < wl)
    (hcos : 0 < Real.cos (th * (Real.pi / 180))) {R₁ R₂ R₁' R₂' T₁ T₂ T₁' T₂' : ℝ}
    (h₁ : SpecularEfficiencies E lats mats stack wl (th, ph, ps) nh form R₁ T₁)
    (h₂ : SpecularEfficiencies E lats mats stack wl (th, ph, ps + 90) nh form R₂ T₂)
    (h₁' : SpecularEfficiencies E lats mats stack wl (th, ph + 180, ps') nh form R₁' T₁')
    (h₂' : SpecularEfficiencies E lats mats stack wl (th, ph + 180, ps' + 90) nh form R₂' T₂') :
    R₁ + R₂ = R₁' + R₂' := by
  obtain ⟨x1, c1, i1, RT1, A1, S1, n1, a1, r1, rN1, M1, N1, k1⟩ := specRun hA hn hu hw hmu hwl hcos hpos hsup h₁
  obtain ⟨x2, c2, i2, RT2, A2, S2, n2, a2, r2, rN2, M2, N2, k2⟩ := specRun hA hn hu hw hmu hwl hcos hpos hsup h₂
  obtain ⟨y1, d1, j1, RU1, B1, U1, m1, b1, s1, sN1, P1, Q1, l1⟩ := specRun hA hn hu hw hmu hwl hcos hpos hsup h₁'
  obtain ⟨y2, d2, j2, RU2, B2, U2, m2, b2, s2, sN2, P2, Q2, l2⟩ := specRun hA hn hu hw hmu hwl hcos hpos hsup h₂'
  obtain ⟨σ11, p11, q11⟩ := k1.pair hA hE (List.Perm.refl _) hwl hpos hpos l1 rfl hform hw hw hmu hrec
  obtain ⟨σ12, p12, q12⟩ := k1.pair hA hE (List.Perm.refl _) hwl hpos hpos l2 rfl hform hw hw hmu hrec
  obtain ⟨σ21, p21, q21⟩ := k2.pair hA hE (List.Perm.refl _) hwl hpos hpos l1 rfl hform hw hw hmu hrec
  obtain ⟨σ22, p22, q22⟩ := k2.pair hA hE (List.Perm.refl _) hwl hpos hpos l2 rfl hform hw hw hmu hrec
  have last1 : (mats rN1).isUniform = true := hlast _ (by
    rw [← k1.init.stack_eq, List.getLast?_eq_getElem?, k1.eff.st.len]; exact k1.eff.last)
  have last2 : (mats rN2).isUniform = true := hlast _ (by
    rw [← k2.init.stack_eq, List.getLast?_eq_getElem?, k2.eff.st.len]; exact k2.eff.last)
  have st : ∀ {a b : Static}, a.stack = stack → b.stack = stack → b.stack = a.stack := fun h h' => h'.trans h.symm
  have e11 := refl_pair p11 (st k1.init.stack_eq l1.init.stack_eq) hpos k1.eff l1.eff k1.eps last1 hwl k1.wave l1.wave k1.cos l1.cos
    k1.idx (q11 ▸ l1.idx)
  have e12 := refl_pair p12 (st k1.init.stack_eq l2.init.stack_eq) hpos k1.eff l2.eff k1.eps last1 hwl k1.wave l2.wave k1.cos l2.cos
    k1.idx (q12 ▸ l2.idx)
  have e21 := refl_pair p21 (st k2.init.stack_eq l1.init.stack_eq) hpos k2.eff l1.eff k2.eps last2 hwl k2.wave l1.wave k2.cos l1.cos
    k2.idx (q21 ▸ l1.idx)
  have e22 := refl_pair p22 (st k2.init.stack_eq l2.init.stack_eq) hpos k2.eff l2.eff k2.eps last2 hwl k2.wave l2.wave k2.cos l2.cos
    k2.idx (q22 ▸ l2.idx)
  rw [q11] at e11
  rw [q12] at e12
  rw [q21] at e21
  rw [q22] at e22
  rw [k1.refl_value p11 q11 rfl hwl hpos l1 l2.wave, k2.refl_value p21 q21 rfl hwl hpos l1 l2.wave,
    l1.refl_value p11.symm (by rw [← q11, Equiv.symm_apply_apply]) rfl hwl hpos k1 k2.wave,
    l2.refl_value p12.symm (by rw [← q12, Equiv.symm_apply_apply]) rfl hwl hpos k1 k2.wave, e11, e12, e21, e22]
  ring

/-- **C73**. The power which unpolarised light (any two orthogonal polarisations added) sends through the stack into the
specular order is the same in both directions: from the front, and from the back (the stack turned upside down), for
waves with opposite tangential wave vectors, with absorbing layers too. -/
theorem C73_transmission_reciprocity (hE : EigContract E) (hA : ArgsortContract E.argsort) (hn : 1 ≤ nh)
    (hu : OppositeOrders lats) (hw : WellPlaced mats stack) (hw' : WellPlaced mats stack.reverse)
    (hmu : ∀ r ∈ stack, (mats r).mu = 1)
    (hrec : ∀ r ∈ stack, Reciprocal (mats r)) (hform : ∀ k, ∀ r ∈ stack, SymmetricFormulation form (lats k).is1D (mats r))
    {e e' : ℝ} (hpos : 0 < e) (hpos' : 0 < e')
    (hsup : ∀ r, stack.head? = some r → (mats r).epsilon.value = (e : ℂ))
    (hsub : ∀ r, stack.getLast? = some r → (mats r).epsilon.value = (e' : ℂ)) {wl th ph ps th' ps' : ℝ} (hwl : 0 < wl)
    (hcos : 0 < Real.cos (th * (Real.pi / 180))) (hcos' : 0 < Real.cos (th' * (Real.pi / 180)))
    (hsnell : Real.sqrt e * Real.sin (th * (Real.pi / 180)) = Real.sqrt e' * Real.sin (th' * (Real.pi / 180)))
    {R₁ R₂ R₁' R₂' T₁ T₂ T₁' T₂' : ℝ}
    (h₁ : SpecularEfficiencies E lats mats stack wl (th, ph, ps) nh form R₁ T₁)
    (h₂ : SpecularEfficiencies E lats mats stack wl (th, ph, ps + 90) nh form R₂ T₂)
    (h₁' : SpecularEfficiencies E lats mats stack.reverse wl (th', ph + 180, ps') nh form R₁' T₁')
    (h₂' : SpecularEfficiencies E lats mats stack.reverse wl (th', ph + 180, ps' + 90) nh form R₂' T₂') :
    T₁ + T₂ = T₁' + T₂' := by
  have hmu' : ∀ r ∈ stack.reverse, (mats r).mu = 1 := fun r hr => hmu r (List.mem_reverse.mp hr)
  have hsub' : ∀ r, stack.reverse.head? = some r → (mats r).epsilon.value = (e' : ℂ) := by
    rw [List.head?_reverse]; exact hsub
  obtain ⟨x1, c1, i1, RT1, A1, S1, n1, a1, r1, rN1, M1, N1, k1⟩ := specRun hA hn hu hw hmu hwl hcos hpos hsup h₁
  obtain ⟨x2, c2, i2, RT2, A2, S2, n2, a2, r2, rN2, M2, N2, k2⟩ := specRun hA hn hu hw hmu hwl hcos hpos hsup h₂
  obtain ⟨y1, d1, j1, RU1, B1, U1, m1, b1, s1, sN1, P1, Q1, l1⟩ := specRun hA hn hu hw' hmu' hwl hcos' hpos' hsub' h₁'
  obtain ⟨y2, d2, j2, RU2, B2, U2, m2, b2, s2, sN2, P2, Q2, l2⟩ := specRun hA hn hu hw' hmu' hwl hcos' hpos' hsub' h₂'
  have hP := List.reverse_perm stack
  obtain ⟨σ11, p11, q11⟩ := k1.pair hA hE hP hwl hpos hpos' l1 hsnell hform hw hw' hmu hrec
  obtain ⟨σ12, p12, q12⟩ := k1.pair hA hE hP hwl hpos hpos' l2 hsnell hform hw hw' hmu hrec
  obtain ⟨σ21, p21, q21⟩ := k2.pair hA hE hP hwl hpos hpos' l1 hsnell hform hw hw' hmu hrec
  obtain ⟨σ22, p22, q22⟩ := k2.pair hA hE hP hwl hpos hpos' l2 hsnell hform hw hw' hmu hrec
  have st : ∀ {a b : Static}, a.stack = stack → b.stack = stack.reverse → b.stack = a.stack.reverse := fun h h' => by rw [h, h']
  have e11 := trans_pair p11 (st k1.init.stack_eq l1.init.stack_eq) hpos hpos' k1.eff l1.eff k1.eps l1.eps hwl k1.wave l1.wave
    k1.cos l1.cos k1.idx (q11 ▸ l1.idx)
  have e12 := trans_pair p12 (st k1.init.stack_eq l2.init.stack_eq) hpos hpos' k1.eff l2.eff k1.eps l2.eps hwl k1.wave l2.wave
    k1.cos l2.cos k1.idx (q12 ▸ l2.idx)
  have e21 := trans_pair p21 (st k2.init.stack_eq l1.init.stack_eq) hpos hpos' k2.eff l1.eff k2.eps l1.eps hwl k2.wave l1.wave
    k2.cos l1.cos k2.idx (q21 ▸ l1.idx)
  have e22 := trans_pair p22 (st k2.init.stack_eq l2.init.stack_eq) hpos hpos' k2.eff l2.eff k2.eps l2.eps hwl k2.wave l2.wave
    k2.cos l2.cos k2.idx (q22 ▸ l2.idx)
  rw [q11] at e11
  rw [q12] at e12
  rw [q21] at e21
  rw [q22] at e22
  rw [k1.trans_value p11 q11 rfl hwl hpos' l1 l2.wave, k2.trans_value p21 q21 rfl hwl hpos' l1 l2.wave,
    l1.trans_value p11.symm (by rw [← q11, Equiv.symm_apply_apply]) (List.reverse_reverse _).symm hwl hpos k1 k2.wave,
    l2.trans_value p12.symm (by rw [← q12, Equiv.symm_apply_apply]) (List.reverse_reverse _).symm hwl hpos k1 k2.wave,
    e11, e12, e21, e22]
  ring

/-- **C72**, fields. The specular field of a wave, at any depth of the first layer, taken against the polarisation of the
wave which comes back along it, is the field of that other wave against the polarisation of the first. -/
theorem C72_field_reciprocity (hE : EigContract E) (hA : ArgsortContract E.argsort) (hn : 1 ≤ nh)
    (hu : OppositeOrders lats) (hw : WellPlaced mats stack) (hmu : ∀ r ∈ stack, (mats r).mu = 1)
    (hrec : ∀ r ∈ stack, Reciprocal (mats r)) (hform : ∀ k, ∀ r ∈ stack, SymmetricFormulation form (lats k).is1D (mats r))
    (hlast : ∀ r, stack.getLast? = some r → (mats r).isUniform = true) {e : ℝ} (hpos : 0 < e)
    (hsup : ∀ r, stack.head? = some r → (mats r).epsilon.value = (e : ℂ)) {wl th ph ps ps' : ℝ} (hwl : 0 < wl)
    (hcos : 0 < Real.cos (th * (Real.pi / 180))) {w w' : PlaneWave}
    (hwave : planeWave wl (th, ph, ps) = .ok w) (hwave' : planeWave wl (th, ph + 180, ps') = .ok w')
    {z : ℝ} {f f' : Fin 3 → ℂ}
    (h : SpecularField E lats mats stack wl (th, ph, ps) nh form 0 z f)
    (h' : SpecularField E lats mats stack wl (th, ph + 180, ps') nh form 0 z f') :
    ∑ k, (w'.amplitude k : ℂ) * f k = ∑ k, (w.amplitude k : ℂ) * f' k := by
  obtain ⟨c, i, RT, A, SM, n, amp, r0, rN, M0, MN, F, k, rfl, hF, -⟩ :=
    specFieldRun hE hA hn hu hw hmu hwl hcos hpos hsup (Or.inl rfl) hwave h
  obtain ⟨c', i', RT', A', SM', n', amp', r0', rN', M0', MN', F', k', rfl, hF', -⟩ :=
    specFieldRun hE hA hn hu hw hmu hwl hcos hpos hsup (Or.inl rfl) hwave' h'
  obtain ⟨σ, p, rfl⟩ := k.pair hA hE (List.Perm.refl _) hwl hpos hpos k' rfl hform hw hw hmu hrec
  have last : (mats rN).isUniform = true := hlast _ (by
    rw [← k.init.stack_eq, List.getLast?_eq_getElem?, k.eff.st.len]; exact k.eff.last)
  have hst : c'.stack = c.stack := k'.init.stack_eq.trans k.init.stack_eq.symm
  have e1 := refl_pair p hst hpos k.eff k'.eff k.eps last hwl k.wave k'.wave k.cos k'.cos k.idx k'.idx
  have hrr : r0' = r0 := by
    have h1 := k.eff.first
    have h2 := k'.eff.first
    rw [hst, h1] at h2
    exact (Option.some.inj h2).symm
  subst hrr
  obtain ⟨g, hu⟩ := k.eff.uniform p.placed p.mu k.eff.first k.eff.uni k.eff.m0
  obtain ⟨g', hu'⟩ := k'.eff.uniform p.placed' (fun r hr => p.mu r ((p.mem r).mp hr)) k'.eff.first k.eff.uni k'.eff.m0
  have hsq : ((Real.sqrt e ^ 2 : ℝ) : ℂ) = (e : ℂ) := by rw [Real.sq_sqrt hpos.le]
  rw [k.eps, ← hsq] at hu hu'
  have t1 := top_against p.opp k.eff.sup k'.eff.sup hwl k.wave k'.wave k.cos k'.cos (k.eps.trans hsq.symm) k.eff.uni hu hu'
    k.idx k'.idx (hF rfl)
  have t2 := top_against p.symm.opp k'.eff.sup k.eff.sup hwl k'.wave k.wave k'.cos k.cos (k.eps.trans hsq.symm) k.eff.uni hu' hu
    k'.idx (by rw [Equiv.symm_apply_apply]; exact k.idx) (hF' rfl)
  have hz : M0.z = M0'.z := by
    have q1 := k.eff.m0
    have q2 := k'.eff.m0
    unfold modesOf at q1 q2
    simp only [bind_eq_ok, except_pure_eq_ok, Except.ok.injEq] at q1 q2
    obtain ⟨_, -, _, -, rfl⟩ := q1
    obtain ⟨_, -, _, -, rfl⟩ := q2
    rfl
  have hth : w'.theta = w.theta := by rw [(planeWave_ok hwave).2.2.1, (planeWave_ok hwave').2.2.1]
  rw [p.opp.omega, hth, e1, ← hz] at t2
  rw [hth] at t1
  unfold against at t1 t2
  simp only [Fin.sum_univ_three, cons_val_zero, cons_val_one, cons_val]
  rw [one_mul] at t1 t2
  rw [t1, t2]
  push_cast
  ring

/-- **C73**, fields. The specular field at the bottom of the stack, taken against the polarisation of a wave which comes
from below (the polarisation in the stack turned upside down, with its normal component reversed), weighted by the cosine
of the angle of that wave, is the same with the two waves exchanged. -/
theorem C73_field_reciprocity (hE : EigContract E) (hA : ArgsortContract E.argsort) (hn : 1 ≤ nh)
    (hu : OppositeOrders lats) (hw : WellPlaced mats stack) (hw' : WellPlaced mats stack.reverse)
    (hmu : ∀ r ∈ stack, (mats r).mu = 1)
    (hrec : ∀ r ∈ stack, Reciprocal (mats r)) (hform : ∀ k, ∀ r ∈ stack, SymmetricFormulation form (lats k).is1D (mats r))
    {e e' : ℝ} (hpos : 0 < e) (hpos' : 0 < e')
    (hsup : ∀ r, stack.head? = some r → (mats r).epsilon.value = (e : ℂ))
    (hsub : ∀ r, stack.getLast? = some r → (mats r).epsilon.value = (e' : ℂ)) {wl th ph ps th' ps' : ℝ} (hwl : 0 < wl)
    (hcos : 0 < Real.cos (th * (Real.pi / 180))) (hcos' : 0 < Real.cos (th' * (Real.pi / 180)))
    (hsnell : Real.sqrt e * Real.sin (th * (Real.pi / 180)) = Real.sqrt e' * Real.sin (th' * (Real.pi / 180)))
    {w w' : PlaneWave}
    (hwave : planeWave wl (th, ph, ps) = .ok w) (hwave' : planeWave wl (th', ph + 180, ps') = .ok w')
    {d d' : ℝ} (hd : ∀ r, stack.getLast? = some r → (mats r).thickness = some d)
    (hd' : ∀ r, stack.head? = some r → (mats r).thickness = some d') {f f' : Fin 3 → ℂ}
    (h : SpecularField E lats mats stack wl (th, ph, ps) nh form (-1) d f)
    (h' : SpecularField E lats mats stack.reverse wl (th', ph + 180, ps') nh form (-1) d' f') :
    Real.cos (th' * (Real.pi / 180)) * (w'.amplitude 0 * f 0 + w'.amplitude 1 * f 1 - w'.amplitude 2 * f 2) =
      Real.cos (th * (Real.pi / 180)) * (w.amplitude 0 * f' 0 + w.amplitude 1 * f' 1 - w.amplitude 2 * f' 2) := by
  have hmu' : ∀ r ∈ stack.reverse, (mats r).mu = 1 := fun r hr => hmu r (List.mem_reverse.mp hr)
  have hsub' : ∀ r, stack.reverse.head? = some r → (mats r).epsilon.value = (e' : ℂ) := by
    rw [List.head?_reverse]; exact hsub
  obtain ⟨c, i, RT, A, SM, n, amp, r0, rN, M0, MN, F, k, rfl, -, hF⟩ :=
    specFieldRun hE hA hn hu hw hmu hwl hcos hpos hsup (Or.inr rfl) hwave h
  obtain ⟨c', i', RT', A', SM', n', amp', r0', rN', M0', MN', F', k', rfl, -, hF'⟩ :=
    specFieldRun hE hA hn hu hw' hmu' hwl hcos' hpos' hsub' (Or.inr rfl) hwave' h'
  obtain ⟨σ, p, rfl⟩ := k.pair hA hE (List.reverse_perm stack) hwl hpos hpos' k' hsnell hform hw hw' hmu hrec
  have hst : c'.stack = c.stack.reverse := by rw [k.init.stack_eq, k'.init.stack_eq]
  have e1 := trans_amp p hst hpos hpos' k.eff k'.eff k.eps k'.eps hwl k.wave k'.wave k.cos k'.cos k.idx k'.idx
  have hlen := k.eff.st.len
  have hlen' := k'.eff.st.len
  have hr1 : r0' = rN := by
    have h2 := k'.eff.first
    rw [hst, List.getElem?_reverse (by omega), show c.stack.length - 1 - 0 = n + 1 by omega, k.eff.last] at h2
    exact (Option.some.inj h2).symm
  have hr2 : rN' = r0 := by
    have h2 := k'.eff.last
    rw [hst, List.length_reverse] at hlen'
    rw [hst, List.getElem?_reverse (by omega), show c.stack.length - 1 - (n' + 1) = 0 by omega, k.eff.first] at h2
    exact (Option.some.inj h2).symm
  subst hr1 hr2
  have hmem := fun r (hr : r ∈ c'.stack) => p.mu r ((p.mem r).mp hr)
  obtain ⟨g, hu⟩ := k.eff.uniform p.placed p.mu k.eff.first k.eff.uni k.eff.m0
  obtain ⟨gN, hv⟩ := k.eff.uniform p.placed p.mu k.eff.last k'.eff.uni k.eff.mN
  obtain ⟨g', hu'⟩ := k'.eff.uniform p.placed' hmem k'.eff.last k.eff.uni k'.eff.mN
  obtain ⟨gN', hv'⟩ := k'.eff.uniform p.placed' hmem k'.eff.first k'.eff.uni k'.eff.m0
  have hsq : ((Real.sqrt e ^ 2 : ℝ) : ℂ) = (e : ℂ) := by rw [Real.sq_sqrt hpos.le]
  have hsq' : ((Real.sqrt e' ^ 2 : ℝ) : ℂ) = (e' : ℂ) := by rw [Real.sq_sqrt hpos'.le]
  rw [k.eps, ← hsq] at hu hu'
  rw [k'.eps, ← hsq'] at hv hv'
  have t1 := bottom_against p.opp k.eff.sup.omega.ne' k'.eff.sup k'.wave k'.cos (k'.eps.trans hsq'.symm) k'.eff.uni hv hv'
    k'.idx (hF rfl)
  have t2 := bottom_against p.symm.opp k'.eff.sup.omega.ne' k.eff.sup k.wave k.cos (k.eps.trans hsq.symm) k.eff.uni hu' hu
    (by rw [Equiv.symm_apply_apply]; exact k.idx) (hF' rfl)
  have hz1 : MN.z = d := by
    have q1 := k.eff.mN
    unfold modesOf at q1
    simp only [bind_eq_ok, except_pure_eq_ok, Except.ok.injEq] at q1
    obtain ⟨_, -, _, -, rfl⟩ := q1
    unfold Modes.z
    rw [hd _ (by rw [← k.init.stack_eq, List.getLast?_eq_getElem?, hlen]; exact k.eff.last)]
    rfl
  have hz2 : M0.z = d' := by
    have q1 := k.eff.m0
    unfold modesOf at q1
    simp only [bind_eq_ok, except_pure_eq_ok, Except.ok.injEq] at q1
    obtain ⟨_, -, _, -, rfl⟩ := q1
    unfold Modes.z
    rw [hd' _ (by rw [← k.init.stack_eq, List.head?_eq_getElem?]; exact k.eff.first)]
    rfl
  rw [hz1, hz2] at e1
  have hth : w.theta = th * (Real.pi / 180) := (planeWave_ok hwave).2.2.1
  have hth' : w'.theta = th' * (Real.pi / 180) := (planeWave_ok hwave').2.2.1
  rw [hth, hth'] at e1
  rw [hth] at t2
  rw [hth'] at t1
  unfold against at t1 t2
  simp only [cons_val_zero, cons_val_one, cons_val]
  have c1 : ((Real.cos (th * (Real.pi / 180)) : ℝ) : ℂ) ≠ 0 := by exact_mod_cast hcos.ne'
  have c2 : ((Real.cos (th' * (Real.pi / 180)) : ℝ) : ℂ) ≠ 0 := by exact_mod_cast hcos'.ne'
  have s1 : ((Real.sqrt e : ℝ) : ℂ) ≠ 0 := by exact_mod_cast k.eff.sup.pos.ne'
  have s2 : ((Real.sqrt e' : ℝ) : ℂ) ≠ 0 := by exact_mod_cast k'.eff.sup.pos.ne'
  rw [neg_one_mul, neg_mul, ← sub_eq_add_neg] at t1 t2
  rw [t1, t2]
  generalize Complex.exp _ = x1 at *
  generalize Complex.exp _ = x2 at *
  generalize ((Real.cos (th * (Real.pi / 180)) : ℝ) : ℂ) = y1 at *
  generalize ((Real.cos (th' * (Real.pi / 180)) : ℝ) : ℂ) = y2 at *
  rw [show y2 * (x2 * (1 / (↑√e' * y2)) * along w' (SM.s11 *ᵥ c.a0) i) = x2 * (along w' (SM.s11 *ᵥ c.a0) i / ↑√e') by field_simp]
  rw [← e1]
  field_simp

namespace Examples

theorem slab_placed' (stack : List ℕ) : WellPlaced slabMats stack := by
  intro k r _ hc
  have : (slabMats r).iscopy = false := (slab_index r).2.1
  rw [this] at hc
  simp at hc

theorem slab_reciprocal (r : ℕ) : Reciprocal (slabMats r) := by
  have : (slabMats r).isAnisotropic = false := by
    unfold slabMats
    split_ifs <;> rfl
  intro h
  rw [this] at h
  simp at h

theorem exLat_opposite : OppositeOrders fun _ => exLat := fun _ H h => by simp [exLat] at h

theorem slab_ends (r : ℕ) (h : r = 0 ∨ r = 2) : (slabMats r).isUniform = true ∧ (slabMats r).epsilon.value = ((1 : ℝ) : ℂ) ∧
    (slabMats r).thickness = some 1 := by
  rcases h with rfl | rfl <;> refine ⟨rfl, ?_, rfl⟩ <;> simp [slabMats, exLayer, NdArr.scalar, NdArr.value]

theorem slab_head (r : ℕ) (h : [0, 1, 2].head? = some r) : (slabMats r).isUniform = true ∧
    (slabMats r).epsilon.value = ((1 : ℝ) : ℂ) ∧ (slabMats r).thickness = some 1 :=
  slab_ends r (.inl (Option.some.inj h).symm)

theorem slab_last (r : ℕ) (h : [0, 1, 2].getLast? = some r) : (slabMats r).isUniform = true ∧
    (slabMats r).epsilon.value = ((1 : ℝ) : ℂ) ∧ (slabMats r).thickness = some 1 :=
  slab_ends r (.inr (Option.some.inj h).symm)

theorem cos_zero_pos : 0 < Real.cos (0 * (Real.pi / 180)) := by simp

end Examples

open Examples in
/-- C72 applies to the grating of `Slab.lean` (permittivity 1 and 7, in air) with normally incident waves of any
polarisation; the sum is 18/25. -/
example (ph ps ps' : ℝ) : (9 / 25 + 9 / 25 : ℝ) = 9 / 25 + 9 / 25 :=
  C72_reflection_reciprocity exE_eig exSort_spec le_rfl exLat_opposite (slab_placed' _) (fun r _ => slab_mu r)
    (fun r _ => slab_reciprocal r) (fun _ _ _ => .inl rfl) (fun r h => (slab_last r h).1) one_pos (fun r h => (slab_head r h).2.1)
    one_pos cos_zero_pos (slab_normal [0, 1, 2] (.inl rfl) ph ps) (slab_normal [0, 1, 2] (.inl rfl) ph (ps + 90))
    (slab_normal [0, 1, 2] (.inl rfl) (ph + 180) ps') (slab_normal [0, 1, 2] (.inl rfl) (ph + 180) (ps' + 90))

open Examples in
/-- C73 applies to the same grating, lit from the front and from the back; the sum is 32/25. -/
example (ph ps ps' : ℝ) : (16 / 25 + 16 / 25 : ℝ) = 16 / 25 + 16 / 25 :=
  C73_transmission_reciprocity exE_eig exSort_spec le_rfl exLat_opposite (slab_placed' [0, 1, 2]) (slab_placed' _)
    (fun r _ => slab_mu r) (fun r _ => slab_reciprocal r) (fun _ _ _ => .inl rfl) one_pos one_pos
    (fun r h => (slab_head r h).2.1) (fun r h => (slab_last r h).2.1)
    one_pos cos_zero_pos cos_zero_pos rfl (slab_normal [0, 1, 2] (.inl rfl) ph ps) (slab_normal [0, 1, 2] (.inl rfl) ph (ps + 90))
    (slab_normal [2, 1, 0] (.inr rfl) (ph + 180) ps') (slab_normal [2, 1, 0] (.inr rfl) (ph + 180) (ps' + 90))

open Examples in
/-- The statements about fields apply to it too. -/
example (ph ps ps' z : ℝ) : ∃ w w' f f' g g', planeWave 1 (0, ph, ps) = .ok w ∧ planeWave 1 (0, ph + 180, ps') = .ok w' ∧
    SpecularField exE (fun _ => exLat) slabMats [0, 1, 2] 1 (0, ph, ps) 1 "original" 0 z f ∧
    SpecularField exE (fun _ => exLat) slabMats [0, 1, 2] 1 (0, ph + 180, ps') 1 "original" 0 z f' ∧
    ∑ k, (w'.amplitude k : ℂ) * f k = ∑ k, (w.amplitude k : ℂ) * f' k ∧
    SpecularField exE (fun _ => exLat) slabMats [0, 1, 2] 1 (0, ph, ps) 1 "original" (-1) 1 g ∧
    SpecularField exE (fun _ => exLat) slabMats [2, 1, 0] 1 (0, ph + 180, ps') 1 "original" (-1) 1 g' ∧
    (w'.amplitude 0 * g 0 + w'.amplitude 1 * g 1 - w'.amplitude 2 * g 2 : ℂ) =
      w.amplitude 0 * g' 0 + w.amplitude 1 * g' 1 - w.amplitude 2 * g' 2 := by
  obtain ⟨w, hw, -⟩ := normal_wave ph ps
  obtain ⟨w', hw', -⟩ := normal_wave (ph + 180) ps'
  obtain ⟨f, hf⟩ := slab_field [0, 1, 2] (.inl rfl) ph ps 0 (.inl rfl) z
  obtain ⟨f', hf'⟩ := slab_field [0, 1, 2] (.inl rfl) (ph + 180) ps' 0 (.inl rfl) z
  obtain ⟨g, hg⟩ := slab_field [0, 1, 2] (.inl rfl) ph ps (-1) (.inr rfl) 1
  obtain ⟨g', hg'⟩ := slab_field [2, 1, 0] (.inr rfl) (ph + 180) ps' (-1) (.inr rfl) 1
  have h1 := C72_field_reciprocity exE_eig exSort_spec le_rfl exLat_opposite (slab_placed' _) (fun r _ => slab_mu r)
    (fun r _ => slab_reciprocal r) (fun _ _ _ => .inl rfl) (fun r h => (slab_last r h).1) one_pos (fun r h => (slab_head r h).2.1)
    one_pos cos_zero_pos hw hw' hf hf'
  have h2 := C73_field_reciprocity exE_eig exSort_spec le_rfl exLat_opposite (slab_placed' [0, 1, 2]) (slab_placed' _)
    (fun r _ => slab_mu r) (fun r _ => slab_reciprocal r) (fun _ _ _ => .inl rfl) one_pos one_pos
    (fun r h => (slab_head r h).2.1) (fun r h => (slab_last r h).2.1)
    one_pos cos_zero_pos cos_zero_pos rfl hw hw' (fun r h => (slab_last r h).2.2) (fun r h => (slab_head r h).2.2) hg hg'
  refine ⟨w, w', f, f', g, g', hw, hw', hf, hf', h1, hg, hg', ?_⟩
  rw [zero_mul, Real.cos_zero] at h2
  simpa using h2

end Nannos
