import Verif.Proofs.ReciprocityPairs
import Verif.Proofs.ComplexOrders
import Verif.Proofs.FieldEqs

/-! Reciprocity (C72, C73): fields. -/

namespace Nannos

open Matrix Spec

variable {E : Ext} {c c' : Static} {lats : ℕ → Lattice} {mats : ℕ → LayerSpec} {stack stack' : List ℕ} {exc exc' : PlaneWave}
  {nh : ℤ} {form : String}

/-- A field of one order against a polarisation whose normal component is multiplied by `s`. -/
noncomputable def against (s : ℂ) (exc : PlaneWave) (F : FieldF c.nh) (i : Fin c.nh) : ℂ :=
  (exc.amplitude 0 : ℂ) * F.ex i + (exc.amplitude 1 : ℂ) * F.ey i + s * (exc.amplitude 2 : ℂ) * F.ez i

/-- The tangential fields of one order in a uniform medium. -/
theorem uniform_fields {L : LayerSpec} {a : LayerAttr c.nh} {M : Modes (Idx c.nh)} {x y : Idx c.nh → ℂ} {z : ℝ} {F}
    (hF : FieldSpec c L a M x y z F) {gz} (h : UniformFlux c L.epsilon.value M gz) (hu : L.isUniform = true)
    (he : L.epsilon.value ≠ 0) (hom : c.omega ≠ 0) (i : Fin c.nh) :
    ∃ p q : ℂ, p = Complex.exp (Complex.I * gz i * z) ∧ q = Complex.exp (Complex.I * gz i * ((M.z - z : ℝ) : ℂ)) ∧
    F.ex i = (coefA c.omega L.epsilon.value (c.kx i) (c.ky i) (gz i)).2.1 * (p * x (.inl i) - q * y (.inl i)) +
      (coefA c.omega L.epsilon.value (c.kx i) (c.ky i) (gz i)).2.2 * (p * x (.inr i) - q * y (.inr i)) ∧
    F.ey i = -((coefA c.omega L.epsilon.value (c.kx i) (c.ky i) (gz i)).1 * (p * x (.inl i) - q * y (.inl i)) +
      (coefA c.omega L.epsilon.value (c.kx i) (c.ky i) (gz i)).2.1 * (p * x (.inr i) - q * y (.inr i))) ∧
    F.ez i = (c.ky i * (p * x (.inl i) + q * y (.inl i)) - c.kx i * (p * x (.inr i) + q * y (.inr i))) / c.omega /
      L.epsilon.value := by
  refine ⟨_, _, rfl, rfl, ?_⟩
  have hom0 : (c.omega : ℂ) ≠ 0 := by exact_mod_cast hom
  set u : Idx c.nh → ℂ := fun j => x j * Complex.exp (Complex.I * M.q j * z) -
    y j * Complex.exp (Complex.I * M.q j * ((M.z - z : ℝ) : ℂ)) with hu'
  have hE : ∀ k, tanE M x y z k / c.omega = ((M.Q * M.phi * diagonal fun k => 1 / ((c.omega : ℂ) * M.q k)) *ᵥ u) k := by
    intro k
    rw [← mulVec_mulVec]
    unfold tanE
    simp only [mulVec, dotProduct, mul_apply, diagonal_apply]
    rw [Finset.sum_div]
    refine Finset.sum_congr rfl fun j _ => ?_
    simp only [ite_mul, zero_mul, Finset.sum_ite_eq, Finset.mem_univ, if_true]
    rw [hu', one_div, mul_inv]
    ring
  have hH : ∀ k, tanH M x y z k = x k * Complex.exp (Complex.I * M.q k * z) +
    y k * Complex.exp (Complex.I * M.q k * ((M.z - z : ℝ) : ℂ)) := by
    intro k
    unfold tanH
    rw [h.phi]
    simp only [one_apply, ite_mul, one_mul, zero_mul, Finset.sum_ite_eq, Finset.mem_univ, if_true]
  obtain ⟨A1, A2⟩ := uniform_mulVec h.phi h.q h.Q u i
  have hez := hF.ez
  rw [normalE_uniform hu he] at hez
  have hez' := congrFun (Except.ok.inj hez) i
  have q1 : M.q (.inl i) = gz i := by rw [h.q]; rfl
  have q2 : M.q (.inr i) = gz i := by rw [h.q]; rfl
  refine ⟨?_, ?_, ?_⟩
  · rw [hF.ex, hE, A2, hu']
    simp only [q1, q2]
    ring
  · rw [hF.ey, hE, A1, hu']
    simp only [q1, q2]
    ring
  · rw [← hez', hF.hx, hF.hy, hH, hH, q1, q2]
    ring

/-- The reflected part of the field against a wave going the opposite way. -/
theorem against_value {p0 p1 p2 : ℂ} {w : ℝ} {e X Y g : ℂ} (hw : (w : ℂ) ≠ 0) (he : e ≠ 0) (hg : g ≠ 0) (x1 x2 : ℂ)
    (htr : p2 * g = p0 * X + p1 * Y) :
    p0 * ((coefA w e X Y g).2.1 * x1 + (coefA w e X Y g).2.2 * x2) -
      p1 * ((coefA w e X Y g).1 * x1 + (coefA w e X Y g).2.1 * x2) - p2 * ((Y * x1 - X * x2) / w / e) =
      w / g * (-p1 * x1 + p0 * x2) := by
  have : p2 = (p0 * X + p1 * Y) / g := by rw [← htr]; field_simp
  rw [this]
  unfold coefA
  field_simp
  ring

/-- A wave is transverse, in terms of the wave vectors of the other simulation. -/
theorem transverse_opposite {σ : Fin c.nh ≃ Fin c'.nh} (ho : Opposite c c' σ) {n : ℝ} (g : GoodSup c' exc' n) {wl ang}
    (hp : planeWave wl ang = .ok exc') (hcos : 0 < Real.cos exc'.theta) {M : Modes (Idx c.nh)} {M' : Modes (Idx c'.nh)}
    {gz gz'} (h : UniformFlux c ((n ^ 2 : ℝ) : ℂ) M gz) (h' : UniformFlux c' ((n ^ 2 : ℝ) : ℂ) M' gz') {i : Fin c.nh}
    (hi : (σ i : ℕ) = c'.indexZerothOrder) :
    (exc'.amplitude 2 : ℂ) * gz i = (exc'.amplitude 0 : ℂ) * c.kx i + (exc'.amplitude 1 : ℂ) * c.ky i ∧ gz i ≠ 0 ∧
    (c.omega : ℂ) / gz i = 1 / (n * Real.cos exc'.theta) := by
  obtain ⟨q1, q2, q3, q4⟩ := incident_on g hp hcos h' hi
  rw [h.opposite ho h'] at q1
  have k1 := ho.kx i
  have k2 := ho.ky i
  rw [q3] at k1
  rw [q4] at k2
  have hw : c.omega ≠ 0 := by rw [← ho.omega]; exact g.omega.ne'
  have hn := g.pos
  obtain ⟨-, -, tr⟩ := C01_plane_wave_is_transverse _ _ _ hp
  have hv := (planeWave_ok hp).2.2.2.2.2.2.1
  have hz : exc'.wavevector 2 = exc'.wavenumber * Real.cos exc'.theta := by rw [hv]; simp
  simp only [dotProduct, Fin.sum_univ_three] at tr
  have trC : (exc'.amplitude 0 : ℂ) * exc'.wavevector 0 + exc'.amplitude 1 * exc'.wavevector 1 +
      exc'.amplitude 2 * exc'.wavevector 2 = 0 := by exact_mod_cast tr
  rw [ho.omega] at q2
  refine ⟨?_, ?_, ?_⟩
  · rw [q1, show c.kx i = -((exc'.wavevector 0 * n : ℝ) : ℂ) by rw [k1, neg_neg],
      show c.ky i = -((exc'.wavevector 1 * n : ℝ) : ℂ) by rw [k2, neg_neg]]
    rw [hz] at trC
    push_cast at trC ⊢
    linear_combination (n : ℂ) * trC
  · rw [q1]
    have : 0 < n * exc'.wavenumber * Real.cos exc'.theta := by
      rw [← q2, ← ho.omega]; have := g.omega; positivity
    exact_mod_cast this.ne'
  · rw [q1, ← q2]
    have h1 : (c.omega : ℂ) ≠ 0 := by exact_mod_cast hw
    have h2 : (n : ℂ) ≠ 0 := by exact_mod_cast hn.ne'
    have h3 : (Real.cos exc'.theta : ℂ) ≠ 0 := by exact_mod_cast hcos.ne'
    push_cast at h3 ⊢
    field_simp

/-- What a successful retrieval of the fields of the first or of the last layer says. -/
theorem fieldRun (hinit : simInit E lats mats stack exc nh form = .ok c) (hE : EigContract E) (hw : WellPlaced mats stack)
    (hmu : ∀ r ∈ stack, (mats r).mu = 1) {wl ang} (hp : planeWave wl ang = .ok exc) (hwl : 0 < wl)
    (h00 : ((0 : ℤ), (0 : ℤ)) ∈ c.harmonics) {e : ℝ} (hpos : 0 < e)
    (hsup : ∀ r0, stack.head? = some r0 → (mats r0).epsilon.value = (e : ℂ)) {id : ℤ} (hid : id = 0 ∨ id = -1)
    {hist : List (Call c.nh)} {z : ℝ} {Fs}
    (h : (getFieldFourier E c (.idx id) [z] (afterCalls E c hist (Dyn.fresh mats (unsolved c.nh)))).1 = .ok Fs) :
    ∃ RT A SM n amp r0 rN M0 MN F, EffRun E c mats exc e RT A SM n amp r0 rN M0 MN ∧ Fs = [F] ∧
      (id = 0 → FieldSpec c (mats r0) (A r0) M0 c.a0 (SM.s21 *ᵥ c.a0) z F) ∧
      (id = -1 → FieldSpec c (mats rN) (A rN) MN (SM.s11 *ᵥ c.a0) 0 z F) := by
  have hi := simInit_ok hinit
  have hst : c.stack = stack := hi.stack_eq
  obtain ⟨A1, hA1⟩ := fields_of_history hinit hE hw hmu
  obtain ⟨hfix, r, i, ab, hl, hab, -, M, t, F, hM, ht, hq, hF, -, rfl⟩ := hA1 hist (.idx id) [z] Fs (by simp) h
  unfold getLayer at hl
  rw [bind_eq_ok] at hl
  obtain ⟨r', hr', hl⟩ := hl
  simp only [except_pure_eq_ok, Except.ok.injEq, Prod.mk.injEq] at hl
  obtain ⟨rfl, rfl⟩ := hl
  obtain ⟨SM, hSM⟩ : ∃ SM, valS c mats A1 (.ok ()) none = .ok SM := by
    obtain ⟨-, ⟨-, S, hS, -⟩ | ⟨-, -, S, hS, -⟩ | ⟨k1, -, k2, -⟩⟩ := hab
    · exact ⟨S, hS⟩
    · exact ⟨S, hS⟩
    · omega
  obtain ⟨n, amp, hs⟩ := stacked hfix (by rw [hst]; exact hi.ne) hSM
  have hlen := hs.len
  obtain ⟨r0, hr0⟩ : ∃ r0, c.stack[0]? = some r0 := ⟨_, List.getElem?_eq_getElem (by omega)⟩
  obtain ⟨rN, hrN⟩ : ∃ rN, c.stack[n + 1]? = some rN := ⟨_, List.getElem?_eq_getElem (by omega)⟩
  obtain ⟨M0, hM0, -⟩ := hs.modes 0 r0 hr0
  obtain ⟨MN, hMN, -⟩ := hs.modes _ rN hrN
  have hhead : stack.head? = some r0 := by rw [← hst, List.head?_eq_getElem?, hr0]
  have hm0 : r0 ∈ stack := hst ▸ List.mem_of_getElem? hr0
  have hg := good_sup hi (by rw [(planeWave_ok hp).2.1]; exact hwl) hhead (hmu r0 hm0) (hsup r0 hhead) hpos h00
  refine ⟨(fun i => orderFlux c M0 (SM.s21 *ᵥ c.a0) i / c.incidentFlux, fun i => orderFlux c MN (SM.s11 *ᵥ c.a0) i / c.incidentFlux),
    A1, SM, n, amp, r0, rN, M0, MN, F z, ⟨hs, hr0, hrN, hM0, hMN, hg, (hi.sup r0 hhead).1, fun _ => rfl, fun _ => rfl⟩, rfl, ?_, ?_⟩
  · rintro rfl
    have : r' = r0 := by
      have := (pyGet_nat c.stack 0 r').mp hr'
      rw [hr0] at this
      exact (Option.some.inj this).symm
    subst this
    rw [hM0] at hM
    cases hM
    obtain ⟨-, ⟨-, S, hS, rfl⟩ | ⟨k, -⟩ | ⟨k, -⟩⟩ := hab
    · rw [hSM] at hS
      cases hS
      exact hF z
    · exact absurd rfl k
    · exact absurd rfl k
  · rintro rfl
    have : r' = rN := by
      unfold pyGet at hr'
      have e3 : pyIdx c.stack.length (-1) = some (n + 1) := by
        unfold pyIdx
        rw [if_neg (by omega), if_pos (by omega)]
        congr 1
        omega
      rw [e3] at hr'
      dsimp only at hr'
      rw [hrN] at hr'
      exact (Except.ok.inj hr').symm
    subst this
    rw [hMN] at hM
    cases hM
    obtain ⟨-, ⟨k, -⟩ | ⟨-, -, S, hS, rfl⟩ | ⟨-, -, k, -⟩⟩ := hab
    · omega
    · rw [hSM] at hS
      cases hS
      exact hF z
    · exact absurd rfl k

/-- The field of the specular order in the first layer, against the polarisation of the opposite wave. -/
theorem top_against {σ : Fin c.nh ≃ Fin c'.nh} (ho : Opposite c c' σ) {n : ℝ} (g : GoodSup c exc n) (g' : GoodSup c' exc' n)
    {wl ang ang'} (hwl : 0 < wl)
    (hp : planeWave wl ang = .ok exc) (hp' : planeWave wl ang' = .ok exc') (hcos : 0 < Real.cos exc.theta)
    (hcos' : 0 < Real.cos exc'.theta) {L : LayerSpec} {a : LayerAttr c.nh} (he : L.epsilon.value = ((n ^ 2 : ℝ) : ℂ))
    (hun : L.isUniform = true) {M : Modes (Idx c.nh)} {M' : Modes (Idx c'.nh)}
    {gz gz'} (h : UniformFlux c ((n ^ 2 : ℝ) : ℂ) M gz) (h' : UniformFlux c' ((n ^ 2 : ℝ) : ℂ) M' gz') {i : Fin c.nh}
    (hi : (i : ℕ) = c.indexZerothOrder)
    (hj : (σ i : ℕ) = c'.indexZerothOrder) {y : Idx c.nh → ℂ} {z : ℝ} {F} (hF : FieldSpec c L a M c.a0 y z F) :
    against 1 exc' F i = Complex.exp (Complex.I * ((n * c.omega * Real.cos exc.theta : ℝ) : ℂ) * z) *
        ((exc.amplitude 0 * exc'.amplitude 0 + exc.amplitude 1 * exc'.amplitude 1 + exc.amplitude 2 * exc'.amplitude 2 : ℝ) / n) -
      Complex.exp (Complex.I * ((n * c.omega * Real.cos exc.theta : ℝ) : ℂ) * ((M.z - z : ℝ) : ℂ)) *
        (1 / (n * Real.cos exc'.theta)) * along exc' y i := by
  have hn : (n : ℂ) ≠ 0 := by exact_mod_cast g.pos.ne'
  have hom0 : (c.omega : ℂ) ≠ 0 := by exact_mod_cast g.omega.ne'
  have he0 : ((n ^ 2 : ℝ) : ℂ) ≠ 0 := by push_cast; exact pow_ne_zero 2 hn
  obtain ⟨t1, t2, t3⟩ := transverse_opposite ho g' hp' hcos' h h' hj
  obtain ⟨f1, f2, f3, f4⟩ := incident_field g hp hcos hwl h i
  rw [if_pos hi, one_mul] at f2 f3 f4
  obtain ⟨A1, A2⟩ := uniform_mulVec h.phi h.q h.Q c.a0 i
  change tanAmp c M c.a0 _ = _ at A1 A2
  rw [A2] at f2
  rw [A1] at f3
  obtain ⟨p, q, hpp, hqq, x1, x2, x3⟩ := uniform_fields hF (by rw [he]; exact h) hun (by rw [he]; exact he0) g.omega.ne' i
  have av := against_value hom0 he0 t2 (y (.inl i)) (y (.inr i)) t1
  rw [t3] at av
  rw [he] at x1 x2 x3
  rw [f1 hi] at hpp hqq
  rw [← hpp, ← hqq]
  unfold against along
  rw [x1, x2, x3]
  generalize (coefA c.omega ((n ^ 2 : ℝ) : ℂ) (c.kx i) (c.ky i) (gz i)).1 = k1 at *
  generalize (coefA c.omega ((n ^ 2 : ℝ) : ℂ) (c.kx i) (c.ky i) (gz i)).2.1 = k2 at *
  generalize (coefA c.omega ((n ^ 2 : ℝ) : ℂ) (c.kx i) (c.ky i) (gz i)).2.2 = k3 at *
  push_cast at f4 av ⊢
  have f2' := eq_div_of_mul_eq hn f2
  have f3' := eq_div_of_mul_eq hn f3
  have f4' := eq_div_of_mul_eq hn f4
  linear_combination (-q) * av + p * ((exc'.amplitude 0 : ℂ) * f2' + (exc'.amplitude 1 : ℂ) * f3' + (exc'.amplitude 2 : ℂ) * f4')

/-- The field of the specular order in the last layer, against the polarisation of the wave which comes from there. -/
theorem bottom_against {σ : Fin c.nh ≃ Fin c'.nh} (ho : Opposite c c' σ) {n : ℝ} (hom : c.omega ≠ 0) (g' : GoodSup c' exc' n)
    {wl ang'} (hp' : planeWave wl ang' = .ok exc')
    (hcos' : 0 < Real.cos exc'.theta) {L : LayerSpec} {a : LayerAttr c.nh} (he : L.epsilon.value = ((n ^ 2 : ℝ) : ℂ))
    (hun : L.isUniform = true) {M : Modes (Idx c.nh)} {M' : Modes (Idx c'.nh)}
    {gz gz'} (h : UniformFlux c ((n ^ 2 : ℝ) : ℂ) M gz) (h' : UniformFlux c' ((n ^ 2 : ℝ) : ℂ) M' gz') {i : Fin c.nh}
    (hj : (σ i : ℕ) = c'.indexZerothOrder) {x : Idx c.nh → ℂ} {z : ℝ} {F} (hF : FieldSpec c L a M x 0 z F) :
    against (-1) exc' F i = Complex.exp (Complex.I * ((n * c'.omega * Real.cos exc'.theta : ℝ) : ℂ) * z) *
        (1 / (n * Real.cos exc'.theta)) * along exc' x i := by
  have hn : (n : ℂ) ≠ 0 := by exact_mod_cast g'.pos.ne'
  have hom0 : (c.omega : ℂ) ≠ 0 := by exact_mod_cast hom
  have he0 : ((n ^ 2 : ℝ) : ℂ) ≠ 0 := by push_cast; exact pow_ne_zero 2 hn
  obtain ⟨t1, t2, t3⟩ := transverse_opposite ho g' hp' hcos' h h' hj
  obtain ⟨q1, q2, -⟩ := incident_on g' hp' hcos' h' hj
  rw [h.opposite ho h'] at q1
  obtain ⟨p, q, hpp, hqq, x1, x2, x3⟩ := uniform_fields hF (by rw [he]; exact h) hun (by rw [he]; exact he0) hom i
  have av := against_value hom0 he0 t2 (x (.inl i)) (x (.inr i)) t1
  rw [t3] at av
  rw [he] at x1 x2 x3
  rw [q1, ← q2] at hpp
  rw [← hpp]
  unfold against along
  rw [x1, x2, x3]
  simp only [Pi.zero_apply, mul_zero, sub_zero, add_zero]
  linear_combination p * av

theorem specFieldRun (hE : EigContract E) (hA : ArgsortContract E.argsort) (hn : 1 ≤ nh) (hu : OppositeOrders lats)
    (hw : WellPlaced mats stack) (hmu : ∀ r ∈ stack, (mats r).mu = 1) {wl th ph ps} (hwl : 0 < wl)
    (hcos : 0 < Real.cos (th * (Real.pi / 180)))
    {e : ℝ} (hpos : 0 < e) (hsup : ∀ r0, stack.head? = some r0 → (mats r0).epsilon.value = (e : ℂ)) {id : ℤ}
    (hid : id = 0 ∨ id = -1) {z : ℝ} {f : Fin 3 → ℂ} (hwave : planeWave wl (th, ph, ps) = .ok exc)
    (h : SpecularField E lats mats stack wl (th, ph, ps) nh form id z f) :
    ∃ c i RT A SM n amp r0 rN M0 MN, ∃ F : FieldF c.nh,
      SpecRun E lats mats stack wl (th, ph, ps) nh form e (RT.1 i) (RT.2 i) exc c i RT A SM n amp r0 rN M0 MN ∧
      f = ![F.ex i, F.ey i, F.ez i] ∧
      (id = 0 → FieldSpec c (mats r0) (A r0) M0 c.a0 (SM.s21 *ᵥ c.a0) z F) ∧
      (id = -1 → FieldSpec c (mats rN) (A rN) MN (SM.s11 *ᵥ c.a0) 0 z F) := by
  obtain ⟨exc1, c, hp, hinit, hist, F, i, he, h0, rfl⟩ := h
  rw [hwave] at hp
  cases hp
  have hp := hwave
  have hi := simInit_ok hinit
  obtain ⟨q, tl, hq⟩ := List.exists_cons_of_ne_nil hi.ne
  have hl := hi.lat_eq q (by rw [hq]; rfl)
  have hnd := harmonics_distinct hA hinit hn (fun H hH => (hu _ H (hl ▸ hH)).1)
  have h00 : ((0 : ℤ), (0 : ℤ)) ∈ c.harmonics := h0 ▸ List.get_mem _ _
  have hcl : c.lattice.harmonicsArray ≠ none → ∀ g ∈ c.harmonics, (-g.1, -g.2) ∈ c.harmonics := by
    intro hne
    obtain ⟨H, hH⟩ := Option.ne_none_iff_exists'.mp hne
    obtain ⟨n, hn⟩ := hi.harm
    obtain ⟨H', h1, hp, -⟩ := getHarmonics_ok hA hn
    unfold Lattice.getHarmonics' at h1
    rw [hH] at h1
    cases h1
    intro g hg
    exact hp.mem_iff.mpr ((hu _ H (hl ▸ hH)).2 g (hp.mem_iff.mp hg))
  have hcos' : 0 < Real.cos exc.theta := by rw [(planeWave_ok hp).2.2.1]; exact hcos
  obtain ⟨RT, A, SM, n, amp, r0, rN, M0, MN, F', hr, hF', f0, f1⟩ := fieldRun hinit hE hw hmu hp hwl h00 hpos hsup hid he
  obtain rfl : F = F' := by simpa using hF'
  have hst := hi.stack_eq
  exact ⟨c, i, RT, A, SM, n, amp, r0, rN, M0, MN, F, ⟨hp, hi, hnd, hcl, h0, by
    rw [hi.idx]; exact (zerothIndex_eq hnd h00 i).mpr h0, hr, hcos',
    hsup r0 (by rw [← hst, List.head?_eq_getElem?, hr.first]), hr.refl i, hr.trans i⟩, rfl, f0, f1⟩

end Nannos
