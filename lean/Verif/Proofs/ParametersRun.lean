import Verif.Proofs.Parameters
import Verif.Props.Energy
import Verif.Props.Orders

/-! Results as smooth functions of materials, thicknesses, wavelength and angles, at the level of simulations (C89). -/

namespace Nannos

open Matrix Spec Topology

section one
variable {E : Ext} {lats : ℕ → Lattice} {mats : ℕ → LayerSpec} {stack : List ℕ} {wl : ℝ} {ang : ℝ × ℝ × ℝ} {nh : ℤ}
  {form : String} {exc : PlaneWave} {c : Static}

theorem eff_of_history (hi : simInit E lats mats stack exc nh form = .ok c) {hist : List (Call c.nh)} {RT}
    (h : (efficienciesByOrder E c (afterCalls E c hist (Dyn.fresh mats (unsolved c.nh)))).1 = .ok RT) :
    ∃ A, (∀ r ∈ c.stack, LayerFix E c mats A r) ∧ EffV c mats A (.ok ()) RT := by
  have hnd : c.stack.Nodup := (simInit_ok hi).nodup
  obtain ⟨A, res, hs, -⟩ := solveSpec_of_noStale (E := E) hnd (noStale_unsolved mats c.stack)
  have hinv := Inv.calls hs hist (inv_fresh _ (.inl rfl))
  have hv := yields_efficiencies hs _ RT _ hinv (Prod.ext h rfl)
  obtain rfl : res = .ok () := hv.1
  exact ⟨A, hs.fix hnd rfl, hv⟩

theorem eff_of_order (hp : planeWave wl ang = .ok exc) (hi : simInit E lats mats stack exc nh form = .ok c) {g R T}
    (h : OrderEfficiencies E lats mats stack wl ang nh form g R T) :
    ∃ A RT, (∀ r ∈ c.stack, LayerFix E c mats A r) ∧ EffV c mats A (.ok ()) RT ∧
      ∃ i, c.harmonics.get i = g ∧ R = RT.1 i ∧ T = RT.2 i := by
  obtain ⟨exc', c', hp', hi', hist, Rs, Ts, i, h1, h2, rfl, rfl⟩ := h
  obtain rfl := Except.ok.inj (hp.symm.trans hp')
  obtain rfl := Except.ok.inj (hi.symm.trans hi')
  obtain ⟨A, a1, a2⟩ := eff_of_history hi (efficiencies_by_order h1)
  exact ⟨A, _, a1, a2, i, h2, rfl, rfl⟩

theorem eff_of_total (hp : planeWave wl ang = .ok exc) (hi : simInit E lats mats stack exc nh form = .ok c) {R T}
    (h : TotalEfficiencies E lats mats stack wl ang nh form R T) :
    ∃ A RT, (∀ r ∈ c.stack, LayerFix E c mats A r) ∧ EffV c mats A (.ok ()) RT ∧ R = ∑ i, RT.1 i ∧ T = ∑ i, RT.2 i := by
  obtain ⟨exc', c', hp', hi', hist, h1⟩ := h
  obtain rfl := Except.ok.inj (hp.symm.trans hp')
  obtain rfl := Except.ok.inj (hi.symm.trans hi')
  obtain ⟨R', T', h2, rfl, rfl⟩ := efficiencies_total h1
  obtain ⟨A, a1, a2⟩ := eff_of_history hi h2
  exact ⟨A, _, a1, a2, rfl, rfl⟩

theorem amp_of_order (hp : planeWave wl ang = .ok exc) (hi : simInit E lats mats stack exc nh form = .ok c) {id z g ef hf}
    (h : OrderField E lats mats stack wl ang nh form id z g ef hf) :
    ∃ A r j ab F, (∀ r ∈ c.stack, LayerFix E c mats A r) ∧ getLayer c id = .ok (r, j) ∧ AmpV c mats A (.ok ()) j ab ∧
      fieldAt c (mats r) (A r) ab.1 ab.2 z = .ok F ∧
      ∃ i, c.harmonics.get i = g ∧ ef = ![F.ex i, F.ey i, F.ez i] ∧ hf = ![F.hx i, F.hy i, F.hz i] := by
  obtain ⟨exc', c', hp', hi', hist, F, i, h1, h2, rfl, rfl⟩ := h
  obtain rfl := Except.ok.inj (hp.symm.trans hp')
  obtain rfl := Except.ok.inj (hi.symm.trans hi')
  have hnd : c.stack.Nodup := (simInit_ok hi).nodup
  obtain ⟨A, res, hs, -⟩ := solveSpec_of_noStale (E := E) hnd (noStale_unsolved mats c.stack)
  have hinv := Inv.calls hs hist (inv_fresh _ (.inl rfl))
  obtain ⟨-, rfl, r, j, ab, hg, hab, hm⟩ := yields_getFieldFourier hs id _ _ _ _ hinv (Prod.ext_iff.mpr ⟨h1, rfl⟩)
  obtain ⟨y, ys, y1, -, y3⟩ := mapM_ok_cons.mp hm
  obtain ⟨rfl, -⟩ := List.cons.inj y3
  exact ⟨A, r, j, ab, F, hs.fix hnd rfl, hg, hab, y1, i, h2, rfl, rfl⟩

end one

section family
variable {V : Type} [NormedAddCommGroup V] [NormedSpace ℝ V] {n : WithTop ℕ∞} {x0 : V}
variable {E : Ext} {lats : ℕ → Lattice} {mats : ℕ → LayerSpec} {stack : List ℕ} {wl : V → ℝ} {ang : V → ℝ × ℝ × ℝ}
  {th : V → ℕ → ℝ} {eps : V → ℕ → List ℕ → ℂ} {nh : ℤ} {form : String}

/-- Everything around `x0`, given a solved simulation there. -/
structure Around (n : WithTop ℕ∞) (x0 : V) (E : Ext) (lats : ℕ → Lattice) (mats : ℕ → LayerSpec) (stack : List ℕ)
    (wl : V → ℝ) (ang : V → ℝ × ℝ × ℝ) (th : V → ℕ → ℝ) (eps : V → ℕ → List ℕ → ℂ) (nh : ℤ) (form : String)
    (c : Static) (W : V → Waves c) (e : V → PlaneWave) : Prop where
  sW : SmW n x0 W
  ev : ∀ᶠ x in 𝓝 x0, planeWave (wl x) (ang x) = .ok (e x) ∧
    simInit E lats (withMaterials mats (th x) (eps x)) stack (e x) nh form = .ok (c.vary (W x)) ∧ (W x).w ≠ 0 ∧
    WellPlaced (withMaterials mats (th x) (eps x)) stack
  real : ∀ᶠ x in 𝓝 x0, ∀ i, ((W x).kx i).im = 0 ∧ ((W x).ky i).im = 0
  stack_eq : c.stack = stack
  nodup : c.harmonics.Nodup

theorem around (h : SmoothStructure n x0 lats mats stack form wl ang th eps) (hA : ArgsortContract E.argsort) (hn : 1 ≤ nh)
    (hd : DistinctOrders lats) {exc0 c} (hp : planeWave (wl x0) (ang x0) = .ok exc0)
    (hi : simInit E lats (withMaterials mats (th x0) (eps x0)) stack exc0 nh form = .ok c) :
    ∃ W e, Around n x0 E lats mats stack wl ang th eps nh form c W e := by
  obtain ⟨e, e1, e2⟩ := smE_planeWave h.wavelength h.angles exc0 hp
  have e3 : e x0 = exc0 := Except.ok.inj (e2.self_of_nhds.symm.trans hp)
  rw [← e3] at hi
  obtain ⟨W, W1, W2⟩ := simInit_vary e1 hi h.permittivity h.mu fun r hr => (h.superstrate r hr).2
  refine ⟨W, e, W1, ?_, ?_, (simInit_ok hi).stack_eq, ?_⟩
  · filter_upwards [e2, W2, W1.w.continuousAt.eventually_ne W1.w0, h.placed] with x x1 x2 x3 x4
    exact ⟨x1, x2.1, x3, x4⟩
  · filter_upwards [W2] with x x2
    exact x2.2
  · obtain ⟨r0, tl, hs⟩ := List.exists_cons_of_ne_nil (simInit_ok hi).ne
    have hlat := (simInit_ok hi).lat_eq r0 (by rw [hs]; rfl)
    exact harmonics_distinct hA hi hn fun H hH => hd _ H (by rw [← hlat]; exact hH)

variable {c : Static} {W : V → Waves c} {e : V → PlaneWave}

/-- The media of the layers. -/
theorem Around.media (a : Around n x0 E lats mats stack wl ang th eps nh form c W e)
    (h : SmoothStructure n x0 lats mats stack form wl ang th eps) (hE : EigContract E) {A : ℕ → LayerAttr c.nh}
    (hf : ∀ r ∈ c.stack, LayerFix E (c.vary (W x0)) (withMaterials mats (th x0) (eps x0)) A r) :
    ∃ (P : V → ℕ → Matrix (Idx c.nh) (Idx c.nh) ℂ) (e : V → ℕ → Matrix (Fin c.nh) (Fin c.nh) ℂ) (z : V → ℕ → ℝ),
      (∀ k < c.stack.length, SmM n x0 (fun x => P x k) ∧ SmM n x0 (fun x => e x k) ∧ (e x0 k).det ≠ 0 ∧
        ContDiffAt ℝ n (fun x => z x k) x0) ∧
      ∀ᶠ x in 𝓝 x0, (∀ (k r : ℕ), c.stack[k]? = some r →
        Medium E (c.vary (W x)) (withMaterials mats (th x) (eps x)) r (P x k) (e x k)) ∧
        ∀ (k r : ℕ), c.stack[k]? = some r → (withMaterials mats (th x) (eps x) r).thickness.getD 0 = z x k := by
  have hst := a.stack_eq
  have hi := a.ev.self_of_nhds.2.1
  have hw := a.ev.self_of_nhds.2.2.2
  have hcl : ∀ r ∈ stack, (mats r).iscopy = true → (mats r).original ∈ stack := by
    intro r hr hc
    obtain ⟨k, hk⟩ := List.mem_iff_getElem?.mp hr
    obtain ⟨⟨j, -, hj⟩, -⟩ := hw k r hk hc
    exact List.mem_of_getElem? hj
  have hform : c.formulation = "original" ∨ c.lattice.is1D = true ∧ c.formulation = "tangent" ∨
      ∀ r ∈ stack, (mats r).isUniform = false → (mats r).tangentField ≠ none := by
    have hfe : c.formulation = form := (simInit_ok hi).form_eq
    rw [hfe]
    rcases h.pattern with h1 | ⟨h1, h2⟩ | h1
    · exact .inl h1
    · refine .inr (.inl ⟨?_, h2⟩)
      obtain ⟨r0, tl, hs⟩ := List.exists_cons_of_ne_nil (simInit_ok hi).ne
      have h0 : stack.head? = some r0 := by rw [hs]; rfl
      have hlat : c.lattice = lats (mats r0).lattice := (simInit_ok hi).lat_eq r0 h0
      rw [hlat]
      exact h1 r0 h0
    · exact .inr (.inr h1)
  have key : ∀ k : ℕ, ∃ (Pf : V → Matrix (Idx c.nh) (Idx c.nh) ℂ) (ef : V → Matrix (Fin c.nh) (Fin c.nh) ℂ) (zf : V → ℝ),
      ∀ r, c.stack[k]? = some r → SmM n x0 Pf ∧ SmM n x0 ef ∧ (ef x0).det ≠ 0 ∧ ContDiffAt ℝ n zf x0 ∧ ∀ᶠ x in 𝓝 x0,
        Medium E (c.vary (W x)) (withMaterials mats (th x) (eps x)) r (Pf x) (ef x) ∧
        (withMaterials mats (th x) (eps x) r).thickness.getD 0 = zf x := by
    intro k
    rcases hr : c.stack[k]? with _ | r
    · exact ⟨fun _ => 0, fun _ => 0, fun _ => 0, fun r h => by simp at h⟩
    have hrm : r ∈ stack := by rw [← hst]; exact List.mem_of_getElem? hr
    obtain ⟨P', e', m1, m2⟩ := solved_medium (c := c.vary (W x0)) (stack := stack)
      (mats := withMaterials mats (th x0) (eps x0)) h.mu hE hw (by rw [← hst]; exact hf) k r (by rw [← hst]; exact hr)
    obtain ⟨Pf, ef, s1, s2, s3, s4⟩ := smooth_medium hcl h.permittivity hform m1 hrm m2.det
    refine ⟨Pf, ef, fun x => (withMaterials mats (th x) (eps x) r).thickness.getD 0, ?_⟩
    rintro r' ⟨⟩
    refine ⟨s1, s2, s3, smooth_thickness (h.thickness r hrm), ?_⟩
    filter_upwards [s4] with x hx
    exact ⟨hx, rfl⟩
  choose Pf ef zf hall using key
  refine ⟨fun x k => Pf k x, fun x k => ef k x, fun x k => zf k x, fun k hk => ?_, ?_⟩
  · obtain ⟨s1, s2, s3, s4, -⟩ := hall k _ (List.getElem?_eq_getElem hk)
    exact ⟨s1, s2, s3, s4⟩
  · have : ∀ᶠ x in 𝓝 x0, ∀ k ∈ Finset.range c.stack.length, ∀ r, c.stack[k]? = some r →
        Medium E (c.vary (W x)) (withMaterials mats (th x) (eps x)) r (Pf k x) (ef k x) ∧
        (withMaterials mats (th x) (eps x) r).thickness.getD 0 = zf k x := by
      rw [Filter.eventually_all_finset]
      intro k hk
      have hk' := Finset.mem_range.mp hk
      obtain ⟨-, -, -, -, s⟩ := hall k _ (List.getElem?_eq_getElem hk')
      filter_upwards [s] with x hx r hr
      rw [List.getElem?_eq_getElem hk'] at hr
      rw [← Option.some.inj hr]
      exact hx
    filter_upwards [this] with x hx
    exact ⟨fun k r hr => (hx k (Finset.mem_range.mpr (List.getElem?_eq_some_iff.mp hr).1) r hr).1,
      fun k r hr => (hx k (Finset.mem_range.mpr (List.getElem?_eq_some_iff.mp hr).1) r hr).2⟩

/-- The ends of the stack. -/
theorem Around.ends (a : Around n x0 E lats mats stack wl ang th eps nh form c W e)
    (h : SmoothStructure n x0 lats mats stack form wl ang th eps) :
    ∃ r0 rN, c.stack[0]? = some r0 ∧ c.stack[c.stack.length - 1]? = some rN ∧ r0 ∈ stack ∧ rN ∈ stack ∧
      (mats r0).isUniform = true ∧ (mats rN).isUniform = true ∧
      (∀ᶠ x in 𝓝 x0, 0 ≤ (withMaterials mats (th x) (eps x) r0).epsilon.value.im) ∧
      ∀ᶠ x in 𝓝 x0, 0 ≤ (withMaterials mats (th x) (eps x) rN).epsilon.value.im := by
  have hst := a.stack_eq
  have hne := (simInit_ok a.ev.self_of_nhds.2.1).ne
  obtain ⟨r0, h0⟩ : ∃ r0, stack.head? = some r0 := ⟨_, List.head?_eq_some_head hne⟩
  obtain ⟨rN, hN⟩ : ∃ rN, stack.getLast? = some rN := ⟨_, List.getLast?_eq_some_getLast hne⟩
  refine ⟨r0, rN, ?_, ?_, List.mem_of_head? h0, List.mem_of_getLast? hN, (h.superstrate r0 h0).1, (h.substrate rN hN).1, ?_,
    (h.substrate rN hN).2⟩
  · rw [hst, ← List.head?_eq_getElem?]; exact h0
  · rw [hst, ← List.getLast?_eq_getElem?]; exact hN
  · filter_upwards [(h.superstrate r0 h0).2] with x hx
    exact hx.1.ge

/-- The efficiencies. -/
theorem Around.efficiencies (a : Around n x0 E lats mats stack wl ang th eps nh form c W e)
    (h : SmoothStructure n x0 lats mats stack form wl ang th eps) (hE : EigContract E) {A0 : ℕ → LayerAttr c.nh} {RT0}
    (hf : ∀ r ∈ c.stack, LayerFix E (c.vary (W x0)) (withMaterials mats (th x0) (eps x0)) A0 r)
    (hv : EffV (c.vary (W x0)) (withMaterials mats (th x0) (eps x0)) A0 (.ok ()) RT0) :
    ∃ R T : Fin c.nh → V → ℝ, (∀ i, ContDiffAt ℝ n (R i) x0 ∧ ContDiffAt ℝ n (T i) x0) ∧
      ∀ᶠ x in 𝓝 x0, ∀ (A : ℕ → LayerAttr c.nh) RT,
        (∀ r ∈ c.stack, LayerFix E (c.vary (W x)) (withMaterials mats (th x) (eps x)) A r) →
        EffV (c.vary (W x)) (withMaterials mats (th x) (eps x)) A (.ok ()) RT →
        RT = (fun i => R i x, fun i => T i x) := by
  obtain ⟨P, ep, z, s1, s2⟩ := a.media h hE hf
  obtain ⟨r0, rN, k0, kN, m0, mN, u0, uN, i0, iN⟩ := a.ends h
  have hst := a.stack_eq
  have hmu : ∀ r ∈ c.stack, (mats r).mu = 1 := by rw [hst]; exact h.mu
  have hform : ∀ x, (∀ (k r : ℕ), c.stack[k]? = some r →
        Medium E (c.vary (W x)) (withMaterials mats (th x) (eps x)) r (P x k) (ep x k)) →
      (∀ (k r : ℕ), c.stack[k]? = some r → (withMaterials mats (th x) (eps x) r).thickness.getD 0 = z x k) →
      (W x).w ≠ 0 → WellPlaced (withMaterials mats (th x) (eps x)) stack → ∀ (A : ℕ → LayerAttr c.nh) RT,
        (∀ r ∈ c.stack, LayerFix E (c.vary (W x)) (withMaterials mats (th x) (eps x)) A r) →
        EffV (c.vary (W x)) (withMaterials mats (th x) (eps x)) A (.ok ()) RT → _ := fun x y1 y2 y3 y4 A RT y5 y6 =>
    eff_formula (c := c.vary (W x)) (mats := withMaterials mats (th x) (eps x)) (r0 := r0) (rN := rN) y3 hmu hE (by
      show WellPlaced _ c.stack; rw [hst]; exact y4) y5 y1 y2 k0 kN u0 uN y6
  obtain ⟨-, -, w0, p0⟩ := a.ev.self_of_nhds
  obtain ⟨f, hfl, -⟩ := hform x0 s2.self_of_nhds.1 s2.self_of_nhds.2 w0 p0 A0 RT0 hf hv
  have fam : Family n x0 c W mats th eps P ep z r0 rN :=
    ⟨a.sW, fun k hk => (s1 k hk).1, fun k hk => (s1 k hk).2.1, fun k hk => (s1 k hk).2.2.1, fun k hk => (s1 k hk).2.2.2,
      smooth_outer a.sW a.real (h.permittivity r0 m0) (h.thickness r0 m0) i0 f.e0 f.q0,
      smooth_outer a.sW a.real (h.permittivity rN mN) (h.thickness rN mN) iN f.eN f.qN, f⟩
  obtain ⟨R, T, t1, t2⟩ := fam.efficiencies hfl
  refine ⟨R, T, t1, ?_⟩
  filter_upwards [s2, a.ev] with x x1 x2 A RT x3 x4
  obtain ⟨-, -, f0, fN, y1, y2, y3⟩ := hform x x1.1 x1.2 x2.2.2.1 x2.2.2.2 A RT x3 x4
  rw [y3]
  have := t2 x f0 fN y1 y2
  exact Prod.ext (funext fun i => (this i).1) (funext fun i => (this i).2)

/-- The fields. -/
theorem Around.fields (a : Around n x0 E lats mats stack wl ang th eps nh form c W e)
    (h : SmoothStructure n x0 lats mats stack form wl ang th eps) (hE : EigContract E) {A0 : ℕ → LayerAttr c.nh}
    (hf : ∀ r ∈ c.stack, LayerFix E (c.vary (W x0)) (withMaterials mats (th x0) (eps x0)) A0 r) {r : ℕ} {j : ℤ}
    (hr : pyGet c.stack j = .ok r) {ab0} (hv : AmpV (c.vary (W x0)) (withMaterials mats (th x0) (eps x0)) A0 (.ok ()) j ab0)
    {t : V → ℝ} (ht : ContDiffAt ℝ n t x0) {F0}
    (hF : fieldAt (c.vary (W x0)) (withMaterials mats (th x0) (eps x0) r) (A0 r) ab0.1 ab0.2 (t x0) = .ok F0) :
    ∃ G : V → FieldF c.nh, SmoothField n x0 G ∧
      ∀ᶠ x in 𝓝 x0, ∀ (A : ℕ → LayerAttr c.nh) ab F,
        (∀ r ∈ c.stack, LayerFix E (c.vary (W x)) (withMaterials mats (th x) (eps x)) A r) →
        AmpV (c.vary (W x)) (withMaterials mats (th x) (eps x)) A (.ok ()) j ab →
        fieldAt (c.vary (W x)) (withMaterials mats (th x) (eps x) r) (A r) ab.1 ab.2 (t x) = .ok F → F = G x := by
  obtain ⟨P, ep, z, s1, s2⟩ := a.media h hE hf
  obtain ⟨r0, rN, k0, kN, m0, mN, u0, uN, i0, iN⟩ := a.ends h
  have hst := a.stack_eq
  have hmu : ∀ r ∈ c.stack, (mats r).mu = 1 := by rw [hst]; exact h.mu
  have hform : ∀ x, (∀ (k r : ℕ), c.stack[k]? = some r →
        Medium E (c.vary (W x)) (withMaterials mats (th x) (eps x)) r (P x k) (ep x k)) →
      (∀ (k r : ℕ), c.stack[k]? = some r → (withMaterials mats (th x) (eps x) r).thickness.getD 0 = z x k) →
      (W x).w ≠ 0 → WellPlaced (withMaterials mats (th x) (eps x)) stack → ∀ (A : ℕ → LayerAttr c.nh) ab F,
        (∀ r ∈ c.stack, LayerFix E (c.vary (W x)) (withMaterials mats (th x) (eps x)) A r) →
        AmpV (c.vary (W x)) (withMaterials mats (th x) (eps x)) A (.ok ()) j ab → 
        fieldAt (c.vary (W x)) (withMaterials mats (th x) (eps x) r) (A r) ab.1 ab.2 (t x) = .ok F → _ :=
      fun x y1 y2 y3 y4 A ab F y5 y6 y7 =>
    field_formula (c := c.vary (W x)) (mats := withMaterials mats (th x) (eps x)) (r0 := r0) (rN := rN) y3 hmu hE (by
      show WellPlaced _ c.stack; rw [hst]; exact y4) y5 y1 y2 k0 kN u0 uN hr y6 y7
  obtain ⟨-, -, w0, p0⟩ := a.ev.self_of_nhds
  obtain ⟨f, k, hk, hkr, -⟩ := hform x0 s2.self_of_nhds.1 s2.self_of_nhds.2 w0 p0 A0 ab0 F0 hf hv hF
  have fam : Family n x0 c W mats th eps P ep z r0 rN :=
    ⟨a.sW, fun k hk => (s1 k hk).1, fun k hk => (s1 k hk).2.1, fun k hk => (s1 k hk).2.2.1, fun k hk => (s1 k hk).2.2.2,
      smooth_outer a.sW a.real (h.permittivity r0 m0) (h.thickness r0 m0) i0 f.e0 f.q0,
      smooth_outer a.sW a.real (h.permittivity rN mN) (h.thickness rN mN) iN f.eN f.qN, f⟩
  refine ⟨_, fam.fields (List.getElem?_eq_some_iff.mp hkr).1 ht, ?_⟩
  filter_upwards [s2, a.ev] with x x1 x2 A ab F x3 x4 x5
  obtain ⟨-, k', hk', -, -, y⟩ := hform x x1.1 x1.2 x2.2.2.1 x2.2.2.2 A ab F x3 x4 x5
  obtain rfl : k' = k := Option.some.inj (hk'.symm.trans hk)
  exact y

end family

end Nannos
