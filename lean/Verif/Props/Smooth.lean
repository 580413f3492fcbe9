import Verif.Proofs.Smooth
import Verif.Proofs.Isolated
import Verif.Props.Absorbing

/-! **C87**, **C88**: results as functions of the thicknesses. -/

namespace Nannos

open Matrix Spec Topology

section smooth
variable {V : Type} [NormedAddCommGroup V] [NormedSpace ℝ V] {E : Ext} {lats : ℕ → Lattice} {mats : ℕ → LayerSpec}
  {stack : List ℕ} {exc : PlaneWave} {nh : ℤ} {form : String} {c : Static}

/-- **C87**: let the thicknesses of the layers be `n` times continuously differentiable functions of parameters `x`
(`n` finite, infinite, or `ω` for analytic), and let a method return a result for `x0`. Then it does so for all `x` near
`x0`, whatever was called before, and every efficiency and every Fourier component of the fields, at depths that may
depend on `x` too, is `n` times continuously differentiable at `x0`. -/
theorem C87_thickness_derivatives (hinit : simInit E lats mats stack exc nh form = .ok c) (n : WithTop ℕ∞) (x0 : V)
    (th : V → ℕ → ℝ) (hth : ∀ r ∈ stack, ContDiffAt ℝ n (fun x => th x r) x0) (hist : V → List (Call c.nh)) :
    (∀ x, simInit E lats (withThicknesses mats (th x)) stack exc nh form = .ok c) ∧
    (∀ X0, (diffractionEfficiencies E c true
        (afterCalls E c (hist x0) (Dyn.fresh (withThicknesses mats (th x0)) (unsolved c.nh)))).1 = .ok X0 →
      ∃ R T : Fin c.nh → V → ℝ, (∀ i, ContDiffAt ℝ n (R i) x0 ∧ ContDiffAt ℝ n (T i) x0) ∧
        ∀ᶠ x in 𝓝 x0,
          (diffractionEfficiencies E c true
            (afterCalls E c (hist x) (Dyn.fresh (withThicknesses mats (th x)) (unsolved c.nh)))).1 =
            .ok (.byOrder (fun i => R i x) (fun i => T i x)) ∧
          (diffractionEfficiencies E c false
            (afterCalls E c (hist x) (Dyn.fresh (withThicknesses mats (th x)) (unsolved c.nh)))).1 =
            .ok (.total (∑ i, R i x) (∑ i, T i x))) ∧
    ∀ (id : LayerId) (zs : List (V → ℝ)), (∀ z ∈ zs, ContDiffAt ℝ n z x0) → ∀ F0,
      (getFieldFourier E c id (zs.map fun z => z x0)
        (afterCalls E c (hist x0) (Dyn.fresh (withThicknesses mats (th x0)) (unsolved c.nh)))).1 = .ok F0 →
      ∃ G : List (V → FieldF c.nh), G.length = zs.length ∧ (∀ g ∈ G, SmoothField n x0 g) ∧
        ∀ᶠ x in 𝓝 x0, (getFieldFourier E c id (zs.map fun z => z x)
          (afterCalls E c (hist x) (Dyn.fresh (withThicknesses mats (th x)) (unsolved c.nh)))).1 =
            .ok (G.map fun g => g x) := by
  have hi := simInit_ok hinit
  have hst := hi.stack_eq
  have hnd : c.stack.Nodup := hi.nodup
  rw [← hst] at hth
  obtain ⟨A, res, hs⟩ := withThicknesses_spec (E := E) (mats := mats) hnd
  have hs' : ∀ x, SolveSpec E c (withThicknesses mats (th x)) (unsolved c.nh) A res := fun x => hs (th x)
  have hinv : ∀ x, Inv E c (withThicknesses mats (th x)) (unsolved c.nh) A res
      (afterCalls E c (hist x) (Dyn.fresh (withThicknesses mats (th x)) (unsolved c.nh))) :=
    fun x => (inv_fresh _ (.inl rfl)).calls (hs' x) (hist x)
  refine ⟨fun x => hinit, fun X0 h => ?_, fun id zs hz F0 h => ?_⟩
  · unfold diffractionEfficiencies at h
    rw [PyM.bind_def] at h
    rcases he : efficienciesByOrder E c
        (afterCalls E c (hist x0) (Dyn.fresh (withThicknesses mats (th x0)) (unsolved c.nh))) with ⟨e | RT, d⟩
    · rw [he] at h; cases h
    obtain ⟨R, T, h1, h2⟩ := smooth_efficiencies hs' hth (yields_efficiencies (hs' x0) _ _ _ (hinv x0) he)
    refine ⟨R, T, h1, ?_⟩
    filter_upwards [h2] with x hx
    have := hx _ (hinv x)
    unfold diffractionEfficiencies
    constructor
    · rw [PyM.bind_ok (Prod.ext_iff.mpr ⟨this, rfl⟩)]; rfl
    · rw [PyM.bind_ok (Prod.ext_iff.mpr ⟨this, rfl⟩)]; rfl
  · obtain ⟨-, hres, r, i, ab, hg, hab, hm⟩ := yields_getFieldFourier (hs' x0) id _ _ F0 _ (hinv x0)
      (Prod.ext_iff.mpr ⟨h, rfl⟩)
    obtain ⟨G, hG, he⟩ := smooth_fields hs' hth hg hres hab zs hz hm
    refine ⟨G, ?_, hG, ?_⟩
    · have := he.self_of_nhds _ (hinv x0)
      rw [h] at this
      have h1 := mapM_ok_length hm
      rw [Except.ok.inj this] at h1
      simpa using h1
    · filter_upwards [he] with x hx
      exact hx _ (hinv x)

/-- **C88**: let the thicknesses be analytic functions of a parameter `t` (for instance the thickness of one layer), and
let a method return a result for `t0`. Then in every bounded interval it fails for finitely many `t` at most. For the
fields this concerns any sequence of depths, once some field of that layer is returned for `t0`. -/
theorem C88_isolated_failures (hinit : simInit E lats mats stack exc nh form = .ok c) (th : ℝ → ℕ → ℝ)
    (hth : ∀ r ∈ stack, ∀ t, AnalyticAt ℝ (fun t => th t r) t) (hist : ℝ → List (Call c.nh)) (t0 a b : ℝ) :
    (∀ X0, (diffractionEfficiencies E c true
        (afterCalls E c (hist t0) (Dyn.fresh (withThicknesses mats (th t0)) (unsolved c.nh)))).1 = .ok X0 →
      ∀ orders, {t ∈ Set.Icc a b | ¬ ∃ X, (diffractionEfficiencies E c orders
        (afterCalls E c (hist t) (Dyn.fresh (withThicknesses mats (th t)) (unsolved c.nh)))).1 = .ok X}.Finite) ∧
    ∀ id z0 zs0 F0, (getFieldFourier E c id (z0 :: zs0)
        (afterCalls E c (hist t0) (Dyn.fresh (withThicknesses mats (th t0)) (unsolved c.nh)))).1 = .ok F0 →
      {t ∈ Set.Icc a b | ¬ ∀ zs, ∃ Fs, (getFieldFourier E c id zs
        (afterCalls E c (hist t) (Dyn.fresh (withThicknesses mats (th t)) (unsolved c.nh)))).1 = .ok Fs}.Finite := by
  have hi := simInit_ok hinit
  have hnd : c.stack.Nodup := hi.nodup
  rw [← hi.stack_eq] at hth
  obtain ⟨A, res, hs⟩ := withThicknesses_spec (E := E) (mats := mats) hnd
  have hs' : ∀ x, SolveSpec E c (withThicknesses mats (th x)) (unsolved c.nh) A res := fun x => hs (th x)
  have hinv : ∀ x, Inv E c (withThicknesses mats (th x)) (unsolved c.nh) A res
      (afterCalls E c (hist x) (Dyn.fresh (withThicknesses mats (th x)) (unsolved c.nh))) :=
    fun x => (inv_fresh _ (.inl rfl)).calls (hs' x) (hist x)
  refine ⟨fun X0 h orders => finite_exceptions ?_ a b, fun id z0 zs0 F0 h => finite_exceptions ?_ a b⟩
  · unfold diffractionEfficiencies at h
    rw [PyM.bind_def] at h
    rcases he : efficienciesByOrder E c
        (afterCalls E c (hist t0) (Dyn.fresh (withThicknesses mats (th t0)) (unsolved c.nh))) with ⟨e | RT, d⟩
    · rw [he] at h; cases h
    filter_upwards [generic_efficiencies hs' hth (yields_efficiencies (hs' t0) _ _ _ (hinv t0) he)] with t ht
    obtain ⟨RT', h'⟩ := ht _ (hinv t)
    unfold diffractionEfficiencies
    rw [PyM.bind_ok (Prod.ext_iff.mpr ⟨h', rfl⟩)]
    cases orders
    · exact ⟨_, rfl⟩
    · exact ⟨_, rfl⟩
  · obtain ⟨-, hres, r, i, ab, hg, hab, hm⟩ := yields_getFieldFourier (hs' t0) id _ _ F0 _ (hinv t0)
      (Prod.ext_iff.mpr ⟨h, rfl⟩)
    filter_upwards [generic_fields hs' hth hg hres hab hm] with t ht
    exact ht _ (hinv t)

end smooth

namespace Examples

theorem lossy_thick : (withThicknesses lossyMats fun r => if r = 1 then 1 / 8 else 1) = lossyMats := by
  funext r
  unfold withThicknesses lossyMats
  by_cases h0 : r = 0
  · subst h0; simp [exLayer]
  by_cases h1 : r = 1
  · subst h1; simp [exLayer]
  · simp [h0, h1, exLayer]

/-- C87: the absorbing grating of C85, its thickness the parameter, at `1 / 8`; the results are analytic. -/
example : ∃ c, simInit exE (fun _ => exLat) lossyMats [0, 1, 2] exExc 1 "original" = .ok c ∧
    (∀ r ∈ ([0, 1, 2] : List ℕ), ContDiffAt ℝ ⊤ (fun t : ℝ => if r = 1 then t else 1) (1 / 8)) ∧
    ∃ X0, (diffractionEfficiencies exE c true (afterCalls exE c [] (Dyn.fresh
      (withThicknesses lossyMats fun r => if r = 1 then 1 / 8 else 1) (unsolved c.nh)))).1 = .ok X0 ∧
    ∃ R T : Fin c.nh → ℝ → ℝ, (∀ i, ContDiffAt ℝ ⊤ (R i) (1 / 8) ∧ ContDiffAt ℝ ⊤ (T i) (1 / 8)) ∧
      ∀ᶠ t in 𝓝 (1 / 8 : ℝ), (diffractionEfficiencies exE c true (afterCalls exE c [] (Dyn.fresh
        (withThicknesses lossyMats fun r => if r = 1 then t else 1) (unsolved c.nh)))).1 =
          .ok (.byOrder (fun i => R i t) (fun i => T i t)) := by
  obtain ⟨c, d1, hc, -, -, -, -, -, -, -, -, -, -, -, -, -, -, hX⟩ := lossy_run
  have hth : ∀ r ∈ ([0, 1, 2] : List ℕ), ContDiffAt ℝ ⊤ (fun t : ℝ => if r = 1 then t else 1) (1 / 8) := by
    intro r _
    by_cases hr : r = 1
    · simp only [hr, if_true]; exact contDiffAt_id
    · simpa [hr] using contDiffAt_const
  obtain ⟨X0, h0⟩ := hX []
  obtain ⟨-, h2, -⟩ := C87_thickness_derivatives hc ⊤ (1 / 8 : ℝ) (fun t r => if r = 1 then t else 1) hth fun _ => []
  obtain ⟨R, T, h3, h4⟩ := h2 X0 (by rw [lossy_thick]; exact h0)
  refine ⟨c, hc, hth, X0, by rw [lossy_thick]; exact h0, R, T, h3, ?_⟩
  filter_upwards [h4] with t ht
  exact ht.1

/-- C88: the absorbing grating of C85, its thickness the parameter. -/
example : ∃ c, simInit exE (fun _ => exLat) lossyMats [0, 1, 2] exExc 1 "original" = .ok c ∧
    (∀ r ∈ ([0, 1, 2] : List ℕ), ∀ t, AnalyticAt ℝ (fun t : ℝ => if r = 1 then t else 1) t) ∧
    (∃ X0, (diffractionEfficiencies exE c true (afterCalls exE c [] (Dyn.fresh
      (withThicknesses lossyMats fun r => if r = 1 then 1 / 8 else 1) (unsolved c.nh)))).1 = .ok X0) ∧
    {t ∈ Set.Icc (0 : ℝ) 1000 | ¬ ∃ X, (diffractionEfficiencies exE c true (afterCalls exE c [] (Dyn.fresh
      (withThicknesses lossyMats fun r => if r = 1 then t else 1) (unsolved c.nh)))).1 = .ok X}.Finite := by
  obtain ⟨c, d1, hc, -, -, -, -, -, -, -, -, -, -, -, -, -, -, hX⟩ := lossy_run
  have hth : ∀ r ∈ ([0, 1, 2] : List ℕ), ∀ t, AnalyticAt ℝ (fun t : ℝ => if r = 1 then t else 1) t := by
    intro r _ t
    by_cases hr : r = 1
    · simp only [hr, if_true]; exact analyticAt_id
    · simp only [hr, if_false]; exact analyticAt_const
  obtain ⟨X0, h0⟩ := hX []
  rw [← lossy_thick] at h0
  exact ⟨c, hc, hth, ⟨X0, h0⟩, (C88_isolated_failures hc (fun t r => if r = 1 then t else 1) hth (fun _ => [])
    (1 / 8) 0 1000).1 X0 h0 true⟩

end Examples

end Nannos
