import Verif.Proofs.EnergyStack
import Verif.Proofs.Total
import Verif.Proofs.Pixelated
import Verif.Spec.Smooth
import Mathlib.Analysis.Calculus.ContDiff.Operations
import Mathlib.Analysis.SpecialFunctions.ExpDeriv
import Mathlib.Analysis.SpecialFunctions.Trigonometric.Basic

/-! Results as functions of the thicknesses of the layers (C87). -/

namespace Nannos

open Matrix Spec Topology

variable {V : Type} [NormedAddCommGroup V] [NormedSpace ℝ V] {n : WithTop ℕ∞} {x0 : V}

section matrices
variable {a b k : Type} [Fintype a] [Fintype b]

/-- All entries are `n` times continuously differentiable at `x0`. -/
def SmM (n : WithTop ℕ∞) (x0 : V) (A : V → Matrix a b ℂ) : Prop := ∀ i j, ContDiffAt ℝ n (fun x => A x i j) x0

/-- All entries are `n` times continuously differentiable at `x0`. -/
def SmV (n : WithTop ℕ∞) (x0 : V) (v : V → a → ℂ) : Prop := ∀ i, ContDiffAt ℝ n (fun x => v x i) x0

theorem SmM.const (A : Matrix a b ℂ) : SmM n x0 fun _ => A := fun _ _ => contDiffAt_const

theorem SmV.const (v : a → ℂ) : SmV n x0 fun _ => v := fun _ => contDiffAt_const

theorem SmM.add {A B : V → Matrix a b ℂ} (hA : SmM n x0 A) (hB : SmM n x0 B) : SmM n x0 fun x => A x + B x :=
  fun i j => (hA i j).add (hB i j)

theorem SmM.sub {A B : V → Matrix a b ℂ} (hA : SmM n x0 A) (hB : SmM n x0 B) : SmM n x0 fun x => A x - B x :=
  fun i j => (hA i j).sub (hB i j)

theorem SmV.add {A B : V → a → ℂ} (hA : SmV n x0 A) (hB : SmV n x0 B) : SmV n x0 fun x => A x + B x :=
  fun i => (hA i).add (hB i)

theorem SmM.mul {A : V → Matrix a b ℂ} {B : V → Matrix b k ℂ} [Fintype k] (hA : SmM n x0 A) (hB : SmM n x0 B) :
    SmM n x0 fun x => A x * B x := fun i j => by
  simp only [Matrix.mul_apply]
  exact ContDiffAt.sum fun l _ => (hA i l).mul (hB l j)

theorem SmM.mulVec {A : V → Matrix a b ℂ} {v : V → b → ℂ} (hA : SmM n x0 A) (hv : SmV n x0 v) :
    SmV n x0 fun x => A x *ᵥ v x := fun i => by
  simp only [Matrix.mulVec, dotProduct]
  exact ContDiffAt.sum fun l _ => (hA i l).mul (hv l)

variable [DecidableEq a]

theorem SmM.det {A : V → Matrix a a ℂ} (hA : SmM n x0 A) : ContDiffAt ℝ n (fun x => (A x).det) x0 := by
  simp only [Matrix.det_apply]
  refine ContDiffAt.sum fun s _ => ?_
  have : ContDiffAt ℝ n (fun x => ∏ i, A x (s i) i) x0 := contDiffAt_prod fun i _ => hA _ _
  rcases Int.units_eq_one_or (Equiv.Perm.sign s) with h | h
  · simpa [h] using this
  · simpa [h] using this.neg

theorem SmM.inv {A : V → Matrix a a ℂ} (hA : SmM n x0 A) (h0 : (A x0).det ≠ 0) : SmM n x0 fun x => (A x)⁻¹ := by
  intro i j
  simp only [Matrix.inv_def, Ring.inverse_eq_inv', Matrix.smul_apply, smul_eq_mul, Matrix.adjugate_apply]
  refine (hA.det.inv h0).mul (SmM.det fun p q => ?_)
  by_cases hp : p = j
  · subst hp
    simp only [Matrix.updateRow_self]
    exact contDiffAt_const
  · simp only [Matrix.updateRow_ne hp]
    exact hA p q

theorem SmM.diagonal {v : V → a → ℂ} (hv : SmV n x0 v) : SmM n x0 fun x => Matrix.diagonal (v x) := by
  intro i j
  by_cases h : i = j
  · subst h
    simpa using hv i
  · simp only [Matrix.diagonal_apply_ne _ h]
    exact contDiffAt_const

theorem SmM.det_ne {A : V → Matrix a a ℂ} (hA : SmM n x0 A) (h0 : (A x0).det ≠ 0) :
    ∀ᶠ x in 𝓝 x0, (A x).det ≠ 0 := hA.det.continuousAt.eventually_ne h0

end matrices

/-- If `f` returns a value at `x0` then it does near `x0`, and the value satisfies `P` as a function. -/
def SmE {α : Type} (P : (V → α) → Prop) (x0 : V) (f : V → Except PyErr α) : Prop :=
  ∀ v, f x0 = .ok v → ∃ g, P g ∧ ∀ᶠ x in 𝓝 x0, f x = .ok (g x)

theorem SmE.bind {α β : Type} {P : (V → α) → Prop} {Q : (V → β) → Prop} {f : V → Except PyErr α}
    {k : V → α → Except PyErr β} (hf : SmE P x0 f) (hk : ∀ g, P g → SmE Q x0 fun x => k x (g x)) :
    SmE Q x0 fun x => f x >>= k x := by
  intro v hv
  rw [bind_eq_ok] at hv
  obtain ⟨u, h1, h2⟩ := hv
  obtain ⟨g, hg, he⟩ := hf u h1
  have hu : g x0 = u := Except.ok.inj (he.self_of_nhds.symm.trans h1)
  obtain ⟨w, hw, hw'⟩ := hk g hg v (by show k x0 (g x0) = _; rw [hu]; exact h2)
  refine ⟨w, hw, ?_⟩
  filter_upwards [he, hw'] with x e1 e2
  rw [e1]
  exact e2

theorem SmE.ok {α : Type} {P : (V → α) → Prop} {g : V → α} (hg : P g) : SmE P x0 fun x => .ok (g x) :=
  fun _ _ => ⟨g, hg, Filter.Eventually.of_forall fun _ => rfl⟩

theorem SmE.error {α : Type} {P : (V → α) → Prop} {f : V → Except PyErr α} {e} (h : f x0 = .error e) : SmE P x0 f :=
  fun v hv => by rw [h] at hv; cases hv

theorem SmE.mono {α : Type} {P Q : (V → α) → Prop} {f : V → Except PyErr α} (hf : SmE P x0 f)
    (h : ∀ g, P g → Q g) : SmE Q x0 f := fun v hv => by
  obtain ⟨g, hg, he⟩ := hf v hv
  exact ⟨g, h g hg, he⟩

theorem SmE.const {α : Type} {P : (V → α) → Prop} (hP : ∀ v : α, P fun _ => v) (e : Except PyErr α) :
    SmE P x0 fun _ => e := fun v hv => ⟨fun _ => v, hP v, Filter.Eventually.of_forall fun _ => hv⟩

section smatrix
variable {m : Type} [Fintype m] [DecidableEq m]

theorem smE_linSolve {k : Type} [Fintype k] {A : V → Matrix m m ℂ} {B : V → Matrix m k ℂ} (hA : SmM n x0 A)
    (hB : SmM n x0 B) : SmE (SmM n x0) x0 fun x => linSolve (A x) (B x) := by
  intro v hv
  obtain ⟨h0, -⟩ := (linSolve_ok _ _ _).mp hv
  refine ⟨fun x => (A x)⁻¹ * B x, (hA.inv h0).mul hB, ?_⟩
  filter_upwards [hA.det_ne h0] with x hx
  exact (linSolve_ok _ _ _).mpr ⟨hx, rfl⟩

theorem smE_linSolveVec {A : V → Matrix m m ℂ} {B : V → m → ℂ} (hA : SmM n x0 A)
    (hB : SmV n x0 B) : SmE (SmV n x0) x0 fun x => linSolveVec (A x) (B x) := by
  intro v hv
  obtain ⟨h0, -⟩ := (linSolveVec_ok _ _ _).mp hv
  refine ⟨fun x => (A x)⁻¹ *ᵥ B x, (hA.inv h0).mulVec hB, ?_⟩
  filter_upwards [hA.det_ne h0] with x hx
  exact (linSolveVec_ok _ _ _).mpr ⟨hx, rfl⟩

/-- Modes fixed, thickness smooth. -/
def SmL (n : WithTop ℕ∞) (x0 : V) (L : V → Modes m) : Prop :=
  ∃ L0 : Modes m, (∀ x, (L x).q = L0.q ∧ (L x).phi = L0.phi ∧ (L x).Q = L0.Q) ∧ ContDiffAt ℝ n (fun x => (L x).z) x0

theorem SmV.phasor (q : m → ℂ) {z : V → ℝ} (hz : ContDiffAt ℝ n z x0) : SmV n x0 fun x => phasor q (z x) := by
  intro i
  unfold Nannos.phasor
  exact (contDiffAt_const.mul (Complex.ofRealCLM.contDiff.contDiffAt.comp x0 hz)).cexp

theorem SmL.f {L : V → Modes m} (h : SmL n x0 L) : SmM n x0 fun x => (L x).f := by
  obtain ⟨L0, h0, hz⟩ := h
  have : (fun x => (L x).f) = fun x => Matrix.diagonal (Nannos.phasor L0.q (L x).z) := by
    funext x; unfold Modes.f; rw [(h0 x).1]
  rw [this]
  exact SmM.diagonal (SmV.phasor _ hz)

theorem SmL.buildI {L L' : V → Modes m} (h : SmL n x0 L) (h' : SmL n x0 L') :
    ∃ r, ∀ x, buildI (L x) (L' x) = r := by
  obtain ⟨L0, h0, hz⟩ := h
  obtain ⟨L0', h0', hz'⟩ := h'
  refine ⟨Nannos.buildI L0 L0', fun x => ?_⟩
  have key : ∀ M M0 : Modes m, M.q = M0.q ∧ M.phi = M0.phi ∧ M.Q = M0.Q → buildM M = buildM M0 := by
    rintro ⟨q, p, Q, t⟩ ⟨q0, p0, Q0, t0⟩ ⟨h1, h2, h3⟩
    dsimp only at h1 h2 h3
    subst h1 h2 h3
    rfl
  unfold Nannos.buildI
  rw [key _ _ (h0 x), key _ _ (h0' x)]

/-- All entries of a scattering matrix are smooth. -/
def SmS (n : WithTop ℕ∞) (x0 : V) (S : V → SMat m) : Prop :=
  SmM n x0 (fun x => (S x).s11) ∧ SmM n x0 (fun x => (S x).s12) ∧ SmM n x0 (fun x => (S x).s21) ∧
  SmM n x0 (fun x => (S x).s22)

theorem smE_stepS {S : V → SMat m} {L L' : V → Modes m} (hS : SmS n x0 S) (h : SmL n x0 L) (h' : SmL n x0 L') :
    SmE (SmS n x0) x0 fun x => stepS (S x) (L x) (L' x) := by
  obtain ⟨r, hr⟩ := h.buildI h'
  unfold stepS
  simp only [hr]
  obtain ⟨h11, h12, h21, h22⟩ := hS
  refine SmE.bind (P := SmM n x0) (SmE.const (fun v => SmM.const v) r) fun I hI => ?_
  have b11 : SmM n x0 fun x => (I x).toBlocks₁₁ := fun i j => hI _ _
  have b12 : SmM n x0 fun x => (I x).toBlocks₁₂ := fun i j => hI _ _
  have b21 : SmM n x0 fun x => (I x).toBlocks₂₁ := fun i j => hI _ _
  have b22 : SmM n x0 fun x => (I x).toBlocks₂₂ := fun i j => hI _ _
  have hA := b11.sub ((h.f.mul h12).mul b21)
  refine SmE.bind (P := SmM n x0) (smE_linSolve hA (h.f.mul h11)) fun s11 k11 => ?_
  refine SmE.bind (P := SmM n x0) (smE_linSolve hA ((((h.f.mul h12).mul b22).sub b12).mul h'.f)) fun s12 k12 => ?_
  exact SmE.ok (P := SmS n x0) (g := fun x => (⟨s11 x, s12 x, (S x).s22 * (I x).toBlocks₂₁ * s11 x + (S x).s21,
    (S x).s22 * (I x).toBlocks₂₁ * s12 x + (S x).s22 * (I x).toBlocks₂₂ * (L' x).f⟩ : SMat m))
    ⟨k11, k12, ((h22.mul b21).mul k11).add h21, ((h22.mul b21).mul k12).add ((h22.mul b22).mul h'.f)⟩

end smatrix

section sim
variable {E : Ext} {c : Static} {mats : ℕ → LayerSpec} {th : V → ℕ → ℝ}

theorem withThicknesses_init {lats : ℕ → Lattice} {stack : List ℕ} {exc : PlaneWave} {nh : ℤ} {form : String}
    (t : ℕ → ℝ) : simInit E lats (withThicknesses mats t) stack exc nh form = simInit E lats mats stack exc nh form := by
  rfl

theorem withThicknesses_solve (t : ℕ → ℝ) (rs : List ℕ) : ∀ A : ℕ → LayerAttr c.nh,
    ((solveAll E c rs (Dyn.fresh (withThicknesses mats t) A)).1 = (solveAll E c rs (Dyn.fresh mats A)).1 ∧
     (solveAll E c rs (Dyn.fresh (withThicknesses mats t) A)).2.attrs =
       (solveAll E c rs (Dyn.fresh mats A)).2.attrs) := by
  induction rs with
  | nil => intro A; exact ⟨rfl, rfl⟩
  | cons r rs ih =>
    intro A
    rw [solveAll_cons, solveAll_cons, solveLayer_eq, solveLayer_eq]
    have : stepOut E c ((Dyn.fresh (withThicknesses mats t) A).mats r)
          ((Dyn.fresh (withThicknesses mats t) A).attrs ((Dyn.fresh (withThicknesses mats t) A).mats r).original) =
        stepOut E c ((Dyn.fresh mats A).mats r) ((Dyn.fresh mats A).attrs ((Dyn.fresh mats A).mats r).original) := by
      rfl
    rw [this]
    generalize stepOut E c ((Dyn.fresh mats A).mats r) ((Dyn.fresh mats A).attrs ((Dyn.fresh mats A).mats r).original) = o
    rcases o with ⟨_ | _, f⟩
    · exact ⟨rfl, rfl⟩
    · exact ih _

theorem withThicknesses_spec (hnd : c.stack.Nodup) : ∃ A1 res, ∀ t, SolveSpec E c (withThicknesses mats t)
    (unsolved c.nh) A1 res := by
  refine ⟨(solveAll E c c.stack (Dyn.fresh mats (unsolved c.nh))).2.attrs,
    (solveAll E c c.stack (Dyn.fresh mats (unsolved c.nh))).1, fun t => ?_⟩
  obtain ⟨A1, res, hs, -⟩ := solveSpec_of_noStale (E := E) hnd (noStale_unsolved (withThicknesses mats t) c.stack)
  have h := hs.run (Dyn.fresh (withThicknesses mats t) (unsolved c.nh)) rfl (.inl rfl)
  obtain ⟨h1, h2⟩ := withThicknesses_solve (E := E) (mats := mats) t c.stack (unsolved c.nh)
  rw [h] at h1 h2
  dsimp only at h1 h2
  subst h1 h2
  exact hs

variable {A : ℕ → LayerAttr c.nh} {res : Except PyErr Unit}

theorem smE_modesOf {r : ℕ} (hth : ContDiffAt ℝ n (fun x => th x r) x0) :
    SmE (SmL n x0) x0 fun x => modesOf (withThicknesses mats (th x) r) (A r) := by
  unfold modesOf
  rcases (A r).eig with _ | ev
  · exact SmE.error rfl
  rcases (A r).Qeps with _ | Q
  · exact SmE.error rfl
  refine SmE.ok (P := SmL n x0)
    (g := fun x => (⟨ev.1, ev.2, Q, (withThicknesses mats (th x) r).thickness⟩ : Modes (Idx c.nh)))
    ⟨⟨ev.1, ev.2, Q, none⟩, fun x => ⟨rfl, rfl, rfl⟩, ?_⟩
  unfold Modes.z withThicknesses
  rcases (mats r).thickness with _ | t
  · exact contDiffAt_const
  · exact hth

theorem smE_valS (hth : ∀ r ∈ c.stack, ContDiffAt ℝ n (fun x => th x r) x0) (idx : Option (ℤ × ℤ)) :
    SmE (SmS n x0) x0 fun x => valS c (withThicknesses mats (th x)) A res idx := by
  have hl : ∀ i, SmE (SmL n x0) x0 fun x => lmodes c (withThicknesses mats (th x)) A i := by
    intro i
    unfold lmodes
    rcases hr : pyGet c.stack i with e | r
    · exact SmE.error rfl
    · exact smE_modesOf (hth r (pyGet_mem hr))
  have hf : ∀ (l : List ℤ) (S : V → SMat (Idx c.nh)), SmS n x0 S →
      SmE (SmS n x0) x0 fun x => foldS c (withThicknesses mats (th x)) A (S x) l := by
    intro l
    induction l with
    | nil => intro S hS; exact SmE.ok hS
    | cons i l ih =>
      intro S hS
      simp only [foldS_cons]
      refine SmE.bind (P := SmS n x0) ?_ fun S' hS' => ih S' hS'
      unfold stepD
      exact SmE.bind (hl i) fun L hL => SmE.bind (hl (i + 1)) fun L' hL' => smE_stepS hS hL hL'
  unfold valS
  rcases res with e | u
  · exact SmE.error rfl
  simp only [except_bind_ok]
  by_cases h : interfaces c idx = []
  · simp only [h, if_true]
    exact SmE.error rfl
  · simp only [h, if_false]
    exact hf _ _ ⟨SmM.const _, SmM.const _, SmM.const _, SmM.const _⟩

theorem smE_poynting {M : V → Modes (Idx c.nh)} (hM : SmL n x0 M) {a b : V → Idx c.nh → ℂ} (ha : SmV n x0 a)
    (hb : SmV n x0 b) : SmE (fun f : V → (Fin c.nh → ℝ) × (Fin c.nh → ℝ) =>
      ∀ i, ContDiffAt ℝ n (fun x => (f x).1 i) x0 ∧ ContDiffAt ℝ n (fun x => (f x).2 i) x0) x0
      fun x => poyntingFlux c (M x) (a x) (b x) := by
  obtain ⟨M0, h0, -⟩ := hM
  unfold poyntingFlux
  simp only [fun x => (h0 x).1, fun x => (h0 x).2.1, fun x => (h0 x).2.2]
  by_cases hq : ∃ k, (c.omega : ℂ) * M0.q k = 0
  · simp only [hq, if_true]
    exact SmE.error rfl
  simp only [hq, if_false]
  have hre : ∀ {f : V → ℂ}, ContDiffAt ℝ n f x0 → ContDiffAt ℝ n (fun x => (f x).re) x0 := fun hf =>
    Complex.reCLM.contDiff.contDiffAt.comp x0 hf
  have hof : ∀ {f : V → ℝ}, ContDiffAt ℝ n f x0 → ContDiffAt ℝ n (fun x => (f x : ℂ)) x0 := fun hf =>
    Complex.ofRealCLM.contDiff.contDiffAt.comp x0 hf
  have hst : ∀ {f : V → ℂ}, ContDiffAt ℝ n f x0 → ContDiffAt ℝ n (fun x => star (f x)) x0 := fun hf =>
    Complex.conjCLE.contDiff.contDiffAt.comp x0 hf
  have pa := (SmM.const (n := n) (x0 := x0) M0.phi).mulVec ha
  have pb := (SmM.const (n := n) (x0 := x0) M0.phi).mulVec hb
  have qa := (SmM.const (n := n) (x0 := x0)
    (M0.Q * M0.phi * diagonal fun k => 1 / ((c.omega : ℂ) * M0.q k))).mulVec ha
  have qb := (SmM.const (n := n) (x0 := x0)
    (M0.Q * M0.phi * diagonal fun k => 1 / ((c.omega : ℂ) * M0.q k))).mulVec hb
  refine SmE.ok fun i => ⟨?_, ?_⟩
  · have := fun k => (hof (hre ((hst (qa k)).mul (pa k)))).add
      (contDiffAt_const (c := (1 / 2 : ℂ)).mul (((hst (pb k)).mul (qa k)).sub ((hst (qb k)).mul (pa k))))
    exact hre ((this (.inl i)).add (this (.inr i)))
  · have := fun k => (hof (hre ((hst (qb k)).mul (pb k)))).neg.add
      (hst (contDiffAt_const (c := (1 / 2 : ℂ)).mul (((hst (pb k)).mul (qa k)).sub ((hst (qb k)).mul (pa k)))))
    exact hre ((this (.inl i)).add (this (.inr i)))

/-- Efficiencies as functions of the parameters. -/
theorem smooth_efficiencies (hs : ∀ x, SolveSpec E c (withThicknesses mats (th x)) (unsolved c.nh) A res)
    (hth : ∀ r ∈ c.stack, ContDiffAt ℝ n (fun x => th x r) x0) {RT}
    (h : EffV c (withThicknesses mats (th x0)) A res RT) :
    ∃ R T : Fin c.nh → V → ℝ, (∀ i, ContDiffAt ℝ n (R i) x0 ∧ ContDiffAt ℝ n (T i) x0) ∧
      ∀ᶠ x in 𝓝 x0, ∀ d, Inv E c (withThicknesses mats (th x)) (unsolved c.nh) A res d →
        (efficienciesByOrder E c d).1 = .ok (fun i => R i x, fun i => T i x) := by
  obtain ⟨hres, S0, r0, rN, M0, MN, f0, fN, hS, hr0, hrN, hM0, hMN, hf0, hfN, hfl, -⟩ := h
  obtain ⟨S, sm, se⟩ := smE_valS (A := A) (mats := mats) (res := res) hth none S0 hS
  obtain ⟨L0, l0, e0⟩ := smE_modesOf (A := A) (mats := mats) (hth r0 (pyGet_mem hr0)) M0 hM0
  obtain ⟨LN, lN, eN⟩ := smE_modesOf (A := A) (mats := mats) (hth rN (pyGet_mem hrN)) MN hMN
  have hSx : S x0 = S0 := Except.ok.inj (se.self_of_nhds.symm.trans hS)
  have h0x : L0 x0 = M0 := Except.ok.inj (e0.self_of_nhds.symm.trans hM0)
  have hNx : LN x0 = MN := Except.ok.inj (eN.self_of_nhds.symm.trans hMN)
  obtain ⟨F0, s0, k0⟩ := smE_poynting l0 (SmV.const c.a0) (sm.2.2.1.mulVec (SmV.const c.a0)) f0
    (by dsimp only; rw [hSx, h0x]; exact hf0)
  obtain ⟨FN, sN, kN⟩ := smE_poynting lN (sm.1.mulVec (SmV.const c.a0)) (SmV.const 0) fN
    (by dsimp only; rw [hSx, hNx]; exact hfN)
  refine ⟨fun i x => -(F0 x).2 i / c.incidentFlux, fun i x => (FN x).1 i / c.incidentFlux, fun i =>
    ⟨(s0 i).2.neg.div_const _, (sN i).1.div_const _⟩, ?_⟩
  have hq : ∀ {M : Modes (Idx c.nh)} {a b f}, poyntingFlux c M a b = .ok f → ∀ k, (c.omega : ℂ) * M.q k ≠ 0 := by
    intro M a b f hf k hk
    unfold poyntingFlux at hf
    rw [if_pos ⟨k, hk⟩] at hf
    cases hf
  filter_upwards [se, e0, eN, k0, kN] with x x1 x2 x3 x4 x5
  intro d hd
  obtain ⟨RT', d', e, -, g0, gN, y1, y2, rfl⟩ := succeeds_efficiencies (hs x) x1 hr0 hrN x2 x3 (hq x4) (hq x5) hfl d hd
  obtain rfl := Except.ok.inj (x4.symm.trans y1)
  obtain rfl := Except.ok.inj (x5.symm.trans y2)
  rw [e]

/-- `get_field_fourier` once the amplitudes are known. -/
theorem fourier_run {A0 : ℕ → LayerAttr c.nh} (hs : SolveSpec E c mats A0 A res) {id : LayerId} {r i}
    (hg : getLayer c id = .ok (r, i)) (hres : res = .ok ()) (h : AmpOk c mats A res i)
    {P : (Idx c.nh → ℂ) × (Idx c.nh → ℂ)} (hP : ∀ ab, AmpV c mats A res i ab → ab = P) (zs : List ℝ) {d : Dyn c.nh}
    (hd : Inv E c mats A0 A res d) :
    (getFieldFourier E c id zs d).1 = zs.mapM (fieldAt c (mats r) (A r) P.1 P.2) := by
  obtain ⟨_, d1, h1, h2⟩ := succeeds_ensureSolved hs hres d hd
  obtain ⟨ab, d2, h3, h4⟩ := succeeds_getAmplitudes hs h d1 h2
  have h5 := (yields_getAmplitudes hs i d1 ab d2 h2 h3).2
  obtain rfl := hP ab h5
  unfold getFieldFourier
  have hl : ∀ {α β : Type} (a : α) (f : α → PyM (Dyn c.nh) β),
      ((PyM.lift (Except.ok a) : PyM (Dyn c.nh) α) >>= f) = f a := fun a f => rfl
  rw [hg, hl]
  dsimp only
  rw [PyM.bind_ok h1, PyM.bind_ok h3]
  show (PyM.lift (List.mapM (fieldAt c (d2.mats r) (d2.attrs r) ab.1 ab.2) zs) d2).1 = _
  rw [h4.mats_eq, h4.attrs_eq]
  rfl

theorem smooth_amplitudes (hth : ∀ r ∈ c.stack, ContDiffAt ℝ n (fun x => th x r) x0) {i : ℤ} {ab0}
    (h : AmpV c (withThicknesses mats (th x0)) A res i ab0) :
    ∃ a b : V → Idx c.nh → ℂ, SmV n x0 a ∧ SmV n x0 b ∧ (a x0, b x0) = ab0 ∧
      ∀ᶠ x in 𝓝 x0, AmpOk c (withThicknesses mats (th x)) A res i ∧
        ∀ ab, AmpV c (withThicknesses mats (th x)) A res i ab → ab = (a x, b x) := by
  obtain ⟨hr, h⟩ := h
  have uniq : ∀ {x idx} {S T : SMat (Idx c.nh)}, valS c (withThicknesses mats (th x)) A res idx = .ok S →
      valS c (withThicknesses mats (th x)) A res idx = .ok T → T = S := fun e1 e2 => Except.ok.inj (e2.symm.trans e1)
  rcases h with ⟨h0, S0, hS, rfl⟩ | ⟨h0, hn, S0, hS, rfl⟩ | ⟨h0, hn, hm, S0, P0, hS, hP, hdet, ha, hb⟩
  · obtain ⟨S, sm, se⟩ := smE_valS (A := A) (mats := mats) (res := res) hth none S0 hS
    refine ⟨fun _ => c.a0, fun x => (S x).s21 *ᵥ c.a0, SmV.const _, sm.2.2.1.mulVec (SmV.const _),
      by dsimp only; rw [uniq hS se.self_of_nhds], ?_⟩
    filter_upwards [se] with x hx
    refine ⟨⟨hr, fun _ => ⟨_, hx⟩, fun n => absurd h0 n⟩, ?_⟩
    rintro ab ⟨-, ⟨-, S', hS', rfl⟩ | ⟨n, -⟩ | ⟨n, -⟩⟩
    · rw [uniq hx hS']
    · exact absurd h0 n
    · exact absurd h0 n
  · obtain ⟨S, sm, se⟩ := smE_valS (A := A) (mats := mats) (res := res) hth none S0 hS
    refine ⟨fun x => (S x).s11 *ᵥ c.a0, fun _ => 0, sm.1.mulVec (SmV.const _), SmV.const _,
      by dsimp only; rw [uniq hS se.self_of_nhds], ?_⟩
    filter_upwards [se] with x hx
    refine ⟨⟨hr, fun _ => ⟨_, hx⟩, fun _ n1 n2 => (hn.elim n1 n2).elim⟩, ?_⟩
    rintro ab ⟨-, ⟨n, -⟩ | ⟨-, -, S', hS', rfl⟩ | ⟨-, n1, n2, -⟩⟩
    · exact absurd n h0
    · rw [uniq hx hS']
    · exact (hn.elim n1 n2).elim
  · obtain ⟨S, sm, se⟩ := smE_valS (A := A) (mats := mats) (res := res) hth _ S0 hS
    obtain ⟨P, pm, pe⟩ := smE_valS (A := A) (mats := mats) (res := res) hth _ P0 hP
    have e1 := uniq hS se.self_of_nhds
    have e2 := uniq hP pe.self_of_nhds
    have hQ : SmM n x0 fun x => (1 : Matrix (Idx c.nh) (Idx c.nh) ℂ) - (S x).s12 * (P x).s21 :=
      (SmM.const 1).sub (sm.2.1.mul pm.2.2.1)
    have hd0 : (1 - (S x0).s12 * (P x0).s21).det ≠ 0 := by rw [e1, e2]; exact hdet
    have hav := (hQ.inv hd0).mulVec (sm.1.mulVec (SmV.const (n := n) (x0 := x0) c.a0))
    refine ⟨fun x => (1 - (S x).s12 * (P x).s21)⁻¹ *ᵥ ((S x).s11 *ᵥ c.a0),
      fun x => (P x).s21 *ᵥ ((1 - (S x).s12 * (P x).s21)⁻¹ *ᵥ ((S x).s11 *ᵥ c.a0)), hav,
      pm.2.2.1.mulVec hav, ?_, ?_⟩
    · dsimp only; rw [e1, e2, ← ha, ← hb]
    · filter_upwards [se, pe, hQ.det_ne hd0] with x x1 x2 x3
      refine ⟨⟨hr, fun h => ?_, fun _ _ _ => ⟨_, _, x1, x2, x3⟩⟩, ?_⟩
      · rcases h with h | h | h
        · exact absurd h h0
        · exact absurd h hn
        · exact absurd h hm
      rintro ab ⟨-, ⟨n, -⟩ | ⟨-, n | n, -⟩ | ⟨-, -, -, S', P', hS', hP', -, h1, h2⟩⟩
      · exact absurd n h0
      · exact absurd n hn
      · exact absurd n hm
      · obtain rfl := uniq x1 hS'
        obtain rfl := uniq x2 hP'
        exact Prod.ext h1 (by rw [h2, h1])

theorem smE_fieldAt {r : ℕ} (hth : ContDiffAt ℝ n (fun x => th x r) x0) {a b : V → Idx c.nh → ℂ} (ha : SmV n x0 a)
    (hb : SmV n x0 b) {z : V → ℝ} (hz : ContDiffAt ℝ n z x0) :
    SmE (SmoothField n x0) x0
      fun x => fieldAt c (withThicknesses mats (th x) r) (A r) (a x) (b x) (z x) := by
  unfold fieldAt modesOf
  rcases (A r).eig with _ | ev
  · exact SmE.error rfl
  rcases (A r).Qeps with _ | Q
  · exact SmE.error rfl
  simp only [attr, except_bind_ok]
  have hpure : ∀ {α : Type} (v : α), (pure v : Except PyErr α) = .ok v := fun _ => rfl
  simp only [hpure, except_bind_ok]
  unfold translateAmplitudes
  have hthk : ∀ x, (withThicknesses mats (th x) r).thickness = (mats r).thickness.map fun _ => th x r := fun _ => rfl
  simp only [hthk]
  rcases (mats r).thickness with _ | t
  · exact SmE.error rfl
  simp only [Option.map_some, except_bind_ok]
  have hai : SmV n x0 fun x => (fun k => a x k * phasor ev.1 (z x) k) := fun k => (ha k).mul (SmV.phasor ev.1 hz k)
  have hbi : SmV n x0 fun x => (fun k => b x k * phasor ev.1 (th x r - z x) k) := fun k =>
    (hb k).mul (SmV.phasor ev.1 (hth.sub hz) k)
  refine SmE.bind (P := fun _ => True) (SmE.const (fun _ => trivial) _) fun _ _ => ?_
  have hht := (SmM.const (n := n) (x0 := x0) ev.2).mulVec (hai.add hbi)
  have hA : SmV n x0 fun x => (fun k => (a x k * phasor ev.1 (z x) k - b x k * phasor ev.1 (th x r - z x) k) /
      ((c.omega : ℂ) * ev.1 k)) := fun k => ((hai k).sub (hbi k)).div_const _
  have het := (SmM.const (n := n) (x0 := x0) Q).mulVec ((SmM.const (n := n) (x0 := x0) ev.2).mulVec hA)
  refine SmE.bind (P := SmV n x0) ?_ fun ez hez => SmE.ok fun i => ⟨het _, (het _).neg, hez i, hht _, hht _, ?_⟩
  · have hdz : SmV n x0 fun x => (fun i : Fin c.nh =>
        (c.ky i * (ev.2 *ᵥ ((fun k => a x k * phasor ev.1 (z x) k) +
          fun k => b x k * phasor ev.1 (th x r - z x) k)) (.inl i) -
         c.kx i * (ev.2 *ᵥ ((fun k => a x k * phasor ev.1 (z x) k) +
          fun k => b x k * phasor ev.1 (th x r - z x) k)) (.inr i)) / (c.omega : ℂ)) := fun i =>
      ((contDiffAt_const.mul (hht _)).sub (contDiffAt_const.mul (hht _))).div_const _
    unfold normalE
    have hu : ∀ x, (withThicknesses mats (th x) r).isUniform = (mats r).isUniform := fun _ => rfl
    have he : ∀ x, (withThicknesses mats (th x) r).epsilon.value = (mats r).epsilon.value := fun _ => rfl
    simp only [hu, he]
    by_cases h : (mats r).isUniform = true
    · simp only [h, if_true]
      by_cases h0 : (mats r).epsilon.value = 0
      · simp only [h0, if_true]
        exact SmE.error rfl
      · simp only [h0, if_false]
        exact SmE.ok fun i => (hdz i).div_const _
    · simp only [h, if_false]
      rcases (A r).pat with _ | p
      · exact SmE.error rfl
      · exact smE_linSolveVec (SmM.const p.epsHat) hdz
  · exact ((contDiffAt_const.mul (het _).neg).sub (contDiffAt_const.mul (het _))).div_const _

/-- Fields as functions of the parameters. -/
theorem smooth_fields (hs : ∀ x, SolveSpec E c (withThicknesses mats (th x)) (unsolved c.nh) A res)
    (hth : ∀ r ∈ c.stack, ContDiffAt ℝ n (fun x => th x r) x0) {id : LayerId} {r i} (hg : getLayer c id = .ok (r, i))
    (hres : res = .ok ()) {ab} (hab : AmpV c (withThicknesses mats (th x0)) A res i ab) (zs : List (V → ℝ))
    (hz : ∀ z ∈ zs, ContDiffAt ℝ n z x0) {Fs}
    (h : (zs.map fun z => z x0).mapM (fieldAt c (withThicknesses mats (th x0) r) (A r) ab.1 ab.2) = .ok Fs) :
    ∃ G : List (V → FieldF c.nh), (∀ g ∈ G, SmoothField n x0 g) ∧
      ∀ᶠ x in 𝓝 x0, ∀ d, Inv E c (withThicknesses mats (th x)) (unsolved c.nh) A res d →
        (getFieldFourier E c id (zs.map fun z => z x) d).1 = .ok (G.map fun g => g x) := by
  obtain ⟨a, b, ha, hb, rfl, hev⟩ := smooth_amplitudes hth hab
  have hr : ContDiffAt ℝ n (fun x => th x r) x0 := hth r (pyGet_mem (getLayer_pyGet hg))
  have key : ∀ zs : List (V → ℝ), (∀ z ∈ zs, ContDiffAt ℝ n z x0) → ∀ Fs,
      (zs.map fun z => z x0).mapM (fieldAt c (withThicknesses mats (th x0) r) (A r) (a x0) (b x0)) = .ok Fs →
      ∃ G : List (V → FieldF c.nh), (∀ g ∈ G, SmoothField n x0 g) ∧ ∀ᶠ x in 𝓝 x0,
        (zs.map fun z => z x).mapM (fieldAt c (withThicknesses mats (th x) r) (A r) (a x) (b x)) =
          .ok (G.map fun g => g x) := by
    intro zs
    induction zs with
    | nil => exact fun _ _ _ => ⟨[], by simp, Filter.Eventually.of_forall fun _ => rfl⟩
    | cons z zs ih =>
      intro hz Fs h
      obtain ⟨F, Fs', f1, f2, rfl⟩ := mapM_ok_cons.mp h
      obtain ⟨g, hg1, hg2⟩ := smE_fieldAt (A := A) (mats := mats) hr ha hb (hz z (by simp)) F f1
      obtain ⟨G, hG1, hG2⟩ := ih (fun z' hz' => hz z' (by simp [hz'])) Fs' f2
      refine ⟨g :: G, by simpa using ⟨hg1, hG1⟩, ?_⟩
      filter_upwards [hg2, hG2] with x x1 x2
      exact mapM_ok_cons.mpr ⟨_, _, x1, x2, rfl⟩
  obtain ⟨G, hG1, hG2⟩ := key zs hz Fs h
  refine ⟨G, hG1, ?_⟩
  filter_upwards [hev, hG2] with x x1 x2
  intro d hd
  rw [fourier_run (hs x) hg hres x1.1 x1.2 _ hd]
  exact x2

theorem mapM_ok_length {α β : Type} {f : α → Except PyErr β} : ∀ {l : List α} {ys}, l.mapM f = .ok ys →
    ys.length = l.length
  | [], ys, h => by
    obtain rfl : [] = ys := by simpa using h
    rfl
  | x :: l, ys, h => by
    obtain ⟨y, ys', -, h2, rfl⟩ := mapM_ok_cons.mp h
    simp [mapM_ok_length h2]

end sim

end Nannos
