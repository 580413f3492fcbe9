import Verif.Proofs.Smooth
import Mathlib.Analysis.Meromorphic.Order
import Mathlib.Analysis.SpecialFunctions.Exp

/-! Thicknesses for which results are undefined are isolated (C88). -/

namespace Nannos

open Matrix Spec Topology

variable {t0 : ℝ}

/-- Meromorphic, and continuous at `t0`. -/
def Me (t0 : ℝ) (f : ℝ → ℂ) : Prop := Meromorphic f ∧ ContinuousAt f t0

theorem Me.const (v : ℂ) : Me t0 fun _ => v := ⟨Meromorphic.const v, continuousAt_const⟩

theorem Me.add {f g : ℝ → ℂ} (hf : Me t0 f) (hg : Me t0 g) : Me t0 fun t => f t + g t :=
  ⟨hf.1.add hg.1, hf.2.add hg.2⟩

theorem Me.sub {f g : ℝ → ℂ} (hf : Me t0 f) (hg : Me t0 g) : Me t0 fun t => f t - g t :=
  ⟨hf.1.sub hg.1, hf.2.sub hg.2⟩

theorem Me.neg {f : ℝ → ℂ} (hf : Me t0 f) : Me t0 fun t => -f t := ⟨hf.1.neg, hf.2.neg⟩

theorem Me.mul {f g : ℝ → ℂ} (hf : Me t0 f) (hg : Me t0 g) : Me t0 fun t => f t * g t :=
  ⟨hf.1.mul hg.1, hf.2.mul hg.2⟩

theorem Me.div_const {f : ℝ → ℂ} (hf : Me t0 f) (v : ℂ) : Me t0 fun t => f t / v := by
  simpa only [div_eq_mul_inv] using hf.mul (Me.const v⁻¹)

theorem Me.inv {f : ℝ → ℂ} (hf : Me t0 f) (h : f t0 ≠ 0) : Me t0 fun t => (f t)⁻¹ := ⟨hf.1.inv, hf.2.inv₀ h⟩

theorem Me.sum {ι : Type} {s : Finset ι} {f : ι → ℝ → ℂ} (hf : ∀ i ∈ s, Me t0 (f i)) :
    Me t0 fun t => ∑ i ∈ s, f i t := by
  constructor
  · intro x
    exact MeromorphicAt.fun_sum fun i hi => (hf i hi).1 x
  · exact tendsto_finset_sum _ fun i hi => (hf i hi).2

theorem Me.prod {ι : Type} {s : Finset ι} {f : ι → ℝ → ℂ} (hf : ∀ i ∈ s, Me t0 (f i)) :
    Me t0 fun t => ∏ i ∈ s, f i t := by
  constructor
  · intro x
    exact MeromorphicAt.fun_prod fun i hi => (hf i hi).1 x
  · exact tendsto_finset_prod _ fun i hi => (hf i hi).2

/-- A function which does not vanish at `t0` vanishes at isolated points only. -/
theorem Me.ne_zero {f : ℝ → ℂ} (hf : Me t0 f) (h : f t0 ≠ 0) : ∀ᶠ t in Filter.codiscrete ℝ, f t ≠ 0 := by
  have h0 : meromorphicOrderAt f t0 ≠ ⊤ := by
    rw [meromorphicOrderAt_ne_top_iff_eventually_ne_zero (hf.1 t0)]
    exact (hf.2.eventually_ne h).filter_mono nhdsWithin_le_nhds
  have h1 : ∀ t, meromorphicOrderAt f t ≠ ⊤ := fun t =>
    (meromorphicOn_univ.mpr hf.1).meromorphicOrderAt_ne_top_of_isPreconnected isPreconnected_univ
      (Set.mem_univ t0) (Set.mem_univ t) h0
  exact (meromorphicOn_univ.mpr hf.1).eventually_codiscreteWithin_apply_ne_zero fun x _ => h1 x

section matrices
variable {a b k : Type} [Fintype a] [Fintype b]

def MeM (t0 : ℝ) (A : ℝ → Matrix a b ℂ) : Prop := ∀ i j, Me t0 fun t => A t i j

def MeV (t0 : ℝ) (v : ℝ → a → ℂ) : Prop := ∀ i, Me t0 fun t => v t i

theorem MeM.const (A : Matrix a b ℂ) : MeM t0 fun _ => A := fun _ _ => Me.const _

theorem MeV.const (v : a → ℂ) : MeV t0 fun _ => v := fun _ => Me.const _

theorem MeM.add {A B : ℝ → Matrix a b ℂ} (hA : MeM t0 A) (hB : MeM t0 B) : MeM t0 fun t => A t + B t :=
  fun i j => (hA i j).add (hB i j)

theorem MeM.sub {A B : ℝ → Matrix a b ℂ} (hA : MeM t0 A) (hB : MeM t0 B) : MeM t0 fun t => A t - B t :=
  fun i j => (hA i j).sub (hB i j)

theorem MeV.add {A B : ℝ → a → ℂ} (hA : MeV t0 A) (hB : MeV t0 B) : MeV t0 fun t => A t + B t :=
  fun i => (hA i).add (hB i)

theorem MeM.mul {A : ℝ → Matrix a b ℂ} {B : ℝ → Matrix b k ℂ} [Fintype k] (hA : MeM t0 A) (hB : MeM t0 B) :
    MeM t0 fun t => A t * B t := fun i j => by
  simp only [Matrix.mul_apply]
  exact Me.sum fun l _ => (hA i l).mul (hB l j)

theorem MeM.mulVec {A : ℝ → Matrix a b ℂ} {v : ℝ → b → ℂ} (hA : MeM t0 A) (hv : MeV t0 v) :
    MeV t0 fun t => A t *ᵥ v t := fun i => by
  simp only [Matrix.mulVec, dotProduct]
  exact Me.sum fun l _ => (hA i l).mul (hv l)

variable [DecidableEq a]

theorem MeM.det {A : ℝ → Matrix a a ℂ} (hA : MeM t0 A) : Me t0 fun t => (A t).det := by
  simp only [Matrix.det_apply]
  refine Me.sum fun s _ => ?_
  have : Me t0 fun t => ∏ i, A t (s i) i := Me.prod fun i _ => hA _ _
  rcases Int.units_eq_one_or (Equiv.Perm.sign s) with h | h
  · simpa [h] using this
  · simpa [h] using this.neg

theorem MeM.inv {A : ℝ → Matrix a a ℂ} (hA : MeM t0 A) (h0 : (A t0).det ≠ 0) : MeM t0 fun t => (A t)⁻¹ := by
  intro i j
  simp only [Matrix.inv_def, Ring.inverse_eq_inv', Matrix.smul_apply, smul_eq_mul, Matrix.adjugate_apply]
  refine (hA.det.inv h0).mul (MeM.det fun p q => ?_)
  by_cases hp : p = j
  · subst hp
    simp only [Matrix.updateRow_self]
    exact Me.const _
  · simp only [Matrix.updateRow_ne hp]
    exact hA p q

theorem MeM.diagonal {v : ℝ → a → ℂ} (hv : MeV t0 v) : MeM t0 fun t => Matrix.diagonal (v t) := by
  intro i j
  by_cases h : i = j
  · subst h
    simpa using hv i
  · simp only [Matrix.diagonal_apply_ne _ h]
    exact Me.const _

end matrices

/-- If `f` returns a value at `t0` then it does except at isolated points, and the value satisfies `P` as a
function. -/
def MeE {α : Type} (P : (ℝ → α) → Prop) (t0 : ℝ) (f : ℝ → Except PyErr α) : Prop :=
  ∀ v, f t0 = .ok v → ∃ g, P g ∧ g t0 = v ∧ ∀ᶠ t in Filter.codiscrete ℝ, f t = .ok (g t)

theorem MeE.bind {α β : Type} {P : (ℝ → α) → Prop} {Q : (ℝ → β) → Prop} {f : ℝ → Except PyErr α}
    {k : ℝ → α → Except PyErr β} (hf : MeE P t0 f) (hk : ∀ g, P g → MeE Q t0 fun t => k t (g t)) :
    MeE Q t0 fun t => f t >>= k t := by
  intro v hv
  rw [bind_eq_ok] at hv
  obtain ⟨u, h1, h2⟩ := hv
  obtain ⟨g, hg, hu, he⟩ := hf u h1
  obtain ⟨w, hw, hw0, hw'⟩ := hk g hg v (by show k t0 (g t0) = _; rw [hu]; exact h2)
  refine ⟨w, hw, hw0, ?_⟩
  filter_upwards [he, hw'] with x e1 e2
  rw [e1]
  exact e2

theorem MeE.ok {α : Type} {P : (ℝ → α) → Prop} {g : ℝ → α} (hg : P g) : MeE P t0 fun x => .ok (g x) :=
  fun _ h => ⟨g, hg, Except.ok.inj h, Filter.Eventually.of_forall fun _ => rfl⟩

theorem MeE.error {α : Type} {P : (ℝ → α) → Prop} {f : ℝ → Except PyErr α} {e} (h : f t0 = .error e) : MeE P t0 f :=
  fun v hv => by rw [h] at hv; cases hv

theorem MeE.const {α : Type} {P : (ℝ → α) → Prop} (hP : ∀ v : α, P fun _ => v) (e : Except PyErr α) :
    MeE P t0 fun _ => e := fun v hv => ⟨fun _ => v, hP v, rfl, Filter.Eventually.of_forall fun _ => hv⟩

section smatrix
variable {m : Type} [Fintype m] [DecidableEq m]

theorem meE_linSolve {k : Type} [Fintype k] {A : ℝ → Matrix m m ℂ} {B : ℝ → Matrix m k ℂ} (hA : MeM t0 A)
    (hB : MeM t0 B) : MeE (MeM t0) t0 fun t => linSolve (A t) (B t) := by
  intro v hv
  obtain ⟨h0, h1⟩ := (linSolve_ok _ _ _).mp hv
  refine ⟨fun t => (A t)⁻¹ * B t, (hA.inv h0).mul hB, h1.symm, ?_⟩
  filter_upwards [hA.det.ne_zero h0] with t ht
  exact (linSolve_ok _ _ _).mpr ⟨ht, rfl⟩

theorem meE_linSolveVec {A : ℝ → Matrix m m ℂ} {B : ℝ → m → ℂ} (hA : MeM t0 A)
    (hB : MeV t0 B) : MeE (MeV t0) t0 fun t => linSolveVec (A t) (B t) := by
  intro v hv
  obtain ⟨h0, h1⟩ := (linSolveVec_ok _ _ _).mp hv
  refine ⟨fun t => (A t)⁻¹ *ᵥ B t, (hA.inv h0).mulVec hB, h1.symm, ?_⟩
  filter_upwards [hA.det.ne_zero h0] with t ht
  exact (linSolveVec_ok _ _ _).mpr ⟨ht, rfl⟩

/-- An analytic function. -/
def Entire (z : ℝ → ℝ) : Prop := ∀ t, AnalyticAt ℝ z t

/-- Modes fixed, thickness analytic. -/
def MeL (L : ℝ → Modes m) : Prop :=
  ∃ L0 : Modes m, (∀ x, (L x).q = L0.q ∧ (L x).phi = L0.phi ∧ (L x).Q = L0.Q) ∧ Entire fun t => (L t).z

theorem MeV.phasor (q : m → ℂ) {z : ℝ → ℝ} (hz : Entire z) : MeV t0 fun t => phasor q (z t) := by
  intro i
  unfold Nannos.phasor
  have : ∀ t, AnalyticAt ℝ (fun t => Complex.exp (Complex.I * q i * (z t : ℂ))) t := by
    intro t
    have h1 : AnalyticAt ℝ (fun t => Complex.I * q i * (z t : ℂ)) t :=
      analyticAt_const.mul ((Complex.ofRealCLM.analyticAt _).comp (hz t))
    exact (analyticAt_cexp.restrictScalars (𝕜 := ℝ)).comp h1
  exact ⟨fun t => (this t).meromorphicAt, (this t0).continuousAt⟩

theorem MeL.f {L : ℝ → Modes m} (h : MeL L) : MeM t0 fun x => (L x).f := by
  obtain ⟨L0, h0, hz⟩ := h
  have : (fun x => (L x).f) = fun x => Matrix.diagonal (Nannos.phasor L0.q (L x).z) := by
    funext x; unfold Modes.f; rw [(h0 x).1]
  rw [this]
  exact MeM.diagonal (MeV.phasor _ hz)

theorem MeL.buildI {L L' : ℝ → Modes m} (h : MeL L) (h' : MeL L') :
    ∃ r, ∀ x, buildI (L x) (L' x) = r := by
  obtain ⟨L0, h0, hz⟩ := h
  obtain ⟨L0', h0', hz'⟩ := h'
  exact SmL.buildI (n := 0) (x0 := (0 : ℝ)) ⟨L0, h0, (hz 0).contDiffAt⟩ ⟨L0', h0', (hz' 0).contDiffAt⟩

def MeS (t0 : ℝ) (S : ℝ → SMat m) : Prop :=
  MeM t0 (fun x => (S x).s11) ∧ MeM t0 (fun x => (S x).s12) ∧ MeM t0 (fun x => (S x).s21) ∧
  MeM t0 (fun x => (S x).s22)

theorem meE_stepS {S : ℝ → SMat m} {L L' : ℝ → Modes m} (hS : MeS t0 S) (h : MeL L) (h' : MeL L') :
    MeE (MeS t0) t0 fun x => stepS (S x) (L x) (L' x) := by
  obtain ⟨r, hr⟩ := h.buildI h'
  unfold stepS
  simp only [hr]
  obtain ⟨h11, h12, h21, h22⟩ := hS
  refine MeE.bind (P := MeM t0) (MeE.const (fun v => MeM.const v) r) fun I hI => ?_
  have b11 : MeM t0 fun x => (I x).toBlocks₁₁ := fun i j => hI _ _
  have b12 : MeM t0 fun x => (I x).toBlocks₁₂ := fun i j => hI _ _
  have b21 : MeM t0 fun x => (I x).toBlocks₂₁ := fun i j => hI _ _
  have b22 : MeM t0 fun x => (I x).toBlocks₂₂ := fun i j => hI _ _
  have hA := b11.sub ((h.f.mul h12).mul b21)
  refine MeE.bind (P := MeM t0) (meE_linSolve hA (h.f.mul h11)) fun s11 k11 => ?_
  refine MeE.bind (P := MeM t0) (meE_linSolve hA ((((h.f.mul h12).mul b22).sub b12).mul h'.f)) fun s12 k12 => ?_
  exact MeE.ok (P := MeS t0) (g := fun x => (⟨s11 x, s12 x, (S x).s22 * (I x).toBlocks₂₁ * s11 x + (S x).s21,
    (S x).s22 * (I x).toBlocks₂₁ * s12 x + (S x).s22 * (I x).toBlocks₂₂ * (L' x).f⟩ : SMat m))
    ⟨k11, k12, ((h22.mul b21).mul k11).add h21, ((h22.mul b21).mul k12).add ((h22.mul b22).mul h'.f)⟩

end smatrix

section sim
variable {E : Ext} {c : Static} {mats : ℕ → LayerSpec} {th : ℝ → ℕ → ℝ} {A : ℕ → LayerAttr c.nh}
  {res : Except PyErr Unit}

theorem meE_modesOf {r : ℕ} (hth : Entire fun x => th x r) :
    MeE MeL t0 fun x => modesOf (withThicknesses mats (th x) r) (A r) := by
  unfold modesOf
  rcases (A r).eig with _ | ev
  · exact MeE.error rfl
  rcases (A r).Qeps with _ | Q
  · exact MeE.error rfl
  refine MeE.ok (P := MeL)
    (g := fun x => (⟨ev.1, ev.2, Q, (withThicknesses mats (th x) r).thickness⟩ : Modes (Idx c.nh)))
    ⟨⟨ev.1, ev.2, Q, none⟩, fun x => ⟨rfl, rfl, rfl⟩, ?_⟩
  unfold Modes.z withThicknesses
  rcases (mats r).thickness with _ | t
  · exact fun _ => analyticAt_const
  · exact hth

theorem meE_valS (hth : ∀ r ∈ c.stack, Entire fun x => th x r) (idx : Option (ℤ × ℤ)) :
    MeE (MeS t0) t0 fun x => valS c (withThicknesses mats (th x)) A res idx := by
  have hl : ∀ i, MeE MeL t0 fun x => lmodes c (withThicknesses mats (th x)) A i := by
    intro i
    unfold lmodes
    rcases hr : pyGet c.stack i with e | r
    · exact MeE.error rfl
    · exact meE_modesOf (hth r (pyGet_mem hr))
  have hf : ∀ (l : List ℤ) (S : ℝ → SMat (Idx c.nh)), MeS t0 S →
      MeE (MeS t0) t0 fun x => foldS c (withThicknesses mats (th x)) A (S x) l := by
    intro l
    induction l with
    | nil => intro S hS; exact MeE.ok hS
    | cons i l ih =>
      intro S hS
      simp only [foldS_cons]
      refine MeE.bind (P := MeS t0) ?_ fun S' hS' => ih S' hS'
      unfold stepD
      exact MeE.bind (hl i) fun L hL => MeE.bind (hl (i + 1)) fun L' hL' => meE_stepS hS hL hL'
  unfold valS
  rcases res with e | u
  · exact MeE.error rfl
  simp only [except_bind_ok]
  by_cases h : interfaces c idx = []
  · simp only [h, if_true]
    exact MeE.error rfl
  · simp only [h, if_false]
    exact hf _ _ ⟨MeM.const _, MeM.const _, MeM.const _, MeM.const _⟩

theorem generic_efficiencies (hs : ∀ x, SolveSpec E c (withThicknesses mats (th x)) (unsolved c.nh) A res)
    (hth : ∀ r ∈ c.stack, Entire fun x => th x r) {RT} (h : EffV c (withThicknesses mats (th t0)) A res RT) :
    ∀ᶠ t in Filter.codiscrete ℝ, ∀ d, Inv E c (withThicknesses mats (th t)) (unsolved c.nh) A res d →
      ∃ RT, (efficienciesByOrder E c d).1 = .ok RT := by
  obtain ⟨hres, S0, r0, rN, M0, MN, f0, fN, hS, hr0, hrN, hM0, hMN, hf0, hfN, hfl, -⟩ := h
  obtain ⟨S, -, -, se⟩ := meE_valS (A := A) (mats := mats) (res := res) hth none S0 hS
  obtain ⟨L0, ⟨K0, k0, -⟩, l0, e0⟩ := meE_modesOf (A := A) (mats := mats) (hth r0 (pyGet_mem hr0)) M0 hM0
  obtain ⟨LN, ⟨KN, kN, -⟩, lN, eN⟩ := meE_modesOf (A := A) (mats := mats) (hth rN (pyGet_mem hrN)) MN hMN
  have hq : ∀ {M : Modes (Idx c.nh)} {a b f}, poyntingFlux c M a b = .ok f → ∀ k, (c.omega : ℂ) * M.q k ≠ 0 := by
    intro M a b f hf k hk
    unfold poyntingFlux at hf
    rw [if_pos ⟨k, hk⟩] at hf
    cases hf
  have q0 : ∀ t k, (c.omega : ℂ) * (L0 t).q k ≠ 0 := by
    intro t k
    rw [(k0 t).1, ← (k0 t0).1, l0]
    exact hq hf0 k
  have qN : ∀ t k, (c.omega : ℂ) * (LN t).q k ≠ 0 := by
    intro t k
    rw [(kN t).1, ← (kN t0).1, lN]
    exact hq hfN k
  filter_upwards [se, e0, eN] with t x1 x2 x3
  intro d hd
  obtain ⟨RT', d', e, -⟩ := succeeds_efficiencies (hs t) x1 hr0 hrN x2 x3 (q0 t) (qN t) hfl d hd
  exact ⟨RT', by rw [e]⟩

theorem generic_amplitudes (hth : ∀ r ∈ c.stack, Entire fun x => th x r) {i : ℤ} {ab0}
    (h : AmpV c (withThicknesses mats (th t0)) A res i ab0) :
    ∀ᶠ t in Filter.codiscrete ℝ, AmpOk c (withThicknesses mats (th t)) A res i := by
  obtain ⟨hr, h⟩ := h
  rcases h with ⟨h0, S0, hS, rfl⟩ | ⟨h0, hn, S0, hS, rfl⟩ | ⟨h0, hn, hm, S0, P0, hS, hP, hdet, ha, hb⟩
  · obtain ⟨S, -, -, se⟩ := meE_valS (A := A) (mats := mats) (res := res) hth none S0 hS
    filter_upwards [se] with x hx
    exact ⟨hr, fun _ => ⟨_, hx⟩, fun n => absurd h0 n⟩
  · obtain ⟨S, -, -, se⟩ := meE_valS (A := A) (mats := mats) (res := res) hth none S0 hS
    filter_upwards [se] with x hx
    exact ⟨hr, fun _ => ⟨_, hx⟩, fun _ n1 n2 => (hn.elim n1 n2).elim⟩
  · obtain ⟨S, sm, e1, se⟩ := meE_valS (A := A) (mats := mats) (res := res) hth _ S0 hS
    obtain ⟨P, pm, e2, pe⟩ := meE_valS (A := A) (mats := mats) (res := res) hth _ P0 hP
    have hQ : MeM t0 fun x => (1 : Matrix (Idx c.nh) (Idx c.nh) ℂ) - (S x).s12 * (P x).s21 :=
      (MeM.const 1).sub (sm.2.1.mul pm.2.2.1)
    have hd0 : (1 - (S t0).s12 * (P t0).s21).det ≠ 0 := by rw [e1, e2]; exact hdet
    filter_upwards [se, pe, hQ.det.ne_zero hd0] with x x1 x2 x3
    refine ⟨hr, fun h => ?_, fun _ _ _ => ⟨_, _, x1, x2, x3⟩⟩
    rcases h with h | h | h
    · exact absurd h h0
    · exact absurd h hn
    · exact absurd h hm

/-- Whether fields can be evaluated does not depend on thicknesses, amplitudes and depth. -/
theorem fieldAt_anywhere {r : ℕ} {t1 t2 : ℕ → ℝ} {a b a' b' : Idx c.nh → ℂ} {z z' : ℝ} {F}
    (h : fieldAt c (withThicknesses mats t1 r) (A r) a b z = .ok F) :
    ∃ F', fieldAt c (withThicknesses mats t2 r) (A r) a' b' z' = .ok F' := by
  unfold fieldAt modesOf at h ⊢
  generalize (A r).eig = eo at h ⊢
  rcases eo with _ | ev
  · cases h
  generalize (A r).Qeps = Qo at h ⊢
  rcases Qo with _ | Q
  · cases h
  have hpure : ∀ {α : Type} (v : α), (pure v : Except PyErr α) = .ok v := fun _ => rfl
  simp only [attr, except_bind_ok, hpure] at h ⊢
  unfold translateAmplitudes at h ⊢
  have hthk : ∀ t, (withThicknesses mats t r).thickness = (mats r).thickness.map fun _ => t r := fun _ => rfl
  simp only [hthk] at h ⊢
  generalize (mats r).thickness = tho at h ⊢
  rcases tho with _ | t
  · cases h
  simp only [Option.map_some, except_bind_ok] at h ⊢
  rw [bind_eq_ok] at h
  obtain ⟨u, h1, h⟩ := h
  rw [h1, except_bind_ok]
  rw [bind_eq_ok] at h
  obtain ⟨e, h2, -⟩ := h
  have key : ∀ {L L' : LayerSpec} {dz dz' x}, L.isUniform = L'.isUniform → L.epsilon = L'.epsilon →
      normalE L (A r) dz = .ok x → ∃ x', normalE L' (A r) dz' = .ok x' := by
    intro L L' dz dz' x e1 e2 h
    unfold normalE at h ⊢
    rw [e1, e2] at h
    by_cases hu : L'.isUniform = true
    · simp only [hu, if_true] at h ⊢
      by_cases h0 : L'.epsilon.value = 0
      · simp only [h0, if_true] at h; cases h
      · simp only [h0, if_false]; exact ⟨_, rfl⟩
    · simp only [hu, if_false] at h ⊢
      generalize (A r).pat = po at h ⊢
      rcases po with _ | p
      · cases h
      · have h' : linSolveVec p.epsHat dz = .ok x := h
        exact ⟨_, (linSolveVec_ok _ _ _).mpr ⟨((linSolveVec_ok _ _ _).mp h').1, rfl⟩⟩
  obtain ⟨e', h3⟩ := key (L' := withThicknesses mats t2 r) (dz' := _) rfl rfl h2
  rw [h3]
  exact ⟨_, rfl⟩

theorem generic_fields (hs : ∀ x, SolveSpec E c (withThicknesses mats (th x)) (unsolved c.nh) A res)
    (hth : ∀ r ∈ c.stack, Entire fun x => th x r) {id : LayerId} {r i} (hg : getLayer c id = .ok (r, i))
    (hres : res = .ok ()) {ab} (hab : AmpV c (withThicknesses mats (th t0)) A res i ab) {z0 : ℝ} {zs0 : List ℝ} {Fs}
    (h : (z0 :: zs0).mapM (fieldAt c (withThicknesses mats (th t0) r) (A r) ab.1 ab.2) = .ok Fs) :
    ∀ᶠ t in Filter.codiscrete ℝ, ∀ d, Inv E c (withThicknesses mats (th t)) (unsolved c.nh) A res d → ∀ zs,
      ∃ Fs, (getFieldFourier E c id zs d).1 = .ok Fs := by
  obtain ⟨F, Fs', f1, -, -⟩ := mapM_ok_cons.mp h
  filter_upwards [generic_amplitudes hth hab] with t ht
  intro d hd zs
  obtain ⟨Fs, d', e, -⟩ := succeeds_getFieldFourier (hs t) hg hres ht (fun a b z => fieldAt_anywhere f1) zs d hd
  exact ⟨Fs, by rw [e]⟩

/-- Codiscrete: finitely many exceptions in every bounded interval. -/
theorem finite_exceptions {p : ℝ → Prop} (h : ∀ᶠ t in Filter.codiscrete ℝ, p t) (a b : ℝ) :
    {t ∈ Set.Icc a b | ¬ p t}.Finite := by
  have h1 := codiscreteWithin_iff_locallyFiniteComplementWithin.mp h
  choose! U hU hf using fun z => h1 z (Set.mem_univ z)
  obtain ⟨s, -, hs⟩ := isCompact_Icc.elim_nhds_subcover (s := Set.Icc a b) U fun x _ => hU x
  refine (s.finite_toSet.biUnion fun z _ => hf z).subset ?_
  rintro t ⟨ht, hp⟩
  obtain ⟨z, hz, hzt⟩ := Set.mem_iUnion₂.mp (hs ht)
  exact Set.mem_biUnion (show z ∈ (s : Set ℝ) from hz) ⟨hzt, Set.mem_univ t, hp⟩

end sim

end Nannos
