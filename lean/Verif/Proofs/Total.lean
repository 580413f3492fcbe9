import Verif.Proofs.FieldEqs

/-! When the methods of a `Simulation` succeed. -/

namespace Nannos

open Matrix Spec

variable {E : Ext} {c : Static}
variable {mats : ℕ → LayerSpec} {A0 A1 : ℕ → LayerAttr c.nh} {res : Except PyErr Unit}

/-- From states satisfying `P`, `x` returns a value and leaves a state satisfying `R`. -/
def Succeeds {α : Type} (P : Dyn c.nh → Prop) (x : PyM (Dyn c.nh) α) (R : α → Dyn c.nh → Prop) : Prop :=
  ∀ d, P d → ∃ a d', x d = (.ok a, d') ∧ R a d'

section
variable {α β : Type} {P : Dyn c.nh → Prop} {Q : α → Dyn c.nh → Prop} {R : β → Dyn c.nh → Prop}

theorem Succeeds.bind {x : PyM (Dyn c.nh) α} {f : α → PyM (Dyn c.nh) β} (hx : Succeeds P x Q)
    (hf : ∀ a, Succeeds (Q a) (f a) R) : Succeeds P (x >>= f) R := by
  intro d hd
  obtain ⟨a, d1, h1, h2⟩ := hx d hd
  obtain ⟨b, d2, h3, h4⟩ := hf a d1 h2
  exact ⟨b, d2, by rw [PyM.bind_ok h1, h3], h4⟩

theorem Succeeds.pure (a : α) (h : ∀ d, P d → Q a d) : Succeeds P (pure a : PyM (Dyn c.nh) α) Q :=
  fun d hd => ⟨a, d, rfl, h d hd⟩

theorem Succeeds.lift {v : Except PyErr α} {a : α} (hv : v = .ok a) (h : ∀ d, P d → Q a d) :
    Succeeds P (PyM.lift v : PyM (Dyn c.nh) α) Q :=
  fun d hd => ⟨a, d, by rw [hv]; rfl, h d hd⟩

theorem Succeeds.get_bind {f : Dyn c.nh → PyM (Dyn c.nh) β} (h : ∀ d, P d → Succeeds (· = d) (f d) R) :
    Succeeds P (PyM.get >>= f) R := by
  intro d hd
  exact h d hd d rfl

theorem Succeeds.mono {P' : Dyn c.nh → Prop} {Q' : α → Dyn c.nh → Prop} {x : PyM (Dyn c.nh) α}
    (h : Succeeds P x Q) (hP : ∀ d, P' d → P d) (hQ : ∀ a d, Q a d → Q' a d) : Succeeds P' x Q' :=
  fun d hd => by
    obtain ⟨a, d', h1, h2⟩ := h d (hP d hd)
    exact ⟨a, d', h1, hQ _ _ h2⟩

end

section
variable (hs : SolveSpec E c mats A0 A1 res)
include hs

theorem succeeds_ensureSolved (hres : res = .ok ()) : Succeeds (Inv E c mats A0 A1 res) (ensureSolved E c)
    (fun _ d => Inv2 E c mats A0 A1 res d) := by
  intro d hd
  obtain ⟨h1, h2, h3⟩ := det_ensureSolved' hs d hd
  exact ⟨(), _, Prod.ext (h1.trans hres) rfl, h3 () hres⟩

theorem succeeds_getS {idx} {S} (hS : valS c mats A1 res idx = .ok S) :
    Succeeds (Inv E c mats A0 A1 res) (getS E c idx) (fun T d => Inv2 E c mats A0 A1 res d ∧ T = S) := by
  intro d hd
  obtain ⟨h1, h2, h3⟩ := det_getS' hs idx d hd
  exact ⟨S, _, Prod.ext (h1.trans hS) rfl, h3 _ hS, rfl⟩

theorem succeeds_solveExt {S} (hS : valS c mats A1 res none = .ok S) {P : Dyn c.nh → Prop}
    (hP : ∀ d, P d → Inv E c mats A0 A1 res d)
    (hP2 : ∀ d, Inv2 E c mats A0 A1 res d → P d) : Succeeds P (solveExt E c)
    (fun ab d => P d ∧ ab = (S.s11 *ᵥ c.a0, S.s21 *ᵥ c.a0)) := by
  intro d hd
  obtain ⟨h1, h2, h3⟩ := det_readS' hs hP hP2 d hd
  set y : PyM (Dyn c.nh) (SMat (Idx c.nh)) := (do
      let d ← PyM.get
      match d.S with
        | some S => pure S
        | none => getS E c none) with hy
  have : solveExt E c d = ((y >>= fun S => pure (S.s11 *ᵥ c.a0 + S.s12 *ᵥ 0, S.s21 *ᵥ c.a0 + S.s22 *ᵥ 0)) :
      PyM (Dyn c.nh) _) d := by
    rw [hy]
    unfold solveExt
    simp only [PyM.bind_def, PyM.get]
    rcases d.S with _ | S <;> rfl
  have h1 : (y d).1 = valS c mats A1 res none := h1
  have h3 : ∀ a, valS c mats A1 res none = .ok a → P (y d).2 := h3
  rw [hS] at h1
  refine ⟨(S.s11 *ᵥ c.a0, S.s21 *ᵥ c.a0), (y d).2, ?_, h3 S hS, rfl⟩
  rw [this, PyM.bind_ok (Prod.ext h1 rfl)]
  simp [PyM.pure_def]

theorem succeeds_solveInt {i : ℤ} {r S P} (hr : pyGet c.stack i = .ok r)
    (hS : valS c mats A1 res (some (0, i)) = .ok S)
    (hP : valS c mats A1 res (some (i, (c.stack.length : ℤ) - 1)) = .ok P)
    (hdet : (1 - S.s12 * P.s21).det ≠ 0) :
    Succeeds (Inv2 E c mats A0 A1 res) (solveInt E c i) (fun _ d => Inv2 E c mats A0 A1 res d) := by
  unfold solveInt
  refine Succeeds.bind (Q := fun _ d => Inv2 E c mats A0 A1 res d) (Succeeds.lift hr fun _ h => h) fun _ => ?_
  refine Succeeds.bind ((succeeds_getS hs hS).mono (fun _ h => h.1) fun _ _ h => h) fun S' => ?_
  refine Succeeds.bind (Q := fun T d => (Inv2 E c mats A0 A1 res d ∧ T = P) ∧ S' = S) ?_ fun P' => ?_
  · intro d hd
    obtain ⟨T, d', h1, h2⟩ := succeeds_getS hs hP d hd.1.1
    exact ⟨T, d', h1, h2, hd.2⟩
  · rintro d ⟨⟨h1, rfl⟩, rfl⟩
    have hl : linSolveVec (1 - S'.s12 * P'.s21) (S'.s11 *ᵥ c.a0) =
        .ok ((1 - S'.s12 * P'.s21)⁻¹ *ᵥ (S'.s11 *ᵥ c.a0)) := (linSolveVec_ok _ _ _).mpr ⟨hdet, rfl⟩
    dsimp only
    rw [hl]
    exact ⟨_, d, rfl, h1⟩

/-- What `_get_amplitudes(i)` needs. -/
def AmpOk (c : Static) (mats : ℕ → LayerSpec) (A1 : ℕ → LayerAttr c.nh) (res : Except PyErr Unit) (i : ℤ) :
    Prop :=
  (∃ r, pyGet c.stack i = .ok r) ∧
  ((i = 0 ∨ i = (c.stack.length : ℤ) - 1 ∨ i = -1) → ∃ S, valS c mats A1 res none = .ok S) ∧
  (i ≠ 0 → i ≠ (c.stack.length : ℤ) - 1 → i ≠ -1 → ∃ S P, valS c mats A1 res (some (0, i)) = .ok S ∧
      valS c mats A1 res (some (i, (c.stack.length : ℤ) - 1)) = .ok P ∧ (1 - S.s12 * P.s21).det ≠ 0)

theorem succeeds_getAmplitudes {i : ℤ} (h : AmpOk c mats A1 res i) :
    Succeeds (Inv2 E c mats A0 A1 res) (getAmplitudes E c i) (fun _ d => Inv2 E c mats A0 A1 res d) := by
  obtain ⟨⟨r, hr⟩, h2, h3⟩ := h
  unfold getAmplitudes
  refine Succeeds.bind (Q := fun _ d => Inv2 E c mats A0 A1 res d) (Succeeds.lift hr fun _ h => h) fun _ => ?_
  have hext : ∀ S, valS c mats A1 res none = .ok S → _ := fun S hS =>
    succeeds_solveExt hs hS (P := Inv2 E c mats A0 A1 res) (fun _ h => h.1) fun _ h => h
  dsimp only
  by_cases h0 : i = 0
  · obtain ⟨S, hS⟩ := h2 (.inl h0)
    simp only [h0, if_true]
    exact (hext S hS).bind fun ab => Succeeds.pure _ fun d hd => hd.1
  · by_cases hn : i = (c.stack.length : ℤ) - 1 ∨ i = -1
    · obtain ⟨S, hS⟩ := h2 (.inr hn)
      simp only [h0, hn, if_true, if_false]
      exact (hext S hS).bind fun ab => Succeeds.pure _ fun d hd => hd.1
    · simp only [h0, hn, if_false]
      push Not at hn
      obtain ⟨S', P', e1, e2, e3⟩ := h3 h0 hn.1 hn.2
      exact succeeds_solveInt hs hr e1 e2 e3

theorem succeeds_getFieldFourier {id : LayerId} {r i} (hg : getLayer c id = .ok (r, i)) (hres : res = .ok ())
    (h : AmpOk c mats A1 res i)
    (hf : ∀ a b z, ∃ F, fieldAt c (mats r) (A1 r) a b z = .ok F) (zs : List ℝ) :
    Succeeds (Inv E c mats A0 A1 res) (getFieldFourier E c id zs) (fun _ d => Inv2 E c mats A0 A1 res d) := by
  unfold getFieldFourier
  refine Succeeds.bind (Q := fun ri d => Inv E c mats A0 A1 res d ∧ ri = (r, i))
    (Succeeds.lift hg fun _ h => ⟨h, rfl⟩) fun ri => ?_
  refine Succeeds.bind (Q := fun _ d => Inv2 E c mats A0 A1 res d ∧ ri = (r, i)) ?_ fun _ => ?_
  · rintro d ⟨hd, he⟩
    obtain ⟨a, d', h1, h2⟩ := succeeds_ensureSolved hs hres d hd
    exact ⟨a, d', h1, h2, he⟩
  refine Succeeds.bind (Q := fun _ d => Inv2 E c mats A0 A1 res d ∧ ri = (r, i)) ?_ fun ab => ?_
  · rintro d ⟨hd, rfl⟩
    obtain ⟨a, d', h1, h2⟩ := succeeds_getAmplitudes hs h d hd
    exact ⟨a, d', h1, h2, rfl⟩
  refine Succeeds.get_bind fun d hd => ?_
  obtain ⟨hd, rfl⟩ := hd
  dsimp only
  rw [hd.mats_eq, hd.attrs_eq]
  choose F hF using hf ab.1 ab.2
  exact Succeeds.lift (mapM_of_ok hF zs) (by rintro _ rfl; exact hd)

theorem succeeds_flux {i : ℤ} {r} (hr : pyGet c.stack i = .ok r) (hres : res = .ok ())
    {M} (hM : modesOf (mats r) (A1 r) = .ok M) (hq : ∀ k, (c.omega : ℂ) * M.q k ≠ 0) (an bn : Idx c.nh → ℂ) :
    Succeeds (Inv E c mats A0 A1 res) (getZPoyntingFlux E c i an bn)
      (fun fb d => Inv2 E c mats A0 A1 res d ∧ poyntingFlux c M an bn = .ok fb) := by
  unfold getZPoyntingFlux
  refine Succeeds.bind (succeeds_ensureSolved hs hres) fun _ => Succeeds.get_bind fun d hd => ?_
  have hl : layerModes c d i = .ok M := by
    unfold layerModes
    rw [hr, except_bind_ok, hd.mats_eq, hd.attrs_eq, hM]
  obtain ⟨fb, hfb⟩ : ∃ fb, poyntingFlux c M an bn = .ok fb := by
    unfold poyntingFlux
    rw [if_neg (by push Not; exact hq)]
    exact ⟨_, rfl⟩
  refine Succeeds.bind (Succeeds.lift hl (Q := fun a d => Inv2 E c mats A0 A1 res d ∧ a = M)
    (by rintro _ rfl; exact ⟨hd, rfl⟩)) fun a => ?_
  rintro d1 ⟨h1, rfl⟩
  exact ⟨fb, d1, by rw [hfb]; rfl, h1, hfb⟩

theorem succeeds_efficiencies {S} (hS : valS c mats A1 res none = .ok S) {r0 rN}
    (hr0 : pyGet c.stack 0 = .ok r0) (hrN : pyGet c.stack (-1) = .ok rN)
    {M0 MN} (hM0 : modesOf (mats r0) (A1 r0) = .ok M0) (hMN : modesOf (mats rN) (A1 rN) = .ok MN)
    (hq0 : ∀ k, (c.omega : ℂ) * M0.q k ≠ 0) (hqN : ∀ k, (c.omega : ℂ) * MN.q k ≠ 0)
    (hfl : c.incidentFlux ≠ 0) :
    Succeeds (Inv E c mats A0 A1 res) (efficienciesByOrder E c)
      (fun RT d => Inv2 E c mats A0 A1 res d ∧ ∃ f0 fN, poyntingFlux c M0 c.a0 (S.s21 *ᵥ c.a0) = .ok f0 ∧
        poyntingFlux c MN (S.s11 *ᵥ c.a0) 0 = .ok fN ∧
        RT = (fun i => -f0.2 i / c.incidentFlux, fun i => fN.1 i / c.incidentFlux)) := by
  have hres := valS_ok hS
  unfold efficienciesByOrder
  refine Succeeds.bind (Q := fun _ d => Inv E c mats A0 A1 res d) ?_ fun _ => ?_
  · unfold ensureS
    refine Succeeds.get_bind fun d hd => ?_
    intro d0 h0
    obtain rfl : d0 = d := h0
    rcases d0.S with _ | T
    · obtain ⟨T, d', h1, h2, -⟩ := succeeds_getS hs hS d0 hd
      dsimp only
      rw [PyM.bind_ok h1]
      exact ⟨_, _, rfl, h2.1⟩
    · exact ⟨_, _, rfl, hd⟩
  refine Succeeds.bind (succeeds_solveExt hs hS (fun _ h => h) fun _ h => h.1) fun ab => ?_
  rintro d ⟨hd, rfl⟩
  dsimp only
  obtain ⟨f0, d1, h1, h2, h3⟩ := succeeds_flux hs hr0 hres hM0 hq0 c.a0 (S.s21 *ᵥ c.a0) d hd
  rw [PyM.bind_ok h1]
  obtain ⟨fN, d2, h4, h5, h6⟩ := succeeds_flux hs hrN hres hMN hqN (S.s11 *ᵥ c.a0) 0 d1 h2.1
  rw [PyM.bind_ok h4]
  refine ⟨_, d2, ?_, h5, f0, fN, h3, h6, rfl⟩
  rw [PyM.bind_ok (s := d2) (a := ()) (s' := d2) (by rw [raiseIf_ok (u := ()).mpr hfl]; rfl)]
  rfl

end

/-- Fields of a layer whose modes do not vanish. -/
theorem fieldAt_ok {L : LayerSpec} {a : LayerAttr c.nh} {M t} (hM : modesOf L a = .ok M)
    (ht : M.thickness = some t) (hq : ∀ k, (c.omega : ℂ) * M.q k ≠ 0)
    (hn : ∀ dz, ∃ x, normalE L a dz = .ok x) (ai bi : Idx c.nh → ℂ) (z : ℝ) :
    ∃ F, fieldAt c L a ai bi z = .ok F := by
  unfold fieldAt
  rw [hM, except_bind_ok]
  unfold translateAmplitudes
  simp only [ht, except_bind_ok]
  rw [raiseIf_ok (u := ()).mpr (by push Not; exact hq), except_bind_ok]
  obtain ⟨x, hx⟩ := hn _
  rw [hx]
  exact ⟨_, rfl⟩

end Nannos
