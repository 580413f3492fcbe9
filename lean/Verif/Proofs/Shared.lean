import Verif.Proofs.SimRel
import Verif.Proofs.Copies

/-! Simulations whose layer objects are used elsewhere too. -/

namespace Nannos

open Spec

variable {E : Ext} {c : Static} {mats : ℕ → LayerSpec}

/-- A uniform layer that is not a copy keeps what it holds of a pattern. -/
theorem solveAll_pat {o : ℕ} (rs : List ℕ) : ∀ (d : Dyn c.nh), (d.mats o).iscopy = false →
    (d.mats o).isUniform = true → ((solveAll E c rs d).2.attrs o).pat = (d.attrs o).pat := by
  induction rs with
  | nil => intros; rfl
  | cons r rs ih =>
    intro d hc hu
    have h1 : ((d.setAttr r (stepOut E c (d.mats r) (d.attrs (d.mats r).original)).2).attrs o).pat =
        (d.attrs o).pat := by
      by_cases hor : o = r
      · subst hor
        rw [setAttr_same]
        unfold stepOut
        simp only [hc, Bool.false_eq_true, if_false]
        rcases hb : buildPure E c (d.mats o) with e | (Q | ⟨M, p, Q⟩)
        · rfl
        · dsimp only
          split <;> rfl
        · have := buildPure_patterned hb; rw [hu] at this; simp at this
      · rw [setAttr_ne _ hor]
    rw [solveAll_cons, solveLayer_eq]
    rcases (stepOut E c (d.mats r) (d.attrs (d.mats r).original)).1 with e | u
    · exact h1
    · dsimp only
      rw [ih (d.setAttr r (stepOut E c (d.mats r) (d.attrs (d.mats r).original)).2) hc hu]
      exact h1

/-- Nothing in the object, nor in its own layers, contradicts a computation from scratch (`U`: the attributes
that computation leaves, `res`: its outcome). -/
structure Good (c : Static) (mats : ℕ → LayerSpec) (U : ℕ → LayerAttr c.nh) (res : Except PyErr Unit)
    (d : Dyn c.nh) : Prop where
  mats_eq : d.mats = mats
  solved : d.isSolved = true → res = .ok () ∧ ∀ s ∈ c.stack, Agree (mats s) (U s) (d.attrs s)
  cache : ∀ a b S, d.inter (a, b) = some S →
    res = .ok () ∧ a ≤ b ∧ foldS c mats U SMat.one (pyRange a (b + 1)) = .ok S
  total : ∀ S, d.S = some S → res = .ok () ∧ (1 : ℤ) < c.stack.length ∧
    foldS c mats U SMat.one (pyRange 0 ((c.stack.length : ℤ) - 1)) = .ok S

theorem Agree.symm {nh : ℕ} {L : LayerSpec} {a b : LayerAttr nh} (h : Agree L a b) : Agree L b a :=
  ⟨h.1.symm, h.2.1.symm, fun hu => (h.2.2 hu).symm⟩

theorem Agree.trans {nh : ℕ} {L : LayerSpec} {a b e : LayerAttr nh} (h : Agree L a b) (h' : Agree L b e) : Agree L a e :=
  ⟨h.1.trans h'.1, h.2.1.trans h'.2.1, fun hu => (h.2.2 hu).trans (h'.2.2 hu)⟩

theorem foldS_agree {A B : ℕ → LayerAttr c.nh} (h : ∀ s ∈ c.stack, Agree (mats s) (A s) (B s)) (S l) :
    foldS c mats A S l = foldS c mats B S l := by
  have := lmodes_agree h
  have hst : stepD c mats A = stepD c mats B := by
    funext S i
    unfold stepD
    rw [this]
  unfold foldS
  rw [hst]

section
variable {U0 U : ℕ → LayerAttr c.nh} {res : Except PyErr Unit} (hnd : c.stack.Nodup) (hw : WellPlaced mats c.stack)
  (hU : SolveSpec E c mats U0 U res)
include hnd hw hU

/-- Solving from any attributes has the same outcome. -/
theorem spec_any (A0 : ℕ → LayerAttr c.nh) : ∃ A1, SolveSpec E c mats A0 A1 res ∧
    (∀ s, s ∉ c.stack → A1 s = A0 s) ∧ (res = .ok () → ∀ s ∈ c.stack, Agree (mats s) (U s) (A1 s)) := by
  have hcp := copiesOk_of_wellPlaced hw
  obtain ⟨A1, res', hs, hfr⟩ := solveSpec_of_noStale (E := E) hnd (hcp.noStale (A0 := A0) (by simp) hnd)
  obtain ⟨h1, h2⟩ := solveAll_agree (E := E) c.stack [] (Dyn.fresh mats U0) (Dyn.fresh mats A0) rfl hcp (by simp)
  rw [hU.run _ rfl (.inl rfl), hs.run _ rfl (.inl rfl)] at h1 h2
  dsimp only at h1 h2
  subst h1
  exact ⟨A1, hs, hfr, fun h s hs => h2 h s (.inr hs)⟩

theorem good_of_inv {A0 A1 : ℕ → LayerAttr c.nh} {d : Dyn c.nh} (hs : SolveSpec E c mats A0 A1 res)
    (h : Inv E c mats A0 A1 res d) : Good c mats U res d := by
  have hag : res = .ok () → ∀ s ∈ c.stack, Agree (mats s) (U s) (A1 s) := by
    obtain ⟨A1', hs', -, h2⟩ := spec_any hnd hw hU A0
    have e : A1' = A1 := by
      have a1 := hs.run (Dyn.fresh mats A0) rfl (.inl rfl)
      have a2 := hs'.run (Dyn.fresh mats A0) rfl (.inl rfl)
      rw [a1] at a2
      simp only [Prod.mk.injEq, true_and] at a2
      exact (congrArg Dyn.attrs a2).symm
    rw [← e]; exact h2
  refine ⟨h.mats_eq, fun hv => ?_, fun a b S hS => ?_, fun S hS => ?_⟩
  · obtain ⟨h1, h2⟩ := h.solved hv
    exact ⟨h1, fun s hs => by rw [h2]; exact hag h1 s hs⟩
  · obtain ⟨h1, h2, h3⟩ := h.cache a b S hS
    exact ⟨h1, h2, by rw [foldS_agree (hag h1)]; exact h3⟩
  · obtain ⟨h1, h2, h3⟩ := h.total S hS
    exact ⟨h1, h2, by rw [foldS_agree (hag h1)]; exact h3⟩

theorem Good.inv {d : Dyn c.nh} (h : Good c mats U res d) :
    ∃ A1, SolveSpec E c mats d.attrs A1 res ∧ (res = .ok () → ∀ s ∈ c.stack, Agree (mats s) (U s) (A1 s)) ∧
      Inv E c mats d.attrs A1 res d := by
  obtain ⟨A1, hs, hfr, hag⟩ := spec_any hnd hw hU d.attrs
  refine ⟨A1, hs, hag, h.mats_eq, .inl rfl, fun hv => ?_, fun a b S hS => ?_, fun S hS => ?_⟩
  · obtain ⟨h1, h2⟩ := h.solved hv
    refine ⟨h1, ?_⟩
    funext s
    by_cases hst : s ∈ c.stack
    · have ha := (h2 s hst).symm.trans (hag h1 s hst)
      by_cases hu : (mats s).isUniform = true
      · have hc : (mats s).iscopy = false := by
          by_contra hc
          obtain ⟨k, hk⟩ := List.mem_iff_getElem?.mp hst
          have := (hw k s hk (by simpa using hc)).2.1
          rw [hu] at this
          cases this
        have hr := hs.run (Dyn.fresh mats d.attrs) rfl (.inl rfl)
        have m1 := solveAll_matrix (E := E) (o := s) c.stack (Dyn.fresh mats d.attrs) hc hu
        have m2 := solveAll_pat (E := E) (o := s) c.stack (Dyn.fresh mats d.attrs) hc hu
        rw [hr] at m1 m2
        dsimp only [Dyn.fresh] at m1 m2
        rcases hd : d.attrs s with ⟨x1, x2, x3, x4⟩
        rcases hA : A1 s with ⟨y1, y2, y3, y4⟩
        rw [hd, hA] at ha m1 m2
        obtain ⟨e1, e2, -⟩ := ha
        dsimp only at e1 e2 m1 m2
        rw [e1, e2, m1, m2]
      · exact ha.2.2 (by simpa using hu)
    · exact (hfr s hst).symm
  · obtain ⟨h1, h2, h3⟩ := h.cache a b S hS
    exact ⟨h1, h2, by rw [← foldS_agree (hag h1)]; exact h3⟩
  · obtain ⟨h1, h2, h3⟩ := h.total S hS
    exact ⟨h1, h2, by rw [← foldS_agree (hag h1)]; exact h3⟩

theorem Good.call {d : Dyn c.nh} (h : Good c mats U res d) (a : Call c.nh) : Good c mats U res (a.after E c d) := by
  obtain ⟨A1, hs, -, hi⟩ := h.inv hnd hw hU
  exact good_of_inv hnd hw hU hs (hi.call hs a)

theorem Good.result {d : Dyn c.nh} (h : Good c mats U res d) (a : Call c.nh) :
    a.result E c d = a.result E c (Dyn.fresh mats U0) := by
  obtain ⟨A1, hs, hag, hi⟩ := h.inv hnd hw hU
  have Bp := base_pair hU hs hag
  refine result_of_det Bp ?_ a (.inr hi) (.inl (inv_fresh U0 (.inl rfl)))
  have key : ∀ d', (Inv E c mats U0 U res d' ∨ Inv E c mats d.attrs A1 res d') → (solve E c d').1 = res := by
    rintro d' (h | h)
    · exact solve_result hU h
    · exact solve_result hs h
  intro d d' h h'
  rw [key d h, key d' h']

omit hnd hw hU in
theorem good_fresh (A : ℕ → LayerAttr c.nh) : Good c mats U res (Dyn.fresh mats A) :=
  ⟨rfl, by simp [Dyn.fresh], by simp [Dyn.fresh], by simp [Dyn.fresh]⟩

omit hnd hw hU in
theorem Good.attrs {d : Dyn c.nh} (h : Good c mats U res d) {A : ℕ → LayerAttr c.nh}
    (hA : d.isSolved = true → ∀ s ∈ c.stack, Agree (mats s) (d.attrs s) (A s)) : Good c mats U res { d with attrs := A } :=
  ⟨h.mats_eq, fun hv => ⟨(h.solved hv).1, fun s hs => ((h.solved hv).2 s hs).trans (hA hv s hs)⟩, h.cache, h.total⟩

theorem Good.shared (l : List (SharedEvent c.nh)) : ∀ {d : Dyn c.nh}, Good c mats U res d → Undisturbed E c l d →
    Good c mats U res (afterShared E c l d) := by
  induction l with
  | nil => intro d h _; exact h
  | cons e l ih =>
    intro d h hu
    cases e with
    | call a => exact ih (h.call hnd hw hU a) hu
    | elsewhere A =>
      refine ih (h.attrs fun hv s hs => ?_) hu.2
      rcases hu.1 with h1 | h1
      · rw [hv] at h1; cases h1
      · rw [h1 s hs]; exact ⟨rfl, rfl, fun _ => rfl⟩

/-- One of two simulations with the same settings acts: the other one stays good. -/
theorem Good.act {d d' : Dyn c.nh} (h : Good c mats U res d) (h' : Good c mats U res d') (hd : d'.attrs = d.attrs)
    (a : Call c.nh) : Good c mats U res { d' with attrs := (a.after E c d).attrs } := by
  obtain ⟨A1, hs, hag, hi⟩ := h.inv hnd hw hU
  refine h'.attrs fun hv s hst => ?_
  obtain ⟨h1, h2⟩ := h'.solved hv
  rcases (hi.call hs a).attrs with e | e
  · rw [e, hd]; exact ⟨rfl, rfl, fun _ => rfl⟩
  · rw [e]; exact (h2 s hst).symm.trans (hag h1 s hst)

theorem Good.two (l : List (Bool × Call c.nh)) : ∀ {p : TwoSims c.nh}, Good c mats U res p.first →
    Good c mats U res p.second → p.second.attrs = p.first.attrs →
    Good c mats U res (TwoSims.afterAll E c l p).first ∧ Good c mats U res (TwoSims.afterAll E c l p).second := by
  induction l with
  | nil => intro p h1 h2 _; exact ⟨h1, h2⟩
  | cons e l ih =>
    intro p h1 h2 h3
    rcases e with ⟨b, a⟩
    cases b with
    | true => exact ih (p := p.after E c (true, a)) (h1.call hnd hw hU a) (h1.act hnd hw hU h2 h3 a) rfl
    | false => exact ih (p := p.after E c (false, a)) (h2.act hnd hw hU h1 h3.symm a) (h2.call hnd hw hU a) rfl

end

/-- The layers' materials are never changed by calls. -/
theorem call_mats (a : Call c.nh) (d : Dyn c.nh) : (a.after E c d).mats = d.mats := by
  have hsv : ∀ rs, Pres (fun d' : Dyn c.nh => d'.mats = d.mats) (solveAll E c rs) := by
    intro rs d' hd'
    obtain ⟨A, h, -⟩ := solveAll_frame (E := E) rs d'
    rw [h]; exact hd'
  have hs : Pres (fun d' : Dyn c.nh => d'.mats = d.mats) (solve E c) := by
    unfold solve
    exact (hsv _).bind fun _ d' hd' => hd'
  refine PresBase.call (I := fun d' => d'.mats = d.mats) ⟨?_, fun _ _ _ h => h⟩ hs (fun _ h => h) a d rfl
  intro d' hd'
  unfold ensureSolved
  split
  · exact hd'
  · exact hs d' hd'

theorem shared_mats (l : List (SharedEvent c.nh)) : ∀ d : Dyn c.nh, (afterShared E c l d).mats = d.mats := by
  induction l with
  | nil => intro d; rfl
  | cons e l ih =>
    intro d
    cases e with
    | call a => exact (ih _).trans (call_mats a d)
    | elsewhere A => exact ih _

end Nannos
