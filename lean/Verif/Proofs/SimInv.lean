import Verif.Proofs.Sim

/-! The invariant of the `Simulation` object behind C27 and C35. -/

namespace Nannos

open Matrix

variable {E : Ext} {c : Static}

/-- Modes of the `i`-th layer for given layer attributes. -/
def lmodes (c : Static) (mats : ℕ → LayerSpec) (A : ℕ → LayerAttr c.nh) (i : ℤ) :
    Except PyErr (Modes (Idx c.nh)) := do
  let r ← pyGet c.stack i
  modesOf (mats r) (A r)

theorem layerModes_eq (d : Dyn c.nh) (i : ℤ) : layerModes c d i = lmodes c d.mats d.attrs i := rfl

/-- One iteration of the scattering-matrix loop. -/
noncomputable def stepD (c : Static) (mats : ℕ → LayerSpec) (A : ℕ → LayerAttr c.nh)
    (S : SMat (Idx c.nh)) (i : ℤ) : Except PyErr (SMat (Idx c.nh)) := do
  let L ← lmodes c mats A i
  let L' ← lmodes c mats A (i + 1)
  stepS S L L'

/-- The scattering-matrix loop. -/
noncomputable def foldS (c : Static) (mats : ℕ → LayerSpec) (A : ℕ → LayerAttr c.nh)
    (S : SMat (Idx c.nh)) (l : List ℤ) : Except PyErr (SMat (Idx c.nh)) := l.foldlM (stepD c mats A) S

theorem foldS_nil (mats A S) : foldS c mats A S [] = .ok S := rfl

theorem foldS_cons (mats A S i) (l : List ℤ) :
    foldS c mats A S (i :: l) = (stepD c mats A S i >>= fun S' => foldS c mats A S' l) := by
  simp [foldS]

theorem foldS_snoc (mats A S i) (l : List ℤ) :
    foldS c mats A S (l ++ [i]) = (foldS c mats A S l >>= fun S' => stepD c mats A S' i) := by
  simp only [foldS, List.foldlM_append, List.foldlM_cons, List.foldlM_nil]
  rcases List.foldlM (stepD c mats A) S l with e | S'
  · rfl
  · simp only [except_bind_ok]
    rcases stepD c mats A S' i with e | S'' <;> rfl

/-- The invariant: nothing in the object contradicts a computation from scratch.  `A0` are the layer
attributes before, `A1` those after solving, `res` the outcome of solving. -/
structure Inv (E : Ext) (c : Static) (mats : ℕ → LayerSpec) (A0 A1 : ℕ → LayerAttr c.nh)
    (res : Except PyErr Unit) (d : Dyn c.nh) : Prop where
  mats_eq : d.mats = mats
  attrs : d.attrs = A0 ∨ d.attrs = A1
  solved : d.isSolved = true → res = .ok () ∧ d.attrs = A1
  cache : ∀ a b S, d.inter (a, b) = some S →
    res = .ok () ∧ a ≤ b ∧ foldS c mats A1 SMat.one (pyRange a (b + 1)) = .ok S
  total : ∀ S, d.S = some S → res = .ok () ∧ (1 : ℤ) < c.stack.length ∧
    foldS c mats A1 SMat.one (pyRange 0 ((c.stack.length : ℤ) - 1)) = .ok S

/-- What solving does, whatever the object went through. -/
structure SolveSpec (E : Ext) (c : Static) (mats : ℕ → LayerSpec) (A0 A1 : ℕ → LayerAttr c.nh)
    (res : Except PyErr Unit) : Prop where
  run : ∀ d : Dyn c.nh, d.mats = mats → (d.attrs = A0 ∨ d.attrs = A1) →
    solveAll E c c.stack d = (res, { d with attrs := A1 })

theorem solveAll_indep (rs : List ℕ) (d : Dyn c.nh) (b : Bool) (f) (S) :
    solveAll E c rs { d with isSolved := b, inter := f, S := S } =
      ((solveAll E c rs d).1, { (solveAll E c rs d).2 with isSolved := b, inter := f, S := S }) := by
  induction rs generalizing d with
  | nil => rfl
  | cons r rs ih =>
    rw [solveAll_cons, solveAll_cons, solveLayer_eq, solveLayer_eq]
    dsimp only
    rcases (stepOut E c (d.mats r) (d.attrs (d.mats r).original)).1 with e | u
    · rfl
    · exact ih (d.setAttr r (stepOut E c (d.mats r) (d.attrs (d.mats r).original)).2)

theorem solveSpec_of_noStale {mats : ℕ → LayerSpec} {A0 : ℕ → LayerAttr c.nh} (hnd : c.stack.Nodup)
    (h : NoStale mats A0 c.stack) :
    ∃ A1 res, SolveSpec E c mats A0 A1 res ∧ ∀ s, s ∉ c.stack → A1 s = A0 s := by
  have hid := solveAll_idem (E := E) c.stack hnd (Dyn.fresh mats A0) h
  obtain ⟨A1, e1, hfr⟩ := solveAll_frame (E := E) c.stack (Dyn.fresh mats A0)
  refine ⟨A1, (solveAll E c c.stack (Dyn.fresh mats A0)).1, ⟨?_⟩, hfr⟩
  intro d hm ha
  have hd : ∀ A, d.attrs = A →
      d = { Dyn.fresh mats A with isSolved := d.isSolved, inter := d.inter, S := d.S } := by
    rintro A rfl
    subst hm
    rfl
  rcases ha with ha | ha
  · rw [hd A0 ha, solveAll_indep, e1]
  · rw [e1] at hid
    have hid' : solveAll E c c.stack (Dyn.fresh mats A1) = solveAll E c c.stack (Dyn.fresh mats A0) := hid
    rw [hd A1 ha, solveAll_indep, hid', e1]
    rfl

variable {mats : ℕ → LayerSpec} {A0 A1 : ℕ → LayerAttr c.nh} {res : Except PyErr Unit}

theorem inv_fresh (A : ℕ → LayerAttr c.nh) (hA : A = A0 ∨ A = A1) :
    Inv E c mats A0 A1 res (Dyn.fresh mats A) :=
  ⟨rfl, hA, by simp [Dyn.fresh], by simp [Dyn.fresh], by simp [Dyn.fresh]⟩

/-- `ensureSolved` behaves the same in all states of the invariant. -/
theorem ensureSolved_spec (hs : SolveSpec E c mats A0 A1 res) {d : Dyn c.nh}
    (h : Inv E c mats A0 A1 res d) :
    (ensureSolved E c d).1 = res ∧ Inv E c mats A0 A1 res (ensureSolved E c d).2 ∧
    (res = .ok () → (ensureSolved E c d).2.isSolved = true) ∧
    (ensureSolved E c d).2.S = d.S := by
  unfold ensureSolved
  by_cases hd : d.isSolved = true
  · simp only [hd, if_true]
    exact ⟨(h.solved hd).1.symm, h, fun _ => trivial, trivial⟩
  · simp only [hd, Bool.false_eq_true, if_false]
    unfold solve
    have hr := hs.run d h.mats_eq h.attrs
    rcases hres : res with e | u
    · rw [hres] at hr
      rw [PyM.bind_error hr]
      refine ⟨rfl, ⟨h.mats_eq, .inr rfl, ?_, ?_, ?_⟩, by simp, rfl⟩
      · intro h'; exact absurd h' hd
      · rw [← hres]; exact h.cache
      · rw [← hres]; exact h.total
    · rw [hres] at hr
      rw [PyM.bind_ok hr]
      refine ⟨rfl, ⟨h.mats_eq, .inr rfl, fun _ => ⟨rfl, rfl⟩, ?_, ?_⟩, fun _ => rfl, rfl⟩
      · have := h.cache; rw [hres] at this; exact this
      · have := h.total; rw [hres] at this; exact this

theorem sLoop_cons (first i : ℤ) (is : List ℤ) (S : SMat (Idx c.nh)) (d : Dyn c.nh) :
    sLoop c first (i :: is) S d = match sBody c first i S d with
      | (.ok S', d') => sLoop c first is S' d'
      | (.error e, d') => (.error e, d') := by
  rw [sLoop, PyM.bind_def]
  rcases sBody c first i S d with ⟨_ | _, _⟩ <;> rfl

/-- The loop computes `foldS` and only adds correct entries to the cache. -/
theorem sLoop_spec {first : ℤ} (n : ℕ) : ∀ (i j : ℤ) (_ : (j - i).toNat = n) (_ : first ≤ i)
    (S : SMat (Idx c.nh)) (d : Dyn c.nh), Inv E c mats A0 A1 res d → d.isSolved = true →
    foldS c mats A1 SMat.one (pyRange first i) = .ok S →
    (sLoop c first (pyRange i j) S d).1 = foldS c mats A1 S (pyRange i j) ∧
    Inv E c mats A0 A1 res (sLoop c first (pyRange i j) S d).2 ∧
    (sLoop c first (pyRange i j) S d).2.isSolved = true ∧
    (sLoop c first (pyRange i j) S d).2.S = d.S := by
  induction n with
  | zero =>
    intro i j hn hi S d hI hd hf
    rw [pyRange_nil (by omega : j ≤ i)]
    exact ⟨rfl, hI, hd, rfl⟩
  | succ n ih =>
    intro i j hn hi S d hI hd hf
    rw [pyRange_cons (by omega : i < j), foldS_cons, sLoop_cons]
    have hA := (hI.solved hd).2
    have hb : sBody c first i S d = match stepD c mats A1 S i with
        | .error e => (.error e, d)
        | .ok S' => (.ok S', { d with inter := fun k => if k = (first, i) then some S' else d.inter k }) := by
      unfold sBody stepD
      simp only [layerModes_eq, hI.mats_eq, hA]
      rfl
    rcases hstep : stepD c mats A1 S i with e | S'
    · rw [hstep] at hb
      rw [hb]
      exact ⟨rfl, hI, hd, rfl⟩
    · rw [hstep] at hb
      rw [hb]
      dsimp only
      have hf' : foldS c mats A1 SMat.one (pyRange first (i + 1)) = .ok S' := by
        rw [pyRange_snoc hi, foldS_snoc, hf]
        exact hstep
      have := ih (i + 1) j (by omega) (by omega) S'
        { d with inter := fun k => if k = (first, i) then some S' else d.inter k }
        ⟨hI.mats_eq, hI.attrs, hI.solved, ?_, hI.total⟩ hd hf'
      · exact this
      · intro a b T hT
        dsimp only at hT
        split at hT
        · rename_i hk
          simp only [Prod.mk.injEq] at hk
          obtain ⟨rfl, rfl⟩ := hk
          simp only [Option.some.injEq] at hT
          subst hT
          exact ⟨(hI.solved hd).1, hi, hf'⟩
        · exact hI.cache a b T hT

/-- What `get_S_matrix` returns from scratch. -/
noncomputable def valS (c : Static) (mats : ℕ → LayerSpec) (A1 : ℕ → LayerAttr c.nh)
    (res : Except PyErr Unit) (idx : Option (ℤ × ℤ)) : Except PyErr (SMat (Idx c.nh)) := do
  res
  if interfaces c idx = [] then .error .unboundLocal
  else foldS c mats A1 SMat.one (interfaces c idx)

theorem cachedLoop_spec {i j : ℤ} {d : Dyn c.nh} (hI : Inv E c mats A0 A1 res d)
    (hd : d.isSolved = true) :
    (cachedLoop c (pyRange i j) d).1 = (if pyRange i j = [] then .error .unboundLocal
      else foldS c mats A1 SMat.one (pyRange i j)) ∧
    Inv E c mats A0 A1 res (cachedLoop c (pyRange i j) d).2 ∧
    (cachedLoop c (pyRange i j) d).2.isSolved = true ∧
    (cachedLoop c (pyRange i j) d).2.S = d.S := by
  unfold cachedLoop
  by_cases h : i < j
  · rw [pyRange_head h, pyRange_last h, if_neg (by rw [pyRange_eq_nil_iff]; omega)]
    dsimp only
    rcases hc : d.inter (i, j - 1) with _ | S
    · dsimp only
      exact sLoop_spec _ i j rfl le_rfl SMat.one d hI hd (by rw [pyRange_self]; rfl)
    · dsimp only
      have := (hI.cache _ _ _ hc).2.2
      rw [sub_add_cancel] at this
      exact ⟨this.symm, hI, hd, rfl⟩
  · rw [pyRange_nil (by omega : j ≤ i)]
    exact ⟨rfl, hI, hd, rfl⟩

/-- `get_S_matrix` behaves the same in all states of the invariant. -/
theorem getS_spec (hs : SolveSpec E c mats A0 A1 res) (idx : Option (ℤ × ℤ)) {d : Dyn c.nh}
    (h : Inv E c mats A0 A1 res d) :
    (getS E c idx d).1 = valS c mats A1 res idx ∧ Inv E c mats A0 A1 res (getS E c idx d).2 ∧
    (res = .ok () → (getS E c idx d).2.isSolved = true) ∧
    (d.isSolved = true → (getS E c idx d).2.isSolved = true) ∧
    (∀ S, idx = none → (getS E c idx d).1 = .ok S → (getS E c idx d).2.S = some S) ∧
    (∀ S, d.S = some S → ∃ S', (getS E c idx d).2.S = some S') := by
  obtain ⟨e1, e2, e3, e4⟩ := ensureSolved_spec hs h
  unfold getS
  rw [PyM.bind_def]
  rcases he : ensureSolved E c d with ⟨r, d1⟩
  rw [he] at e1 e2 e3 e4
  dsimp only at e1 e2 e3 e4
  subst e1
  rcases r with e | u
  · exact ⟨rfl, e2, by simp, fun hd => absurd (h.solved hd).1 (by simp), by simp,
      fun S hS => ⟨S, by rw [← hS, ← e4]⟩⟩
  · have hd1 := e3 rfl
    dsimp only
    obtain ⟨i, j, hij⟩ : ∃ i j, interfaces c idx = pyRange i j := by
      cases idx with
      | none => exact ⟨_, _, rfl⟩
      | some ij => exact ⟨_, _, rfl⟩
    have hcl := cachedLoop_spec (i := i) (j := j) e2 hd1
    unfold valS
    rw [hij]
    simp only [except_bind_ok]
    rw [PyM.bind_def]
    rcases hl : cachedLoop c (pyRange i j) d1 with ⟨r2, d2⟩
    rw [hl] at hcl
    dsimp only at hcl
    obtain ⟨h1, h2, h3, h4⟩ := hcl
    rcases r2 with e | S
    · dsimp only
      refine ⟨h1, h2, fun _ => h3, fun _ => h3, by simp, fun S hS => ⟨S, by rw [h4, e4, hS]⟩⟩
    · dsimp only
      cases idx with
      | none =>
        simp only [Option.isNone_none, if_true]
        rw [PyM.bind_def]
        simp only [PyM.modify, PyM.pure_def]
        refine ⟨h1, ⟨h2.mats_eq, h2.attrs, h2.solved, h2.cache, ?_⟩, fun _ => h3, fun _ => h3, ?_, ?_⟩
        · intro T hT
          simp only [Option.some.injEq] at hT
          subst hT
          split at h1
          · simp at h1
          · rename_i hne
            simp only [interfaces] at hij
            rw [hij]
            refine ⟨rfl, ?_, h1.symm⟩
            rw [← hij, pyRange_eq_nil_iff] at hne
            omega
        · simp
        · simp
      | some ij =>
        simp only [Option.isNone_some, Bool.false_eq_true, if_false]
        exact ⟨h1, h2, fun _ => h3, fun _ => h3, by simp, fun S hS => ⟨S, h4.trans (e4.trans hS)⟩⟩

/-! ### Computations that do not depend on the history -/

/-- In every state of `P` the computation has the same outcome, keeps the invariant, and reaches `Q` when
it succeeds. -/
def Det {α : Type} (I P Q : Dyn c.nh → Prop) (x : PyM (Dyn c.nh) α) : Prop :=
  ∃ v, ∀ d, P d → (x d).1 = v ∧ I (x d).2 ∧ ∀ a, v = .ok a → Q (x d).2

section
variable {α β : Type} {I P Q R : Dyn c.nh → Prop}

theorem Det.bind {x : PyM (Dyn c.nh) α} {f : α → PyM (Dyn c.nh) β} (hx : Det I P Q x)
    (hf : ∀ a, Det I Q R (f a)) : Det I P R (x >>= f) := by
  obtain ⟨v, hv⟩ := hx
  choose w hw using hf
  cases v with
  | error e =>
    refine ⟨.error e, fun d hd => ?_⟩
    obtain ⟨h1, h2, h3⟩ := hv d hd
    rw [PyM.bind_def]
    rcases hxd : x d with ⟨r, d'⟩
    rw [hxd] at h1 h2
    dsimp only at h1 h2
    subst h1
    exact ⟨rfl, h2, by simp⟩
  | ok a =>
    refine ⟨w a, fun d hd => ?_⟩
    obtain ⟨h1, h2, h3⟩ := hv d hd
    rw [PyM.bind_def]
    rcases hxd : x d with ⟨r, d'⟩
    rw [hxd] at h1 h2 h3
    dsimp only at h1 h2 h3
    subst h1
    exact hw a d' (h3 a rfl)

theorem Det.pure (hP : ∀ d, P d → I d) (a : α) : Det I P P (pure a : PyM (Dyn c.nh) α) :=
  ⟨.ok a, fun d hd => ⟨rfl, hP d hd, fun _ _ => hd⟩⟩

theorem Det.lift (hP : ∀ d, P d → I d) (v : Except PyErr α) : Det I P P (PyM.lift v : PyM (Dyn c.nh) α) :=
  ⟨v, fun d hd => ⟨rfl, hP d hd, fun _ _ => hd⟩⟩

theorem Det.weaken {P' Q' : Dyn c.nh → Prop} {x : PyM (Dyn c.nh) α} (h : Det I P Q x) (hP : ∀ d, P' d → P d)
    (hQ : ∀ d, Q d → Q' d) : Det I P' Q' x := by
  obtain ⟨v, hv⟩ := h
  exact ⟨v, fun d hd => ⟨(hv d (hP d hd)).1, (hv d (hP d hd)).2.1,
    fun a ha => hQ _ ((hv d (hP d hd)).2.2 a ha)⟩⟩

theorem Det.get_bind {f : Dyn c.nh → PyM (Dyn c.nh) β} {g : PyM (Dyn c.nh) β}
    (h : ∀ d, P d → f d d = g d) (hg : Det I P Q g) : Det I P Q (PyM.get >>= f) := by
  obtain ⟨v, hv⟩ := hg
  refine ⟨v, fun d hd => ?_⟩
  have : (PyM.get >>= f) d = g d := by rw [PyM.bind_def]; exact h d hd
  rw [this]
  exact hv d hd

end

/-- The invariant and a solved object. -/
def Inv2 (E : Ext) (c : Static) (mats : ℕ → LayerSpec) (A0 A1 : ℕ → LayerAttr c.nh)
    (res : Except PyErr Unit) (d : Dyn c.nh) : Prop := Inv E c mats A0 A1 res d ∧ d.isSolved = true

theorem Inv2.mats_eq {d : Dyn c.nh} (h : Inv2 E c mats A0 A1 res d) : d.mats = mats := h.1.mats_eq

theorem Inv2.attrs_eq {d : Dyn c.nh} (h : Inv2 E c mats A0 A1 res d) : d.attrs = A1 :=
  (h.1.solved h.2).2

section
variable (hs : SolveSpec E c mats A0 A1 res)
include hs

theorem det_ensureSolved' : ∀ d, Inv E c mats A0 A1 res d → (ensureSolved E c d).1 = res ∧
    Inv E c mats A0 A1 res (ensureSolved E c d).2 ∧
    ∀ a, res = .ok a → Inv2 E c mats A0 A1 res (ensureSolved E c d).2 := by
  intro d hd
  obtain ⟨h1, h2, h3, h4⟩ := ensureSolved_spec hs hd
  exact ⟨h1, h2, fun a ha => ⟨h2, h3 ha⟩⟩

theorem det_ensureSolved : Det (Inv E c mats A0 A1 res) (Inv E c mats A0 A1 res)
    (Inv2 E c mats A0 A1 res) (ensureSolved E c) := ⟨res, det_ensureSolved' hs⟩

theorem det_getS' (idx : Option (ℤ × ℤ)) : ∀ d, Inv E c mats A0 A1 res d →
    (getS E c idx d).1 = valS c mats A1 res idx ∧ Inv E c mats A0 A1 res (getS E c idx d).2 ∧
    ∀ a, valS c mats A1 res idx = .ok a → Inv2 E c mats A0 A1 res (getS E c idx d).2 := by
  intro d hd
  obtain ⟨h1, h2, h3, -⟩ := getS_spec hs idx hd
  refine ⟨h1, h2, fun a ha => ⟨h2, h3 ?_⟩⟩
  unfold valS at ha
  rw [bind_eq_ok] at ha
  obtain ⟨u, hu, -⟩ := ha
  exact hu

theorem det_getS (idx : Option (ℤ × ℤ)) : Det (Inv E c mats A0 A1 res) (Inv E c mats A0 A1 res)
    (Inv2 E c mats A0 A1 res) (getS E c idx) := ⟨_, det_getS' hs idx⟩

/-- The scattering matrix read by `_solve_ext`. -/
theorem det_readS' {P : Dyn c.nh → Prop} (hP : ∀ d, P d → Inv E c mats A0 A1 res d)
    (hP2 : ∀ d, Inv2 E c mats A0 A1 res d → P d) :
    ∀ d, P d → ((do
      let d ← PyM.get
      match d.S with
        | some S => pure S
        | none => getS E c none : PyM (Dyn c.nh) (SMat (Idx c.nh))) d).1 = valS c mats A1 res none ∧
      Inv E c mats A0 A1 res ((do
      let d ← PyM.get
      match d.S with
        | some S => pure S
        | none => getS E c none : PyM (Dyn c.nh) (SMat (Idx c.nh))) d).2 ∧
      ∀ a, valS c mats A1 res none = .ok a → P ((do
      let d ← PyM.get
      match d.S with
        | some S => pure S
        | none => getS E c none : PyM (Dyn c.nh) (SMat (Idx c.nh))) d).2 := by
  intro d hd
  rw [PyM.bind_def]
  simp only [PyM.get]
  rcases hS : d.S with _ | S
  · obtain ⟨h1, h2, h3, -⟩ := getS_spec hs none (hP d hd)
    refine ⟨h1, h2, fun a ha => hP2 _ ⟨h2, h3 ?_⟩⟩
    unfold valS at ha
    rw [bind_eq_ok] at ha
    obtain ⟨u, hu, -⟩ := ha
    exact hu
  · obtain ⟨t1, t2, t3⟩ := (hP d hd).total S hS
    refine ⟨?_, hP d hd, fun _ _ => hd⟩
    unfold valS
    rw [t1]
    simp only [except_bind_ok, interfaces]
    have hne : pyRange 0 ((c.stack.length : ℤ) - 1) ≠ [] := by
      rw [Ne, pyRange_eq_nil_iff]; omega
    rw [t3]
    simp only [hne, if_false]
    rfl

theorem det_readS {P : Dyn c.nh → Prop} (hP : ∀ d, P d → Inv E c mats A0 A1 res d)
    (hP2 : ∀ d, Inv2 E c mats A0 A1 res d → P d) :
    Det (Inv E c mats A0 A1 res) P P (do
      let d ← PyM.get
      match d.S with
        | some S => pure S
        | none => getS E c none) := ⟨_, det_readS' hs hP hP2⟩

end

/-- A set of states in which every public computation has one outcome (`base_inv`, `base_pair`). -/
structure Base (E : Ext) (c : Static) (mats : ℕ → LayerSpec) (J J2 : Dyn c.nh → Prop) : Prop where
  sub : ∀ d, J2 d → J d
  ensure : Det J J J2 (ensureSolved E c)
  getS : ∀ idx, Det J J J2 (getS E c idx)
  readS : Det J J J (do
      let d ← PyM.get
      match d.S with
        | some S => pure S
        | none => Nannos.getS E c none)
  readS2 : Det J J2 J2 (do
      let d ← PyM.get
      match d.S with
        | some S => pure S
        | none => Nannos.getS E c none)
  mats_eq : ∀ d, J d → d.mats = mats
  modes : ∃ g : ℤ → Except PyErr (Modes (Idx c.nh)), ∀ d, J2 d → ∀ i, layerModes c d i = g i
  field : ∃ g : ℕ → (Idx c.nh → ℂ) → (Idx c.nh → ℂ) → ℝ → Except PyErr (FieldF c.nh),
    ∀ d, J2 d → ∀ r ∈ c.stack, fieldAt c (d.mats r) (d.attrs r) = g r

theorem base_inv (hs : SolveSpec E c mats A0 A1 res) :
    Base E c mats (Inv E c mats A0 A1 res) (Inv2 E c mats A0 A1 res) where
  sub := fun _ h => h.1
  ensure := det_ensureSolved hs
  getS := det_getS hs
  readS := det_readS hs (fun _ h => h) (fun _ h => h.1)
  readS2 := det_readS hs (fun _ h => h.1) (fun _ h => h)
  mats_eq := fun _ h => h.mats_eq
  modes := ⟨lmodes c mats A1, fun d hd i => by rw [layerModes_eq, hd.mats_eq, hd.attrs_eq]⟩
  field := ⟨fun r => fieldAt c (mats r) (A1 r), fun d hd r _ => by rw [hd.mats_eq, hd.attrs_eq]⟩

theorem getLayer_mem {id : LayerId} {ri : ℕ × ℤ} (h : getLayer c id = .ok ri) : ri.1 ∈ c.stack := by
  unfold getLayer at h
  dsimp only at h
  have hn : ∀ s, (match c.layerNames.findIdx? (· = s) with
      | none => (.error .valueError : Except PyErr (ℕ × ℤ))
      | some i => match c.stack[i]? with
        | some r => .ok (r, i)
        | none => .error .indexError) = .ok ri → ri.1 ∈ c.stack := by
    intro s h
    split at h
    · simp at h
    · split at h
      · rename_i hi
        simp at h
        subst h
        exact List.mem_of_getElem? hi
      · simp at h
  cases id with
  | name s => exact hn s h
  | named s => exact hn s h
  | other => simp at h
  | idx i =>
    simp only [bind_eq_ok] at h
    obtain ⟨r, hr, h⟩ := h
    simp at h
    subst h
    unfold pyGet at hr
    split at hr
    · split at hr
      · rename_i hk
        simp at hr; subst hr
        exact List.mem_of_getElem? hk
      · simp at hr
    · simp at hr

theorem Det.bind_lift {α β : Type} {I P R : Dyn c.nh → Prop} (hP : ∀ d, P d → I d) {v : Except PyErr α}
    {f : α → PyM (Dyn c.nh) β} (hf : ∀ a, v = .ok a → Det I P R (f a)) :
    Det I P R ((PyM.lift v : PyM (Dyn c.nh) α) >>= f) := by
  cases v with
  | error e => exact ⟨.error e, fun d hd => ⟨rfl, hP d hd, by simp⟩⟩
  | ok a => exact hf a rfl

section
variable {J J2 : Dyn c.nh → Prop} (B : Base E c mats J J2)
include B

theorem Base.solveExt : Det J J J (solveExt E c) := by
  have h := B.readS.bind (R := J)
    (f := fun S => (pure (S.s11 *ᵥ c.a0 + S.s12 *ᵥ (0 : Idx c.nh → ℂ),
      S.s21 *ᵥ c.a0 + S.s22 *ᵥ (0 : Idx c.nh → ℂ)) : PyM (Dyn c.nh) _)) (fun S => Det.pure (fun _ h => h) _)
  obtain ⟨v, hv⟩ := h
  refine ⟨v, fun d hd => ?_⟩
  have := hv d hd
  convert this using 1 <;>
  · unfold Nannos.solveExt
    simp only [PyM.bind_def, PyM.get]
    rcases d.S with _ | S <;> rfl

theorem Base.solveExt2 : Det J J2 J2 (Nannos.solveExt E c) := by
  have h := B.readS2.bind (R := J2)
    (f := fun S => (pure (S.s11 *ᵥ c.a0 + S.s12 *ᵥ (0 : Idx c.nh → ℂ),
      S.s21 *ᵥ c.a0 + S.s22 *ᵥ (0 : Idx c.nh → ℂ)) : PyM (Dyn c.nh) _)) (fun S => Det.pure B.sub _)
  obtain ⟨v, hv⟩ := h
  refine ⟨v, fun d hd => ?_⟩
  have := hv d hd
  convert this using 1 <;>
  · unfold Nannos.solveExt
    simp only [PyM.bind_def, PyM.get]
    rcases d.S with _ | S <;> rfl

theorem Base.solveInt (i : ℤ) : Det J J2 J2 (Nannos.solveInt E c i) := by
  have h2 := B.sub
  have hg := fun idx => (B.getS idx).weaken h2 (fun _ h => h)
  unfold Nannos.solveInt
  refine (Det.lift h2 _).bind fun _ => (hg _).bind fun S => (hg _).bind fun P =>
    (Det.lift h2 _).bind fun ai => Det.pure h2 _

theorem Base.getAmplitudes (i : ℤ) : Det J J2 J2 (Nannos.getAmplitudes E c i) := by
  have h2 := B.sub
  have he := B.solveExt2
  unfold Nannos.getAmplitudes
  refine (Det.lift h2 _).bind fun _ => ?_
  dsimp only
  split
  · exact he.bind fun ab => Det.pure h2 _
  · split
    · exact he.bind fun ab => Det.pure h2 _
    · exact B.solveInt i

theorem Base.getFieldFourier (id : LayerId) (zs : List ℝ) :
    Det J J J2 (Nannos.getFieldFourier E c id zs) := by
  have h2 := B.sub
  obtain ⟨g, hg⟩ := B.field
  unfold Nannos.getFieldFourier
  refine Det.bind_lift (fun _ h => h) fun ri hri => B.ensure.bind fun _ =>
    (B.getAmplitudes _).bind fun ab => ?_
  refine Det.get_bind (g := PyM.lift (zs.mapM (g ri.1 ab.1 ab.2))) ?_ (Det.lift h2 _)
  intro d hd
  rw [hg d hd _ (getLayer_mem hri)]

theorem Base.flux (i : ℤ) (an bn : Idx c.nh → ℂ) : Det J J J2 (getZPoyntingFlux E c i an bn) := by
  have h2 := B.sub
  obtain ⟨g, hg⟩ := B.modes
  unfold getZPoyntingFlux
  refine B.ensure.bind fun _ => ?_
  refine Det.get_bind (g := (do
    let M ← PyM.lift (g i)
    PyM.lift (poyntingFlux c M an bn))) ?_ ((Det.lift h2 _).bind fun _ => Det.lift h2 _)
  intro d hd
  rw [hg d hd]

theorem Base.ensureS : Det J J J (Nannos.ensureS E c) := by
  have h := B.readS.bind (R := J) (f := fun _ => (pure () : PyM (Dyn c.nh) _))
    (fun S => Det.pure (fun _ h => h) _)
  obtain ⟨v, hv⟩ := h
  refine ⟨v, fun d hd => ?_⟩
  have := hv d hd
  convert this using 1 <;>
  · unfold Nannos.ensureS
    simp only [PyM.bind_def, PyM.get]
    rcases d.S with _ | S <;> rfl

theorem Base.efficiencies : Det J J J2 (efficienciesByOrder E c) := by
  have h2 := B.sub
  unfold efficienciesByOrder
  refine B.ensureS.bind fun _ => B.solveExt.bind fun ab =>
    (B.flux _ _ _).bind fun f1 => ((B.flux _ _ _).weaken h2 (fun _ h => h)).bind fun f2 =>
    (Det.lift h2 _).bind fun _ => Det.pure h2 _

theorem Base.diffraction (orders : Bool) : Det J J J2 (diffractionEfficiencies E c orders) := by
  unfold diffractionEfficiencies
  refine B.efficiencies.bind fun RT => ?_
  cases orders
  · exact Det.pure B.sub _
  · exact Det.pure B.sub _

theorem Base.complex : Det J J J2 (complexEfficiencies E c) := by
  have h2 := B.sub
  unfold complexEfficiencies
  refine B.ensureS.bind fun _ => ?_
  obtain ⟨d0, hd0⟩ : ∃ d0 : Dyn c.nh, d0.mats = mats :=
    ⟨Dyn.fresh mats (fun _ => LayerAttr.empty), rfl⟩
  unfold complexOrders
  have hI : ∀ d, J d → J d := fun _ h => h
  refine Det.get_bind (g := _) (fun d hd => by rw [B.mats_eq d hd, ← hd0]) ?_
  refine (Det.lift hI _).bind fun r0 => (Det.lift hI _).bind fun rN => (Det.lift hI _).bind fun _ =>
    (Det.lift hI _).bind fun _ => (Det.lift hI _).bind fun nt => (Det.lift hI _).bind fun nr =>
    (B.getFieldFourier _ _).bind fun fsub =>
    ((B.getFieldFourier _ _).weaken h2 (fun _ h => h)).bind fun fsup => ?_
  split
  · exact Det.pure h2 _
  · exact Det.lift h2 _

end

/-! ### Solving from different stale attributes -/

/-- Two versions of the attributes of a layer agree on everything that is read. -/
def Agree {nh : ℕ} (L : LayerSpec) (a b : LayerAttr nh) : Prop :=
  a.eig = b.eig ∧ a.Qeps = b.Qeps ∧ (L.isUniform = false → a = b)

/-- Every copy comes after its original, which is patterned (`done`: layers already passed). -/
def CopiesOk (mats : ℕ → LayerSpec) : List ℕ → List ℕ → Prop
  | _, [] => True
  | done, r :: rs => ((mats r).iscopy = true → (mats r).original ∈ done ∧
      (mats (mats r).original).isUniform = false) ∧ CopiesOk mats (r :: done) rs

theorem stepOut_agree {L : LayerSpec} (Ao a b : LayerAttr c.nh) (h : (stepOut E c L Ao).1 = .ok ()) :
    Agree L ((stepOut E c L Ao).2 a) ((stepOut E c L Ao).2 b) := by
  unfold stepOut at h ⊢
  split
  · rename_i hc
    simp only [hc, if_true] at h
    rcases hM : Ao.matrix with _ | M
    · rw [hM] at h; simp at h
    rcases hp : Ao.pat with _ | p
    · rw [hM, hp] at h; simp at h
    rcases hQ : Ao.Qeps with _ | Q
    · rw [hM, hp, hQ] at h; simp at h
    rw [hM, hp, hQ] at h
    dsimp only at h ⊢
    split
    · rename_i he; rw [he] at h; simp at h
    · exact ⟨rfl, rfl, fun _ => rfl⟩
  · rename_i hc
    simp only [hc] at h
    split
    · rename_i hb; rw [hb] at h; simp at h
    · rename_i Q hb
      rw [hb] at h
      dsimp only at h ⊢
      have hu := buildPure_uniform hb
      split
      · rename_i he; rw [he] at h; simp at h
      · exact ⟨rfl, rfl, fun h => by rw [hu] at h; simp at h⟩
    · rename_i M p Q hb
      rw [hb] at h
      dsimp only at h ⊢
      split
      · rename_i he; rw [he] at h; simp at h
      · exact ⟨rfl, rfl, fun _ => rfl⟩

theorem solveAll_agree (rs : List ℕ) : ∀ (done : List ℕ) (d d' : Dyn c.nh), d.mats = d'.mats →
    CopiesOk d.mats done rs → (∀ s ∈ done, Agree (d.mats s) (d.attrs s) (d'.attrs s)) →
    (solveAll E c rs d).1 = (solveAll E c rs d').1 ∧ ((solveAll E c rs d).1 = .ok () →
      ∀ s, s ∈ done ∨ s ∈ rs →
        Agree (d.mats s) ((solveAll E c rs d).2.attrs s) ((solveAll E c rs d').2.attrs s)) := by
  induction rs with
  | nil =>
    intro done d d' hm hc ha
    refine ⟨rfl, fun _ s hs => ?_⟩
    simp at hs
    exact ha s hs
  | cons r rs ih =>
    intro done d d' hm hc ha
    obtain ⟨h1, h2⟩ := hc
    rw [solveAll_cons, solveAll_cons, solveLayer_eq, solveLayer_eq]
    have he : stepOut E c (d'.mats r) (d'.attrs (d'.mats r).original) =
        stepOut E c (d.mats r) (d.attrs (d.mats r).original) := by
      rw [← hm]
      refine stepOut_congr _ _ fun hcp => ?_
      obtain ⟨h3, h4⟩ := h1 hcp
      exact ((ha _ h3).2.2 h4).symm
    rw [he]
    set so := stepOut E c (d.mats r) (d.attrs (d.mats r).original) with hso
    rcases hres : so.1 with e | u
    · exact ⟨rfl, by simp⟩
    · dsimp only
      have hd' : ∀ s ∈ r :: done,
          Agree (d.mats s) ((d.setAttr r so.2).attrs s) ((d'.setAttr r so.2).attrs s) := by
        intro s hs
        by_cases hsr : s = r
        · subst hsr
          rw [setAttr_same, setAttr_same]
          exact stepOut_agree _ _ _ hres
        · rw [setAttr_ne _ hsr, setAttr_ne _ hsr]
          rcases List.mem_cons.mp hs with h | h
          · exact absurd h hsr
          · exact ha s h
      obtain ⟨i1, i2⟩ := ih (r :: done) (d.setAttr r so.2) (d'.setAttr r so.2) hm h2 hd'
      refine ⟨i1, fun hok s hs => i2 hok s ?_⟩
      simp only [List.mem_cons] at hs ⊢
      tauto

theorem CopiesOk.noStale {rs : List ℕ} : ∀ {done : List ℕ}, CopiesOk mats done rs →
    (∀ s ∈ done, s ∉ rs) → rs.Nodup → NoStale mats A0 rs := by
  induction rs with
  | nil => intros; trivial
  | cons r rs ih =>
    intro done h hd hn
    obtain ⟨hr, hn'⟩ := List.nodup_cons.mp hn
    refine ⟨fun hc ho => absurd ho (hd _ (h.1 hc).1), ih h.2 ?_ hn'⟩
    intro s hs
    rcases List.mem_cons.mp hs with rfl | hs
    · exact hr
    · intro h'; exact hd s hs (by simp [h'])

theorem modesOf_agree {L : LayerSpec} {a b : LayerAttr c.nh} (h : Agree L a b) :
    modesOf L a = modesOf L b := by
  unfold modesOf
  rw [h.1, h.2.1]

theorem fieldAt_agree {L : LayerSpec} {a b : LayerAttr c.nh} (h : Agree L a b) :
    fieldAt c L a = fieldAt c L b := by
  have hn : normalE L a = normalE L b := by
    funext dz
    unfold normalE
    by_cases hu : L.isUniform = true
    · simp [hu]
    · have := h.2.2 (by simpa using hu)
      rw [this]
  funext a0 b0 z
  unfold fieldAt
  rw [modesOf_agree h, hn]

theorem pyGet_mem {l : List ℕ} {i : ℤ} {r : ℕ} (hr : pyGet l i = .ok r) : r ∈ l := by
  unfold pyGet at hr
  split at hr
  · split at hr
    · rename_i hk
      simp at hr; subst hr
      exact List.mem_of_getElem? hk
    · simp at hr
  · simp at hr

theorem lmodes_agree {A B : ℕ → LayerAttr c.nh} (h : ∀ s ∈ c.stack, Agree (mats s) (A s) (B s)) :
    lmodes c mats A = lmodes c mats B := by
  funext i
  unfold lmodes
  rcases hr : pyGet c.stack i with e | r
  · rfl
  · simp only [except_bind_ok]
    exact modesOf_agree (h r (pyGet_mem hr))

theorem valS_agree {A B : ℕ → LayerAttr c.nh}
    (h : res = .ok () → ∀ s ∈ c.stack, Agree (mats s) (A s) (B s)) (idx) :
    valS c mats A res idx = valS c mats B res idx := by
  cases hres : res with
  | error e => rfl
  | ok u =>
    have := lmodes_agree (h hres)
    have hst : stepD c mats A = stepD c mats B := by
      funext S i
      unfold stepD
      rw [this]
    unfold valS foldS
    rw [hst]

/-- States of two objects on layers with the same materials and possibly different leftovers. -/
theorem base_pair {B0 B1 : ℕ → LayerAttr c.nh} (hA : SolveSpec E c mats A0 A1 res)
    (hB : SolveSpec E c mats B0 B1 res)
    (hag : res = .ok () → ∀ s ∈ c.stack, Agree (mats s) (A1 s) (B1 s)) :
    Base E c mats (fun d => Inv E c mats A0 A1 res d ∨ Inv E c mats B0 B1 res d)
      (fun d => Inv2 E c mats A0 A1 res d ∨ Inv2 E c mats B0 B1 res d) := by
  have hor : ∀ {α : Type} {x : PyM (Dyn c.nh) α} {v : Except PyErr α} {P P' Q Q' I I' : Dyn c.nh → Prop},
      (∀ d, P d → (x d).1 = v ∧ I (x d).2 ∧ ∀ a, v = .ok a → Q (x d).2) →
      (∀ d, P' d → (x d).1 = v ∧ I' (x d).2 ∧ ∀ a, v = .ok a → Q' (x d).2) →
      Det (fun d => I d ∨ I' d) (fun d => P d ∨ P' d) (fun d => Q d ∨ Q' d) x := by
    intro α x v P P' Q Q' I I' h h'
    refine ⟨v, fun d hd => ?_⟩
    rcases hd with hd | hd
    · exact ⟨(h d hd).1, .inl (h d hd).2.1, fun a ha => .inl ((h d hd).2.2 a ha)⟩
    · exact ⟨(h' d hd).1, .inr (h' d hd).2.1, fun a ha => .inr ((h' d hd).2.2 a ha)⟩
  constructor
  · rintro d (h | h)
    · exact .inl h.1
    · exact .inr h.1
  · exact hor (det_ensureSolved' hA) (det_ensureSolved' hB)
  · intro idx
    refine hor (det_getS' hA idx) ?_
    rw [valS_agree hag]
    exact det_getS' hB idx
  · refine hor (det_readS' hA (fun _ h => h) (fun _ h => h.1)) ?_
    rw [valS_agree hag]
    exact det_readS' hB (fun _ h => h) (fun _ h => h.1)
  · refine hor (det_readS' hA (fun _ h => h.1) (fun _ h => h)) ?_
    rw [valS_agree hag]
    exact det_readS' hB (fun _ h => h.1) (fun _ h => h)
  · rintro d (h | h)
    · exact h.mats_eq
    · exact h.mats_eq
  · refine ⟨lmodes c mats A1, ?_⟩
    rintro d (h | h) i
    · rw [layerModes_eq, h.mats_eq, h.attrs_eq]
    · rw [layerModes_eq, h.mats_eq, h.attrs_eq, lmodes_agree (hag (h.1.solved h.2).1)]
  · refine ⟨fun r => fieldAt c (mats r) (A1 r), ?_⟩
    rintro d (h | h) r hr
    · rw [h.mats_eq, h.attrs_eq]
    · rw [h.mats_eq, h.attrs_eq, ← fieldAt_agree (hag (h.1.solved h.2).1 r hr)]

end Nannos
