import Verif.Proofs.SimRel

/-! Copies of layers and independent layers of the same material. -/

namespace Nannos

open Matrix Spec

variable {E : Ext} {c : Static} {mats mats' : ℕ → LayerSpec}

/-- The computation has the same outcome and effect on the layers `mats'` as on the layers `mats`. -/
def Equi {α : Type} (mats mats' : ℕ → LayerSpec) (x : PyM (Dyn c.nh) α) : Prop :=
  ∀ d, d.mats = mats → x { d with mats := mats' } = ((x d).1, { (x d).2 with mats := mats' }) ∧
    (x d).2.mats = mats

section
variable {α β : Type}

theorem Equi.bind {x : PyM (Dyn c.nh) α} {f : α → PyM (Dyn c.nh) β} (hx : Equi mats mats' x)
    (hf : ∀ a, Equi mats mats' (f a)) : Equi mats mats' (x >>= f) := by
  intro d hd
  obtain ⟨h1, h2⟩ := hx d hd
  rw [PyM.bind_def, PyM.bind_def, h1]
  rcases hxd : x d with ⟨r, d'⟩
  rw [hxd] at h2
  rcases r with e | a
  · exact ⟨rfl, h2⟩
  · exact hf a d' h2

theorem Equi.pure (a : α) : Equi mats mats' (pure a : PyM (Dyn c.nh) α) := fun _ h => ⟨rfl, h⟩

theorem Equi.lift (v : Except PyErr α) : Equi mats mats' (PyM.lift v : PyM (Dyn c.nh) α) :=
  fun _ h => ⟨rfl, h⟩

theorem Equi.bind_lift {v : Except PyErr α} {f : α → PyM (Dyn c.nh) β}
    (hf : ∀ a, v = .ok a → Equi mats mats' (f a)) :
    Equi mats mats' ((PyM.lift v : PyM (Dyn c.nh) α) >>= f) := by
  cases v with
  | error e => exact fun d hd => ⟨rfl, hd⟩
  | ok a => exact hf a rfl

theorem Equi.get_bind {f : Dyn c.nh → PyM (Dyn c.nh) β}
    (h : ∀ d, d.mats = mats → Equi mats mats' (f d) ∧ f { d with mats := mats' } = f d) :
    Equi mats mats' (PyM.get >>= f) := by
  intro d hd
  obtain ⟨h1, h2⟩ := h d hd
  rw [PyM.bind_def, PyM.bind_def]
  dsimp only [PyM.get]
  rw [h2]
  exact h1 d hd

end

/-- What the scattering matrix and the fluxes read of the layers. -/
structure EquiSolve (E : Ext) (c : Static) (mats mats' : ℕ → LayerSpec) : Prop where
  solve : Equi mats mats' (solveAll E c c.stack)
  thickness : ∀ r ∈ c.stack, (mats' r).thickness = (mats r).thickness

/-- What all calls read of the layers. -/
structure EquiBase (E : Ext) (c : Static) (mats mats' : ℕ → LayerSpec) : Prop
    extends EquiSolve E c mats mats' where
  epsilon : ∀ r ∈ c.stack, (mats' r).epsilon = (mats r).epsilon
  mu : ∀ r ∈ c.stack, (mats' r).mu = (mats r).mu

section
variable (B : EquiSolve E c mats mats')
include B

theorem EquiSolve.ensure : Equi mats mats' (ensureSolved E c) ∧ Equi mats mats' (Nannos.solve E c) := by
  have hsol : Equi mats mats' (Nannos.solve E c) := by
    unfold Nannos.solve
    exact B.solve.bind fun _ => fun d hd => ⟨rfl, hd⟩
  refine ⟨fun d hd => ?_, hsol⟩
  unfold ensureSolved
  by_cases h : d.isSolved = true
  · simp only [h, if_true]; exact ⟨trivial, hd⟩
  · rw [if_neg h, if_neg (show ¬ ({ d with mats := mats' } : Dyn c.nh).isSolved = true from h)]
    exact hsol d hd

theorem EquiSolve.modesOf {r : ℕ} (hr : r ∈ c.stack) (a : LayerAttr c.nh) :
    Nannos.modesOf (mats' r) a = Nannos.modesOf (mats r) a := by
  unfold Nannos.modesOf
  rw [B.thickness r hr]

theorem EquiSolve.layerModes (d : Dyn c.nh) (hd : d.mats = mats) (i : ℤ) :
    Nannos.layerModes c { d with mats := mats' } i = Nannos.layerModes c d i := by
  unfold Nannos.layerModes
  rcases hr : pyGet c.stack i with e | r
  · rfl
  · simp only [except_bind_ok]
    rw [hd]
    exact B.modesOf (pyGet_mem hr) _

theorem EquiSolve.sLoop (first : ℤ) (l : List ℤ) : ∀ S, Equi mats mats' (Nannos.sLoop c first l S) := by
  induction l with
  | nil => intro S; exact Equi.pure _
  | cons i l ih =>
    intro S
    unfold Nannos.sLoop
    refine Equi.bind ?_ fun S' => ih S'
    intro d hd
    unfold sBody
    rw [B.layerModes d hd, B.layerModes d hd]
    split
    · exact ⟨rfl, hd⟩
    · exact ⟨rfl, hd⟩

theorem EquiSolve.getS (idx : Option (ℤ × ℤ)) : Equi mats mats' (Nannos.getS E c idx) := by
  unfold Nannos.getS
  refine B.ensure.1.bind fun _ => Equi.bind ?_ fun S => ?_
  · intro d hd
    unfold cachedLoop
    split
    · dsimp only
      split
      · exact ⟨rfl, hd⟩
      · exact B.sLoop _ _ _ d hd
    · exact ⟨rfl, hd⟩
  · dsimp only
    split
    · refine Equi.bind ?_ fun _ => Equi.pure _
      intro d hd
      exact ⟨rfl, hd⟩
    · exact Equi.pure _

theorem EquiSolve.solveExt : Equi mats mats' (Nannos.solveExt E c) := by
  unfold Nannos.solveExt
  refine Equi.get_bind fun d hd => ⟨?_, rfl⟩
  dsimp only
  rcases d.S with _ | S
  · exact (B.getS none).bind (fun S => Equi.pure _)
  · exact Equi.pure _

theorem EquiSolve.getAmplitudes (i : ℤ) : Equi mats mats' (Nannos.getAmplitudes E c i) := by
  unfold Nannos.getAmplitudes
  refine (Equi.lift _).bind fun _ => ?_
  dsimp only
  split
  · exact B.solveExt.bind fun ab => Equi.pure _
  · split
    · exact B.solveExt.bind fun ab => Equi.pure _
    · unfold solveInt
      exact (Equi.lift _).bind fun _ => (B.getS _).bind fun S => (B.getS _).bind fun P =>
        (Equi.lift _).bind fun ai => Equi.pure _

theorem EquiSolve.flux (i : ℤ) (an bn : Idx c.nh → ℂ) :
    Equi mats mats' (Nannos.getZPoyntingFlux E c i an bn) := by
  unfold Nannos.getZPoyntingFlux
  refine B.ensure.1.bind fun _ => Equi.get_bind fun d hd =>
    ⟨(Equi.lift _).bind fun M => Equi.lift _, ?_⟩
  rw [B.layerModes d hd]

theorem EquiSolve.ensureS : Equi mats mats' (Nannos.ensureS E c) := by
  unfold Nannos.ensureS
  refine Equi.get_bind fun d hd => ⟨?_, rfl⟩
  rcases d.S with _ | S
  · exact (B.getS none).bind (fun S => Equi.pure _)
  · exact Equi.pure _

theorem EquiSolve.diffraction (o : Bool) : Equi mats mats' (Nannos.diffractionEfficiencies E c o) := by
  unfold Nannos.diffractionEfficiencies efficienciesByOrder
  refine Equi.bind ?_ fun RT => ?_
  · exact B.ensureS.bind fun _ => B.solveExt.bind fun ab => (B.flux _ _ _).bind fun f1 =>
      (B.flux _ _ _).bind fun f2 => (Equi.lift _).bind fun _ => Equi.pure _
  · dsimp only
    split
    · exact Equi.pure _
    · exact Equi.pure _

end

section
variable (B : EquiBase E c mats mats')
include B

theorem EquiBase.uniform {r : ℕ} (hr : r ∈ c.stack) :
    (mats' r).isUniform = (mats r).isUniform ∧ (mats' r).isAnisotropic = (mats r).isAnisotropic := by
  unfold LayerSpec.isUniform LayerSpec.isAnisotropic
  rw [B.epsilon r hr]
  exact ⟨rfl, rfl⟩

theorem EquiBase.fieldAt {r : ℕ} (hr : r ∈ c.stack) (a : LayerAttr c.nh) :
    Nannos.fieldAt c (mats' r) a = Nannos.fieldAt c (mats r) a := by
  have hn : normalE (mats' r) a = normalE (mats r) a := by
    funext dz
    unfold normalE
    rw [(B.uniform hr).1, B.epsilon r hr]
  funext a0 b0 z
  unfold Nannos.fieldAt
  rw [B.modesOf hr, hn]

theorem EquiBase.getFieldFourier (id : LayerId) (zs : List ℝ) :
    Equi mats mats' (Nannos.getFieldFourier E c id zs) := by
  unfold Nannos.getFieldFourier
  refine Equi.bind_lift fun ri hri => B.ensure.1.bind fun _ => (B.getAmplitudes _).bind fun ab =>
    Equi.get_bind fun d hd => ⟨Equi.lift _, ?_⟩
  dsimp only
  rw [hd, B.fieldAt (getLayer_mem hri)]

theorem EquiBase.complex : Equi mats mats' (Nannos.complexEfficiencies E c) := by
  unfold Nannos.complexEfficiencies complexOrders
  refine B.ensureS.bind fun _ => Equi.get_bind fun d hd => ⟨?_, ?_⟩
  · refine (Equi.lift _).bind fun r0 => (Equi.lift _).bind fun rN => (Equi.lift _).bind fun _ =>
      (Equi.lift _).bind fun _ => (Equi.lift _).bind fun nt => (Equi.lift _).bind fun nr =>
      (B.getFieldFourier _ _).bind fun fsub => (B.getFieldFourier _ _).bind fun fsup => ?_
    split
    · exact Equi.pure _
    · exact Equi.lift _
  · rw [hd]
    rcases h0 : pyGet c.stack 0 with e | r0
    · rfl
    rcases hN : pyGet c.stack (-1) with e | rN
    · rfl
    have e0 := pyGet_mem h0
    have eN := pyGet_mem hN
    funext d'
    have hl : ∀ {α β : Type} (a : α) (f : α → PyM (Dyn c.nh) β),
        ((PyM.lift (Except.ok a) : PyM (Dyn c.nh) α) >>= f) = f a := fun a f => rfl
    simp only [hl, (B.uniform e0).1, (B.uniform e0).2, (B.uniform eN).1, (B.uniform eN).2, B.epsilon r0 e0,
      B.epsilon rN eN, B.mu r0 e0, B.mu rN eN]

theorem EquiBase.call (a : Call c.nh) (d : Dyn c.nh) (hd : d.mats = mats) :
    a.result E c { d with mats := mats' } = a.result E c d ∧
    a.after E c { d with mats := mats' } = { a.after E c d with mats := mats' } ∧
    (a.after E c d).mats = mats := by
  have key : ∀ {α : Type} {x : PyM (Dyn c.nh) α}, Equi mats mats' x → ∀ g : α → Outcome c.nh,
      (x { d with mats := mats' }).1.map g = (x d).1.map g ∧
      (x { d with mats := mats' }).2 = { (x d).2 with mats := mats' } ∧ (x d).2.mats = mats := by
    intro α x hx g
    obtain ⟨h1, h2⟩ := hx d hd
    rw [h1]
    exact ⟨rfl, rfl, h2⟩
  cases a with
  | getSMatrix idx => exact key (B.getS idx) _
  | solve => exact key B.ensure.2 _
  | reset p =>
    refine key (x := simReset p) (fun d hd => ?_) fun _ => .nothing
    unfold simReset
    dsimp only
    split_ifs <;> exact ⟨rfl, hd⟩
  | getFieldFourier l z => exact key (B.getFieldFourier l z) _
  | getZPoyntingFlux l a b => exact key (B.flux l a b) _
  | diffractionEfficiencies o => exact key (B.diffraction o) _
  | complexEfficiencies => exact key B.complex _

theorem EquiBase.calls (l : List (Call c.nh)) : ∀ (d : Dyn c.nh), d.mats = mats →
    afterCalls E c l { d with mats := mats' } = { afterCalls E c l d with mats := mats' } ∧
    (afterCalls E c l d).mats = mats := by
  induction l with
  | nil => intro d hd; exact ⟨rfl, hd⟩
  | cons a l ih =>
    intro d hd
    obtain ⟨-, h2, h3⟩ := B.call a d hd
    have := ih _ h3
    unfold afterCalls at this ⊢
    rw [List.foldl_cons, List.foldl_cons, h2]
    exact this


end

/-! ### Copies -/

theorem buildPure_congr {L L' : LayerSpec} (h1 : L'.epsilon = L.epsilon) (h2 : L'.mu = L.mu)
    (h3 : L'.tangentField = L.tangentField) (h4 : L'.tangentFieldType = L.tangentFieldType) :
    buildPure E c L' = buildPure E c L := by
  rcases L with ⟨n, t, e, m, l, tf, tt, ic, o⟩
  rcases L' with ⟨n', t', e', m', l', tf', tt', ic', o'⟩
  dsimp only at h1 h2 h3 h4
  subst h1 h2 h3 h4
  rfl

theorem solveAll_copies (hf : ∀ r, (mats r).iscopy = true → r ∈ c.stack →
      (mats r).epsilon = (mats (mats r).original).epsilon ∧ (mats r).mu = (mats (mats r).original).mu ∧
      (mats r).tangentField = (mats (mats r).original).tangentField ∧
      (mats r).tangentFieldType = (mats (mats r).original).tangentFieldType) (rs : List ℕ) :
    ∀ (done : List ℕ) (d : Dyn c.nh), d.mats = mats → CopiesOk mats done rs → (∀ r ∈ rs, r ∈ c.stack) →
    (∀ o ∈ done, (mats o).isUniform = false → ∃ M p Q ev, buildPure E c (mats o) = .ok (.patterned M p Q) ∧
      solveEigenproblem E M = .ok ev ∧ d.attrs o = ⟨some M, some p, some Q, some ev⟩) →
    solveAll E c rs { d with mats := independent mats } =
      ((solveAll E c rs d).1, { (solveAll E c rs d).2 with mats := independent mats }) ∧
    (solveAll E c rs d).2.mats = mats := by
  induction rs with
  | nil => intro done d hd _ _ _; exact ⟨rfl, hd⟩
  | cons r rs ih =>
    intro done d hd hc hst ha
    subst hd
    obtain ⟨h1, h2⟩ := hc
    rw [solveAll_cons, solveAll_cons, solveLayer_eq, solveLayer_eq]
    dsimp only
    have hstep : stepOut E c (independent d.mats r) (d.attrs (independent d.mats r).original) =
        stepOut E c (d.mats r) (d.attrs (d.mats r).original) := by
      by_cases hcp : (d.mats r).iscopy = true
      · obtain ⟨h3, h4⟩ := h1 hcp
        obtain ⟨M, p, Q, ev, hb, he, hA⟩ := ha _ h3 h4
        obtain ⟨f1, f2, f3, f4⟩ := hf r hcp (hst r (by simp))
        have hb' : buildPure E c (independent d.mats r) = .ok (.patterned M p Q) := by
          rw [← hb]; exact buildPure_congr f1 f2 f3 f4
        have hu : (d.mats r).isUniform = false := by
          unfold LayerSpec.isUniform at h4 ⊢
          rw [f1]; exact h4
        unfold stepOut
        rw [hb', hA, if_pos hcp]
        simp only [independent, Bool.false_eq_true, if_false, he, hu, attr]
      · have hi : (independent d.mats r).iscopy = false := rfl
        unfold stepOut
        rw [if_neg hcp, if_neg (by rw [hi]; simp)]
        rfl
    rw [hstep]
    set so := stepOut E c (d.mats r) (d.attrs (d.mats r).original) with hso
    rcases hres : so.1 with e | u
    · exact ⟨rfl, rfl⟩
    · refine ih (r :: done) (d.setAttr r so.2) rfl h2 (fun s hs => hst s (by simp [hs])) ?_
      intro o ho hu
      by_cases hor : o = r
      · subst hor
        rw [setAttr_same]
        have hso' : stepOut E c (independent d.mats o) (d.attrs (independent d.mats o).original) = so := hstep
        have hi : (independent d.mats o).iscopy = false := rfl
        have hb0 : buildPure E c (independent d.mats o) = buildPure E c (d.mats o) := rfl
        rw [← hso'] at hres ⊢
        unfold stepOut at hres ⊢
        simp only [hi, Bool.false_eq_true, if_false, hb0] at hres ⊢
        rcases hb : buildPure E c (d.mats o) with e | (Q | ⟨M, p, Q⟩)
        · rw [hb] at hres; simp at hres
        · have := buildPure_uniform hb; rw [hu] at this; simp at this
        · rw [hb] at hres
          dsimp only at hres ⊢
          rcases he : solveEigenproblem E M with e | ev
          · rw [he] at hres; simp at hres
          · exact ⟨M, p, Q, ev, rfl, he, rfl⟩
      · rw [setAttr_ne _ hor]
        exact ha o ((List.mem_cons.mp ho).resolve_left hor) hu

/-- Solving depends on the layers only through `stepOut`. -/
theorem equi_of_step (h : ∀ r ∈ c.stack, (mats' r).original = (mats r).original ∧
      ∀ Ao, stepOut E c (mats' r) Ao = stepOut E c (mats r) Ao) :
    Equi mats mats' (solveAll E c c.stack) := by
  have key : ∀ (rs : List ℕ), (∀ r ∈ rs, r ∈ c.stack) → Equi mats mats' (solveAll E c rs) := by
    intro rs
    induction rs with
    | nil => intro _ d hd; exact ⟨rfl, hd⟩
    | cons r rs ih =>
      intro hm d hd
      subst hd
      rw [solveAll_cons, solveAll_cons, solveLayer_eq, solveLayer_eq]
      dsimp only
      obtain ⟨h1, h2⟩ := h r (hm r (by simp))
      rw [h1, h2]
      rcases (stepOut E c (d.mats r) (d.attrs (d.mats r).original)).1 with e | u
      · exact ⟨rfl, rfl⟩
      · exact ih (fun s hs => hm s (by simp [hs]))
          (d.setAttr r (stepOut E c (d.mats r) (d.attrs (d.mats r).original)).2) rfl
  exact key c.stack fun _ h => h

/-- The material of a patterned copy is not read when solving. -/
theorem stepOut_copy {L L' : LayerSpec} (hc : L.iscopy = true) (hc' : L'.iscopy = true)
    (hu : L.isUniform = false) (hu' : L'.isUniform = false) (Ao : LayerAttr c.nh) :
    stepOut E c L' Ao = stepOut E c L Ao := by
  unfold stepOut
  simp only [hc, hc', hu, hu', if_true, Bool.false_eq_true, if_false]

/-- A uniform layer never gets the attributes a copy needs. -/
theorem solveAll_matrix {o : ℕ} (rs : List ℕ) : ∀ (d : Dyn c.nh), (d.mats o).iscopy = false →
    (d.mats o).isUniform = true → ((solveAll E c rs d).2.attrs o).matrix = (d.attrs o).matrix := by
  induction rs with
  | nil => intros; rfl
  | cons r rs ih =>
    intro d hc hu
    have h1 : ((d.setAttr r (stepOut E c (d.mats r) (d.attrs (d.mats r).original)).2).attrs o).matrix =
        (d.attrs o).matrix := by
      by_cases hor : o = r
      · subst hor
        rw [setAttr_same]
        unfold stepOut
        simp only [hc, Bool.false_eq_true, if_false]
        rcases hb : buildPure E c (d.mats o) with e | (Q | ⟨M, p, Q⟩)
        · rfl
        · dsimp only
          split <;> rfl
        · have := buildPure_patterned hb; rw [hu] at this; simp at this
      · rw [setAttr_ne _ hor]
    rw [solveAll_cons, solveLayer_eq]
    rcases (stepOut E c (d.mats r) (d.attrs (d.mats r).original)).1 with e | u
    · exact h1
    · dsimp only
      rw [ih (d.setAttr r (stepOut E c (d.mats r) (d.attrs (d.mats r).original)).2) hc hu]
      exact h1

theorem equiBase_independent (hw : WellPlaced mats c.stack) (hf : FaithfulCopies mats c.stack) :
    EquiBase E c mats (independent mats) where
  solve := fun d hd => solveAll_copies (fun r h1 h2 => hf r h2 h1) c.stack [] d hd
    (copiesOk_of_wellPlaced hw) (fun _ h => h) (by simp)
  thickness := fun _ _ => rfl
  epsilon := fun _ _ => rfl
  mu := fun _ _ => rfl

end Nannos
