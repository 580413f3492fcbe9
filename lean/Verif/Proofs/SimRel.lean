import Verif.Proofs.Medium

/-! Calls on an object whose layers were edited, and on objects with different layers. -/

namespace Nannos

open Matrix Spec

variable {E : Ext} {c : Static}

/-! ### Properties kept by all calls -/

/-- The computation keeps `I`, whatever its outcome. -/
def Pres {α : Type} (I : Dyn c.nh → Prop) (x : PyM (Dyn c.nh) α) : Prop := ∀ d, I d → I (x d).2

section
variable {α β : Type} {I : Dyn c.nh → Prop}

theorem Pres.bind {x : PyM (Dyn c.nh) α} {f : α → PyM (Dyn c.nh) β} (hx : Pres I x)
    (hf : ∀ a, Pres I (f a)) : Pres I (x >>= f) := by
  intro d hd
  rw [PyM.bind_def]
  have := hx d hd
  rcases hxd : x d with ⟨r, d'⟩
  rw [hxd] at this
  rcases r with e | a
  · exact this
  · exact hf a d' this

theorem Pres.pure (a : α) : Pres I (pure a : PyM (Dyn c.nh) α) := fun _ h => h

theorem Pres.lift (v : Except PyErr α) : Pres I (PyM.lift v : PyM (Dyn c.nh) α) := fun _ h => h

theorem Pres.get : Pres I (PyM.get : PyM (Dyn c.nh) _) := fun _ h => h

end

/-- What the calls need to know: the invariant is kept by solving and does not depend on the caches. -/
structure PresBase (E : Ext) (c : Static) (I : Dyn c.nh → Prop) : Prop where
  ensure : Pres I (ensureSolved E c)
  cache : ∀ d f S, I d → I { d with inter := f, S := S }

section
variable {I : Dyn c.nh → Prop} (B : PresBase E c I)
include B

theorem PresBase.sLoop (first : ℤ) (l : List ℤ) : ∀ S, Pres I (Nannos.sLoop c first l S) := by
  induction l with
  | nil => intro S; exact Pres.pure _
  | cons i l ih =>
    intro S
    unfold Nannos.sLoop
    refine Pres.bind ?_ fun S' => ih S'
    intro d hd
    unfold sBody
    split
    · exact hd
    · exact B.cache d _ d.S hd

theorem PresBase.getS (idx : Option (ℤ × ℤ)) : Pres I (Nannos.getS E c idx) := by
  unfold Nannos.getS
  refine B.ensure.bind fun _ => Pres.bind ?_ fun S => ?_
  · intro d hd
    unfold cachedLoop
    split
    · split
      · exact hd
      · exact B.sLoop _ _ _ d hd
    · exact hd
  · dsimp only
    split
    · refine Pres.bind ?_ fun _ => Pres.pure _
      intro d hd
      exact B.cache d d.inter _ hd
    · exact Pres.pure _

theorem PresBase.solveExt : Pres I (Nannos.solveExt E c) := by
  intro d hd
  unfold Nannos.solveExt
  rw [PyM.bind_def]
  dsimp only [PyM.get]
  rcases d.S with _ | S
  · exact (B.getS none).bind (fun S => Pres.pure _) d hd
  · exact hd

theorem PresBase.getAmplitudes (i : ℤ) : Pres I (Nannos.getAmplitudes E c i) := by
  unfold Nannos.getAmplitudes
  refine (Pres.lift _).bind fun _ => ?_
  dsimp only
  split
  · exact B.solveExt.bind fun ab => Pres.pure _
  · split
    · exact B.solveExt.bind fun ab => Pres.pure _
    · unfold solveInt
      exact (Pres.lift _).bind fun _ => (B.getS _).bind fun S => (B.getS _).bind fun P =>
        (Pres.lift _).bind fun ai => Pres.pure _

theorem PresBase.getFieldFourier (id : LayerId) (zs : List ℝ) :
    Pres I (Nannos.getFieldFourier E c id zs) := by
  unfold Nannos.getFieldFourier
  exact (Pres.lift _).bind fun ri => B.ensure.bind fun _ => (B.getAmplitudes _).bind fun ab =>
    Pres.get.bind fun d => Pres.lift _

theorem PresBase.flux (i : ℤ) (an bn : Idx c.nh → ℂ) : Pres I (Nannos.getZPoyntingFlux E c i an bn) := by
  unfold Nannos.getZPoyntingFlux
  exact B.ensure.bind fun _ => Pres.get.bind fun d => (Pres.lift _).bind fun M => Pres.lift _

theorem PresBase.ensureS : Pres I (Nannos.ensureS E c) := by
  intro d hd
  unfold Nannos.ensureS
  rw [PyM.bind_def]
  dsimp only [PyM.get]
  rcases d.S with _ | S
  · exact (B.getS none).bind (fun S => Pres.pure _) d hd
  · exact hd

theorem PresBase.diffraction (o : Bool) : Pres I (Nannos.diffractionEfficiencies E c o) := by
  unfold Nannos.diffractionEfficiencies efficienciesByOrder
  refine Pres.bind ?_ fun RT => ?_
  · exact B.ensureS.bind fun _ => B.solveExt.bind fun ab => (B.flux _ _ _).bind fun f1 =>
      (B.flux _ _ _).bind fun f2 => (Pres.lift _).bind fun _ => Pres.pure _
  · dsimp only
    split
    · exact Pres.pure _
    · exact Pres.pure _

theorem PresBase.complex : Pres I (Nannos.complexEfficiencies E c) := by
  unfold Nannos.complexEfficiencies complexOrders
  refine B.ensureS.bind fun _ => Pres.get.bind fun d => ?_
  refine (Pres.lift _).bind fun r0 => (Pres.lift _).bind fun rN => (Pres.lift _).bind fun _ =>
    (Pres.lift _).bind fun _ => (Pres.lift _).bind fun nt => (Pres.lift _).bind fun nr =>
    (B.getFieldFourier _ _).bind fun fsub => (B.getFieldFourier _ _).bind fun fsup => ?_
  split
  · exact Pres.pure _
  · exact Pres.lift _

theorem PresBase.call (hsolve : Pres I (Nannos.solve E c))
    (hreset : ∀ d, I d → I { d with isSolved := false }) (a : Call c.nh) :
    ∀ d, I d → I (a.after E c d) := by
  intro d hd
  cases a with
  | getSMatrix idx => exact B.getS idx d hd
  | solve => exact hsolve d hd
  | reset p =>
    unfold Call.after simReset
    dsimp only
    split_ifs
    all_goals first
      | exact hd
      | exact B.cache _ _ _ hd
      | exact hreset _ hd
      | exact hreset { d with inter := fun _ => none, S := none } (B.cache d (fun _ => none) none hd)
      | exact absurd (‹p = "S"›.symm.trans ‹p = "all"›) (by decide)
      | exact absurd (‹p = "S"›.symm.trans ‹p = "solve"›) (by decide)
      | exact absurd (‹p = "solve"›.symm.trans ‹p = "all"›) (by decide)
  | getFieldFourier l z => exact B.getFieldFourier l z d hd
  | getZPoyntingFlux l a b => exact B.flux l a b d hd
  | diffractionEfficiencies o => exact B.diffraction o d hd
  | complexEfficiencies => exact B.complex d hd

end

/-! ### Changes of thickness -/

/-- The same layer objects with other thicknesses. -/
def SameMaterials (mats mats' : ℕ → LayerSpec) : Prop :=
  ∀ r, { mats' r with thickness := (mats r).thickness } = mats r

theorem stepOut_thickness (L : LayerSpec) (t : Option ℝ) (Ao : LayerAttr c.nh) :
    stepOut E c { L with thickness := t } Ao = stepOut E c L Ao := rfl

theorem solveAll_thickness (rs : List ℕ) : ∀ (d : Dyn c.nh) (mats' : ℕ → LayerSpec),
    SameMaterials d.mats mats' → solveAll E c rs { d with mats := mats' } =
      ((solveAll E c rs d).1, { (solveAll E c rs d).2 with mats := mats' }) := by
  induction rs with
  | nil => intros; rfl
  | cons r rs ih =>
    intro d mats' h
    rw [solveAll_cons, solveAll_cons, solveLayer_eq, solveLayer_eq]
    dsimp only
    have h1 : ∀ Ao, stepOut E c (mats' r) Ao = stepOut E c (d.mats r) Ao := by
      intro Ao; rw [← h r]; rfl
    have h2 : (mats' r).original = (d.mats r).original := by rw [← h r]
    rw [h1, h2]
    rcases (stepOut E c (d.mats r) (d.attrs (d.mats r).original)).1 with e | u
    · rfl
    · exact ih (d.setAttr r (stepOut E c (d.mats r) (d.attrs (d.mats r).original)).2) mats' h

theorem SameMaterials.symm {mats mats' : ℕ → LayerSpec} (h : SameMaterials mats mats') :
    SameMaterials mats' mats := by
  intro r
  rw [← h r]

theorem SolveSpec.thickness {mats mats' : ℕ → LayerSpec} {A0 A1 : ℕ → LayerAttr c.nh} {res}
    (hs : SolveSpec E c mats A0 A1 res) (h : SameMaterials mats mats') :
    SolveSpec E c mats' A0 A1 res := by
  constructor
  rintro d rfl hA
  have := hs.run { d with mats := mats } rfl hA
  have e := solveAll_thickness (E := E) c.stack { d with mats := mats } d.mats h
  rw [this] at e
  exact e

/-- What remains of the invariant when thicknesses are edited without resetting. -/
structure WInv (E : Ext) (c : Static) (mats : ℕ → LayerSpec) (A0 A1 : ℕ → LayerAttr c.nh)
    (res : Except PyErr Unit) (d : Dyn c.nh) : Prop where
  mats_eq : SameMaterials mats d.mats
  attrs : d.attrs = A0 ∨ d.attrs = A1
  solved : d.isSolved = true → res = .ok () ∧ d.attrs = A1

variable {mats : ℕ → LayerSpec} {A0 A1 : ℕ → LayerAttr c.nh} {res : Except PyErr Unit}

theorem WInv.solve (hs : SolveSpec E c mats A0 A1 res) : Pres (WInv E c mats A0 A1 res) (solve E c) := by
  intro d h
  unfold Nannos.solve
  have hr := (hs.thickness h.mats_eq).run d rfl h.attrs
  rcases hres : res with e | u
  · rw [hres] at hr
    rw [PyM.bind_error hr]
    have := h.solved
    rw [hres] at this
    exact ⟨h.mats_eq, .inr rfl, fun h' => absurd (this h').1 (by simp)⟩
  · rw [hres] at hr
    rw [PyM.bind_ok hr]
    exact ⟨h.mats_eq, .inr rfl, fun _ => ⟨rfl, rfl⟩⟩

theorem WInv.base (hs : SolveSpec E c mats A0 A1 res) : PresBase E c (WInv E c mats A0 A1 res) where
  ensure := by
    intro d h
    unfold ensureSolved
    split
    · exact h
    · exact WInv.solve hs d h
  cache := fun d f S h => ⟨h.mats_eq, h.attrs, h.solved⟩

theorem WInv.events (hs : SolveSpec E c mats A0 A1 res) (l : List (Event c.nh)) :
    (∀ e ∈ l, e.KeepsMaterials) → ∀ d, WInv E c mats A0 A1 res d →
      WInv E c mats A0 A1 res (afterEvents E c l d) := by
  induction l with
  | nil => intro _ d h; exact h
  | cons e l ih =>
    intro hl d h
    refine ih (fun e he => hl e (by simp [he])) _ ?_
    have he := hl e (by simp)
    cases e with
    | call a =>
      exact (WInv.base hs).call (WInv.solve hs) (fun d h => ⟨h.mats_eq, h.attrs, by simp⟩) a d h
    | setThickness r t =>
      refine ⟨fun s => ?_, h.attrs, h.solved⟩
      have := h.mats_eq s
      unfold Event.after
      dsimp only
      by_cases hsr : s = r
      · subst hsr; simpa using this
      · simpa [hsr] using this
    | setLayer r L => exact absurd he (by simp [Event.KeepsMaterials])

theorem WInv.inv {d : Dyn c.nh} (h : WInv E c mats A0 A1 res d) :
    Inv E c d.mats A0 A1 res { d with S := none, inter := fun _ => none } :=
  ⟨rfl, h.attrs, h.solved, by simp, by simp⟩

/-! ### Outcomes -/

theorem result_of_det {J J2 : Dyn c.nh → Prop} (B : Base E c mats J J2)
    (hsolve : ∀ d d', J d → J d' → (solve E c d).1 = (solve E c d').1) (a : Call c.nh) {d d' : Dyn c.nh}
    (h : J d) (h' : J d') : a.result E c d = a.result E c d' := by
  cases a with
  | getSMatrix idx => simp only [Call.result]; rw [(B.getS idx).same h h']
  | solve => simp only [Call.result]; rw [hsolve d d' h h']
  | reset p => rfl
  | getFieldFourier l z => simp only [Call.result]; rw [(B.getFieldFourier l z).same h h']
  | getZPoyntingFlux l a b => simp only [Call.result]; rw [(B.flux l a b).same h h']
  | diffractionEfficiencies o => simp only [Call.result]; rw [(B.diffraction o).same h h']
  | complexEfficiencies => simp only [Call.result]; rw [B.complex.same h h']

theorem solve_result (hs : SolveSpec E c mats A0 A1 res) {d : Dyn c.nh} (h : Inv E c mats A0 A1 res d) :
    (solve E c d).1 = res := by
  unfold solve
  have hr := hs.run d h.mats_eq h.attrs
  rcases hres : res with e | u
  · rw [hres] at hr; rw [PyM.bind_error hr]
  · rw [hres] at hr; rw [PyM.bind_ok hr]; rfl

theorem result_of_inv (hs : SolveSpec E c mats A0 A1 res) (a : Call c.nh) {d d' : Dyn c.nh}
    (h : Inv E c mats A0 A1 res d) (h' : Inv E c mats A0 A1 res d') :
    a.result E c d = a.result E c d' :=
  result_of_det (base_inv hs) (fun d d' h h' => by rw [solve_result hs h, solve_result hs h']) a h h'

/-- The outcome of a call does not depend on what earlier uses left in the layer objects. -/
theorem result_leftovers (hnd : c.stack.Nodup) (hw : WellPlaced mats c.stack) (A B : ℕ → LayerAttr c.nh)
    (a : Call c.nh) : a.result E c (Dyn.fresh mats A) = a.result E c (Dyn.fresh mats B) := by
  have hcp := copiesOk_of_wellPlaced hw
  have hA := hcp.noStale (A0 := A) (by simp) hnd
  have hB := hcp.noStale (A0 := B) (by simp) hnd
  obtain ⟨A1, res, hsA, -⟩ := solveSpec_of_noStale (E := E) hnd hA
  obtain ⟨B1, res', hsB, -⟩ := solveSpec_of_noStale (E := E) hnd hB
  obtain ⟨h1, h2⟩ := solveAll_agree (E := E) c.stack [] (Dyn.fresh mats A) (Dyn.fresh mats B) rfl hcp (by simp)
  rw [hsA.run _ rfl (.inl rfl), hsB.run _ rfl (.inl rfl)] at h1 h2
  dsimp only at h1 h2
  subst h1
  have Bp := base_pair hsA hsB (fun h s hs => h2 h s (.inr hs))
  refine result_of_det Bp ?_ a (.inl (inv_fresh A (.inl rfl))) (.inr (inv_fresh B (.inl rfl)))
  have key : ∀ d, (Inv E c mats A A1 res d ∨ Inv E c mats B B1 res d) → (solve E c d).1 = res := by
    rintro d (h | h)
    · exact solve_result hsA h
    · exact solve_result hsB h
  intro d d' h h'
  rw [key d h, key d' h']

/-- A full reset is as good as a new object. -/
theorem reset_all (d : Dyn c.nh) : (simReset "all" d).2 = Dyn.fresh d.mats d.attrs := by
  unfold simReset
  simp [Dyn.fresh]

/-- What the constructor reads of the layers. -/
structure KeepsStatic (mats mats' : ℕ → LayerSpec) (stack : List ℕ) : Prop where
  name : ∀ r ∈ stack, (mats' r).name = (mats r).name
  lattice : ∀ r ∈ stack, (mats' r).lattice = (mats r).lattice
  uniform : ∀ r ∈ stack, (mats' r).isUniform = (mats r).isUniform
  super : ∀ r, stack.head? = some r → (mats' r).epsilon = (mats r).epsilon ∧ (mats' r).mu = (mats r).mu

theorem simInit_keeps {mats' : ℕ → LayerSpec} {stack : List ℕ} (h : KeepsStatic mats mats' stack)
    (lats : ℕ → Lattice) (exc : PlaneWave) (nh : ℤ) (form : String) :
    simInit E lats mats' stack exc nh form = simInit E lats mats stack exc nh form := by
  unfold simInit
  have h1 : (stack.map fun r => (mats' r).name) = stack.map fun r => (mats r).name :=
    List.map_congr_left h.name
  rw [h1]
  cases hst : stack with
  | nil => rfl
  | cons r0 tl =>
    have hm : r0 ∈ stack := by simp [hst]
    have h2 := h.lattice r0 hm
    have h3 := h.super r0 (by simp [hst])
    have hall : ∀ (f g : ℕ → Bool), (∀ r ∈ stack, f r = g r) → (r0 :: tl).all f = (r0 :: tl).all g := by
      intro f g hfg
      rw [← hst, Bool.eq_iff_iff]
      simp only [List.all_eq_true]
      exact ⟨fun H r hr => by rw [← hfg r hr]; exact H r hr, fun H r hr => by rw [hfg r hr]; exact H r hr⟩
    have h4 := hall (fun r => decide ((mats' r).lattice = (mats r0).lattice))
      (fun r => decide ((mats r).lattice = (mats r0).lattice)) (fun r hr => by rw [h.lattice r hr])
    have h5 := hall (fun r => (mats' r).isUniform) (fun r => (mats r).isUniform) h.uniform
    have h6 : (mats' r0).isAnisotropic = (mats r0).isAnisotropic := by
      unfold LayerSpec.isAnisotropic; rw [h3.1]
    have h7 := h.uniform r0 hm
    dsimp only
    simp only [h2, h3.1, h3.2, h5, h6, h7]
    have h4' := h4
    split <;> rename_i hx
    · rfl
    · have hc : (!(r0 :: tl).all fun r => decide ((mats' r).lattice = (mats r0).lattice)) =
          (!(r0 :: tl).all fun r => decide ((mats r).lattice = (mats r0).lattice)) := by rw [h4]
      by_cases hb : (!(r0 :: tl).all fun r => decide ((mats r).lattice = (mats r0).lattice)) = true
      · have hb' := hc.trans hb
        simp only [hb]
        simp only [hb']
      · have hb' := hb
        rw [← hc] at hb'
        simp only [hb]
        simp only [hb']

end Nannos
