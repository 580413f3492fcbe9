import Verif.Spec.Calls
import Verif.Proofs.Pixelated

/-! Simulations of layers which give the same matrices do the same, including their exceptions (C93). -/

namespace Nannos

open Matrix Spec

variable {E : Ext} {c : Static} {mats mats' : ℕ → LayerSpec}

/-- The same simulation with another formulation. -/
abbrev Static.reform (c : Static) (g : String) : Static := { c with formulation := g }

/-- The same kernels with other generators of tangent fields. -/
abbrev Ext.regen (E : Ext) (t : String → PGrid → List (ℤ × ℤ) → Bool → Except PyErr Field2) : Ext := { E with tangent := t }

/-- What the methods of a simulation see of a layer object; the second simulation may have another formulation and other
generators. -/
structure SeenAlike (E : Ext) (c : Static) (t : String → PGrid → List (ℤ × ℤ) → Bool → Except PyErr Field2) (g : String)
    (L L' : LayerSpec) : Prop where
  uniform : L'.isUniform = L.isUniform
  iscopy : L'.iscopy = L.iscopy
  original : L'.original = L.original
  mu : L'.mu = L.mu
  thickness : L'.thickness = L.thickness
  build : buildPure (E.regen t) (c.reform g) L' = buildPure E c L
  value : L.isUniform = true → L'.epsilon = L.epsilon

/-- The same state with other layers. -/
def Dyn.swap {nh : ℕ} (mats' : ℕ → LayerSpec) (d : Dyn nh) : Dyn nh := { d with mats := mats' }

/-- A method that does the same on the two structures. -/
def Blind {α : Type} (mats mats' : ℕ → LayerSpec) (f f' : PyM (Dyn c.nh) α) : Prop :=
  ∀ d : Dyn c.nh, d.mats = mats → (f d).2.mats = mats ∧ f' (d.swap mats') = ((f d).1, (f d).2.swap mats')

theorem Blind.pure {α : Type} (a : α) : Blind (c := c) mats mats' (Pure.pure a : PyM (Dyn c.nh) α) (Pure.pure a) := fun _ h => ⟨h, rfl⟩

theorem Blind.lift {α : Type} (x : Except PyErr α) : Blind (c := c) mats mats' (PyM.lift x) (PyM.lift x) := fun _ h => ⟨h, rfl⟩

theorem Blind.bind {α β : Type} {x x' : PyM (Dyn c.nh) α} {f f' : α → PyM (Dyn c.nh) β} (hx : Blind mats mats' x x')
    (hf : ∀ a, Blind mats mats' (f a) (f' a)) : Blind mats mats' (x >>= f) (x' >>= f') := by
  intro d hd
  obtain ⟨h1, h2⟩ := hx d hd
  rw [PyM.bind_def, PyM.bind_def, h2]
  rcases h : x d with ⟨e | a, d'⟩
  · rw [h] at h1
    exact ⟨h1, rfl⟩
  · rw [h] at h1
    exact hf a d' h1

theorem Blind.bind_lift {α β : Type} {x : Except PyErr α} {f f' : α → PyM (Dyn c.nh) β}
    (hf : ∀ a, x = .ok a → Blind mats mats' (f a) (f' a)) : Blind mats mats' (PyM.lift x >>= f) (PyM.lift x >>= f') := by
  rcases x with e | a
  · exact fun d hd => ⟨hd, rfl⟩
  · exact hf a rfl

/-- Reading the state, then something which is the same with either. -/
theorem Blind.get_bind {β : Type} {f f' : Dyn c.nh → PyM (Dyn c.nh) β}
    (hf : ∀ d : Dyn c.nh, d.mats = mats → Blind mats mats' (f d) (f' (d.swap mats'))) :
    Blind mats mats' (PyM.get >>= f) (PyM.get >>= f') := fun d hd => hf d hd d hd

theorem Blind.modify (g : Dyn c.nh → Dyn c.nh) (hg : ∀ d : Dyn c.nh, (g d).mats = d.mats)
    (hs : ∀ d : Dyn c.nh, g (d.swap mats') = (g d).swap mats') : Blind (c := c) mats mats' (PyM.modify g) (PyM.modify g) :=
  fun d hd => ⟨(hg d).trans hd, by simp only [PyM.modify, hs]⟩

variable {t : String → PGrid → List (ℤ × ℤ) → Bool → Except PyErr Field2} {g : String}
variable (hal : ∀ r ∈ c.stack, SeenAlike E c t g (mats r) (mats' r))

include hal in
theorem blind_buildMatrix {r : ℕ} (hr : r ∈ c.stack) : Blind mats mats' (buildMatrix E c r) (buildMatrix (E.regen t) (c.reform g) r) := by
  intro d hd
  have h := hal r hr
  unfold buildMatrix
  simp only [Dyn.swap, hd, h.iscopy, h.original, h.build]
  by_cases hc : (mats r).iscopy = true
  · simp only [hc, if_true]
    rcases (d.attrs (mats r).original).matrix with _ | M
    · exact ⟨hd, rfl⟩
    rcases (d.attrs (mats r).original).pat with _ | p
    · exact ⟨hd, rfl⟩
    rcases (d.attrs (mats r).original).Qeps with _ | Q
    · exact ⟨hd, rfl⟩
    exact ⟨hd, rfl⟩
  · simp only [hc, Bool.false_eq_true, if_false]
    rcases buildPure E c (mats r) with e | (Q | ⟨M, p, Q⟩) <;> exact ⟨hd, rfl⟩

theorem solveUniform_alike {nh : ℕ} {L L' : LayerSpec} (h : SeenAlike E c t g L L') (hu : L.isUniform = true) (om : ℝ)
    (kx ky : Fin nh → ℂ) : solveUniform L' om kx ky = solveUniform L om kx ky := by
  unfold solveUniform LayerSpec.isAnisotropic
  rw [h.value hu, h.mu]

include hal in
theorem blind_solveModes {r : ℕ} (hr : r ∈ c.stack) : Blind mats mats' (solveModes E c r) (solveModes (E.regen t) (c.reform g) r) := by
  intro d hd
  have h := hal r hr
  unfold solveModes
  simp only [Dyn.swap, hd, h.uniform, h.iscopy, h.original]
  by_cases hu : (mats r).isUniform = true
  · simp only [hu, if_true, solveUniform_alike h hu]
    split <;> exact ⟨hd, rfl⟩
  · simp only [hu, Bool.false_eq_true, if_false]
    have e : ∀ M : Matrix (Idx c.nh) (Idx c.nh) ℂ, solveEigenproblem (E.regen t) M = solveEigenproblem E M := fun _ => rfl
    simp only [e]
    rcases (if (mats r).iscopy = true then attr (d.attrs (mats r).original).eig
        else do
          let M ← attr (d.attrs r).matrix
          solveEigenproblem E M) with e | ev <;> exact ⟨hd, rfl⟩

include hal in
theorem blind_solveAll {l : List ℕ} (hl : ∀ r ∈ l, r ∈ c.stack) : Blind mats mats' (solveAll E c l) (solveAll (E.regen t) (c.reform g) l) := by
  induction l with
  | nil => exact Blind.pure ()
  | cons r l ih =>
    unfold solveAll solveLayer
    exact .bind (.bind (blind_buildMatrix hal (hl r (by simp))) fun _ => blind_solveModes hal (hl r (by simp)))
      fun _ => ih fun s hs => hl s (by simp [hs])

include hal in
theorem blind_solve : Blind mats mats' (solve E c) (solve (E.regen t) (c.reform g)) := by
  unfold solve
  exact .bind (blind_solveAll hal fun _ h => h) fun _ => .modify _ (fun _ => rfl) fun _ => rfl

include hal in
theorem blind_ensureSolved : Blind mats mats' (ensureSolved E c) (ensureSolved (E.regen t) (c.reform g)) := by
  intro d hd
  unfold ensureSolved
  have e : (d.swap mats').isSolved = d.isSolved := rfl
  rw [e]
  by_cases h : d.isSolved = true
  · rw [if_pos h, if_pos h]; exact ⟨hd, rfl⟩
  · rw [if_neg h, if_neg h]
    exact blind_solve hal d hd

theorem blind_reset (p : String) : Blind (c := c) mats mats' (simReset p) (simReset p) := by
  intro d hd
  unfold simReset
  simp only [Dyn.swap]
  constructor
  · split_ifs <;> exact hd
  · split_ifs <;> rfl

include hal in
theorem layerModes_swap {d : Dyn c.nh} (hd : d.mats = mats) (i : ℤ) : layerModes (c.reform g) (d.swap mats') i = layerModes c d i := by
  unfold layerModes
  rcases h : pyGet c.stack i with e | r
  · rfl
  · simp only [except_bind_ok, Dyn.swap, hd]
    unfold modesOf
    rw [(hal r (pyGet_mem h)).thickness]

include hal in
theorem blind_sBody (first i : ℤ) (S : SMat (Idx c.nh)) : Blind mats mats' (sBody c first i S) (sBody (c.reform g) first i S) := by
  intro d hd
  unfold sBody
  rw [layerModes_swap hal hd, layerModes_swap hal hd]
  rcases layerModes c d i with e | L
  · exact ⟨hd, rfl⟩
  rcases layerModes c d (i + 1) with e | L'
  · exact ⟨hd, rfl⟩
  simp only [except_bind_ok]
  rcases stepS S L L' with e | S' <;> exact ⟨hd, rfl⟩

include hal in
theorem blind_sLoop (first : ℤ) (l : List ℤ) : ∀ S : SMat (Idx c.nh), Blind mats mats' (sLoop c first l S) (sLoop (c.reform g) first l S) := by
  induction l with
  | nil => exact fun S => Blind.pure S
  | cons i l ih =>
    intro S
    unfold sLoop
    exact .bind (blind_sBody hal first i S) fun S' => ih S'

include hal in
theorem blind_cachedLoop (l : List ℤ) : Blind mats mats' (cachedLoop c l) (cachedLoop (c.reform g) l) := by
  intro d hd
  unfold cachedLoop
  simp only [Dyn.swap]
  split
  · rename_i a b _ _
    rcases h : d.inter (a, b) with _ | S
    · exact blind_sLoop hal a l SMat.one d hd
    · exact ⟨hd, rfl⟩
  · exact ⟨hd, rfl⟩

include hal in
theorem blind_getS (o : Option (ℤ × ℤ)) : Blind mats mats' (getS E c o) (getS (E.regen t) (c.reform g) o) := by
  unfold getS
  refine .bind (blind_ensureSolved hal) fun _ => .bind (blind_cachedLoop hal _) fun S => ?_
  dsimp only
  split
  · exact .bind (.modify _ (fun _ => rfl) fun _ => rfl) fun _ => .pure _
  · exact .pure _

include hal in
theorem blind_solveExt : Blind mats mats' (solveExt E c) (solveExt (E.regen t) (c.reform g)) := by
  unfold solveExt
  refine .get_bind fun d _ => ?_
  have e : (d.swap mats').S = d.S := rfl
  rw [e]
  dsimp only
  split
  · exact .bind (.pure _) fun _ => .pure _
  · exact .bind (blind_getS hal none) fun _ => .pure _

include hal in
theorem blind_getAmplitudes (i : ℤ) : Blind mats mats' (getAmplitudes E c i) (getAmplitudes (E.regen t) (c.reform g) i) := by
  unfold getAmplitudes
  refine .bind (.lift _) fun _ => ?_
  dsimp only
  split
  · exact .bind (blind_solveExt hal) fun _ => .pure _
  · split
    · exact .bind (blind_solveExt hal) fun _ => .pure _
    · unfold solveInt
      exact .bind (.lift _) fun _ => .bind (blind_getS hal _) fun _ => .bind (blind_getS hal _) fun _ =>
        .bind (.lift _) fun _ => .pure _

theorem fieldAt_alike {L L' : LayerSpec} (h : SeenAlike E c t g L L') (a : LayerAttr c.nh) (x y : Idx c.nh → ℂ) (z : ℝ) :
    fieldAt (c.reform g) L' a x y z = fieldAt c L a x y z := by
  have h1 : modesOf L' a = modesOf L a := by unfold modesOf; rw [h.thickness]
  have h2 : ∀ dz, normalE L' a dz = normalE L a dz := by
    intro dz
    unfold normalE
    rw [h.uniform]
    by_cases hu : L.isUniform = true
    · rw [h.value hu]
    · simp only [hu, Bool.false_eq_true, if_false]
  unfold fieldAt
  simp only [h1, h2]

include hal in
theorem blind_getFieldFourier (id : LayerId) (zs : List ℝ) : Blind mats mats' (getFieldFourier E c id zs) (getFieldFourier (E.regen t) (c.reform g) id zs) := by
  unfold getFieldFourier
  refine .bind_lift fun p hp => ?_
  obtain ⟨r, i⟩ := p
  have hr : r ∈ c.stack := pyGet_mem (getLayer_pyGet hp)
  refine .bind (blind_ensureSolved hal) fun _ => .bind (blind_getAmplitudes hal i) fun ab => ?_
  refine .get_bind fun d hd => ?_
  have e : fieldAt (c.reform g) ((d.swap mats').mats r) ((d.swap mats').attrs r) ab.1 ab.2 =
      fieldAt c (d.mats r) (d.attrs r) ab.1 ab.2 := by
    funext z
    rw [hd]
    exact fieldAt_alike (hal r hr) _ _ _ z
  rw [e]
  exact .lift _

include hal in
theorem blind_flux (i : ℤ) (a b : Idx c.nh → ℂ) : Blind mats mats' (getZPoyntingFlux E c i a b) (getZPoyntingFlux (E.regen t) (c.reform g) i a b) := by
  unfold getZPoyntingFlux
  refine .bind (blind_ensureSolved hal) fun _ => .get_bind fun d hd => ?_
  rw [layerModes_swap hal hd]
  exact .bind (.lift _) fun _ => .lift _

include hal in
theorem blind_ensureS : Blind mats mats' (ensureS E c) (ensureS (E.regen t) (c.reform g)) := by
  unfold ensureS
  refine .get_bind fun d _ => ?_
  have e : (d.swap mats').S = d.S := rfl
  rw [e]
  split
  · exact .pure _
  · exact .bind (blind_getS hal none) fun _ => .pure _

include hal in
theorem blind_efficiencies : Blind mats mats' (efficienciesByOrder E c) (efficienciesByOrder (E.regen t) (c.reform g)) := by
  unfold efficienciesByOrder
  exact .bind (blind_ensureS hal) fun _ => .bind (blind_solveExt hal) fun _ => .bind (blind_flux hal _ _ _) fun _ =>
    .bind (blind_flux hal _ _ _) fun _ => .bind (.lift _) fun _ => .pure _

include hal in
theorem blind_diffraction (o : Bool) : Blind mats mats' (diffractionEfficiencies E c o) (diffractionEfficiencies (E.regen t) (c.reform g) o) := by
  unfold diffractionEfficiencies
  refine .bind (blind_efficiencies hal) fun p => ?_
  obtain ⟨R, T⟩ := p
  dsimp only
  split
  · exact .pure _
  · exact .pure _

include hal in
theorem blind_complex : Blind mats mats' (complexEfficiencies E c) (complexEfficiencies (E.regen t) (c.reform g)) := by
  unfold complexEfficiencies
  refine .bind (blind_ensureS hal) fun _ => ?_
  unfold complexOrders
  refine .get_bind fun d hd => .bind_lift fun r0 h0 => .bind_lift fun rN hN => ?_
  have a0 := hal r0 (pyGet_mem h0)
  have aN := hal rN (pyGet_mem hN)
  have e1 : ∀ (p : Prop) (i : Decidable (¬ p)) (e : PyErr) (f : Unit → PyM (Dyn c.nh) (ComplexOrders c.nh)), ¬ p →
      (PyM.lift (@raiseIf (¬ p) i e) >>= f) = PyM.lift (.error e) := by
    intro p i e f hp
    unfold raiseIf; rw [if_pos hp]; rfl
  have e2 : ∀ (p : Prop) (i : Decidable (¬ p)) (e : PyErr) (f : Unit → PyM (Dyn c.nh) (ComplexOrders c.nh)), p →
      (PyM.lift (@raiseIf (¬ p) i e) >>= f) = f () := by
    intro p i e f hp
    unfold raiseIf; rw [if_neg (not_not.mpr hp)]; rfl
  dsimp only
  have m0 : (d.swap mats').mats = mats' := rfl
  by_cases hu : (mats r0).isUniform = true ∧ (mats rN).isUniform = true
  · have v0 := a0.value hu.1
    have vN := aN.value hu.2
    have hiff : (((d.swap mats').mats r0).isUniform = true ∧ ((d.swap mats').mats r0).isAnisotropic = false ∧
        ((d.swap mats').mats rN).isUniform = true ∧ ((d.swap mats').mats rN).isAnisotropic = false) ↔
        ((d.mats r0).isUniform = true ∧ (d.mats r0).isAnisotropic = false ∧
        (d.mats rN).isUniform = true ∧ (d.mats rN).isAnisotropic = false) := by
      rw [m0, hd, a0.uniform, aN.uniform, LayerSpec.isAnisotropic, LayerSpec.isAnisotropic, v0, vN]
      rfl
    by_cases hp : ((d.mats r0).isUniform = true ∧ (d.mats r0).isAnisotropic = false ∧
        (d.mats rN).isUniform = true ∧ (d.mats rN).isAnisotropic = false)
    · rw [e2 _ _ _ _ hp, e2 _ _ _ _ (hiff.mpr hp), m0, hd, v0, vN, a0.mu, aN.mu]
      refine .bind (.lift _) fun _ => .bind (.lift _) fun _ => .bind (.lift _) fun _ =>
        .bind (blind_getFieldFourier hal _ _) fun x => .bind (blind_getFieldFourier hal _ _) fun y => ?_
      rcases x with _ | ⟨x, _ | ⟨x', l⟩⟩
      · exact .lift _
      · rcases y with _ | ⟨y, _ | ⟨y', m⟩⟩
        · exact .lift _
        · exact .pure _
        · exact .lift _
      · exact .lift _
    · rw [e1 _ _ _ _ hp, e1 _ _ _ _ (fun h => hp (hiff.mp h))]
      exact .lift _
  · rw [e1 _ _ _ _ (fun h => hu (by rw [hd] at h; exact ⟨h.1, h.2.2.1⟩)),
      e1 _ _ _ _ (fun h => hu (by rw [m0, a0.uniform, aN.uniform] at h; exact ⟨h.1, h.2.2.1⟩))]
    exact .lift _

include hal in
/-- Every call does the same. -/
theorem Call.alike (a : Call c.nh) {d : Dyn c.nh} (hd : d.mats = mats) :
    Call.result (E.regen t) (c.reform g) a (d.swap mats') = a.result E c d ∧
      Call.after (E.regen t) (c.reform g) a (d.swap mats') = (a.after E c d).swap mats' ∧
      (a.after E c d).mats = mats := by
  cases a with
  | getSMatrix o => obtain ⟨h1, h2⟩ := blind_getS hal o d hd; simp only [Call.result, Call.after, h2, h1, and_self]
  | solve => obtain ⟨h1, h2⟩ := blind_solve hal d hd; simp only [Call.result, Call.after, h2, h1, and_self]
  | reset p => obtain ⟨h1, h2⟩ := blind_reset (mats := mats) (mats' := mats') p d hd; simp only [Call.result, Call.after, h2, h1, and_self]
  | getFieldFourier l z => obtain ⟨h1, h2⟩ := blind_getFieldFourier hal l z d hd; simp only [Call.result, Call.after, h2, h1, and_self]
  | getZPoyntingFlux l x y => obtain ⟨h1, h2⟩ := blind_flux hal l x y d hd; simp only [Call.result, Call.after, h2, h1, and_self]
  | diffractionEfficiencies o => obtain ⟨h1, h2⟩ := blind_diffraction hal o d hd; simp only [Call.result, Call.after, h2, h1, and_self]
  | complexEfficiencies => obtain ⟨h1, h2⟩ := blind_complex hal d hd; simp only [Call.result, Call.after, h2, h1, and_self]

include hal in
/-- Every call returns or raises the same after every history. -/
theorem results_alike (hist : List (Call c.nh)) (a : Call c.nh) :
    Call.result (E.regen t) (c.reform g) a (afterCalls (E.regen t) (c.reform g) hist (Dyn.fresh mats' (unsolved c.nh))) =
      a.result E c (afterCalls E c hist (Dyn.fresh mats (unsolved c.nh))) := by
  suffices h : ∀ d : Dyn c.nh, d.mats = mats → (afterCalls E c hist d).mats = mats ∧
      afterCalls (E.regen t) (c.reform g) hist (d.swap mats') = (afterCalls E c hist d).swap mats' by
    obtain ⟨h1, h2⟩ := h (Dyn.fresh mats (unsolved c.nh)) rfl
    have e : (Dyn.fresh mats' (unsolved c.nh) : Dyn c.nh) = (Dyn.fresh mats (unsolved c.nh)).swap mats' := rfl
    rw [e, h2]
    exact (Call.alike hal a h1).1
  unfold afterCalls
  induction hist with
  | nil => exact fun d hd => ⟨hd, rfl⟩
  | cons b l ih =>
    intro d hd
    obtain ⟨-, h2, h3⟩ := Call.alike hal b hd
    simp only [List.foldl_cons, h2]
    exact ih _ h3

/-- Another formulation that the constructor accepts gives the same object but for its name. -/
theorem simInit_reform {lats stack exc nh form} (hinit : simInit E lats mats stack exc nh form = .ok c) (form' : String)
    (hf : form' = "original" ∨ form' = "tangent" ∨ (c.lattice.is1D = false ∧ (form' = "jones" ∨ form' = "pol")))
    (t : String → PGrid → List (ℤ × ℤ) → Bool → Except PyErr Field2) :
    simInit { E with tangent := t } lats mats stack exc nh form' = .ok { c with formulation := form' } := by
  have hl := (simInit_ok hinit).lat_eq
  have hf1 : form' = "original" ∨ form' = "tangent" ∨ form' = "jones" ∨ form' = "pol" := by tauto
  change simInit E lats mats stack exc nh form' = _
  unfold simInit at hinit ⊢
  dsimp only at hinit ⊢
  split at hinit
  · cases hinit
  rename_i hn
  rw [if_neg hn]
  rcases stack with _ | ⟨r0, tl⟩
  · cases hinit
  have hf2 : (lats (mats r0).lattice).is1D = true → form' = "original" ∨ form' = "tangent" := by
    intro h1
    rw [← hl r0 rfl] at h1
    rcases hf with h | h | ⟨h, -⟩
    · exact .inl h
    · exact .inr h
    · rw [h1] at h; cases h
  dsimp only at hinit ⊢
  split at hinit
  · cases hinit
  rename_i hla
  rw [if_neg hla, if_neg (not_not.mpr hf1), if_neg (by tauto)]
  split at hinit
  · cases hinit
  split at hinit
  · cases hinit
  rw [bind_eq_ok] at hinit
  obtain ⟨⟨H, n⟩, g1, hinit⟩ := hinit
  rw [g1, except_bind_ok]
  dsimp only at hinit ⊢
  rw [bind_eq_ok] at hinit
  obtain ⟨_, g2, hinit⟩ := hinit
  rw [g2, except_bind_ok]
  rw [bind_eq_ok] at hinit
  obtain ⟨_, g3, hinit⟩ := hinit
  rw [g3, except_bind_ok]
  rw [bind_eq_ok] at hinit
  obtain ⟨_, g4, hinit⟩ := hinit
  rw [g4, except_bind_ok]
  rw [bind_eq_ok] at hinit
  obtain ⟨_, g5, hinit⟩ := hinit
  rw [g5, except_bind_ok]
  rw [← Except.ok.inj hinit]
  rfl

end Nannos
