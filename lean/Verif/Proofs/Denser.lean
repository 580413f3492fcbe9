import Verif.Proofs.DenserBuild
import Verif.Proofs.Alike

/-! Simulations with refractive indices and wavelength multiplied by one number run in lockstep (C103). -/

namespace Nannos

open Matrix Spec

variable {E : Ext} {c : Static} {p : ℝ} {mats : ℕ → LayerSpec} {exc : PlaneWave}

/-- The attributes of a solved layer. -/
noncomputable def dilA {nh : ℕ} (p : ℝ) (x : LayerAttr nh) : LayerAttr nh :=
  ⟨x.matrix, x.pat.map (dilP p), x.Qeps.map (((p : ℂ) ^ 2)⁻¹ • ·), x.eig⟩

/-- The state of the second simulation. -/
noncomputable def dilD {nh : ℕ} (p : ℝ) (d : Dyn nh) : Dyn nh :=
  { d with mats := fun r => denser p (d.mats r), attrs := fun r => dilA p (d.attrs r) }

/-- The second method does the same as the first and returns the image of its result. -/
def Lock {α β : Type} (mats : ℕ → LayerSpec) (p : ℝ) (v : α → β) (f : PyM (Dyn c.nh) α) (f' : PyM (Dyn c.nh) β) : Prop :=
  ∀ d : Dyn c.nh, d.mats = mats → (f d).2.mats = mats ∧ f' (dilD p d) = ((f d).1.map v, dilD p (f d).2)

theorem Lock.pure {α β : Type} {v : α → β} (a : α) : Lock (c := c) mats p v (Pure.pure a : PyM (Dyn c.nh) α) (Pure.pure (v a)) :=
  fun _ h => ⟨h, rfl⟩

theorem Lock.lift {α β : Type} {v : α → β} (x : Except PyErr α) : Lock (c := c) mats p v (PyM.lift x) (PyM.lift (x.map v)) :=
  fun _ h => ⟨h, rfl⟩

theorem Lock.bind {α α' β β' : Type} {u : α → α'} {v : β → β'} {x : PyM (Dyn c.nh) α} {x' : PyM (Dyn c.nh) α'}
    {f : α → PyM (Dyn c.nh) β} {f' : α' → PyM (Dyn c.nh) β'} (hx : Lock mats p u x x')
    (hf : ∀ a, Lock mats p v (f a) (f' (u a))) : Lock mats p v (x >>= f) (x' >>= f') := by
  intro d hd
  obtain ⟨h1, h2⟩ := hx d hd
  rw [PyM.bind_def, PyM.bind_def, h2]
  rcases h : x d with ⟨e | a, d'⟩
  · rw [h] at h1
    exact ⟨h1, rfl⟩
  · rw [h] at h1
    exact hf a d' h1

theorem Lock.bind_lift {α β β' : Type} {v : β → β'} {x : Except PyErr α} {f : α → PyM (Dyn c.nh) β} {f' : α → PyM (Dyn c.nh) β'}
    (hf : ∀ a, x = .ok a → Lock mats p v (f a) (f' a)) : Lock mats p v (PyM.lift x >>= f) (PyM.lift x >>= f') := by
  rcases x with e | a
  · exact fun d hd => ⟨hd, rfl⟩
  · exact hf a rfl

theorem Lock.get_bind {β β' : Type} {v : β → β'} {f : Dyn c.nh → PyM (Dyn c.nh) β} {f' : Dyn c.nh → PyM (Dyn c.nh) β'}
    (hf : ∀ d : Dyn c.nh, d.mats = mats → Lock mats p v (f d) (f' (dilD p d))) :
    Lock mats p v (PyM.get >>= f) (PyM.get >>= f') := fun d hd => hf d hd d hd

theorem Lock.modify (g g' : Dyn c.nh → Dyn c.nh) (hg : ∀ d : Dyn c.nh, (g d).mats = d.mats)
    (hs : ∀ d : Dyn c.nh, g' (dilD p d) = dilD p (g d)) : Lock (c := c) mats p id (PyM.modify g) (PyM.modify g') :=
  fun d hd => ⟨(hg d).trans hd, by simp only [PyM.modify, hs]; rfl⟩

/-- What is known of the two simulations. -/
structure LockSim (E : Ext) (c : Static) (p : ℝ) (mats : ℕ → LayerSpec) : Prop where
  pos : 0 < p
  unseen : ∀ r ∈ c.stack, FactorUnseen E p c.lattice c.formulation (mats r)
  oneD : c.lattice.is1D = true → c.formulation = "original" ∨ c.formulation = "tangent"

variable (h : LockSim E c p mats)

theorem dilD_setAttr {nh : ℕ} (d : Dyn nh) (r : ℕ) {f f' : LayerAttr nh → LayerAttr nh} (hf : ∀ x, f' (dilA p x) = dilA p (f x)) :
    (dilD p d).setAttr r f' = dilD p (d.setAttr r f) := by
  unfold Dyn.setAttr dilD
  congr 1
  funext s
  by_cases hs : s = r
  · simp only [hs, if_true, hf]
  · simp only [hs, if_false]

include h in
theorem lock_buildMatrix {r : ℕ} (hr : r ∈ c.stack) : Lock mats p id (buildMatrix E c r) (buildMatrix E (c.slow p exc) r) := by
  intro d hd
  have hb := denser_build (exc := exc) h.pos (h.unseen r hr) h.oneD
  unfold buildMatrix
  have e1 : (dilD p d).mats r = denser p (mats r) := by simp only [dilD, hd]
  have e2 : (denser p (mats r)).iscopy = (mats r).iscopy := rfl
  have e3 : (denser p (mats r)).original = (mats r).original := rfl
  simp only [e1, e2, e3, hb, hd]
  have e4 : ∀ s, (dilD p d).attrs s = dilA p (d.attrs s) := fun _ => rfl
  simp only [e4, dilA]
  by_cases hc : (mats r).iscopy = true
  · simp only [hc, if_true]
    rcases (d.attrs (mats r).original).matrix with _ | M
    · exact ⟨hd, rfl⟩
    rcases (d.attrs (mats r).original).pat with _ | x
    · exact ⟨hd, rfl⟩
    rcases (d.attrs (mats r).original).Qeps with _ | Q
    · exact ⟨hd, rfl⟩
    exact ⟨hd, Prod.ext rfl (dilD_setAttr (p := p) d r (f := fun a => ⟨some M, some x, some Q, a.eig⟩)
      (f' := fun a => ⟨some M, some (dilP p x), some (((p : ℂ) ^ 2)⁻¹ • Q), a.eig⟩) fun _ => rfl)⟩
  · simp only [hc, Bool.false_eq_true, if_false]
    rcases buildPure E c (mats r) with e | (Q | ⟨M, x, Q⟩)
    · exact ⟨hd, rfl⟩
    · exact ⟨hd, Prod.ext rfl (dilD_setAttr (p := p) d r (f := fun a => ⟨a.matrix, a.pat, some Q, a.eig⟩)
      (f' := fun a => ⟨a.matrix, a.pat, some (((p : ℂ) ^ 2)⁻¹ • Q), a.eig⟩) fun _ => rfl)⟩
    · exact ⟨hd, Prod.ext rfl (dilD_setAttr (p := p) d r (f := fun a => ⟨some M, some x, some Q, a.eig⟩)
      (f' := fun a => ⟨some M, some (dilP p x), some (((p : ℂ) ^ 2)⁻¹ • Q), a.eig⟩) fun _ => rfl)⟩

include h in
theorem lock_solveModes {r : ℕ} (hr : r ∈ c.stack) : Lock mats p id (solveModes E c r) (solveModes E (c.slow p exc) r) := by
  intro d hd
  have hp0 : (p : ℂ) ≠ 0 := by exact_mod_cast h.pos.ne'
  unfold solveModes
  have e1 : (dilD p d).mats r = denser p (mats r) := by simp only [dilD, hd]
  have e2 : (denser p (mats r)).iscopy = (mats r).iscopy := rfl
  have e3 : (denser p (mats r)).original = (mats r).original := rfl
  have e5 : (denser p (mats r)).isUniform = (mats r).isUniform := rfl
  have e6 : solveUniform (denser p (mats r)) (c.slow p exc).omega (c.slow p exc).kx (c.slow p exc).ky =
      solveUniform (mats r) c.omega c.kx c.ky := by
    unfold solveUniform
    have e7 : (denser p (mats r)).isAnisotropic = (mats r).isAnisotropic := rfl
    have e8 : (denser p (mats r)).mu = (mats r).mu := rfl
    have e9 : (p : ℂ) ^ 2 * (mats r).epsilon.value * (mats r).mu * ((c.slow p exc).omega : ℂ) ^ 2 =
        (mats r).epsilon.value * (mats r).mu * (c.omega : ℂ) ^ 2 := by
      change _ * (((c.omega / p : ℝ) : ℂ)) ^ 2 = _
      push_cast
      field_simp
    simp only [e7, e8, denser_value, e9]
  have e4 : ∀ s, (dilD p d).attrs s = dilA p (d.attrs s) := fun _ => rfl
  simp only [e1, e2, e3, e5, e6, e4, hd, dilA]
  rcases (if (mats r).isUniform = true then solveUniform (mats r) c.omega c.kx c.ky
    else if (mats r).iscopy = true then attr (d.attrs (mats r).original).eig
    else do
      let M ← attr (d.attrs r).matrix
      solveEigenproblem E M) with e | ev
  · exact ⟨hd, rfl⟩
  · exact ⟨hd, Prod.ext rfl (dilD_setAttr (p := p) d r (f := fun a => ⟨a.matrix, a.pat, a.Qeps, some ev⟩)
      (f' := fun a => ⟨a.matrix, a.pat, a.Qeps, some ev⟩) fun _ => rfl)⟩

include h in
theorem lock_solveAll {l : List ℕ} (hl : ∀ r ∈ l, r ∈ c.stack) : Lock mats p id (solveAll E c l) (solveAll E (c.slow p exc) l) := by
  induction l with
  | nil => exact Lock.pure ()
  | cons r l ih =>
    unfold solveAll solveLayer
    exact .bind (u := id) (.bind (u := id) (lock_buildMatrix h (hl r (by simp))) fun _ => lock_solveModes h (hl r (by simp)))
      fun _ => ih fun s hs => hl s (by simp [hs])

include h in
theorem lock_solve : Lock mats p id (solve E c) (solve E (c.slow p exc)) := by
  unfold solve
  exact .bind (u := id) (lock_solveAll h fun _ h => h) fun _ => .modify _ _ (fun _ => rfl) fun _ => rfl

include h in
theorem lock_ensureSolved : Lock mats p id (ensureSolved E c) (ensureSolved E (c.slow p exc)) := by
  intro d hd
  unfold ensureSolved
  have e : (dilD p d).isSolved = d.isSolved := rfl
  rw [e]
  by_cases hs : d.isSolved = true
  · rw [if_pos hs, if_pos hs]; exact ⟨hd, rfl⟩
  · rw [if_neg hs, if_neg hs]
    exact lock_solve h d hd

theorem lock_reset (q : String) : Lock (c := c) mats p id (simReset q) (simReset q) := by
  intro d hd
  unfold simReset
  constructor
  · simp only []
    split_ifs <;> exact hd
  · simp only [dilD]
    split_ifs <;> rfl

/-- The modes of the second simulation. -/
noncomputable def dilM {m : Type} (p : ℝ) (L : Modes m) : Modes m := ⟨L.q, L.phi, ((p : ℂ) ^ 2)⁻¹ • L.Q, L.thickness⟩

theorem modesOf_dil {nh : ℕ} (L : LayerSpec) (x : LayerAttr nh) : modesOf (denser p L) (dilA p x) = (modesOf L x).map (dilM p) := by
  obtain ⟨M, y, Q, ev⟩ := x
  unfold modesOf dilA
  rcases ev with _ | ev
  · rfl
  rcases Q with _ | Q
  · rfl
  rfl

theorem layerModes_dil (d : Dyn c.nh) (i : ℤ) : layerModes (c.slow p exc) (dilD p d) i = (layerModes c d i).map (dilM p) := by
  unfold layerModes
  rcases h : pyGet c.stack i with e | r
  · rfl
  · simp only [except_bind_ok, dilD]
    exact modesOf_dil _ _

section step
variable {m : Type} [Fintype m] [DecidableEq m]

theorem buildM_dil (hp : 0 < p) (L : Modes m) :
    buildM (dilM p L) = (buildM L).map fun M => fromBlocks (((p : ℂ) ^ 2)⁻¹ • (1 : Matrix m m ℂ)) 0 0 1 * M := by
  unfold buildM
  have e : (dilM p L).q = L.q := rfl
  rw [e]
  split_ifs with h
  · rfl
  · have ea : (dilM p L).amat = ((p : ℂ) ^ 2)⁻¹ • L.amat := by
      unfold Modes.amat dilM
      rw [Matrix.smul_mul]
    have ep : (dilM p L).phi = L.phi := rfl
    simp only [Except.map, ea, ep, fromBlocks_multiply, Matrix.smul_mul, Matrix.one_mul, Matrix.zero_mul, add_zero, zero_add, smul_neg]

theorem buildI_dil (hp : 0 < p) (L L' : Modes m) : buildI (dilM p L) (dilM p L') = buildI L L' := by
  have ha : ((p : ℂ) ^ 2)⁻¹ ≠ 0 := inv_ne_zero (pow_ne_zero 2 (by exact_mod_cast hp.ne'))
  unfold buildI
  rw [buildM_dil hp, buildM_dil hp]
  rcases buildM L with e | A
  · rfl
  rcases buildM L' with e | B
  · rfl
  simp only [Except.map, except_bind_ok]
  have hD : (fromBlocks (((p : ℂ) ^ 2)⁻¹ • (1 : Matrix m m ℂ)) 0 0 1 : Matrix (m ⊕ m) (m ⊕ m) ℂ).det ≠ 0 := by
    rw [det_fromBlocks_zero₂₁, det_one, mul_one, det_smul, det_one, mul_one]
    exact pow_ne_zero _ ha
  generalize (fromBlocks (((p : ℂ) ^ 2)⁻¹ • (1 : Matrix m m ℂ)) 0 0 1 : Matrix (m ⊕ m) (m ⊕ m) ℂ) = D at hD ⊢
  unfold linSolve
  by_cases h0 : A.det = 0
  · rw [if_pos h0, if_pos (by rw [det_mul, h0, mul_zero])]
  · rw [if_neg h0, if_neg (by rw [det_mul]; exact mul_ne_zero hD h0), Matrix.mul_inv_rev, Matrix.mul_assoc, ← Matrix.mul_assoc D⁻¹,
      Matrix.nonsing_inv_mul _ (isUnit_iff_ne_zero.mpr hD), Matrix.one_mul]

theorem stepS_dil (hp : 0 < p) (S : SMat m) (L L' : Modes m) : stepS S (dilM p L) (dilM p L') = stepS S L L' := by
  unfold stepS
  rw [buildI_dil hp]
  rfl

end step

include h in
theorem lock_sBody (first i : ℤ) (S : SMat (Idx c.nh)) : Lock mats p id (sBody c first i S) (sBody (c.slow p exc) first i S) := by
  intro d hd
  unfold sBody
  rw [layerModes_dil, layerModes_dil]
  rcases layerModes c d i with e | L
  · exact ⟨hd, rfl⟩
  rcases layerModes c d (i + 1) with e | L'
  · exact ⟨hd, rfl⟩
  simp only [Except.map, except_bind_ok, stepS_dil h.pos]
  rcases stepS S L L' with e | S' <;> exact ⟨hd, rfl⟩

include h in
theorem lock_sLoop (first : ℤ) (l : List ℤ) : ∀ S : SMat (Idx c.nh), Lock mats p id (sLoop c first l S) (sLoop (c.slow p exc) first l S) := by
  induction l with
  | nil => exact fun S => Lock.pure (v := id) S
  | cons i l ih =>
    intro S
    unfold sLoop
    exact .bind (lock_sBody h first i S) fun S' => ih S'

include h in
theorem lock_cachedLoop (l : List ℤ) : Lock mats p id (cachedLoop c l) (cachedLoop (c.slow p exc) l) := by
  intro d hd
  unfold cachedLoop
  have e : (dilD p d).inter = d.inter := rfl
  simp only [e]
  split
  · rename_i a b _ _
    rcases h' : d.inter (a, b) with _ | S
    · exact lock_sLoop h a l SMat.one d hd
    · exact ⟨hd, rfl⟩
  · exact ⟨hd, rfl⟩

include h in
theorem lock_getS (o : Option (ℤ × ℤ)) : Lock mats p id (getS E c o) (getS E (c.slow p exc) o) := by
  unfold getS
  refine .bind (u := id) (lock_ensureSolved h) fun _ => .bind (u := id) (lock_cachedLoop h _) fun S => ?_
  dsimp only [id]
  split
  · exact .bind (u := id) (.modify _ _ (fun _ => rfl) fun _ => rfl) fun _ => .pure (v := id) _
  · exact .pure (v := id) _

include h in
theorem lock_solveExt : Lock mats p id (solveExt E c) (solveExt E (c.slow p exc)) := by
  unfold solveExt
  refine .get_bind fun d _ => ?_
  have e : (dilD p d).S = d.S := rfl
  rw [e]
  rcases d.S with _ | S
  · exact .bind (u := id) (lock_getS h none) fun _ => .pure (v := id) _
  · exact .bind (u := id) (.pure (v := id) S) fun _ => .pure (v := id) _

include h in
theorem lock_getAmplitudes (i : ℤ) : Lock mats p id (getAmplitudes E c i) (getAmplitudes E (c.slow p exc) i) := by
  unfold getAmplitudes
  refine .bind_lift fun _ _ => ?_
  dsimp only
  split
  · exact .bind (u := id) (lock_solveExt h) fun _ => .pure (v := id) _
  · split
    · exact .bind (u := id) (lock_solveExt h) fun _ => .pure (v := id) _
    · unfold solveInt
      exact .bind_lift fun _ _ => .bind (u := id) (lock_getS h _) fun _ => .bind (u := id) (lock_getS h _) fun _ =>
        .bind_lift fun _ _ => .pure (v := id) _

/-- The fields of the second simulation. -/
noncomputable def dilF {nh : ℕ} (p : ℝ) (f : FieldF nh) : FieldF nh :=
  ⟨fun i => f.ex i / p, fun i => f.ey i / p, fun i => f.ez i / p, f.hx, f.hy, f.hz⟩

theorem normalE_dil (hp : 0 < p) (L : LayerSpec) {nh : ℕ} (x : LayerAttr nh) (dz : Fin nh → ℂ) :
    normalE (denser p L) (dilA p x) (fun i => p * dz i) = (normalE L x dz).map fun v i => v i / (p : ℂ) := by
  have hp0 : (p : ℂ) ≠ 0 := by exact_mod_cast hp.ne'
  have ha : ((p : ℂ) ^ 2) ≠ 0 := pow_ne_zero 2 hp0
  unfold normalE
  have e1 : (denser p L).isUniform = L.isUniform := rfl
  rw [e1, denser_value]
  by_cases hu : L.isUniform = true
  · simp only [hu, if_true, mul_eq_zero, ha, false_or]
    split_ifs with h0
    · rfl
    · simp only [Except.map]
      congr 1
      funext i
      field_simp
  · simp only [hu, Bool.false_eq_true, if_false]
    obtain ⟨M, y, Q, ev⟩ := x
    rcases y with _ | y
    · rfl
    change linSolveVec ((p : ℂ) ^ 2 • y.epsHat) _ = (linSolveVec y.epsHat dz).map _
    unfold linSolveVec
    by_cases h0 : y.epsHat.det = 0
    · rw [if_pos h0, if_pos ((det_smul_eq_zero ha _).mpr h0)]; rfl
    · rw [if_neg h0, if_neg ((det_smul_eq_zero ha _).not.mpr h0), inv_smul_ne ha h0]
      simp only [Except.map]
      refine congrArg Except.ok ?_
      have : (fun i => (p : ℂ) * dz i) = (p : ℂ) • dz := rfl
      rw [this, Matrix.smul_mulVec, Matrix.mulVec_smul]
      funext i
      simp only [Pi.smul_apply, smul_eq_mul]
      field_simp

theorem fieldAt_dil (hp : 0 < p) (L : LayerSpec) (x : LayerAttr c.nh) (a b : Idx c.nh → ℂ) (z : ℝ) :
    fieldAt (c.slow p exc) (denser p L) (dilA p x) a b z = (fieldAt c L x a b z).map (dilF p) := by
  have hp0 : (p : ℂ) ≠ 0 := by exact_mod_cast hp.ne'
  unfold fieldAt
  rw [modesOf_dil]
  rcases modesOf L x with e | M
  · rfl
  simp only [Except.map, except_bind_ok]
  have et : translateAmplitudes (dilM p M) z a b = translateAmplitudes M z a b := rfl
  rw [et]
  rcases translateAmplitudes M z a b with e | ⟨ai, bi⟩
  · rfl
  simp only [except_bind_ok]
  have om : ((c.slow p exc).omega : ℂ) = (c.omega : ℂ) / p := by
    change ((c.omega / p : ℝ) : ℂ) = _
    push_cast; rfl
  have eq : (dilM p M).q = M.q := rfl
  have ephi : (dilM p M).phi = M.phi := rfl
  have eQ : (dilM p M).Q = ((p : ℂ) ^ 2)⁻¹ • M.Q := rfl
  have hz : (∃ k, (c.omega : ℂ) / p * M.q k = 0) ↔ ∃ k, (c.omega : ℂ) * M.q k = 0 := by
    simp only [mul_eq_zero, div_eq_zero_iff, hp0, or_false]
  simp only [om, eq, ephi, eQ]
  by_cases h0 : ∃ k, (c.omega : ℂ) * M.q k = 0
  · simp only [raiseIf, if_pos h0, if_pos (hz.mpr h0)]; rfl
  simp only [raiseIf, if_neg h0, if_neg (hz.not.mpr h0), except_bind_ok]
  have hB : (((p : ℂ) ^ 2)⁻¹ • M.Q) *ᵥ (M.phi *ᵥ fun k => (ai k - bi k) / ((c.omega : ℂ) / p * M.q k)) =
      fun i => (M.Q *ᵥ (M.phi *ᵥ fun k => (ai k - bi k) / ((c.omega : ℂ) * M.q k))) i / p := by
    have : (fun k => (ai k - bi k) / ((c.omega : ℂ) / p * M.q k)) = (p : ℂ) • fun k => (ai k - bi k) / ((c.omega : ℂ) * M.q k) := by
      funext k
      simp only [Pi.smul_apply, smul_eq_mul]
      rw [div_mul_eq_mul_div, div_div_eq_mul_div]
      ring
    rw [this, Matrix.mulVec_smul, Matrix.mulVec_smul, Matrix.smul_mulVec]
    funext i
    simp only [Pi.smul_apply, smul_eq_mul]
    field_simp
  rw [hB]
  have hez : ∀ hx hy : Fin c.nh → ℂ, (fun i => (c.ky i * hx i - c.kx i * hy i) / ((c.omega : ℂ) / p)) =
      fun i => (p : ℂ) * ((c.ky i * hx i - c.kx i * hy i) / (c.omega : ℂ)) := by
    intro hx hy
    funext i
    rw [div_div_eq_mul_div]
    ring
  have hn := normalE_dil hp L x (fun i => (c.ky i * (M.phi *ᵥ (ai + bi)) (Sum.inl i) - c.kx i * (M.phi *ᵥ (ai + bi)) (Sum.inr i)) / (c.omega : ℂ))
  have hez' := hez (fun i => (M.phi *ᵥ (ai + bi)) (Sum.inl i)) (fun i => (M.phi *ᵥ (ai + bi)) (Sum.inr i))
  change (normalE (denser p L) (dilA p x) (fun i => (c.ky i * (M.phi *ᵥ (ai + bi)) (Sum.inl i) -
    c.kx i * (M.phi *ᵥ (ai + bi)) (Sum.inr i)) / ((c.omega : ℂ) / p)) >>= _) = _
  rw [hez', hn]
  rcases normalE L x (fun i => (c.ky i * (M.phi *ᵥ (ai + bi)) (Sum.inl i) - c.kx i * (M.phi *ᵥ (ai + bi)) (Sum.inr i)) / (c.omega : ℂ)) with e | v
  · rfl
  change Except.ok _ = Except.ok _
  refine congrArg Except.ok ?_
  simp only [dilF]
  congr 1
  · funext i
    ring
  · funext i
    rw [div_div_eq_mul_div]
    change (c.kx i * -(_ / (p : ℂ)) - c.ky i * (_ / (p : ℂ))) * (p : ℂ) / (c.omega : ℂ) = _
    field_simp

theorem mapM_fieldAt_dil (hp : 0 < p) (L : LayerSpec) (x : LayerAttr c.nh) (a b : Idx c.nh → ℂ) (zs : List ℝ) :
    zs.mapM (fieldAt (c.slow p exc) (denser p L) (dilA p x) a b) = (zs.mapM (fieldAt c L x a b)).map (List.map (dilF p)) := by
  induction zs with
  | nil => rfl
  | cons z zs ih =>
    rw [List.mapM_cons, List.mapM_cons, fieldAt_dil hp, ih]
    rcases fieldAt c L x a b z with e | f
    · rfl
    rcases zs.mapM (fieldAt c L x a b) with e | fs
    · rfl
    rfl

include h in
theorem lock_getFieldFourier (id' : LayerId) (zs : List ℝ) :
    Lock mats p (List.map (dilF p)) (getFieldFourier E c id' zs) (getFieldFourier E (c.slow p exc) id' zs) := by
  unfold getFieldFourier
  refine .bind_lift fun q hq => ?_
  obtain ⟨r, i⟩ := q
  refine .bind (u := id) (lock_ensureSolved h) fun _ => .bind (u := id) (lock_getAmplitudes h i) fun ab => ?_
  refine .get_bind fun d hd => ?_
  have e : zs.mapM (fieldAt (c.slow p exc) ((dilD p d).mats r) ((dilD p d).attrs r) ab.1 ab.2) =
      (zs.mapM (fieldAt c (d.mats r) (d.attrs r) ab.1 ab.2)).map (List.map (dilF p)) := mapM_fieldAt_dil h.pos _ _ _ _ _
  rw [e]
  exact .lift _

/-- The fluxes of the second simulation. -/
noncomputable def dilX {nh : ℕ} (p : ℝ) (f : (Fin nh → ℝ) × (Fin nh → ℝ)) : (Fin nh → ℝ) × (Fin nh → ℝ) :=
  (fun i => f.1 i / p, fun i => f.2 i / p)

theorem poyntingFlux_dil (hp : 0 < p) (M : Modes (Idx c.nh)) (a b : Idx c.nh → ℂ) :
    poyntingFlux (c.slow p exc) (dilM p M) a b = (poyntingFlux c M a b).map (dilX p) := by
  have hp0 : (p : ℂ) ≠ 0 := by exact_mod_cast hp.ne'
  have om : ((c.slow p exc).omega : ℂ) = (c.omega : ℂ) / p := by
    change ((c.omega / p : ℝ) : ℂ) = _
    push_cast; rfl
  have hz : (∃ k, (c.omega : ℂ) / p * M.q k = 0) ↔ ∃ k, (c.omega : ℂ) * M.q k = 0 := by
    simp only [mul_eq_zero, div_eq_zero_iff, hp0, or_false]
  have eq : (dilM p M).q = M.q := rfl
  have ephi : (dilM p M).phi = M.phi := rfl
  have eQ : (dilM p M).Q = ((p : ℂ) ^ 2)⁻¹ • M.Q := rfl
  unfold poyntingFlux
  simp only [om, eq, ephi, eQ]
  by_cases h0 : ∃ k, (c.omega : ℂ) * M.q k = 0
  · rw [if_pos h0, if_pos (hz.mpr h0)]; rfl
  rw [if_neg h0, if_neg (hz.not.mpr h0)]
  have hA : ((p : ℂ) ^ 2)⁻¹ • M.Q * M.phi * diagonal (fun k => 1 / ((c.omega : ℂ) / p * M.q k)) =
      ((p : ℂ))⁻¹ • (M.Q * M.phi * diagonal fun k => 1 / ((c.omega : ℂ) * M.q k)) := by
    have : (diagonal fun k => 1 / ((c.omega : ℂ) / p * M.q k)) = (p : ℂ) • diagonal fun k => 1 / ((c.omega : ℂ) * M.q k) := by
      rw [← diagonal_smul]
      congr 1
      funext k
      simp only [Pi.smul_apply, smul_eq_mul]
      rw [div_mul_eq_mul_div, div_div_eq_mul_div]
      ring
    rw [this, Matrix.smul_mul, Matrix.smul_mul, Matrix.mul_smul, smul_smul]
    congr 1
    field_simp
  rw [hA]
  have sr : star ((p : ℂ)⁻¹) = (p : ℂ)⁻¹ := by
    rw [← Complex.ofReal_inv]; exact Complex.conj_ofReal _
  simp only [Matrix.smul_mulVec, Pi.smul_apply, smul_eq_mul, star_mul', sr]
  generalize M.phi *ᵥ a = u
  generalize M.phi *ᵥ b = v
  generalize (M.Q * M.phi * diagonal fun k => 1 / ((c.omega : ℂ) * M.q k)) *ᵥ a = s
  generalize (M.Q * M.phi * diagonal fun k => 1 / ((c.omega : ℂ) * M.q k)) *ᵥ b = t
  simp only [Except.map, dilX]
  refine congrArg Except.ok ?_
  have r1 : ∀ w : ℂ, ((p : ℂ)⁻¹ * w).re = p⁻¹ * w.re := fun w => by rw [← Complex.ofReal_inv, Complex.re_ofReal_mul]
  have r2 : ∀ k, ((p : ℂ)⁻¹ * star (s k) * u k).re = p⁻¹ * (star (s k) * u k).re := fun k => by rw [mul_assoc, r1]
  have r3 : ∀ k, ((p : ℂ)⁻¹ * star (t k) * v k).re = p⁻¹ * (star (t k) * v k).re := fun k => by rw [mul_assoc, r1]
  simp only [r2, r3]
  ext i
  · simp only [Complex.add_re, Complex.ofReal_re, Complex.mul_re, Complex.sub_re, Complex.one_re, Complex.one_im, Complex.mul_im,
      Complex.sub_im, Complex.star_def, Complex.conj_re, Complex.conj_im, ← Complex.ofReal_inv, Complex.ofReal_im]
    simp
    ring
  · simp only [Complex.add_re, Complex.ofReal_re, Complex.mul_re, Complex.sub_re, Complex.one_re, Complex.one_im, Complex.mul_im,
      Complex.sub_im, Complex.star_def, Complex.conj_re, Complex.conj_im, ← Complex.ofReal_inv, Complex.ofReal_im]
    simp
    ring

include h in
theorem lock_flux (i : ℤ) (a b : Idx c.nh → ℂ) :
    Lock mats p (dilX p) (getZPoyntingFlux E c i a b) (getZPoyntingFlux E (c.slow p exc) i a b) := by
  unfold getZPoyntingFlux
  refine .bind (u := id) (lock_ensureSolved h) fun _ => .get_bind fun d hd => ?_
  rw [layerModes_dil]
  refine .bind (u := dilM p) (.lift _) fun M => ?_
  rw [poyntingFlux_dil h.pos]
  exact .lift _

include h in
theorem lock_ensureS : Lock mats p id (ensureS E c) (ensureS E (c.slow p exc)) := by
  unfold ensureS
  refine .get_bind fun d _ => ?_
  have e : (dilD p d).S = d.S := rfl
  rw [e]
  rcases d.S with _ | S
  · exact .bind (u := id) (lock_getS h none) fun _ => .pure (v := id) _
  · exact .pure (v := id) _

include h in
theorem lock_efficiencies : Lock mats p id (efficienciesByOrder E c) (efficienciesByOrder E (c.slow p exc)) := by
  have hp := h.pos
  unfold efficienciesByOrder
  refine .bind (u := id) (lock_ensureS h) fun _ => .bind (u := id) (lock_solveExt h) fun ab =>
    .bind (u := dilX p) (lock_flux h _ _ _) fun f => .bind (u := dilX p) (lock_flux h _ _ _) fun g => ?_
  have e : (c.slow p exc).incidentFlux = 0 ↔ c.incidentFlux = 0 := by
    change c.incidentFlux / p = 0 ↔ _
    rw [div_eq_zero_iff]
    simp [hp.ne']
  by_cases h0 : c.incidentFlux = 0
  · simp only [raiseIf, if_pos h0, if_pos (e.mpr h0)]
    exact fun d hd => ⟨hd, rfl⟩
  · simp only [raiseIf, if_neg h0, if_neg (e.not.mpr h0)]
    refine .bind_lift fun _ _ => ?_
    have e2 : (fun i => -(dilX p f).2 i / (c.slow p exc).incidentFlux, fun i => (dilX p g).1 i / (c.slow p exc).incidentFlux) =
        ((fun i => -f.2 i / c.incidentFlux, fun i => g.1 i / c.incidentFlux) : (Fin c.nh → ℝ) × (Fin c.nh → ℝ)) := by
      change ((fun i => -(f.2 i / p) / (c.incidentFlux / p)), fun i => (g.1 i / p) / (c.incidentFlux / p)) = _
      ext i
      · field_simp
      · field_simp
    rw [e2]
    exact .pure (v := id) _

include h in
theorem lock_diffraction (o : Bool) : Lock mats p id (diffractionEfficiencies E c o) (diffractionEfficiencies E (c.slow p exc) o) := by
  unfold diffractionEfficiencies
  refine .bind (u := id) (lock_efficiencies h) fun q => ?_
  obtain ⟨R, T⟩ := q
  dsimp only [id]
  split
  · exact .pure (v := id) _
  · exact .pure (v := id) _

theorem realSqrts_dil (hp : 0 < p) {n : ℕ} (z : Fin n → ℂ) :
    realSqrts (fun i => (p : ℂ) ^ 2 * z i) = (realSqrts z).map fun v i => p * v i := by
  have hp2 : 0 < p ^ 2 := by positivity
  have r : ∀ w : ℂ, ((p : ℂ) ^ 2 * w).re = p ^ 2 * w.re := fun w => by rw [← Complex.ofReal_pow, Complex.re_ofReal_mul]
  unfold realSqrts
  simp only [r, mul_neg_iff, hp2, hp2.not_gt, true_and, false_and, or_false]
  split_ifs
  · rfl
  · simp only [Except.map, Real.sqrt_mul hp2.le, Real.sqrt_sq hp.le]

include h in
theorem lock_complex (hexc : exc.amplitude = c.excitation.amplitude) :
    Lock mats p id (complexEfficiencies E c) (complexEfficiencies E (c.slow p exc)) := by
  have hp := h.pos
  have hp0 : (p : ℂ) ≠ 0 := by exact_mod_cast hp.ne'
  have ha : ((p : ℂ) ^ 2) ≠ 0 := pow_ne_zero 2 hp0
  have om : ((c.slow p exc).omega : ℂ) = (c.omega : ℂ) / p := by
    change ((c.omega / p : ℝ) : ℂ) = _
    push_cast; rfl
  unfold complexEfficiencies
  refine .bind (u := id) (lock_ensureS h) fun _ => ?_
  unfold complexOrders
  refine .get_bind fun d hd => .bind_lift fun r0 h0 => .bind_lift fun rN hN => ?_
  have m : ∀ r, (dilD p d).mats r = denser p (d.mats r) := fun _ => rfl
  have u : ∀ L, (denser p L).isUniform = L.isUniform := fun _ => rfl
  have w : ∀ L, (denser p L).isAnisotropic = L.isAnisotropic := fun _ => rfl
  have mm : ∀ L, (denser p L).mu = L.mu := fun _ => rfl
  have n : ∀ L : LayerSpec, csqrt ((denser p L).epsilon.value * L.mu) = p * csqrt (L.epsilon.value * L.mu) := by
    intro L
    rw [denser_value, mul_assoc, csqrt_scale hp]
  have g : ∀ x y z : ℂ, ((c.omega : ℂ) / p) ^ 2 * ((p : ℂ) * x) ^ 2 - y - z = (c.omega : ℂ) ^ 2 * x ^ 2 - y - z := by
    intro x y z
    field_simp
  simp only [m, u, w, mm, n, om, g]
  refine .bind_lift fun _ _ => .bind_lift fun _ _ => ?_
  have q : ∀ f : Fin c.nh → ℂ, (fun i => ((p : ℂ) * csqrt ((d.mats r0).epsilon.value * (d.mats r0).mu)) ^ 2 * f i) =
      fun i => (p : ℂ) ^ 2 * (csqrt ((d.mats r0).epsilon.value * (d.mats r0).mu) ^ 2 * f i) := by
    intro f
    funext i
    ring
  refine .bind (u := fun v i => p * v i) ?_ fun nt => .bind (u := fun v i => p * v i) ?_ fun nr =>
    .bind (u := List.map (dilF p)) (lock_getFieldFourier h _ _) fun x =>
      .bind (u := List.map (dilF p)) (lock_getFieldFourier h _ _) fun y => ?_
  · rw [q, realSqrts_dil hp]
    exact .lift _
  · rw [q, realSqrts_dil hp]
    exact .lift _
  · rcases x with _ | ⟨x, _ | ⟨x', l⟩⟩
    · exact .lift _
    · rcases y with _ | ⟨y, _ | ⟨y', m⟩⟩
      · exact .lift _
      · have e3 : ∀ (a : ℂ) (b : ℝ), a / (p : ℂ) * ((p * b : ℝ) : ℂ) = a * (b : ℂ) := by
          intro a b
          push_cast
          field_simp
        have e4 : ∀ (F : FieldF c.nh) (k : Fin 3) (i : Fin c.nh) (b : ℝ),
            (![(dilF p F).ex, (dilF p F).ey, (dilF p F).ez] k) i * ((p * b : ℝ) : ℂ) = (![F.ex, F.ey, F.ez] k) i * (b : ℂ) := by
          intro F k i b
          fin_cases k <;> exact e3 _ _
        simp only [List.map_cons, List.map_nil, e4, hexc]
        exact .pure (v := id) _
      · exact .lift _
    · exact .lift _

include h in
/-- Every call does the same. -/
theorem Call.denser (hexc : exc.amplitude = c.excitation.amplitude) (a : Call c.nh) {d : Dyn c.nh} (hd : d.mats = mats) :
    Call.result E (c.slow p exc) a (dilD p d) = (a.result E c d).map (divided p) ∧
      Call.after E (c.slow p exc) a (dilD p d) = dilD p (a.after E c d) ∧ (a.after E c d).mats = mats := by
  have mm : ∀ {α : Type} (f : α → Outcome c.nh) (x : Except PyErr α), x.map f = x.map f := fun _ _ => rfl
  cases a with
  | getSMatrix o =>
    obtain ⟨h1, h2⟩ := lock_getS (exc := exc) h o d hd
    simp only [Call.result, Call.after, h2, h1, and_true]
    rcases (getS E c o d).1 with e | x <;> rfl
  | solve =>
    obtain ⟨h1, h2⟩ := lock_solve (exc := exc) h d hd
    simp only [Call.result, Call.after, h2, h1, and_true]
    rcases (solve E c d).1 with e | x <;> rfl
  | reset q =>
    obtain ⟨h1, h2⟩ := lock_reset (c := c) (p := p) (mats := mats) q d hd
    simp only [Call.result, Call.after, h2, h1, and_true]
    rcases (simReset q d).1 with e | x <;> rfl
  | getFieldFourier l z =>
    obtain ⟨h1, h2⟩ := lock_getFieldFourier (exc := exc) h l z d hd
    simp only [Call.result, Call.after, h2, h1, and_true]
    rcases (getFieldFourier E c l z d).1 with e | x <;> rfl
  | getZPoyntingFlux l x y =>
    obtain ⟨h1, h2⟩ := lock_flux (exc := exc) h l x y d hd
    simp only [Call.result, Call.after, h2, h1, and_true]
    rcases (getZPoyntingFlux E c l x y d).1 with e | x <;> rfl
  | diffractionEfficiencies o =>
    obtain ⟨h1, h2⟩ := lock_diffraction (exc := exc) h o d hd
    simp only [Call.result, Call.after, h2, h1, and_true]
    rcases (diffractionEfficiencies E c o d).1 with e | x <;> rfl
  | complexEfficiencies =>
    obtain ⟨h1, h2⟩ := lock_complex h hexc d hd
    simp only [Call.result, Call.after, h2, h1, and_true]
    rcases (complexEfficiencies E c d).1 with e | x <;> rfl

include h in
/-- Every call returns or raises the corresponding after every history. -/
theorem results_denser (hexc : exc.amplitude = c.excitation.amplitude) (hist : List (Call c.nh)) (a : Call c.nh) :
    Call.result E (c.slow p exc) a (afterCalls E (c.slow p exc) hist (Dyn.fresh (fun r => Spec.denser p (mats r)) (unsolved c.nh))) =
      (a.result E c (afterCalls E c hist (Dyn.fresh mats (unsolved c.nh)))).map (divided p) := by
  suffices h' : ∀ d : Dyn c.nh, d.mats = mats → (afterCalls E c hist d).mats = mats ∧
      afterCalls E (c.slow p exc) hist (dilD p d) = dilD p (afterCalls E c hist d) by
    obtain ⟨h1, h2⟩ := h' (Dyn.fresh mats (unsolved c.nh)) rfl
    have e : (Dyn.fresh (fun r => Spec.denser p (mats r)) (unsolved c.nh) : Dyn c.nh) = dilD p (Dyn.fresh mats (unsolved c.nh)) := rfl
    rw [e, h2]
    exact (Call.denser h hexc a h1).1
  unfold afterCalls
  induction hist with
  | nil => exact fun d hd => ⟨hd, rfl⟩
  | cons b l ih =>
    intro d hd
    obtain ⟨-, h2, h3⟩ := Call.denser h hexc b hd
    simp only [List.foldl_cons, h2]
    exact ih _ h3

/-- The incident wave of the second simulation. -/
noncomputable def slowWave (p : ℝ) (e : PlaneWave) : PlaneWave :=
  { e with wavelength := p * e.wavelength, wavenumber := e.wavenumber / p, wavevector := fun i => e.wavevector i / p }

theorem planeWave_slow (hp : 0 < p) (wl : ℝ) (ang : ℝ × ℝ × ℝ) : planeWave (p * wl) ang = (planeWave wl ang).map (slowWave p) := by
  have hp0 := hp.ne'
  have hp2 : 0 < (p ^ 2)⁻¹ := by positivity
  unfold planeWave
  by_cases hw : wl = 0
  · simp only [hw, mul_zero, if_true]; rfl
  have hw' : p * wl ≠ 0 := mul_ne_zero hp0 hw
  simp only [if_neg hw, if_neg hw']
  have hk : 2 * Real.pi * (1 / (p * wl)) = 2 * Real.pi * (1 / wl) / p := by
    field_simp
  rw [hk]
  generalize 2 * Real.pi * (1 / wl) = k
  generalize hv : (![Real.sin (ang.1 * (Real.pi / 180)) * Real.cos (ang.2.1 * (Real.pi / 180)),
    Real.sin (ang.1 * (Real.pi / 180)) * Real.sin (ang.2.1 * (Real.pi / 180)), Real.cos (ang.1 * (Real.pi / 180))] : Fin 3 → ℝ) = v
  have hq : (k / p) ^ 2 - (k / p * v 0) ^ 2 - (k / p * v 1) ^ 2 = (p ^ 2)⁻¹ * (k ^ 2 - (k * v 0) ^ 2 - (k * v 1) ^ 2) := by
    field_simp
  have hQ : (k / p) ^ 2 • (1 : Matrix (Fin 2) (Fin 2) ℝ) -
      !![(k / p * v 1) ^ 2, -(k / p * v 0) * (k / p * v 1); -(k / p * v 0) * (k / p * v 1), (k / p * v 0) ^ 2] =
      (p ^ 2)⁻¹ • (k ^ 2 • (1 : Matrix (Fin 2) (Fin 2) ℝ) -
        !![(k * v 1) ^ 2, -(k * v 0) * (k * v 1); -(k * v 0) * (k * v 1), (k * v 0) ^ 2]) := by
    ext i j
    fin_cases i <;> fin_cases j <;> simp <;> field_simp
  simp only [hq, hQ]
  generalize k ^ 2 • (1 : Matrix (Fin 2) (Fin 2) ℝ) -
        !![(k * v 1) ^ 2, -(k * v 0) * (k * v 1); -(k * v 0) * (k * v 1), (k * v 0) ^ 2] = Q
  generalize k ^ 2 - (k * v 0) ^ 2 - (k * v 1) ^ 2 = x
  have h1 : powHalf ((p ^ 2)⁻¹ * x) = (powHalf x).map (· / p) := by
    unfold powHalf
    simp only [mul_neg_iff, hp2, hp2.not_gt, true_and, false_and, or_false]
    split_ifs
    · rfl
    · rw [Real.sqrt_mul hp2.le, Real.sqrt_inv, Real.sqrt_sq hp.le]
      simp only [Except.map]
      congr 1
      field_simp
  have h2 : inv2 ((p ^ 2)⁻¹ • Q) = (inv2 Q).map (p ^ 2 • ·) := by
    unfold inv2
    have hd : ((p ^ 2)⁻¹ • Q).det = 0 ↔ Q.det = 0 := by
      rw [det_smul, mul_eq_zero]
      simp [hp0]
    by_cases h0 : Q.det = 0
    · rw [if_pos h0, if_pos (hd.mpr h0)]; rfl
    · rw [if_neg h0, if_neg (hd.not.mpr h0)]
      refine congrArg Except.ok ?_
      refine Matrix.inv_eq_right_inv ?_
      rw [Matrix.smul_mul, Matrix.mul_smul, smul_smul, Matrix.mul_nonsing_inv _ (isUnit_iff_ne_zero.mpr h0),
        inv_mul_cancel₀ (pow_ne_zero 2 hp0), one_smul]
  rw [h1, h2]
  rcases powHalf x with e | q
  · rfl
  rcases inv2 Q with e | R
  · rfl
  refine congrArg Except.ok ?_
  simp only [slowWave]
  congr 1
  · funext i
    ring
  · rw [smul_smul]
    congr 2
    field_simp

/-- The constructor of the second simulation. -/
theorem simInit_denser {lats : ℕ → Lattice} {stack : List ℕ} {wave : PlaneWave} {nh : ℤ} {form : String} (hp : 0 < p) :
    simInit E lats (fun r => Spec.denser p (mats r)) stack (slowWave p wave) nh form =
      (simInit E lats mats stack wave nh form).map fun c => c.slow p (slowWave p wave) := by
  have hp0 : (p : ℂ) ≠ 0 := by exact_mod_cast hp.ne'
  have ha : ((p : ℂ) ^ 2) ≠ 0 := pow_ne_zero 2 hp0
  unfold simInit
  have e1 : ∀ r, (Spec.denser p (mats r)).name = (mats r).name := fun _ => rfl
  have e2 : ∀ r, (Spec.denser p (mats r)).lattice = (mats r).lattice := fun _ => rfl
  have e3 : ∀ r, (Spec.denser p (mats r)).isUniform = (mats r).isUniform := fun _ => rfl
  have e4 : ∀ r, (Spec.denser p (mats r)).isAnisotropic = (mats r).isAnisotropic := fun _ => rfl
  have e5 : ∀ r, (Spec.denser p (mats r)).mu = (mats r).mu := fun _ => rfl
  have e6 : ∀ r, csqrt ((Spec.denser p (mats r)).epsilon.value * (mats r).mu) = p * csqrt ((mats r).epsilon.value * (mats r).mu) := by
    intro r
    rw [denser_value, mul_assoc, csqrt_scale hp]
  have e7 : ∀ r, (Spec.denser p (mats r)).epsilon.value * (mats r).mu = 0 ↔ (mats r).epsilon.value * (mats r).mu = 0 := by
    intro r
    rw [denser_value, mul_assoc, mul_eq_zero]
    simp [ha]
  have e8 : ∀ n : ℂ, k0para (slowWave p wave).wavevector (p * n) = k0para wave.wavevector n := by
    intro n
    unfold k0para slowWave
    push_cast
    congr 1
    · field_simp
    · field_simp
  have e9 : ∀ n : ℂ, ((Real.cos (slowWave p wave).theta : ℂ) / (p * n)).re = ((Real.cos wave.theta : ℂ) / n).re / p := by
    intro n
    change ((Real.cos wave.theta : ℂ) / (p * n)).re = _
    rw [mul_comm, ← div_div, Complex.div_ofReal_re]
  have e10 : 2 * Real.pi * (1 / (slowWave p wave).wavelength) = 2 * Real.pi * (1 / wave.wavelength) / p := by
    change 2 * Real.pi * (1 / (p * wave.wavelength)) = _
    rw [one_div, one_div, mul_inv]
    ring
  have e11 : (slowWave p wave).a0 = wave.a0 := rfl
  simp only [e1, e2, e3, e4, e5, e6, e7, e8, e9, e10, e11]
  split
  · rfl
  rcases stack with _ | ⟨r0, l⟩
  · rfl
  dsimp only
  split_ifs
  all_goals try rfl
  rcases (lats (mats r0).lattice).getHarmonics E.argsort (effectiveNh nh ((r0 :: l).all fun r => (mats r).isUniform)) true with e | ⟨H, n⟩
  · rfl
  simp only [except_bind_ok]
  rcases checkNyquist (lats (mats r0).lattice) H with e | _
  · rfl
  simp only [except_bind_ok]
  unfold raiseIf
  split_ifs
  all_goals try rfl
  rcases (lats (mats r0).lattice).reciprocal with e | r
  · rfl
  rfl

end Nannos
