import Verif.Proofs.SimCalls

/-! What a solved stack looks like. -/

namespace Nannos

open Matrix Spec

variable {E : Ext} {c : Static}
variable {mats : ℕ → LayerSpec} {A0 A1 : ℕ → LayerAttr c.nh} {res : Except PyErr Unit}

/-- Solving layer `r` succeeds and changes nothing. -/
def LayerFix (E : Ext) (c : Static) (mats : ℕ → LayerSpec) (A : ℕ → LayerAttr c.nh) (r : ℕ) : Prop :=
  (stepOut E c (mats r) (A (mats r).original)).1 = .ok () ∧
    (stepOut E c (mats r) (A (mats r).original)).2 (A r) = A r

theorem solveAll_fix (rs : List ℕ) : ∀ (d : Dyn c.nh), rs.Nodup → (solveAll E c rs d).1 = .ok () →
    (solveAll E c rs d).2.attrs = d.attrs → ∀ r ∈ rs, LayerFix E c d.mats d.attrs r := by
  induction rs with
  | nil => intro d _ _ _ r hr; simp at hr
  | cons r rs ih =>
    intro d hn hok hfix
    obtain ⟨hr, hn'⟩ := List.nodup_cons.mp hn
    rw [solveAll_cons, solveLayer_eq] at hok hfix
    set so := stepOut E c (d.mats r) (d.attrs (d.mats r).original) with hso
    rcases hres : so.1 with e | u
    · rw [hres] at hok; simp at hok
    rw [hres] at hok hfix
    dsimp only at hok hfix
    obtain ⟨A, eA, hA⟩ := solveAll_frame (E := E) rs (d.setAttr r so.2)
    have h1 : so.2 (d.attrs r) = d.attrs r := by
      have := congrFun hfix r
      rw [eA] at this
      dsimp only at this
      rw [hA r hr, setAttr_same] at this
      exact this
    have h2 : d.setAttr r so.2 = d := setAttr_id _ _ _ h1
    rw [h2] at hok hfix
    intro s hs
    rcases List.mem_cons.mp hs with rfl | hs
    · exact ⟨hres, h1⟩
    · exact ih d hn' hok hfix s hs

theorem SolveSpec.fix (hs : SolveSpec E c mats A0 A1 res) (hn : c.stack.Nodup) (hres : res = .ok ()) :
    ∀ r ∈ c.stack, LayerFix E c mats A1 r := by
  have h := hs.run (Dyn.fresh mats A1) rfl (.inr rfl)
  exact solveAll_fix c.stack (Dyn.fresh mats A1) hn (by rw [h, hres]) (by rw [h]; rfl)

/-- The possible forms of a solved layer. -/
inductive SolvedForm (E : Ext) (c : Static) (L : LayerSpec) (Ao a : LayerAttr c.nh) : Prop
  | uniform (Q ev) (hc : L.iscopy = false) (hb : buildPure E c L = .ok (.uniform Q))
      (he : solveUniform L c.omega c.kx c.ky = .ok ev) (hQ : a.Qeps = some Q) (ha : a.eig = some ev)
  | patterned (M p Q ev) (hc : L.iscopy = false) (hb : buildPure E c L = .ok (.patterned M p Q))
      (he : solveEigenproblem E M = .ok ev) (ha : a = ⟨some M, some p, some Q, some ev⟩)
  | copyUniform (M p Q ev) (hc : L.iscopy = true) (hu : L.isUniform = true)
      (hM : Ao.matrix = some M) (hp : Ao.pat = some p) (hQ : Ao.Qeps = some Q)
      (he : solveUniform L c.omega c.kx c.ky = .ok ev) (ha : a = ⟨some M, some p, some Q, some ev⟩)
  | copyPatterned (M p Q ev) (hc : L.iscopy = true) (hu : L.isUniform = false)
      (ho : Ao = ⟨some M, some p, some Q, some ev⟩) (ha : a = ⟨some M, some p, some Q, some ev⟩)

theorem LayerFix.form {A : ℕ → LayerAttr c.nh} {r : ℕ} (h : LayerFix E c mats A r) :
    SolvedForm E c (mats r) (A (mats r).original) (A r) := by
  obtain ⟨h1, h2⟩ := h
  generalize A (mats r).original = Ao at h1 h2
  generalize mats r = L at h1 h2
  generalize A r = a at h2
  unfold stepOut at h1 h2
  by_cases hc : L.iscopy = true
  · simp only [hc, if_true] at h1 h2
    rcases hM : Ao.matrix with _ | M
    · rw [hM] at h1; simp at h1
    rcases hp : Ao.pat with _ | p
    · rw [hM, hp] at h1; simp at h1
    rcases hQ : Ao.Qeps with _ | Q
    · rw [hM, hp, hQ] at h1; simp at h1
    rw [hM, hp, hQ] at h1 h2
    dsimp only at h1 h2
    by_cases hu : L.isUniform = true
    · simp only [hu, if_true] at h1 h2
      rcases he : solveUniform L c.omega c.kx c.ky with e | ev
      · rw [he] at h1; simp at h1
      rw [he] at h2
      exact .copyUniform M p Q ev hc hu hM hp hQ he h2.symm
    · simp only [hu, Bool.false_eq_true, if_false] at h1 h2
      rcases he : Ao.eig with _ | ev
      · rw [he] at h1; simp [attr] at h1
      rw [he] at h2
      refine .copyPatterned M p Q ev hc (by simpa using hu) ?_ h2.symm
      rw [← hM, ← hp, ← hQ, ← he]
  · simp only [hc, Bool.false_eq_true, if_false] at h1 h2
    simp only [Bool.not_eq_true] at hc
    rcases hb : buildPure E c L with e | (Q | ⟨M, p, Q⟩)
    · rw [hb] at h1; simp at h1
    · rw [hb] at h1 h2
      dsimp only at h1 h2
      rcases he : solveUniform L c.omega c.kx c.ky with e | ev
      · rw [he] at h1; simp at h1
      rw [he] at h2
      dsimp only at h2
      refine .uniform Q ev hc hb he ?_ ?_ <;> rw [← h2]
    · rw [hb] at h1 h2
      dsimp only at h1 h2
      rcases he : solveEigenproblem E M with e | ev
      · rw [he] at h1; simp at h1
      rw [he] at h2
      exact .patterned M p Q ev hc hb he h2.symm

theorem SolvedForm.modes {L : LayerSpec} {Ao a : LayerAttr c.nh} (h : SolvedForm E c L Ao a) :
    ∃ ev Q, a.eig = some ev ∧ a.Qeps = some Q ∧ modesOf L a = .ok ⟨ev.1, ev.2, Q, L.thickness⟩ := by
  have key : ∀ ev Q, a.eig = some ev → a.Qeps = some Q →
      ∃ ev Q, a.eig = some ev ∧ a.Qeps = some Q ∧ modesOf L a = .ok ⟨ev.1, ev.2, Q, L.thickness⟩ := by
    intro ev Q h1 h2
    refine ⟨ev, Q, h1, h2, ?_⟩
    unfold modesOf
    rw [h1, h2]
    rfl
  cases h with
  | uniform Q ev hc hb he hQ ha => exact key ev Q ha hQ
  | patterned M p Q ev hc hb he ha => exact key ev Q (by rw [ha]) (by rw [ha])
  | copyUniform M p Q ev hc hu hM hp hQ he ha => exact key ev Q (by rw [ha]) (by rw [ha])
  | copyPatterned M p Q ev hc hu ho ha => exact key ev Q (by rw [ha]) (by rw [ha])

/-- Modes of one layer of a solved stack. -/
def modesD {nh : ℕ} (L : LayerSpec) (a : LayerAttr nh) : Modes (Idx nh) :=
  ⟨(a.eig.getD (0, 0)).1, (a.eig.getD (0, 0)).2, a.Qeps.getD 0, L.thickness⟩

theorem SolvedForm.modesD {L : LayerSpec} {Ao a : LayerAttr c.nh} (h : SolvedForm E c L Ao a) :
    modesOf L a = .ok (modesD L a) := by
  obtain ⟨ev, Q, h1, h2, h3⟩ := h.modes
  rw [h3]
  unfold Nannos.modesD
  rw [h1, h2]
  rfl

/-- The modes of the layers of a solved stack. -/
def stackModes (c : Static) (mats : ℕ → LayerSpec) (A : ℕ → LayerAttr c.nh) : List (Modes (Idx c.nh)) :=
  c.stack.map fun r => modesD (mats r) (A r)

theorem pyGet_map {α β : Type} (f : α → β) (l : List α) (i : ℤ) :
    pyGet (l.map f) i = (pyGet l i).map f := by
  unfold pyGet
  rw [List.length_map]
  cases pyIdx l.length i with
  | none => rfl
  | some k =>
    simp only [List.getElem?_map]
    cases l[k]? <;> rfl

theorem lmodes_solved {A : ℕ → LayerAttr c.nh} (h : ∀ r ∈ c.stack, LayerFix E c mats A r) (i : ℤ) :
    lmodes c mats A i = pyGet (stackModes c mats A) i := by
  unfold lmodes stackModes
  rw [pyGet_map]
  rcases hr : pyGet c.stack i with e | r
  · rfl
  · exact (h r (pyGet_mem hr)).form.modesD

theorem foldS_solved {A : ℕ → LayerAttr c.nh} (h : ∀ r ∈ c.stack, LayerFix E c mats A r) (S) (l : List ℤ) :
    foldS c mats A S l = l.foldlM (stepAt (stackModes c mats A)) S := by
  unfold foldS
  congr 1
  funext S i
  unfold stepD stepAt
  rw [lmodes_solved h, lmodes_solved h]

theorem valS_solved {A : ℕ → LayerAttr c.nh} (h : ∀ r ∈ c.stack, LayerFix E c mats A r) (i j : ℤ) :
    valS c mats A (.ok ()) (some (i, j)) = freshS (stackModes c mats A) i j := by
  unfold valS freshS
  simp only [interfaces, except_bind_ok]
  rw [foldS_solved h]
  by_cases h' : pyRange i j = [] <;> simp [h']

theorem valS_none (A : ℕ → LayerAttr c.nh) :
    valS c mats A res none = valS c mats A res (some (0, (c.stack.length : ℤ) - 1)) := rfl

theorem valS_ok {A : ℕ → LayerAttr c.nh} {idx} {S} (h : valS c mats A res idx = .ok S) : res = .ok () := by
  unfold valS at h
  rw [bind_eq_ok] at h
  obtain ⟨u, hu, -⟩ := h
  exact hu

end Nannos
