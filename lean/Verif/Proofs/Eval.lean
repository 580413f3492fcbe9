import Verif.Proofs.Fields
import Verif.Proofs.SMatrix2

/-! What the methods of a `Simulation` return when they succeed. -/

namespace Nannos

open Matrix Spec

variable {E : Ext} {c : Static}
variable {mats : ℕ → LayerSpec} {A0 A1 : ℕ → LayerAttr c.nh} {res : Except PyErr Unit}

/-- From states satisfying `P`, a successful run of `x` returns a value and leaves a state satisfying
`R`. -/
def Yields {α : Type} (P : Dyn c.nh → Prop) (x : PyM (Dyn c.nh) α) (R : α → Dyn c.nh → Prop) : Prop :=
  ∀ d a d', P d → x d = (.ok a, d') → R a d'

section
variable {α β : Type} {P : Dyn c.nh → Prop} {Q : α → Dyn c.nh → Prop} {R : β → Dyn c.nh → Prop}

theorem Yields.bind {x : PyM (Dyn c.nh) α} {f : α → PyM (Dyn c.nh) β} (hx : Yields P x Q)
    (hf : ∀ a, Yields (Q a) (f a) R) : Yields P (x >>= f) R := by
  intro d b d' hd h
  rw [PyM.bind_def] at h
  rcases hxd : x d with ⟨e | a, d1⟩
  · rw [hxd] at h; simp at h
  · rw [hxd] at h
    exact hf a d1 b d' (hx d a d1 hd hxd) h

theorem Yields.pure (a : α) (h : ∀ d, P d → Q a d) : Yields P (pure a : PyM (Dyn c.nh) α) Q := by
  intro d b d' hd e
  obtain ⟨e1, rfl⟩ := Prod.mk.inj e
  cases e1
  exact h _ hd

theorem Yields.lift (v : Except PyErr α) (h : ∀ a d, v = .ok a → P d → Q a d) :
    Yields P (PyM.lift v : PyM (Dyn c.nh) α) Q := by
  intro d b d' hd e
  obtain ⟨e1, rfl⟩ := Prod.mk.inj e
  exact h _ _ e1 hd

theorem Yields.get_bind {f : Dyn c.nh → PyM (Dyn c.nh) β} (h : ∀ d, P d → Yields (· = d) (f d) R) :
    Yields P (PyM.get >>= f) R := by
  intro d b d' hd e
  exact h d hd d b d' rfl e

theorem Yields.mono {P' : Dyn c.nh → Prop} {Q' : α → Dyn c.nh → Prop} {x : PyM (Dyn c.nh) α}
    (h : Yields P x Q) (hP : ∀ d, P' d → P d) (hQ : ∀ a d, Q a d → Q' a d) : Yields P' x Q' :=
  fun d a d' hd e => hQ _ _ (h d a d' (hP d hd) e)

end

section
variable (hs : SolveSpec E c mats A0 A1 res)
include hs

theorem yields_ensureSolved : Yields (Inv E c mats A0 A1 res) (ensureSolved E c)
    (fun _ d => Inv2 E c mats A0 A1 res d ∧ res = .ok ()) := by
  intro d a d' hd h
  obtain ⟨h1, h2, h3⟩ := det_ensureSolved' hs d hd
  rw [h] at h1 h2 h3
  exact ⟨h3 _ h1.symm, h1.symm⟩

theorem yields_getS (idx) : Yields (Inv E c mats A0 A1 res) (getS E c idx)
    (fun S d => Inv2 E c mats A0 A1 res d ∧ valS c mats A1 res idx = .ok S) := by
  intro d a d' hd h
  obtain ⟨h1, h2, h3⟩ := det_getS' hs idx d hd
  rw [h] at h1 h2 h3
  exact ⟨h3 _ h1.symm, h1.symm⟩

theorem yields_solveExt {P : Dyn c.nh → Prop} (hP : ∀ d, P d → Inv E c mats A0 A1 res d)
    (hP2 : ∀ d, Inv2 E c mats A0 A1 res d → P d) : Yields P (solveExt E c)
    (fun ab d => P d ∧ ∃ S, valS c mats A1 res none = .ok S ∧ ab = (S.s11 *ᵥ c.a0, S.s21 *ᵥ c.a0)) := by
  intro d ab d' hd h
  obtain ⟨h1, h2, h3⟩ := det_readS' hs hP hP2 d hd
  unfold solveExt at h
  set y : PyM (Dyn c.nh) (SMat (Idx c.nh)) := (do
      let d ← PyM.get
      match d.S with
        | some S => pure S
        | none => getS E c none) with hy
  have : ((y >>= fun S => pure (S.s11 *ᵥ c.a0 + S.s12 *ᵥ 0, S.s21 *ᵥ c.a0 + S.s22 *ᵥ 0)) :
      PyM (Dyn c.nh) _) d = (.ok ab, d') := by
    rw [← h, hy]
    simp only [PyM.bind_def, PyM.get]
    rcases d.S with _ | S <;> rfl
  have h1 : (y d).1 = valS c mats A1 res none := h1
  have h3 : ∀ a, valS c mats A1 res none = .ok a → P (y d).2 := h3
  rw [PyM.bind_def] at this
  rcases hyd : y d with ⟨e | S, d1⟩
  · rw [hyd] at this; simp at this
  · rw [hyd] at this h1 h3
    obtain ⟨e1, rfl⟩ := Prod.mk.inj this
    cases e1
    refine ⟨h3 S h1.symm, S, h1.symm, ?_⟩
    simp

end

/-- The amplitudes `_get_amplitudes(i)` returns. -/
def AmpV (c : Static) (mats : ℕ → LayerSpec) (A1 : ℕ → LayerAttr c.nh) (res : Except PyErr Unit) (i : ℤ)
    (ab : (Idx c.nh → ℂ) × (Idx c.nh → ℂ)) : Prop :=
  (∃ r, pyGet c.stack i = .ok r) ∧
  ((i = 0 ∧ ∃ S, valS c mats A1 res none = .ok S ∧ ab = (c.a0, S.s21 *ᵥ c.a0)) ∨
   (i ≠ 0 ∧ (i = (c.stack.length : ℤ) - 1 ∨ i = -1) ∧
      ∃ S, valS c mats A1 res none = .ok S ∧ ab = (S.s11 *ᵥ c.a0, 0)) ∨
   (i ≠ 0 ∧ i ≠ (c.stack.length : ℤ) - 1 ∧ i ≠ -1 ∧ ∃ S P, valS c mats A1 res (some (0, i)) = .ok S ∧
      valS c mats A1 res (some (i, (c.stack.length : ℤ) - 1)) = .ok P ∧ (1 - S.s12 * P.s21).det ≠ 0 ∧
      ab.1 = (1 - S.s12 * P.s21)⁻¹ *ᵥ (S.s11 *ᵥ c.a0) ∧ ab.2 = P.s21 *ᵥ ab.1))

section
variable (hs : SolveSpec E c mats A0 A1 res)
include hs

theorem yields_solveInt (i : ℤ) : Yields (Inv2 E c mats A0 A1 res) (solveInt E c i)
    (fun ab d => Inv2 E c mats A0 A1 res d ∧ ∃ S P, valS c mats A1 res (some (0, i)) = .ok S ∧
      valS c mats A1 res (some (i, (c.stack.length : ℤ) - 1)) = .ok P ∧ (1 - S.s12 * P.s21).det ≠ 0 ∧
      ab.1 = (1 - S.s12 * P.s21)⁻¹ *ᵥ (S.s11 *ᵥ c.a0) ∧ ab.2 = P.s21 *ᵥ ab.1) := by
  unfold solveInt
  refine Yields.bind (Q := fun _ d => Inv2 E c mats A0 A1 res d) (Yields.lift _ fun _ _ _ h => h) fun _ => ?_
  refine Yields.bind ((yields_getS hs (some (0, i))).mono (fun _ h => h.1) fun _ _ h => h) fun S => ?_
  refine Yields.bind (Q := fun P d => (Inv2 E c mats A0 A1 res d ∧
      valS c mats A1 res (some (i, (c.stack.length : ℤ) - 1)) = .ok P) ∧
      valS c mats A1 res (some (0, i)) = .ok S) ?_ fun P => ?_
  · intro d a d' hd h
    exact ⟨yields_getS hs _ d a d' hd.1.1 h, hd.2⟩
  · refine Yields.bind (Q := fun ai d => linSolveVec (1 - S.s12 * P.s21) (S.s11 *ᵥ c.a0) = .ok ai ∧
      (Inv2 E c mats A0 A1 res d ∧
      valS c mats A1 res (some (i, (c.stack.length : ℤ) - 1)) = .ok P) ∧
      valS c mats A1 res (some (0, i)) = .ok S) (Yields.lift _ fun _ _ h1 h2 => ⟨h1, h2⟩) fun ai => ?_
    refine Yields.pure _ fun d h => ?_
    obtain ⟨h1, ⟨h2, h3⟩, h4⟩ := h
    rw [linSolveVec_ok] at h1
    exact ⟨h2, S, P, h4, h3, h1.1, h1.2, rfl⟩

theorem yields_getAmplitudes (i : ℤ) : Yields (Inv2 E c mats A0 A1 res) (getAmplitudes E c i)
    (fun ab d => Inv2 E c mats A0 A1 res d ∧ AmpV c mats A1 res i ab) := by
  unfold getAmplitudes
  refine Yields.bind (Q := fun _ d => Inv2 E c mats A0 A1 res d ∧ ∃ r, pyGet c.stack i = .ok r)
    (Yields.lift _ fun a _ h1 h2 => ⟨h2, a, h1⟩) fun _ => ?_
  intro d ab d' hd h
  by_cases h0 : i = 0
  · simp only [h0, if_true] at h
    refine (Yields.bind (R := fun ab d => Inv2 E c mats A0 A1 res d ∧ AmpV c mats A1 res i ab)
      (yields_solveExt hs (P := Inv2 E c mats A0 A1 res) (fun _ h => h.1) fun _ h => h)
      fun ab => Yields.pure _ ?_) d ab d' hd.1 h
    rintro d2 ⟨h1, S, h2, rfl⟩
    exact ⟨h1, hd.2, .inl ⟨h0, S, h2, rfl⟩⟩
  · simp only [h0, if_false] at h
    by_cases hn : i = (c.stack.length : ℤ) - 1 ∨ i = -1
    · simp only [hn, if_true] at h
      refine (Yields.bind (R := fun ab d => Inv2 E c mats A0 A1 res d ∧ AmpV c mats A1 res i ab)
        (yields_solveExt hs (P := Inv2 E c mats A0 A1 res) (fun _ h => h.1) fun _ h => h)
        fun ab => Yields.pure _ ?_) d ab d' hd.1 h
      rintro d2 ⟨h1, S, h2, rfl⟩
      exact ⟨h1, hd.2, .inr (.inl ⟨h0, hn, S, h2, rfl⟩)⟩
    · simp only [hn, if_false] at h
      obtain ⟨h1, h2⟩ := yields_solveInt hs i d ab d' hd.1 h
      push Not at hn
      exact ⟨h1, hd.2, .inr (.inr ⟨h0, hn.1, hn.2, h2⟩)⟩

theorem yields_getFieldFourier (id : LayerId) (zs : List ℝ) :
    Yields (Inv E c mats A0 A1 res) (getFieldFourier E c id zs)
    (fun Fs d => Inv2 E c mats A0 A1 res d ∧ res = .ok () ∧ ∃ r i ab, getLayer c id = .ok (r, i) ∧
      AmpV c mats A1 res i ab ∧ zs.mapM (fieldAt c (mats r) (A1 r) ab.1 ab.2) = .ok Fs) := by
  unfold getFieldFourier
  refine Yields.bind (Q := fun ri d => Inv E c mats A0 A1 res d ∧ getLayer c id = .ok ri)
    (Yields.lift _ fun a _ h1 h2 => ⟨h2, h1⟩) fun ri => ?_
  refine Yields.bind (Q := fun _ d => Inv2 E c mats A0 A1 res d ∧ res = .ok () ∧ getLayer c id = .ok ri)
    ?_ fun _ => ?_
  · intro d a d' hd h
    obtain ⟨h1, h2⟩ := yields_ensureSolved hs d a d' hd.1 h
    exact ⟨h1, h2, hd.2⟩
  refine Yields.bind (Q := fun ab d => (Inv2 E c mats A0 A1 res d ∧ AmpV c mats A1 res ri.2 ab) ∧
    res = .ok () ∧ getLayer c id = .ok ri) ?_ fun ab => ?_
  · intro d a d' hd h
    exact ⟨yields_getAmplitudes hs _ d a d' hd.1 h, hd.2⟩
  refine Yields.get_bind fun d hd => ?_
  refine Yields.lift _ fun Fs d1 h1 h2 => ?_
  subst h2
  obtain ⟨⟨h2, h3⟩, h4, h5⟩ := hd
  rw [h2.mats_eq, h2.attrs_eq] at h1
  exact ⟨h2, h4, ri.1, ri.2, ab, h5, h3, h1⟩

end

end Nannos
