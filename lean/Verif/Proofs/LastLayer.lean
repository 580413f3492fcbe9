import Verif.Proofs.Smooth
import Verif.Proofs.Pixelated

/-! The thickness of the last layer (C111). -/

namespace Nannos

open Matrix Spec

section step
variable {m : Type} [Fintype m] [DecidableEq m]

/-- Modes which differ by the thickness. -/
def ThicknessOnly (M M' : Modes m) : Prop := M'.q = M.q ∧ M'.phi = M.phi ∧ M'.Q = M.Q

theorem buildM_same {M M' : Modes m} (h : ThicknessOnly M M') : buildM M' = buildM M := by
  unfold buildM Modes.amat
  rw [h.1, h.2.1, h.2.2]

/-- The thickness of the layer below an interface enters the right half of the scattering matrix only. -/
theorem stepS_below {S : SMat m} {L M M' : Modes m} (h : ThicknessOnly M M') {T} (hT : stepS S L M = .ok T) :
    ∃ T', stepS S L M' = .ok T' ∧ T'.s11 = T.s11 ∧ T'.s21 = T.s21 := by
  unfold stepS buildI at hT ⊢
  rw [buildM_same h]
  dsimp only at hT ⊢
  rw [bind_eq_ok] at hT
  obtain ⟨I, hI, hT⟩ := hT
  rw [bind_eq_ok] at hT
  obtain ⟨s11, h11, hT⟩ := hT
  rw [bind_eq_ok] at hT
  obtain ⟨s12, h12, hT⟩ := hT
  simp only [except_pure_eq_ok, Except.ok.injEq] at hT
  subst hT
  rw [hI, except_bind_ok, h11, except_bind_ok]
  have hd : ∀ {A B B' X : Matrix m m ℂ}, linSolve A B = .ok X → ∃ X', linSolve A B' = .ok X' := by
    intro A B B' X hX
    unfold linSolve at hX ⊢
    split at hX
    · cases hX
    · rename_i hA
      exact ⟨_, if_neg hA⟩
  obtain ⟨s12', h12'⟩ := hd (B' := (L.f * S.s12 * I.toBlocks₂₂ - I.toBlocks₁₂) * M'.f) h12
  rw [h12', except_bind_ok]
  exact ⟨_, rfl, rfl, rfl⟩

end step

section sim
variable {E : Ext} {c : Static} {mats : ℕ → LayerSpec} {A : ℕ → LayerAttr c.nh} {res : Except PyErr Unit} {t t' : ℕ → ℝ} {rN : ℕ}

theorem modesOf_same (L : LayerSpec) (a : LayerAttr c.nh) (th : Option ℝ) {M} (h : modesOf L a = .ok M) :
    ∃ M', modesOf { L with thickness := th } a = .ok M' ∧ ThicknessOnly M M' := by
  unfold modesOf at h ⊢
  rw [bind_eq_ok] at h
  obtain ⟨ev, he, h⟩ := h
  rw [bind_eq_ok] at h
  obtain ⟨Q, hQ, h⟩ := h
  simp only [except_pure_eq_ok, Except.ok.injEq] at h
  subst h
  rw [he, except_bind_ok, hQ, except_bind_ok]
  exact ⟨_, rfl, rfl, rfl, rfl⟩

/-- Two sets of thicknesses which differ in the last layer only. -/
structure LastDiffers (c : Static) (rN : ℕ) (t t' : ℕ → ℝ) : Prop where
  nodup : c.stack.Nodup
  last : c.stack.getLast? = some rN
  same : ∀ r, r ≠ rN → t' r = t r

theorem LastDiffers.symm (h : LastDiffers c rN t t') : LastDiffers c rN t' t :=
  ⟨h.nodup, h.last, fun r hr => (h.same r hr).symm⟩

theorem LastDiffers.layer (h : LastDiffers c rN t t') {r : ℕ} (hr : r ≠ rN) : withThicknesses mats t' r = withThicknesses mats t r := by
  unfold withThicknesses
  rw [h.same r hr]

theorem LastDiffers.above (h : LastDiffers c rN t t') {i : ℤ} (h0 : 0 ≤ i) (hi : i < (c.stack.length : ℤ) - 1) {r} (hr : pyGet c.stack i = .ok r) :
    r ≠ rN := by
  rintro rfl
  obtain ⟨k, rfl⟩ := Int.eq_ofNat_of_zero_le h0
  have h1 := (pyGet_nat _ _ _).mp hr
  have h2 := h.last
  rw [List.getLast?_eq_getElem?] at h2
  have := (List.getElem?_inj (i := k) (by omega) h.nodup).mp (h1.trans h2.symm)
  omega

theorem LastDiffers.lmodes (h : LastDiffers c rN t t') {i : ℤ} (h0 : 0 ≤ i) (hi : i < (c.stack.length : ℤ) - 1) :
    lmodes c (withThicknesses mats t') A i = Nannos.lmodes c (withThicknesses mats t) A i := by
  unfold Nannos.lmodes
  rcases hr : pyGet c.stack i with e | r
  · rfl
  · simp only [except_bind_ok]
    rw [h.layer (h.above h0 hi hr)]

/-- Parts of the stack without the last layer. -/
theorem LastDiffers.inner (h : LastDiffers c rN t t') (S : SMat (Idx c.nh)) {i : ℤ} (h0 : 0 ≤ i) : ∀ n : ℕ, i + n < (c.stack.length : ℤ) →
    foldS c (withThicknesses mats t') A S (pyRange i (i + n)) = foldS c (withThicknesses mats t) A S (pyRange i (i + n)) ∨
      (i + n = (c.stack.length : ℤ) - 1) := by
  intro n
  induction n with
  | zero =>
    intro _
    left
    rw [show i + ((0 : ℕ) : ℤ) = i by simp, pyRange_self]
    rfl
  | succ n ih =>
    intro hn
    push_cast at hn ⊢
    by_cases hl : i + (n + 1 : ℤ) = (c.stack.length : ℤ) - 1
    · exact .inr hl
    left
    rcases ih (by omega) with e | e
    · rw [show i + ((n : ℤ) + 1) = (i + n) + 1 by ring, pyRange_snoc (by omega), foldS_snoc, foldS_snoc, e]
      congr 1
      funext S'
      unfold stepD
      rw [h.lmodes (by omega) (by omega), h.lmodes (by omega) (by omega)]
    · omega

theorem LastDiffers.valS_inner (h : LastDiffers c rN t t') {i : ℤ} (hi : i < (c.stack.length : ℤ) - 1) :
    valS c (withThicknesses mats t') A res (some (0, i)) = valS c (withThicknesses mats t) A res (some (0, i)) := by
  unfold valS
  congr 1
  funext _
  split
  · rfl
  · rename_i hne
    have h0 : 0 < i := by
      by_contra hn
      exact hne ((pyRange_eq_nil_iff _ _).mpr (by omega))
    obtain ⟨k, rfl⟩ := Int.eq_ofNat_of_zero_le h0.le
    have := h.inner (mats := mats) (A := A) SMat.one (i := 0) le_rfl k (by omega)
    simp only [zero_add] at this
    rcases this with e | e
    · exact e
    · exact absurd e (by omega)

theorem LastDiffers.valS_last (h : LastDiffers c rN t t') {idx : Option (ℤ × ℤ)} {i : ℤ} (h0 : 0 ≤ i)
    (hidx : interfaces c idx = pyRange i ((c.stack.length : ℤ) - 1)) {S} (hS : valS c (withThicknesses mats t) A res idx = .ok S) :
    ∃ S', valS c (withThicknesses mats t') A res idx = .ok S' ∧ S'.s11 = S.s11 ∧ S'.s21 = S.s21 := by
  unfold valS at hS ⊢
  rw [hidx] at hS ⊢
  rw [bind_eq_ok] at hS
  obtain ⟨u, hu, hS⟩ := hS
  rw [hu, except_bind_ok]
  split at hS
  · cases hS
  rename_i hne
  rw [if_neg hne]
  have hlt : i < (c.stack.length : ℤ) - 1 := by
    by_contra hn
    exact hne ((pyRange_eq_nil_iff _ _).mpr (by omega))
  obtain ⟨n, hn⟩ : ∃ n : ℕ, (c.stack.length : ℤ) - 1 = (i + n) + 1 := ⟨((c.stack.length : ℤ) - 2 - i).toNat, by omega⟩
  rw [hn, pyRange_snoc (by omega), foldS_snoc] at hS ⊢
  have e := (h.inner (mats := mats) (A := A) SMat.one h0 n (by omega)).resolve_right (by omega)
  rw [e]
  rw [bind_eq_ok] at hS
  obtain ⟨S1, h1, hS⟩ := hS
  rw [h1, except_bind_ok]
  unfold stepD at hS ⊢
  rw [bind_eq_ok] at hS
  obtain ⟨L, hL, hS⟩ := hS
  rw [bind_eq_ok] at hS
  obtain ⟨M, hM, hS⟩ := hS
  rw [h.lmodes (by omega) (by omega), hL, except_bind_ok]
  unfold Nannos.lmodes at hM ⊢
  rw [bind_eq_ok] at hM
  obtain ⟨r, hr, hM⟩ := hM
  rw [hr, except_bind_ok]
  obtain ⟨M', hM', hs⟩ := modesOf_same _ _ ((mats r).thickness.map fun _ => t' r) hM
  have : modesOf (withThicknesses mats t' r) (A r) = .ok M' := hM'
  rw [this, except_bind_ok]
  exact stepS_below hs hS

theorem poynting_same {M M' : Modes (Idx c.nh)} (h : ThicknessOnly M M') (a b : Idx c.nh → ℂ) :
    poyntingFlux c M' a b = poyntingFlux c M a b := by
  unfold poyntingFlux
  rw [h.1, h.2.1, h.2.2]

theorem LastDiffers.effV (h : LastDiffers c rN t t') {RT} (hv : EffV c (withThicknesses mats t) A res RT) :
    EffV c (withThicknesses mats t') A res RT := by
  obtain ⟨hres, S, r0, rn, M0, MN, f0, fN, hS, hr0, hrN, hM0, hMN, hf0, hfN, hfl, hRT⟩ := hv
  obtain ⟨S', hS', e1, e2⟩ := h.valS_last le_rfl rfl hS
  obtain ⟨M0', hM0', s0⟩ := modesOf_same _ _ ((mats r0).thickness.map fun _ => t' r0) hM0
  obtain ⟨MN', hMN', sN⟩ := modesOf_same _ _ ((mats rn).thickness.map fun _ => t' rn) hMN
  exact ⟨hres, S', r0, rn, M0', MN', f0, fN, hS', hr0, hrN, hM0', hMN', by rw [poynting_same s0, e2, hf0],
    by rw [poynting_same sN, e1, hfN], hfl, hRT⟩

theorem LastDiffers.ampV (h : LastDiffers c rN t t') {i : ℤ} {ab} (hv : AmpV c (withThicknesses mats t) A res i ab) :
    AmpV c (withThicknesses mats t') A res i ab := by
  obtain ⟨⟨r, hr⟩, ⟨h0, S, hS, rfl⟩ | ⟨h0, hn, S, hS, rfl⟩ | ⟨h0, hn, hm, S, P, hS, hP, hdet, ha, hb⟩⟩ := hv
  · obtain ⟨S', hS', -, e2⟩ := h.valS_last le_rfl rfl hS
    exact ⟨⟨r, hr⟩, .inl ⟨h0, S', hS', by rw [e2]⟩⟩
  · obtain ⟨S', hS', e1, -⟩ := h.valS_last le_rfl rfl hS
    exact ⟨⟨r, hr⟩, .inr (.inl ⟨h0, hn, S', hS', by rw [e1]⟩)⟩
  · have hpos : 0 < i := by
      by_contra hneg
      have : interfaces c (some (0, i)) = [] := (pyRange_eq_nil_iff _ _).mpr (by omega)
      unfold valS at hS
      rw [this] at hS
      rcases res with e | u
      · cases hS
      · simp at hS
    have hlt : i < (c.stack.length : ℤ) - 1 := by
      obtain ⟨k, rfl⟩ := Int.eq_ofNat_of_zero_le hpos.le
      have := (List.getElem?_eq_some_iff.mp ((pyGet_nat _ _ _).mp hr)).1
      omega
    obtain ⟨P', hP', -, e2⟩ := h.valS_last hpos.le rfl hP
    exact ⟨⟨r, hr⟩, .inr (.inr ⟨h0, hn, hm, S, P', by rw [h.valS_inner hlt]; exact hS, hP', by rw [e2]; exact hdet,
      by rw [e2]; exact ha, by rw [e2]; exact hb⟩)⟩

/-- Without upward waves the thickness of the layer does not enter the fields. -/
theorem fieldAt_down (L : LayerSpec) (a : LayerAttr c.nh) (al : Idx c.nh → ℂ) (z : ℝ) (f : ℝ → ℝ) :
    fieldAt c { L with thickness := L.thickness.map f } a al 0 z = fieldAt c L a al 0 z := by
  have hn : ∀ ez, normalE { L with thickness := L.thickness.map f } a ez = normalE L a ez := fun ez => rfl
  unfold fieldAt modesOf
  simp only [hn]
  rcases a.eig with _ | ev
  · rfl
  rcases a.Qeps with _ | Q
  · rfl
  simp only [attr, except_bind_ok, except_pure_eq_ok]
  rcases L.thickness with _ | th
  · rfl
  · simp [translateAmplitudes]

theorem ampOk_of_ampV {mats : ℕ → LayerSpec} {i : ℤ} {ab} (h : AmpV c mats A res i ab) :
    AmpOk c mats A res i ∧ ∀ ab', AmpV c mats A res i ab' → ab' = ab := by
  obtain ⟨hr, h⟩ := h
  have uniq : ∀ {idx} {S T : SMat (Idx c.nh)}, valS c mats A res idx = .ok S → valS c mats A res idx = .ok T → T = S :=
    fun e1 e2 => Except.ok.inj (e2.symm.trans e1)
  rcases h with ⟨h0, S, hS, rfl⟩ | ⟨h0, hn, S, hS, rfl⟩ | ⟨h0, hn, hm, S, P, hS, hP, hdet, ha, hb⟩
  · refine ⟨⟨hr, fun _ => ⟨_, hS⟩, fun n => absurd h0 n⟩, ?_⟩
    rintro ab' ⟨-, ⟨-, S', hS', rfl⟩ | ⟨n, -⟩ | ⟨n, -⟩⟩
    · rw [uniq hS hS']
    · exact absurd h0 n
    · exact absurd h0 n
  · refine ⟨⟨hr, fun _ => ⟨_, hS⟩, fun _ n1 n2 => (hn.elim n1 n2).elim⟩, ?_⟩
    rintro ab' ⟨-, ⟨n, -⟩ | ⟨-, -, S', hS', rfl⟩ | ⟨-, n1, n2, -⟩⟩
    · exact absurd n h0
    · rw [uniq hS hS']
    · exact (hn.elim n1 n2).elim
  · refine ⟨⟨hr, fun h => ?_, fun _ _ _ => ⟨_, _, hS, hP, hdet⟩⟩, ?_⟩
    · rcases h with h | h | h
      · exact absurd h h0
      · exact absurd h hn
      · exact absurd h hm
    rintro ab' ⟨-, ⟨n, -⟩ | ⟨-, n | n, -⟩ | ⟨-, -, -, S', P', hS', hP', -, h1, h2⟩⟩
    · exact absurd n h0
    · exact absurd n hn
    · exact absurd n hm
    · obtain rfl := uniq hS hS'
      obtain rfl := uniq hP hP'
      exact Prod.ext (h1.trans ha.symm) (by rw [h2, h1, hb, ha])

/-- The fields of a layer for given amplitudes are the same. -/
theorem LastDiffers.fields (h : LastDiffers c rN t t') {i : ℤ} {r : ℕ} {ab} (hr : pyGet c.stack i = .ok r)
    (hv : AmpV c (withThicknesses mats t) A res i ab) (z : ℝ) :
    fieldAt c (withThicknesses mats t' r) (A r) ab.1 ab.2 z = fieldAt c (withThicknesses mats t r) (A r) ab.1 ab.2 z := by
  by_cases hrN : r = rN
  · have hb : ab.2 = 0 := by
      obtain ⟨-, ⟨h0, S, hS, rfl⟩ | ⟨-, -, S, hS, rfl⟩ | ⟨h0, hn, hm, S, P, hS, hP, -⟩⟩ := hv
      · exfalso
        have hne : ¬ (interfaces c none = []) := by
          intro hn
          unfold valS at hS
          rw [hn] at hS
          rcases res with e | u
          · cases hS
          · simp at hS
        have hlen : 0 < (c.stack.length : ℤ) - 1 := by
          by_contra hneg
          exact hne ((pyRange_eq_nil_iff _ _).mpr (by omega))
        exact h.above (by omega) (by omega) hr hrN
      · rfl
      · exfalso
        have hpos : 0 < i := by
          by_contra hneg
          have : interfaces c (some (0, i)) = [] := (pyRange_eq_nil_iff _ _).mpr (by omega)
          unfold valS at hS
          rw [this] at hS
          rcases res with e | u
          · cases hS
          · simp at hS
        have hlt : i < (c.stack.length : ℤ) - 1 := by
          obtain ⟨k, rfl⟩ := Int.eq_ofNat_of_zero_le hpos.le
          have := (List.getElem?_eq_some_iff.mp ((pyGet_nat _ _ _).mp hr)).1
          omega
        exact h.above hpos.le hlt hr hrN
    rw [hb]
    have h1 := fieldAt_down (mats r) (A r) ab.1 z fun _ => t' r
    have h2 := fieldAt_down (mats r) (A r) ab.1 z fun _ => t r
    exact h1.trans h2.symm
  · rw [h.layer hrN]

/-- What the first computation returns from a state of `I`, the second returns from every state of `I'`. -/
def Transfers {α : Type} (I I' : Dyn c.nh → Prop) (x x' : PyM (Dyn c.nh) α) : Prop :=
  ∀ d d' a e, I d → I' d' → x d = (.ok a, e) → I e ∧ ∃ e', x' d' = (.ok a, e') ∧ I' e'

theorem Transfers.bind {α β : Type} {I I' : Dyn c.nh → Prop} {x x' : PyM (Dyn c.nh) α} {f f' : α → PyM (Dyn c.nh) β}
    (hx : Transfers I I' x x') (hf : ∀ a, Transfers I I' (f a) (f' a)) : Transfers I I' (x >>= f) (x' >>= f') := by
  intro d d' b e hd hd' h
  rw [PyM.bind_def] at h
  rcases hxd : x d with ⟨v, d1⟩
  rw [hxd] at h
  rcases v with er | a
  · simp at h
  · obtain ⟨h1, e', h2, h3⟩ := hx d d' a d1 hd hd' hxd
    obtain ⟨h4, e2, h5, h6⟩ := hf a d1 e' b e h1 h3 h
    exact ⟨h4, e2, by rw [PyM.bind_ok h2]; exact h5, h6⟩

theorem Transfers.lift {α : Type} {I I' : Dyn c.nh → Prop} (v : Except PyErr α) : Transfers I I' (PyM.lift v) (PyM.lift v) := by
  intro d d' a e hd hd' h
  unfold PyM.lift at h ⊢
  simp only [Prod.mk.injEq] at h ⊢
  obtain ⟨rfl, rfl⟩ := h
  exact ⟨hd, d', ⟨rfl, rfl⟩, hd'⟩

theorem Transfers.pure {α : Type} {I I' : Dyn c.nh → Prop} (a : α) :
    Transfers I I' (Pure.pure a : PyM (Dyn c.nh) α) (Pure.pure a) := Transfers.lift (.ok a)

theorem Transfers.get_bind {β : Type} {I I' : Dyn c.nh → Prop} {f f' : Dyn c.nh → PyM (Dyn c.nh) β}
    (hf : ∀ d d', I d → I' d' → Transfers I I' (f d) (f' d')) : Transfers I I' (PyM.get >>= f) (PyM.get >>= f') :=
  fun d d' a e hd hd' h => hf d d' hd hd' d d' a e hd hd' h

section transfer
variable (h : LastDiffers c rN t t') (hs : ∀ t, SolveSpec E c (withThicknesses mats t) (unsolved c.nh) A res)
include h hs

theorem LastDiffers.getFieldFourier (id : LayerId) (zs : List ℝ) :
    Transfers (Inv E c (withThicknesses mats t) (unsolved c.nh) A res) (Inv E c (withThicknesses mats t') (unsolved c.nh) A res)
      (getFieldFourier E c id zs) (Nannos.getFieldFourier E c id zs) := by
  intro d d' Fs e hd hd' he
  obtain ⟨h1, hres, r, i, ab, hg, hab, hF⟩ := yields_getFieldFourier (hs t) id zs d Fs e hd he
  refine ⟨h1.1, ?_⟩
  have hab' := h.ampV hab
  obtain ⟨k1, k2⟩ := ampOk_of_ampV hab'
  have hrun := fourier_run (hs t') hg hres k1 k2 zs hd'
  have heq : fieldAt c (withThicknesses mats t' r) (A r) ab.1 ab.2 = fieldAt c (withThicknesses mats t r) (A r) ab.1 ab.2 :=
    funext fun z => h.fields (getLayer_pyGet hg) hab z
  rw [heq, hF] at hrun
  exact ⟨_, Prod.ext hrun rfl, (yields_getFieldFourier (hs t') id zs d' Fs _ hd' (Prod.ext hrun rfl)).1.1⟩

theorem LastDiffers.ensureS :
    Transfers (Inv E c (withThicknesses mats t) (unsolved c.nh) A res) (Inv E c (withThicknesses mats t') (unsolved c.nh) A res)
      (ensureS E c) (Nannos.ensureS E c) := by
  intro d d' a e hd hd' he
  have hread := det_readS' (hs t) (P := Inv E c (withThicknesses mats t) (unsolved c.nh) A res) (fun _ h => h) (fun _ h => h.1) d hd
  have key : ∀ {tt} {d0 : Dyn c.nh}, Inv E c (withThicknesses mats tt) (unsolved c.nh) A res d0 →
      (∃ S, valS c (withThicknesses mats tt) A res none = .ok S) → ∃ e0, Nannos.ensureS E c d0 = (.ok (), e0) ∧
        Inv E c (withThicknesses mats tt) (unsolved c.nh) A res e0 := by
    rintro tt d0 h0 ⟨S, hS⟩
    unfold Nannos.ensureS
    rw [show (PyM.get >>= _ : PyM (Dyn c.nh) Unit) d0 = _ from rfl]
    rcases hS0 : d0.S with _ | T
    · obtain ⟨T, d1, h1, h2, -⟩ := succeeds_getS (hs tt) hS d0 h0
      refine ⟨d1, ?_, h2.1⟩
      show (match d0.S with | some _ => (Pure.pure () : PyM (Dyn c.nh) Unit) | none => do
        let _ ← getS E c none
        Pure.pure ()) d0 = _
      rw [hS0]
      dsimp only
      rw [PyM.bind_ok h1]
      rfl
    · refine ⟨d0, ?_, h0⟩
      show (match d0.S with | some _ => (Pure.pure () : PyM (Dyn c.nh) Unit) | none => do
        let _ ← getS E c none
        Pure.pure ()) d0 = _
      rw [hS0]
      rfl
  have hv : ∃ S, valS c (withThicknesses mats t) A res none = .ok S := by
    rw [← hread.1]
    have he' : (match d.S with | some _ => (Pure.pure () : PyM (Dyn c.nh) Unit) | none => do
        let _ ← getS E c none
        Pure.pure ()) d = (.ok a, e) := he
    show ∃ S, ((match d.S with | some S => (Pure.pure S : PyM (Dyn c.nh) _) | none => getS E c none) d).1 = .ok S
    rcases hS0 : d.S with _ | T
    · rw [hS0] at he'
      dsimp only at he' ⊢
      rw [PyM.bind_def] at he'
      rcases hgs : getS E c none d with ⟨v, d1⟩
      rw [hgs] at he'
      rcases v with er | S
      · simp at he'
      · exact ⟨S, rfl⟩
    · exact ⟨T, rfl⟩
  obtain ⟨S, hS⟩ := hv
  obtain ⟨e0, k1, k2⟩ := key hd ⟨S, hS⟩
  rw [he] at k1
  obtain rfl : e = e0 := (Prod.mk.inj k1).2
  obtain ⟨S', hS', -⟩ := h.valS_last le_rfl rfl hS
  obtain ⟨e1, k3, k4⟩ := key hd' ⟨S', hS'⟩
  exact ⟨k2, e1, k3, k4⟩

theorem LastDiffers.complexEfficiencies :
    Transfers (Inv E c (withThicknesses mats t) (unsolved c.nh) A res) (Inv E c (withThicknesses mats t') (unsolved c.nh) A res)
      (complexEfficiencies E c) (Nannos.complexEfficiencies E c) := by
  unfold Nannos.complexEfficiencies
  refine Transfers.bind (h.ensureS hs) fun _ => ?_
  unfold complexOrders
  refine Transfers.get_bind fun d d' hd hd' => ?_
  rw [hd.mats_eq, hd'.mats_eq]
  refine Transfers.bind (Transfers.lift _) fun r0 => ?_
  refine Transfers.bind (Transfers.lift _) fun rn => ?_
  refine Transfers.bind (Transfers.lift _) fun _ => ?_
  refine Transfers.bind (Transfers.lift _) fun _ => ?_
  refine Transfers.bind (Transfers.lift _) fun nt => ?_
  refine Transfers.bind (Transfers.lift _) fun nr => ?_
  refine Transfers.bind (h.getFieldFourier hs _ _) fun fsub => ?_
  refine Transfers.bind (h.getFieldFourier hs _ _) fun fsup => ?_
  split
  · exact Transfers.pure _
  · exact Transfers.lift _

theorem LastDiffers.efficienciesByOrder :
    Transfers (Inv E c (withThicknesses mats t) (unsolved c.nh) A res) (Inv E c (withThicknesses mats t') (unsolved c.nh) A res)
      (efficienciesByOrder E c) (Nannos.efficienciesByOrder E c) := by
  intro d d' RT e hd hd' he
  have hpost : ∀ t, Succeeds (Inv E c (withThicknesses mats t) (unsolved c.nh) A res) (Nannos.efficienciesByOrder E c)
      (fun RT' e' => EffV c (withThicknesses mats t) A res RT → RT' = RT ∧ Inv E c (withThicknesses mats t) (unsolved c.nh) A res e') ∨
      ¬ EffV c (withThicknesses mats t) A res RT := by
    intro t
    by_cases hv : EffV c (withThicknesses mats t) A res RT
    · left
      obtain ⟨hres, S, r0, rn, M0, MN, f0, fN, hS, hr0, hrN, hM0, hMN, hf0, hfN, hfl, hRT⟩ := hv
      have hq : ∀ {M : Modes (Idx c.nh)} {a b f}, poyntingFlux c M a b = .ok f → ∀ k, (c.omega : ℂ) * M.q k ≠ 0 := by
        intro M a b f hf k hk
        unfold poyntingFlux at hf
        rw [if_pos ⟨k, hk⟩] at hf
        cases hf
      intro d0 h0
      obtain ⟨RT', d1, e1, k2, g0, gN, y1, y2, rfl⟩ := succeeds_efficiencies (hs t) hS hr0 hrN hM0 hMN (hq hf0) (hq hfN) hfl d0 h0
      obtain rfl := Except.ok.inj (hf0.symm.trans y1)
      obtain rfl := Except.ok.inj (hfN.symm.trans y2)
      exact ⟨_, d1, e1, fun _ => ⟨hRT.symm, k2.1⟩⟩
    · exact .inr hv
  have hv := yields_efficiencies (hs t) d RT e hd he
  have hv' := h.effV hv
  obtain ⟨R1, d1, k1, k2⟩ := (hpost t).resolve_right (fun n => n hv) d hd
  rw [he] at k1
  obtain ⟨-, rfl⟩ := Prod.mk.inj k1
  obtain ⟨R2, d2, k3, k4⟩ := (hpost t').resolve_right (fun n => n hv') d' hd'
  obtain ⟨rfl, k5⟩ := k4 hv'
  exact ⟨(k2 hv).2, d2, k3, k5⟩

theorem LastDiffers.diffraction (orders : Bool) :
    Transfers (Inv E c (withThicknesses mats t) (unsolved c.nh) A res) (Inv E c (withThicknesses mats t') (unsolved c.nh) A res)
      (diffractionEfficiencies E c orders) (diffractionEfficiencies E c orders) := by
  unfold diffractionEfficiencies
  refine Transfers.bind (h.efficienciesByOrder hs) fun RT => ?_
  dsimp only
  split <;> exact Transfers.pure _

end transfer

end sim

end Nannos
