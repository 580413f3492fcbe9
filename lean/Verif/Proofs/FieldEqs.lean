import Verif.Proofs.Amplitudes
import Verif.Proofs.SimCalls

/-! The retrieved fields: Maxwell's equations and continuity. -/

namespace Nannos

open Matrix Spec

variable {E : Ext} {c : Static}
variable {mats : ℕ → LayerSpec} {A : ℕ → LayerAttr c.nh}

theorem tanE_inl {L : LayerSpec} {a : LayerAttr c.nh} {M : Modes (Idx c.nh)} {ai bi : Idx c.nh → ℂ} {z : ℝ}
    {F : FieldF c.nh} (h : FieldSpec c L a M ai bi z F) (h0 : c.omega ≠ 0) (i : Fin c.nh) :
    tanE M ai bi z (.inl i) = c.omega * (-F.ey i) := by
  have : (c.omega : ℂ) ≠ 0 := by exact_mod_cast h0
  rw [h.ey]; field_simp

theorem tanE_inr {L : LayerSpec} {a : LayerAttr c.nh} {M : Modes (Idx c.nh)} {ai bi : Idx c.nh → ℂ} {z : ℝ}
    {F : FieldF c.nh} (h : FieldSpec c L a M ai bi z F) (h0 : c.omega ≠ 0) (i : Fin c.nh) :
    tanE M ai bi z (.inr i) = c.omega * F.ex i := by
  have : (c.omega : ℂ) ≠ 0 := by exact_mod_cast h0
  rw [h.ex]; field_simp

theorem kEps_mulVec {nh : ℕ} (kx ky : Fin nh → ℂ) (eta : Matrix (Fin nh) (Fin nh) ℂ) (h : Idx nh → ℂ) :
    kEps kx ky eta *ᵥ h = Sum.elim
      (fun i => ky i * (eta *ᵥ fun j => ky j * h (.inl j) - kx j * h (.inr j)) i)
      (fun i => -(kx i * (eta *ᵥ fun j => ky j * h (.inl j) - kx j * h (.inr j)) i)) := by
  funext a
  rcases a with i | i <;>
    simp only [mulVec, dotProduct, Fintype.sum_sum_type, kEps, Sum.elim_inl, Sum.elim_inr, of_apply,
      Finset.mul_sum, ← Finset.sum_add_distrib, ← Finset.sum_neg_distrib] <;>
    exact Finset.sum_congr rfl fun j _ => by ring

theorem kMu_mulVec {nh : ℕ} (kx ky : Fin nh → ℂ) (h : Idx nh → ℂ) :
    kMu kx ky *ᵥ h = Sum.elim
      (fun i => kx i * (kx i * h (.inl i) + ky i * h (.inr i)))
      (fun i => ky i * (kx i * h (.inl i) + ky i * h (.inr i))) := by
  funext a
  rcases a with i | i <;>
    simp [mulVec, dotProduct, Fintype.sum_sum_type, kMu, ite_mul] <;> ring

/-- The fields of one layer satisfy Maxwell's equations. -/
theorem maxwell_of_spec {L : LayerSpec} {a : LayerAttr c.nh} {P e} (hm : MediumModes c L a P e)
    {M : Modes (Idx c.nh)} (hM : modesOf L a = .ok M) (hq : ∀ k, (c.omega : ℂ) * M.q k ≠ 0)
    {ai bi : Idx c.nh → ℂ} {F : ℝ → FieldF c.nh} (hF : ∀ z, FieldSpec c L a M ai bi z (F z)) :
    Maxwell c.omega c.kx c.ky P e F := by
  obtain ⟨ev, hev, hw⟩ := hm.eig
  have hMe : M = ⟨ev.1, ev.2, (c.omega : ℂ) ^ 2 • 1 - kEps c.kx c.ky e⁻¹, L.thickness⟩ := by
    unfold modesOf at hM
    rw [hev, hm.Q] at hM
    simpa [attr] using hM.symm
  have hq0 : ∀ k, M.q k ≠ 0 := fun k h => hq k (by rw [h, mul_zero])
  have hom : ∀ _ : Fin c.nh, c.omega ≠ 0 := fun i h => hq (.inl i) (by rw [h]; simp)
  have hQ : M.Q = (c.omega : ℂ) ^ 2 • 1 - kEps c.kx c.ky e⁻¹ := by rw [hMe]
  have hR : c.omega ≠ 0 → (P - ((c.omega : ℂ) ^ 2)⁻¹ • kMu c.kx c.ky) * M.Q * M.phi =
      M.phi * diagonal (fun k => M.q k ^ 2) := by
    intro h0
    rw [hQ, ← waveMatrix_factor h0, hMe]
    exact hw
  have hU := det_unit hm.det
  have ez : ∀ z, (F z).ez = e⁻¹ *ᵥ fun i => (c.ky i * (F z).hx i - c.kx i * (F z).hy i) / c.omega := by
    intro z
    have := hm.normal _ _ (hF z).ez
    rw [← this, mulVec_mulVec, nonsing_inv_mul _ hU, one_mulVec]
  have ez' : ∀ z (i : Fin c.nh), (e⁻¹ *ᵥ fun j => c.ky j * tanH M ai bi z (.inl j) -
      c.kx j * tanH M ai bi z (.inr j)) i = c.omega * (F z).ez i := by
    intro z i
    have h0 : (c.omega : ℂ) ≠ 0 := by exact_mod_cast hom i
    rw [ez z]
    simp only [mulVec, dotProduct, Finset.mul_sum]
    refine Finset.sum_congr rfl fun j _ => ?_
    rw [(hF z).hx, (hF z).hy]
    field_simp
  refine ⟨?_, ?_, ?_, ?_, ?_, ?_⟩
  · intro z i
    have h0 : (c.omega : ℂ) ≠ 0 := by exact_mod_cast hom i
    have hd := ((tanE_deriv M hq0 ai bi z (.inl i)).div_const (c.omega : ℂ)).neg
    have : (fun z => (F z).ey i) = fun z => -(tanE M ai bi z (.inl i) / c.omega) :=
      funext fun z => (hF z).ey i
    rw [this]
    refine HasDerivAt.congr_deriv hd ?_
    symm
    rw [hQ, sub_mulVec, kEps_mulVec]
    simp only [smul_mulVec, one_mulVec, Pi.sub_apply, Pi.smul_apply, smul_eq_mul, Sum.elim_inl]
    rw [ez' z i, (hF z).hx]
    field_simp
    ring
  · intro z i
    have h0 : (c.omega : ℂ) ≠ 0 := by exact_mod_cast hom i
    have hd := ((tanE_deriv M hq0 ai bi z (.inr i)).div_const (c.omega : ℂ))
    have : (fun z => (F z).ex i) = fun z => (tanE M ai bi z (.inr i) / c.omega) :=
      funext fun z => (hF z).ex i
    rw [this]
    refine HasDerivAt.congr_deriv hd ?_
    symm
    rw [hQ, sub_mulVec, kEps_mulVec]
    simp only [smul_mulVec, one_mulVec, Pi.sub_apply, Pi.smul_apply, smul_eq_mul, Sum.elim_inr]
    rw [ez' z i, (hF z).hy]
    field_simp
    ring
  · intro z i
    have h0 : (c.omega : ℂ) ≠ 0 := by exact_mod_cast hom i
    rw [(hF z).hz]; field_simp
  · intro z i
    have h0 : (c.omega : ℂ) ≠ 0 := by exact_mod_cast hom i
    have hd := tanH_deriv M (hR (hom i)) hq0 ai bi z (.inr i)
    have : (fun z => (F z).hy i) = fun z => tanH M ai bi z (.inr i) := funext fun z => (hF z).hy i
    rw [this]
    refine HasDerivAt.congr_deriv hd ?_
    symm
    rw [sub_mulVec, smul_mulVec, kMu_mulVec]
    simp only [Pi.sub_apply, Pi.smul_apply, smul_eq_mul, Sum.elim_inr]
    rw [tanE_inl (hF z) (hom i), tanE_inr (hF z) (hom i), (hF z).hz]
    have e1 : (P *ᵥ tanE M ai bi z) (.inr i) = c.omega * dispX P (F z).ex (F z).ey i := by
      simp only [mulVec, dotProduct, dispX, Fintype.sum_sum_type, ← Finset.sum_add_distrib, Finset.mul_sum]
      refine Finset.sum_congr rfl fun j _ => ?_
      rw [tanE_inl (hF z) (hom i), tanE_inr (hF z) (hom i)]; ring
    rw [e1]
    field_simp
    ring
  · intro z i
    have h0 : (c.omega : ℂ) ≠ 0 := by exact_mod_cast hom i
    have hd := tanH_deriv M (hR (hom i)) hq0 ai bi z (.inl i)
    have : (fun z => (F z).hx i) = fun z => tanH M ai bi z (.inl i) := funext fun z => (hF z).hx i
    rw [this]
    refine HasDerivAt.congr_deriv hd ?_
    symm
    rw [sub_mulVec, smul_mulVec, kMu_mulVec]
    simp only [Pi.sub_apply, Pi.smul_apply, smul_eq_mul, Sum.elim_inl]
    rw [tanE_inl (hF z) (hom i), tanE_inr (hF z) (hom i), (hF z).hz]
    have e1 : (P *ᵥ tanE M ai bi z) (.inl i) = -(c.omega * dispY P (F z).ex (F z).ey i) := by
      simp only [mulVec, dotProduct, dispY, Fintype.sum_sum_type, ← Finset.sum_add_distrib, mul_neg, neg_neg,
        Finset.mul_sum]
      refine Finset.sum_congr rfl fun j _ => ?_
      rw [tanE_inl (hF z) (hom i), tanE_inr (hF z) (hom i)]; ring
    rw [e1]
    field_simp
    ring
  · intro z i
    have h0 : (c.omega : ℂ) ≠ 0 := by exact_mod_cast hom i
    rw [hm.normal _ _ (hF z).ez]
    field_simp
    ring

/-- All field retrievals of one layer from one state share the amplitudes. -/
theorem getFieldFourier_run {id : LayerId} {zs : List ℝ} {d : Dyn c.nh} {Fs}
    (h : (getFieldFourier E c id zs d).1 = .ok Fs) :
    ∃ r i d1 ab, getLayer c id = .ok (r, i) ∧ ∀ zs', getFieldFourier E c id zs' d =
      (zs'.mapM (fieldAt c (d1.mats r) (d1.attrs r) (Prod.fst ab) (Prod.snd ab)), d1) := by
  unfold getFieldFourier at h ⊢
  simp only [PyM.bind_def, PyM.lift, PyM.get] at h ⊢
  rcases hg : getLayer c id with e | ⟨r, i⟩
  · rw [hg] at h; simp at h
  rw [hg] at h
  dsimp only at h ⊢
  rcases he : ensureSolved E c d with ⟨e | u, d0⟩
  · rw [he] at h; simp at h
  rw [he] at h
  dsimp only at h ⊢
  rcases ha : getAmplitudes E c i d0 with ⟨e | ab, d1⟩
  · rw [ha] at h; simp at h
  exact ⟨r, i, d1, ab, rfl, fun zs' => rfl⟩

theorem mapM_ok_cons {α β : Type} {f : α → Except PyErr β} {x : α} {l : List α} {ys} :
    (x :: l).mapM f = .ok ys ↔ ∃ y ys', f x = .ok y ∧ l.mapM f = .ok ys' ∧ ys = y :: ys' := by
  rw [List.mapM_cons, bind_eq_ok]
  constructor
  · rintro ⟨y, h1, h2⟩
    rw [bind_eq_ok] at h2
    obtain ⟨ys', h2, h3⟩ := h2
    simp only [except_pure_eq_ok, Except.ok.injEq] at h3
    exact ⟨y, ys', h1, h2, h3.symm⟩
  · rintro ⟨y, ys', h1, h2, rfl⟩
    exact ⟨y, h1, by rw [h2]; rfl⟩

theorem mapM_of_ok {α β : Type} {f : α → Except PyErr β} {g : α → β} (h : ∀ x, f x = .ok (g x)) (l : List α) :
    l.mapM f = .ok (l.map g) := by
  induction l with
  | nil => rfl
  | cons x l ih => exact mapM_ok_cons.mpr ⟨g x, _, h x, ih, rfl⟩

/-- Everything a successful field retrieval on an object with a history establishes. -/
theorem fields_of_history_raw {lats} {stack exc nh form} (hinit : simInit E lats mats stack exc nh form = .ok c) :
    ∃ A1 res, SolveSpec E c mats (unsolved c.nh) A1 res ∧ (∀ hist : List (Call c.nh), ∀ id zs Fs, zs ≠ [] →
      (getFieldFourier E c id zs (afterCalls E c hist (Dyn.fresh mats (unsolved c.nh)))).1 = .ok Fs →
      (∀ r ∈ c.stack, LayerFix E c mats A1 r) ∧
      ∃ r i ab, getLayer c id = .ok (r, i) ∧ AmpV c mats A1 (.ok ()) i ab ∧
      ∃ M t F, modesOf (mats r) (A1 r) = .ok M ∧ M.thickness = some t ∧ (∀ k, (c.omega : ℂ) * M.q k ≠ 0) ∧
        (∀ z, FieldSpec c (mats r) (A1 r) M ab.1 ab.2 z (F z)) ∧
        (∀ zs', (getFieldFourier E c id zs'
          (afterCalls E c hist (Dyn.fresh mats (unsolved c.nh)))).1 = .ok (zs'.map F)) ∧
        Fs = zs.map F) := by
  have hi := simInit_ok hinit
  have hst : c.stack = stack := hi.stack_eq
  have hnd : c.stack.Nodup := hst ▸ hi.nodup
  obtain ⟨A1, res, hs, -⟩ := solveSpec_of_noStale (E := E) (mats := mats) hnd
    (noStale_unsolved (c := c) mats c.stack)
  refine ⟨A1, res, hs, fun hist id zs Fs hz h => ?_⟩
  have h0 : Inv E c mats (unsolved c.nh) A1 res (Dyn.fresh mats (unsolved c.nh)) := inv_fresh _ (.inl rfl)
  have h1 := h0.calls hs hist
  generalize afterCalls E c hist (Dyn.fresh mats (unsolved c.nh)) = d at h h1 ⊢
  obtain ⟨y1, y2, r, i, ab, y3, y4, y5⟩ := yields_getFieldFourier hs id zs d Fs
    (getFieldFourier E c id zs d).2 h1 (Prod.ext h rfl)
  obtain ⟨r', i', d1, ab', z1, z2⟩ := getFieldFourier_run h
  have hfix := hs.fix hnd y2
  have hrm : r ∈ c.stack := getLayer_mem y3
  subst y2
  -- the first depth gives the outcome at all depths
  obtain ⟨z0, zs0, rfl⟩ := List.exists_cons_of_ne_nil hz
  obtain ⟨F0, Fs0, f1, f2, f3⟩ := mapM_ok_cons.mp y5
  have hall := fun z => fieldAt_all f1 z
  choose F hF using hall
  obtain ⟨M, t, m1, m2, m3, -⟩ := fieldAt_spec f1
  refine ⟨hfix, r, i, ab, y3, y4, M, t, F, m1, m2, m3, ?_, ?_, ?_⟩
  · intro z
    obtain ⟨M', t', n1, n2, n3, n4⟩ := fieldAt_spec (hF z)
    rw [m1] at n1
    cases n1
    exact n4
  · -- the run from the state `d`
    intro zs'
    have hdet := (base_inv hs).getFieldFourier id
    have key : ∀ z, (getFieldFourier E c id [z] d).1 = .ok [F z] := by
      intro z
      -- amplitudes found in the run are those of `y4`
      rw [z2]
      have q1 : (z0 :: zs0).mapM (fieldAt c (d1.mats r') (d1.attrs r') ab'.1 ab'.2) = .ok Fs := by
        have := h; rw [z2] at this; exact this
      obtain ⟨G0, Gs0, g1, g2, g3⟩ := mapM_ok_cons.mp q1
      obtain ⟨G, hG⟩ := fieldAt_all g1 z
      have q2 : getFieldFourier E c id [z] d = (.ok [G], d1) := by
        rw [z2]; exact Prod.ext (mapM_ok_cons.mpr ⟨G, [], hG, rfl, rfl⟩) rfl
      obtain ⟨w1, w2, r2, i2, ab2, w3, w4, w5⟩ := yields_getFieldFourier hs id [z] d [G] d1 h1 q2
      rw [y3] at w3
      obtain ⟨rfl, rfl⟩ := Prod.mk.inj (Except.ok.inj w3)
      obtain ⟨k1, u1, amp1, v1, v2, v3⟩ := ampV_solution hfix y4
      obtain ⟨k2, u2, amp2, v4, v5, v6⟩ := ampV_solution hfix w4
      have hkk : k1 = k2 := Option.some.inj (u1.symm.trans u2)
      subst hkk
      have hk1 : k1 < c.stack.length := by
        unfold pyIdx at u1
        split_ifs at u1 <;> simp at u1 <;> omega
      have hab : ab2 = ab := by
        rw [← v2, ← v5]; exact v3 amp2 v4 k1 hk1
      subst hab
      obtain ⟨G1, Gs1, g4, g5, g6⟩ := mapM_ok_cons.mp w5
      rw [hF z] at g4
      cases g4
      have : G = F z := by
        have := g6
        simp only [List.cons.injEq] at this
        exact this.1
      subst this
      rw [← z2, q2]
    have hrun : ∀ z, fieldAt c (d1.mats r') (d1.attrs r') ab'.1 ab'.2 z = .ok (F z) := by
      intro z
      have := key z
      rw [z2] at this
      obtain ⟨G, Gs, g1, -, g3⟩ := mapM_ok_cons.mp this
      simp only [List.cons.injEq] at g3
      rw [g1, g3.1]
    rw [z2]
    exact mapM_of_ok hrun zs'
  · have := mapM_of_ok hF (z0 :: zs0)
    rw [this] at y5
    exact (Except.ok.inj y5).symm

/-- See `fields_of_history_raw`; the medium of the layer. -/
theorem fields_of_history_spec {lats} {stack exc nh form} (hinit : simInit E lats mats stack exc nh form = .ok c)
    (hE : EigContract E) (hw : WellPlaced mats stack) (hmu : ∀ r ∈ stack, (mats r).mu = 1) :
    ∃ A1 res, SolveSpec E c mats (unsolved c.nh) A1 res ∧ (∀ hist : List (Call c.nh), ∀ id zs Fs, zs ≠ [] →
      (getFieldFourier E c id zs (afterCalls E c hist (Dyn.fresh mats (unsolved c.nh)))).1 = .ok Fs →
      (∀ r ∈ c.stack, LayerFix E c mats A1 r) ∧
      ∃ r i ab, getLayer c id = .ok (r, i) ∧ AmpV c mats A1 (.ok ()) i ab ∧
      (∃ P e, Medium E c mats r P e ∧ MediumModes c (mats r) (A1 r) P e) ∧
      ∃ M t F, modesOf (mats r) (A1 r) = .ok M ∧ M.thickness = some t ∧ (∀ k, (c.omega : ℂ) * M.q k ≠ 0) ∧
        (∀ z, FieldSpec c (mats r) (A1 r) M ab.1 ab.2 z (F z)) ∧
        (∀ zs', (getFieldFourier E c id zs'
          (afterCalls E c hist (Dyn.fresh mats (unsolved c.nh)))).1 = .ok (zs'.map F)) ∧
        Fs = zs.map F) := by
  have hst : c.stack = stack := (simInit_ok hinit).stack_eq
  obtain ⟨A1, res, hs, h⟩ := fields_of_history_raw (E := E) (c := c) hinit
  refine ⟨A1, res, hs, fun hist id zs Fs hz hF => ?_⟩
  obtain ⟨hfix, r, i, ab, h1, h2, h3⟩ := h hist id zs Fs hz hF
  obtain ⟨k, hk⟩ := List.getElem?_of_mem (hst ▸ getLayer_mem h1)
  exact ⟨hfix, r, i, ab, h1, h2, solved_medium hmu hE hw (hst ▸ hfix) k r hk, h3⟩

/-- See `fields_of_history_spec`. -/
theorem fields_of_history {lats} {stack exc nh form} (hinit : simInit E lats mats stack exc nh form = .ok c)
    (hE : EigContract E) (hw : WellPlaced mats stack) (hmu : ∀ r ∈ stack, (mats r).mu = 1) :
    ∃ A1, (∀ hist : List (Call c.nh), ∀ id zs Fs, zs ≠ [] →
      (getFieldFourier E c id zs (afterCalls E c hist (Dyn.fresh mats (unsolved c.nh)))).1 = .ok Fs →
      (∀ r ∈ c.stack, LayerFix E c mats A1 r) ∧
      ∃ r i ab, getLayer c id = .ok (r, i) ∧ AmpV c mats A1 (.ok ()) i ab ∧
      (∃ P e, Medium E c mats r P e ∧ MediumModes c (mats r) (A1 r) P e) ∧
      ∃ M t F, modesOf (mats r) (A1 r) = .ok M ∧ M.thickness = some t ∧ (∀ k, (c.omega : ℂ) * M.q k ≠ 0) ∧
        (∀ z, FieldSpec c (mats r) (A1 r) M ab.1 ab.2 z (F z)) ∧
        (∀ zs', (getFieldFourier E c id zs'
          (afterCalls E c hist (Dyn.fresh mats (unsolved c.nh)))).1 = .ok (zs'.map F)) ∧
        Fs = zs.map F) := by
  obtain ⟨A1, -, -, h⟩ := fields_of_history_spec (E := E) (c := c) hinit hE hw hmu
  exact ⟨A1, h⟩

end Nannos
