import Verif.Model.Amplitudes
import Verif.Props.Fields

/-!
Property C31 for what the methods of a simulation return: the amplitudes of a layer at a depth, the flux of
these amplitudes, and the fields at that depth, each asked for after any history of calls.
-/

namespace Nannos

open Matrix Spec

variable {E : Ext} {c : Static}
variable {mats : ℕ → LayerSpec} {A0 A1 : ℕ → LayerAttr c.nh} {res : Except PyErr Unit}

theorem yields_solveInt' (hs : SolveSpec E c mats A0 A1 res) (i : ℤ) : Yields (Inv E c mats A0 A1 res) (solveInt E c i)
    (fun ab d => Inv2 E c mats A0 A1 res d ∧ ∃ S P, valS c mats A1 res (some (0, i)) = .ok S ∧
      valS c mats A1 res (some (i, (c.stack.length : ℤ) - 1)) = .ok P ∧ (1 - S.s12 * P.s21).det ≠ 0 ∧
      ab.1 = (1 - S.s12 * P.s21)⁻¹ *ᵥ (S.s11 *ᵥ c.a0) ∧ ab.2 = P.s21 *ᵥ ab.1) := by
  unfold solveInt
  refine Yields.bind (Q := fun _ d => Inv E c mats A0 A1 res d) (Yields.lift _ fun _ _ _ h => h) fun _ => ?_
  refine Yields.bind (yields_getS hs (some (0, i))) fun S => ?_
  refine Yields.bind (Q := fun P d => (Inv2 E c mats A0 A1 res d ∧
      valS c mats A1 res (some (i, (c.stack.length : ℤ) - 1)) = .ok P) ∧
      valS c mats A1 res (some (0, i)) = .ok S) ?_ fun P => ?_
  · intro d a d' hd h
    exact ⟨yields_getS hs _ d a d' hd.1.1 h, hd.2⟩
  · refine Yields.bind (Q := fun ai d => linSolveVec (1 - S.s12 * P.s21) (S.s11 *ᵥ c.a0) = .ok ai ∧
      (Inv2 E c mats A0 A1 res d ∧
      valS c mats A1 res (some (i, (c.stack.length : ℤ) - 1)) = .ok P) ∧
      valS c mats A1 res (some (0, i)) = .ok S) (Yields.lift _ fun _ _ h1 h2 => ⟨h1, h2⟩) fun ai => ?_
    refine Yields.pure _ fun d h => ?_
    obtain ⟨h1, ⟨h2, h3⟩, h4⟩ := h
    rw [linSolveVec_ok] at h1
    exact ⟨h2, S, P, h4, h3, h1.1, h1.2, rfl⟩

theorem yields_getAmplitudes' (hs : SolveSpec E c mats A0 A1 res) (i : ℤ) :
    Yields (Inv E c mats A0 A1 res) (getAmplitudes E c i)
    (fun ab d => Inv E c mats A0 A1 res d ∧ AmpV c mats A1 res i ab) := by
  unfold getAmplitudes
  refine Yields.bind (Q := fun _ d => Inv E c mats A0 A1 res d ∧ ∃ r, pyGet c.stack i = .ok r)
    (Yields.lift _ fun a _ h1 h2 => ⟨h2, a, h1⟩) fun _ => ?_
  intro d ab d' hd h
  by_cases h0 : i = 0
  · simp only [h0, if_true] at h
    refine (Yields.bind (R := fun ab d => Inv E c mats A0 A1 res d ∧ AmpV c mats A1 res i ab)
      (yields_solveExt hs (P := Inv E c mats A0 A1 res) (fun _ h => h) fun _ h => h.1)
      fun ab => Yields.pure _ ?_) d ab d' hd.1 h
    rintro d2 ⟨h1, S, h2, rfl⟩
    exact ⟨h1, hd.2, .inl ⟨h0, S, h2, rfl⟩⟩
  · simp only [h0, if_false] at h
    by_cases hn : i = (c.stack.length : ℤ) - 1 ∨ i = -1
    · simp only [hn, if_true] at h
      refine (Yields.bind (R := fun ab d => Inv E c mats A0 A1 res d ∧ AmpV c mats A1 res i ab)
        (yields_solveExt hs (P := Inv E c mats A0 A1 res) (fun _ h => h) fun _ h => h.1)
        fun ab => Yields.pure _ ?_) d ab d' hd.1 h
      rintro d2 ⟨h1, S, h2, rfl⟩
      exact ⟨h1, hd.2, .inr (.inl ⟨h0, hn, S, h2, rfl⟩)⟩
    · simp only [hn, if_false] at h
      obtain ⟨h1, h2⟩ := yields_solveInt' hs i d ab d' hd.1 h
      push Not at hn
      exact ⟨h1.1, hd.2, .inr (.inr ⟨h0, hn.1, hn.2, h2⟩)⟩

theorem modesOf_unsolved (L : LayerSpec) (r : ℕ) (M : Modes (Idx c.nh)) : modesOf L (unsolved c.nh r) ≠ .ok M := by
  intro h
  unfold modesOf at h
  rw [bind_eq_ok] at h
  obtain ⟨ev, h, -⟩ := h
  simp [unsolved, LayerAttr.empty, attr] at h

theorem yields_getAmplitudesAt (hs : SolveSpec E c mats (unsolved c.nh) A1 res) (i : ℤ) (z : ℝ) :
    Yields (Inv E c mats (unsolved c.nh) A1 res) (getAmplitudesAt E c i z)
    (fun ab _ => ∃ r M ab0, pyGet c.stack i = .ok r ∧ modesOf (mats r) (A1 r) = .ok M ∧ AmpV c mats A1 res i ab0 ∧
      translateAmplitudes M z ab0.1 ab0.2 = .ok ab) := by
  unfold getAmplitudesAt
  refine Yields.bind (yields_getAmplitudes' hs i) fun ab0 => ?_
  refine Yields.get_bind fun d hd => ?_
  refine Yields.bind (Q := fun M _ => ∃ r, pyGet c.stack i = .ok r ∧ modesOf (mats r) (A1 r) = .ok M)
    (Yields.lift _ fun M d1 h1 h2 => ?_) fun M => Yields.lift _ fun ab d1 h1 h2 => ?_
  · unfold layerModes at h1
    rw [bind_eq_ok] at h1
    obtain ⟨r, hr, hM⟩ := h1
    rw [hd.1.mats_eq] at hM
    rcases hd.1.attrs with e | e
    · rw [e] at hM
      exact absurd hM (modesOf_unsolved _ _ _)
    · rw [e] at hM
      exact ⟨r, hr, hM⟩
  · obtain ⟨r, hr, hM⟩ := h2
    exact ⟨r, M, ab0, hr, hM, hd.2, h1⟩

theorem flux_state (hs : SolveSpec E c mats A0 A1 res) (i : ℤ) (an bn : Idx c.nh → ℂ) (d : Dyn c.nh) (fb)
    (hd : Inv E c mats A0 A1 res d) (h : (getZPoyntingFlux E c i an bn d).1 = .ok fb) :
    Inv2 E c mats A0 A1 res (getZPoyntingFlux E c i an bn d).2 ∧ res = .ok () := by
  have : Yields (Inv E c mats A0 A1 res) (getZPoyntingFlux E c i an bn)
      (fun _ d => Inv2 E c mats A0 A1 res d ∧ res = .ok ()) := by
    unfold getZPoyntingFlux
    refine Yields.bind (yields_ensureSolved hs) fun _ => Yields.get_bind fun d hd => ?_
    refine Yields.bind (Q := fun _ d' => d' = d) (Yields.lift _ fun _ _ _ h => h) fun M => ?_
    exact Yields.lift _ fun _ _ _ h => h ▸ hd
  exact this d fb _ hd (Prod.ext h rfl)

/-- **C31**, for every simulation and all histories of calls before the three requests.  `_get_amplitudes(layer, z)`
returned `(an, bn)`, `get_z_poynting_flux(layer, an, bn)` returned `(forward, backward)` and
`get_field_fourier(layer, z)` returned the fields `F`.  Then in every order `forward + backward` is the normal
component `Re (conj(Ex) Hy - conj(Ey) Hx)` of these fields. -/
theorem C31_flux_of_the_fields {lats : ℕ → Lattice} {stack exc nh form}
    (hinit : simInit E lats mats stack exc nh form = .ok c) (hist1 hist2 hist3 : List (Call c.nh)) (i : ℤ) (z : ℝ)
    (an bn : Idx c.nh → ℂ) (f b : Fin c.nh → ℝ) (F : FieldF c.nh)
    (ha : (getAmplitudesAt E c i z (afterCalls E c hist1 (Dyn.fresh mats (unsolved c.nh)))).1 = .ok (an, bn))
    (hf : (getZPoyntingFlux E c i an bn (afterCalls E c hist2 (Dyn.fresh mats (unsolved c.nh)))).1 = .ok (f, b))
    (hF : (getFieldFourier E c (.idx i) [z] (afterCalls E c hist3 (Dyn.fresh mats (unsolved c.nh)))).1 = .ok [F])
    (j : Fin c.nh) : f j + b j = (star (F.ex j) * F.hy j - star (F.ey j) * F.hx j).re := by
  have hi := simInit_ok hinit
  have hst : c.stack = stack := hi.stack_eq
  have hnd : c.stack.Nodup := hst ▸ hi.nodup
  obtain ⟨A1, res, hs, -⟩ := solveSpec_of_noStale (E := E) (mats := mats) hnd
    (noStale_unsolved (c := c) mats c.stack)
  have h0 : Inv E c mats (unsolved c.nh) A1 res (Dyn.fresh mats (unsolved c.nh)) := inv_fresh _ (.inl rfl)
  obtain ⟨r, M, ab0, a1, a2, a3, a4⟩ := yields_getAmplitudesAt hs i z _ _ _ (h0.calls hs hist1) (Prod.ext ha rfl)
  obtain ⟨g1, rfl⟩ := flux_state hs i an bn _ _ (h0.calls hs hist2) hf
  obtain ⟨r', M', f1, f2, f3⟩ := C31_flux_is_poynting_flux i an bn _ f b hf
  obtain ⟨-, -, r2, i2, ab2, y3, y4, y5⟩ := yields_getFieldFourier hs _ _ _ _ _ (h0.calls hs hist3) (Prod.ext hF rfl)
  obtain rfl := Except.ok.inj (a1.symm.trans f1)
  have hg : getLayer c (.idx i) = .ok (r, i) := by
    unfold getLayer
    simp only [a1]
    rfl
  rw [hg] at y3
  obtain ⟨rfl, rfl⟩ := Prod.mk.inj (Except.ok.inj y3)
  rw [g1.mats_eq, g1.attrs_eq] at f2 f3
  obtain rfl := Except.ok.inj (a2.symm.trans f2)
  have hfix := hs.fix hnd rfl
  obtain ⟨k1, u1, amp1, v1, v2, v3⟩ := ampV_solution hfix a3
  obtain ⟨k2, u2, amp2, v4, v5, v6⟩ := ampV_solution hfix y4
  obtain rfl := Option.some.inj (u1.symm.trans u2)
  have hk1 : k1 < c.stack.length := by
    unfold pyIdx at u1
    split_ifs at u1 <;> simp at u1 <;> omega
  have hab : ab2 = ab0 := by
    rw [← v2, ← v5]; exact v3 amp2 v4 k1 hk1
  subst hab
  obtain ⟨F0, Fs0, q1, q2, q3⟩ := mapM_ok_cons.mp y5
  obtain ⟨rfl, -⟩ := List.cons.inj q3
  exact f3 _ _ z _ a4 q1 j

/-- In a solved simulation, a layer whose fields at `z` are returned has amplitudes at `z`. -/
theorem amplitudesAt_of_fields {i : ℤ} {z : ℝ} {d : Dyn c.nh} {F : FieldF c.nh} (hd : d.isSolved = true)
    (h : (getFieldFourier E c (.idx i) [z] d).1 = .ok [F]) : ∃ ab, (getAmplitudesAt E c i z d).1 = .ok ab := by
  unfold getFieldFourier at h
  unfold getAmplitudesAt layerModes
  simp only [PyM.bind_def, PyM.lift, PyM.get] at h ⊢
  rcases hr : pyGet c.stack i with e | r
  · unfold getLayer at h
    simp only [hr] at h
    simp [Bind.bind, Except.bind] at h
  have hg : getLayer c (.idx i) = .ok (r, i) := by
    unfold getLayer
    simp only [hr]
    rfl
  rw [hg] at h
  dsimp only at h
  have he : ensureSolved E c d = (.ok (), d) := by unfold ensureSolved; rw [if_pos hd]
  rw [he] at h
  dsimp only at h
  rcases ha : getAmplitudes E c i d with ⟨e | ab, d1⟩
  · rw [ha] at h; simp at h
  rw [ha] at h
  dsimp only at h ⊢
  obtain ⟨F0, Fs0, q1, q2, q3⟩ := mapM_ok_cons.mp h
  obtain ⟨M, t, m1, m2, -⟩ := fieldAt_spec q1
  rw [except_bind_ok, m1]
  dsimp only
  unfold translateAmplitudes
  rw [m2]
  exact ⟨_, rfl⟩

/-- C31 on the grating in air: at the depth 1/16 of the grating the three requests succeed. -/
example : ∃ (c : Static) (an bn : Idx c.nh → ℂ) (f b : Fin c.nh → ℝ) (F : FieldF c.nh) (hist : List (Call c.nh)),
    (getAmplitudesAt Examples.exE c 1 (1 / 16)
      (afterCalls Examples.exE c hist (Dyn.fresh Examples.slabMats (unsolved c.nh)))).1 = .ok (an, bn) ∧
    (getZPoyntingFlux Examples.exE c 1 an bn
      (afterCalls Examples.exE c [] (Dyn.fresh Examples.slabMats (unsolved c.nh)))).1 = .ok (f, b) ∧
    (getFieldFourier Examples.exE c (.idx 1) [1 / 16]
      (afterCalls Examples.exE c [.reset "S"] (Dyn.fresh Examples.slabMats (unsolved c.nh)))).1 = .ok [F] ∧
    ∀ j, f j + b j = (star (F.ex j) * F.hy j - star (F.ey j) * F.hx j).re := by
  obtain ⟨c, h1, h2, h3, h4, h5⟩ := Examples.slab_init
  have one : ∀ hist : List (Call c.nh), ∃ F, (getFieldFourier Examples.exE c (.idx 1) [1 / 16]
      (afterCalls Examples.exE c hist (Dyn.fresh Examples.slabMats (unsolved c.nh)))).1 = .ok [F] := by
    intro hist
    obtain ⟨Fs, hFs⟩ := (Examples.slab_runs h1 h2 h3 h5 hist).1 1 (by norm_num) [1 / 16]
    obtain ⟨r, i, d1, ab, -, q⟩ := getFieldFourier_run hFs
    have hFs' := hFs
    rw [q] at hFs'
    obtain ⟨F0, Fs0, q1, q2, q3⟩ := mapM_ok_cons.mp hFs'
    have : Fs0 = [] := by simpa [pure, Except.pure] using q2.symm
    rw [q3, this] at hFs
    exact ⟨F0, hFs⟩
  let hist : List (Call c.nh) := [.getFieldFourier (.idx 1) [1 / 16]]
  have hnd : c.stack.Nodup := by rw [h3]; decide
  obtain ⟨A1, res, hs, -⟩ := solveSpec_of_noStale (E := Examples.exE) (mats := Examples.slabMats) hnd
    (noStale_unsolved (c := c) Examples.slabMats c.stack)
  have h0 : Inv Examples.exE c Examples.slabMats (unsolved c.nh) A1 res (Dyn.fresh Examples.slabMats (unsolved c.nh)) :=
    inv_fresh _ (.inl rfl)
  obtain ⟨F0, hF0⟩ := one []
  have hsol := (yields_getFieldFourier hs _ _ _ _ _ (h0.calls hs []) (Prod.ext hF0 rfl)).1
  obtain ⟨F1, hF1⟩ := one hist
  obtain ⟨⟨an, bn⟩, ha⟩ := amplitudesAt_of_fields hsol.2 hF1
  obtain ⟨⟨f, b⟩, hf⟩ := (Examples.slab_runs h1 h2 h3 h5 []).2.1 1 an bn (by simp)
  obtain ⟨F, hF⟩ := one [.reset "S"]
  exact ⟨c, an, bn, f, b, F, hist, ha, hf, hF, C31_flux_of_the_fields h1 hist [] [.reset "S"] 1 (1 / 16) an bn f b F ha hf hF⟩

end Nannos
