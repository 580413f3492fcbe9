import Verif.Proofs.FieldEqs
import Verif.Examples.Slab

/-!
Properties C29-C31: retrieved fields.

Common hypotheses: the constructor returned the object `c` (`hinit`); the eigenvalue solver returns
eigenpairs (`hE`); copies are used as C36 requires (`hw`); the permeability is the default one (`hmu`).
`afterCalls E c hist (Dyn.fresh mats (unsolved c.nh))` is the object after an arbitrary history of calls.
-/

namespace Nannos

open Matrix Spec

variable {E : Ext} {lats : ℕ → Lattice} {mats : ℕ → LayerSpec} {stack : List ℕ} {exc : PlaneWave} {nh : ℤ}
  {form : String} {c : Static}

/-- **C30**. When `get_field_fourier(id, zs)` returns (after any history), it does so for all depths, and
the fields it returns, as functions of the depth, satisfy Maxwell's equations in the medium of the
layer (which exists and is unique). -/
theorem C30_fields_satisfy_maxwell (hinit : simInit E lats mats stack exc nh form = .ok c)
    (hE : EigContract E) (hw : WellPlaced mats stack) (hmu : ∀ r ∈ stack, (mats r).mu = 1)
    (hist : List (Call c.nh)) (id : LayerId) (zs : List ℝ) (hz : zs ≠ []) (Fs : List (FieldF c.nh))
    (h : (getFieldFourier E c id zs (afterCalls E c hist (Dyn.fresh mats (unsolved c.nh)))).1 = .ok Fs) :
    ∃ r i F, getLayer c id = .ok (r, i) ∧ (∃ P epsz, Medium E c mats r P epsz) ∧
      (∀ zs', (getFieldFourier E c id zs'
        (afterCalls E c hist (Dyn.fresh mats (unsolved c.nh)))).1 = .ok (zs'.map F)) ∧
      ∀ P epsz, Medium E c mats r P epsz → Maxwell c.omega c.kx c.ky P epsz F := by
  obtain ⟨A1, hA⟩ := fields_of_history hinit hE hw hmu
  obtain ⟨hfix, r, i, ab, h1, h2, ⟨P, e, h3, h4⟩, M, t, F, h5, h6, h7, h8, h9, h10⟩ := hA hist id zs Fs hz h
  refine ⟨r, i, F, h1, ⟨P, e, h3⟩, h9, fun P' e' h' => ?_⟩
  obtain ⟨rfl, rfl⟩ := Medium.unique h3 h'
  exact maxwell_of_spec h4 h5 h7 h8

/-- **C29**. The tangential fields, the normal magnetic field and the normal displacement retrieved at the
bottom of layer `k` (of thickness `t`) equal those retrieved at the top of layer `k + 1`, whatever was
called before each retrieval. -/
theorem C29_fields_are_continuous (hinit : simInit E lats mats stack exc nh form = .ok c)
    (hE : EigContract E) (hw : WellPlaced mats stack) (hmu : ∀ r ∈ stack, (mats r).mu = 1)
    (hist hist' : List (Call c.nh)) (k : ℕ) (r r' : ℕ) (hr : stack[k]? = some r)
    (hr' : stack[k + 1]? = some r') (t : ℝ) (ht : (mats r).thickness = some t) (F F' : FieldF c.nh)
    (h : (getFieldFourier E c (.idx k) [t]
      (afterCalls E c hist (Dyn.fresh mats (unsolved c.nh)))).1 = .ok [F])
    (h' : (getFieldFourier E c (.idx (k + 1 : ℕ)) [0]
      (afterCalls E c hist' (Dyn.fresh mats (unsolved c.nh)))).1 = .ok [F']) :
    F.ex = F'.ex ∧ F.ey = F'.ey ∧ F.hx = F'.hx ∧ F.hy = F'.hy ∧ F.hz = F'.hz ∧
    (∃ P e, Medium E c mats r P e) ∧ (∃ P e, Medium E c mats r' P e) ∧
    ∀ P e P' e', Medium E c mats r P e → Medium E c mats r' P' e' → e *ᵥ F.ez = e' *ᵥ F'.ez := by
  obtain ⟨A1, hA⟩ := fields_of_history hinit hE hw hmu
  obtain ⟨hfix, s, i, ab, h1, h2, ⟨P, e, h3, h4⟩, M, d, G, h5, h6, h7, h8, h9, h10⟩ :=
    hA hist _ _ _ (by simp) h
  obtain ⟨-, s', i', ab', h1', h2', ⟨P', e', h3', h4'⟩, M', d', G', h5', h6', h7', h8', h9', h10'⟩ :=
    hA hist' _ _ _ (by simp) h'
  have hst : c.stack = stack := (simInit_ok hinit).stack_eq
  rw [← hst] at hr hr'
  have hk : k < c.stack.length := (List.getElem?_eq_some_iff.mp hr).1
  have hk' : k + 1 < c.stack.length := (List.getElem?_eq_some_iff.mp hr').1
  have pk : ∀ j : ℕ, j < c.stack.length → pyIdx c.stack.length (j : ℤ) = some j := by
    intro j hj
    unfold pyIdx
    simp [hj]
  have gl : ∀ (j s : ℕ), c.stack[j]? = some s → getLayer c (.idx (j : ℤ)) = .ok (s, (j : ℤ)) := by
    intro j s hj
    unfold getLayer pyGet
    simp only [pk j (List.getElem?_eq_some_iff.mp hj).1, hj]
    rfl
  rw [gl k r hr] at h1
  obtain ⟨rfl, rfl⟩ := Prod.mk.inj (Except.ok.inj h1)
  rw [gl (k + 1) r' hr'] at h1'
  obtain ⟨rfl, rfl⟩ := Prod.mk.inj (Except.ok.inj h1')
  obtain ⟨k1, u1, amp, v1, v2, v3⟩ := ampV_solution hfix h2
  obtain ⟨k2, u2, amp', v1', v2', v3'⟩ := ampV_solution hfix h2'
  rw [pk k hk] at u1
  rw [pk (k + 1) hk'] at u2
  obtain rfl := Option.some.inj u1
  obtain rfl := Option.some.inj u2
  have hm : ∀ (j s : ℕ) (N : Modes (Idx c.nh)), c.stack[j]? = some s → modesOf (mats s) (A1 s) = .ok N →
      (stackModes c mats A1)[j]? = some N := by
    intro j s N hj hN
    have hs := hfix s (List.mem_of_getElem? hj)
    rw [hs.form.modesD] at hN
    unfold stackModes
    rw [List.getElem?_map, hj, ← Except.ok.inj hN]
    rfl
  have hmatch := v1.1 k M M' (Nat.zero_le _) (by rw [stackModes_length]; omega) (hm k r M hr h5)
    (hm (k + 1) r' M' hr' h5')
  rw [v2, ← v3 amp' v1' (k + 1) hk', v2'] at hmatch
  have hMz : M.z = t := by
    have : M.thickness = (mats r).thickness := by
      unfold modesOf at h5
      rw [bind_eq_ok] at h5
      obtain ⟨ev, -, h5⟩ := h5
      rw [bind_eq_ok] at h5
      obtain ⟨Q, -, h5⟩ := h5
      simp only [except_pure_eq_ok, Except.ok.injEq] at h5
      rw [← h5]
    simp [Modes.z, this, ht]
  unfold Match at hmatch
  rw [hMz] at hmatch
  have hF : F = G t := by simpa using h10
  have hF' : F' = G' 0 := by simpa using h10'
  have S1 := h8 t
  have S2 := h8' 0
  rw [← hF] at S1
  rw [← hF'] at S2
  have hx : F.hx = F'.hx := funext fun j => by rw [S1.hx, S2.hx, hmatch.2]
  have hy : F.hy = F'.hy := funext fun j => by rw [S1.hy, S2.hy, hmatch.2]
  have ex : F.ex = F'.ex := funext fun j => by rw [S1.ex, S2.ex, hmatch.1]
  have ey : F.ey = F'.ey := funext fun j => by rw [S1.ey, S2.ey, hmatch.1]
  have hz : F.hz = F'.hz := funext fun j => by rw [S1.hz, S2.hz, ex, ey]
  refine ⟨ex, ey, hx, hy, hz, ⟨P, e, h3⟩, ⟨P', e', h3'⟩, fun P2 e2 P2' e2' g g' => ?_⟩
  obtain ⟨rfl, rfl⟩ := Medium.unique h3 g
  obtain ⟨rfl, rfl⟩ := Medium.unique h3' g'
  rw [h4.normal _ _ S1.ez, h4'.normal _ _ S2.ez, hx, hy]

/-- **C31**. In any state: if `get_z_poynting_flux(layer, an, bn)` returns `(forward, backward)`, then for
every depth `z` and mode amplitudes whose translation to `z` is `(an, bn)`, the fields of the layer at `z`
have in every order the normal Poynting flux `Re (conj(Ex) Hy - conj(Ey) Hx) = forward + backward`. -/
theorem C31_flux_is_poynting_flux (i : ℤ) (an bn : Idx c.nh → ℂ) (d : Dyn c.nh) (f b : Fin c.nh → ℝ)
    (h : (getZPoyntingFlux E c i an bn d).1 = .ok (f, b)) :
    ∃ r M, pyGet c.stack i = .ok r ∧
      modesOf ((getZPoyntingFlux E c i an bn d).2.mats r) ((getZPoyntingFlux E c i an bn d).2.attrs r) = .ok M ∧
      ∀ ai bi z F, translateAmplitudes M z ai bi = .ok (an, bn) →
        fieldAt c ((getZPoyntingFlux E c i an bn d).2.mats r) ((getZPoyntingFlux E c i an bn d).2.attrs r)
          ai bi z = .ok F →
        ∀ j, f j + b j = (star (F.ex j) * F.hy j - star (F.ey j) * F.hx j).re := by
  unfold getZPoyntingFlux at h ⊢
  simp only [PyM.bind_def, PyM.lift, PyM.get] at h ⊢
  rcases he : ensureSolved E c d with ⟨e | u, d1⟩
  · rw [he] at h; simp at h
  rw [he] at h
  dsimp only at h ⊢
  rcases hl : layerModes c d1 i with e | M
  · rw [hl] at h; simp at h
  rw [hl] at h
  dsimp only at h ⊢
  unfold layerModes at hl
  rw [bind_eq_ok] at hl
  obtain ⟨r, hr, hM⟩ := hl
  refine ⟨r, M, hr, hM, fun ai bi z F ht hF j => ?_⟩
  obtain ⟨M', t, m1, m2, m3, hs⟩ := fieldAt_spec hF
  rw [hM] at m1
  cases m1
  unfold translateAmplitudes at ht
  rw [m2] at ht
  simp only [Except.ok.injEq, Prod.mk.injEq] at ht
  obtain ⟨rfl, rfl⟩ := ht
  have e1 := field_tanH M t m2 ai bi z
  have e2 := field_tanE M t m2 ai bi z (c.omega : ℂ)
  have eH : ∀ k, tanH M ai bi z k = (M.phi *ᵥ fun k => ai k * phasor M.q z k) k +
      (M.phi *ᵥ fun k => bi k * phasor M.q (t - z) k) k := by
    intro k; rw [← e1, mulVec_add]; rfl
  have eE : ∀ k, tanE M ai bi z k / c.omega =
      ((M.Q * M.phi * diagonal fun k => 1 / ((c.omega : ℂ) * M.q k)) *ᵥ fun k => ai k * phasor M.q z k) k -
      ((M.Q * M.phi * diagonal fun k => 1 / ((c.omega : ℂ) * M.q k)) *ᵥ
        fun k => bi k * phasor M.q (t - z) k) k := by
    intro k
    rw [← congrFun e2 k, ← Pi.sub_apply, ← mulVec_sub, ← mulVec_mulVec, ← mulVec_mulVec]
    congr 2
    congr 1
    funext l
    rw [mulVec_diagonal]
    simp only [Pi.sub_apply]
    ring
  unfold poyntingFlux at h
  split at h
  · simp at h
  simp only [Except.ok.injEq, Prod.mk.injEq] at h
  obtain ⟨rfl, rfl⟩ := h
  rw [hs.hx, hs.hy, hs.ex, hs.ey, eH, eH, eE, eE]
  generalize ((M.Q * M.phi * diagonal fun k => 1 / ((c.omega : ℂ) * M.q k)) *ᵥ
    fun k => ai k * phasor M.q z k) = Aa
  generalize ((M.Q * M.phi * diagonal fun k => 1 / ((c.omega : ℂ) * M.q k)) *ᵥ
    fun k => bi k * phasor M.q (t - z) k) = Ab
  generalize (M.phi *ᵥ fun k => ai k * phasor M.q z k) = pa
  generalize (M.phi *ᵥ fun k => bi k * phasor M.q (t - z) k) = pb
  simp only [Complex.star_def, Complex.add_re, Complex.sub_re, Complex.mul_re, Complex.conj_re,
    Complex.conj_im, Complex.ofReal_re, Complex.neg_re, Complex.add_im, Complex.sub_im,
    Complex.neg_im, Complex.mul_im, map_mul, map_sub, map_add, map_neg]
  norm_num
  ring

/-- The hypotheses of C30 are met by a grating in air: in its three layers, after any history. -/
theorem Examples.slab_retrieval (hist : ∀ c : Static, List (Call c.nh)) (k : ℕ) (hk : k < 3) :
    ∃ (c : Static) (F : ℝ → FieldF c.nh),
      simInit Examples.exE (fun _ => Examples.exLat) Examples.slabMats [0, 1, 2] Examples.exExc 1 "original" =
        .ok c ∧
      EigContract Examples.exE ∧ WellPlaced Examples.slabMats [0, 1, 2] ∧
      (∀ r ∈ [0, 1, 2], (Examples.slabMats r).mu = 1) ∧
      ∀ zs, (getFieldFourier Examples.exE c (.idx k) zs
        (afterCalls Examples.exE c (hist c) (Dyn.fresh Examples.slabMats (unsolved c.nh)))).1 = .ok (zs.map F) := by
  obtain ⟨c, h1, h2, h3, h4, h5⟩ := Examples.slab_init
  obtain ⟨Fs, hFs⟩ := (Examples.slab_runs h1 h2 h3 h5 (hist c)).1 k hk [0]
  obtain ⟨r, i, F, -, -, hF, -⟩ := C30_fields_satisfy_maxwell h1 Examples.exE_eig Examples.slab_placed
    (fun r _ => Examples.slab_mu r) (hist c) (.idx k) [0] (by simp) Fs hFs
  exact ⟨c, F, h1, Examples.exE_eig, Examples.slab_placed, fun r _ => Examples.slab_mu r, hF⟩

/-- C30 on the grating: the retrieval in the grating layer at three depths returns, and its fields satisfy
Maxwell's equations. -/
example : ∃ (c : Static) (Fs : List (FieldF c.nh)) (F : ℝ → FieldF c.nh),
    (getFieldFourier Examples.exE c (.idx 1) [0, 1 / 16, 1 / 8]
      (afterCalls Examples.exE c [.getSMatrix none] (Dyn.fresh Examples.slabMats (unsolved c.nh)))).1 = .ok Fs ∧
    Fs = [F 0, F (1 / 16), F (1 / 8)] ∧ ∃ P e, Maxwell c.omega c.kx c.ky P e F := by
  obtain ⟨c, F, h1, h2, h3, h4, h5⟩ := Examples.slab_retrieval (fun _ => [.getSMatrix none]) 1 (by norm_num)
  obtain ⟨r, i, F', -, ⟨P, e, h0⟩, h6, h7⟩ := C30_fields_satisfy_maxwell h1 h2 h3 h4 [.getSMatrix none] (.idx 1) [0]
    (by simp) _ (h5 [0])
  exact ⟨c, _, F', h6 _, rfl, P, e, h7 P e h0⟩

/-- C29 on the grating: the retrievals at the two sides of the interface grating/substrate succeed. -/
example : ∃ (c : Static) (F F' : FieldF c.nh),
    (getFieldFourier Examples.exE c (.idx (1 : ℕ)) [1 / 8]
      (afterCalls Examples.exE c [.solve] (Dyn.fresh Examples.slabMats (unsolved c.nh)))).1 = .ok [F] ∧
    (getFieldFourier Examples.exE c (.idx (1 + 1 : ℕ)) [0]
      (afterCalls Examples.exE c [.reset "all"] (Dyn.fresh Examples.slabMats (unsolved c.nh)))).1 = .ok [F'] ∧
    F.ex = F'.ex ∧ F.hy = F'.hy := by
  obtain ⟨c, F, h1, h2, h3, h4, h5⟩ := Examples.slab_retrieval (fun _ => [.solve]) 1 (by norm_num)
  obtain ⟨c', F', h1', -, -, -, h5'⟩ := Examples.slab_retrieval (fun _ => [.reset "all"]) 2 (by norm_num)
  obtain rfl : c = c' := Except.ok.inj (h1.symm.trans h1')
  obtain ⟨e1, -, -, e4, -⟩ := C29_fields_are_continuous h1 h2 h3 h4 [.solve] [.reset "all"] 1 1 2 rfl rfl (1 / 8)
    (by simp [Examples.slabMats, Examples.exLayer]) _ _ (h5 [1 / 8]) (h5' [0])
  exact ⟨c, _, _, h5 [1 / 8], h5' [0], e1, e4⟩

/-- C31: the flux in the grating is computed for all amplitudes. -/
example : ∃ c : Static, ∀ an bn : Idx c.nh → ℂ, ∃ f b, (getZPoyntingFlux Examples.exE c 1 an bn
    (afterCalls Examples.exE c [] (Dyn.fresh Examples.slabMats (unsolved c.nh)))).1 = .ok (f, b) := by
  obtain ⟨c, h1, h2, h3, h4, h5⟩ := Examples.slab_init
  refine ⟨c, fun an bn => ?_⟩
  obtain ⟨fb, h⟩ := (Examples.slab_runs h1 h2 h3 h5 []).2.1 1 an bn (by simp)
  exact ⟨fb.1, fb.2, h⟩

end Nannos
