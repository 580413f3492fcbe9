import Verif.Spec.Pixelated
import Verif.Proofs.GaugeSim

/-! Constant patterns, and the use of `SameMedia` on objects with a history (C19, C58). -/

namespace Nannos

open Matrix Spec

variable {E E' : Ext} {c : Static} {mats mats' : ℕ → LayerSpec}

theorem toep_const {u : PGrid} {v : ℂ} (hu : ∀ x y, u.g x y = v) {A} (h : c.toep u = .ok A)
    (hd : A.det ≠ 0) : A = v • 1 := by
  obtain ⟨Nx, Ny, g⟩ := u
  dsimp only at hu
  obtain rfl : g = fun _ _ => v := by funext x y; exact hu x y
  unfold Static.toep at h
  dsimp only at h
  ext i j
  obtain ⟨h1, h2⟩ := toep_pos h i
  haveI : NeZero Nx := ⟨h1⟩
  haveI : NeZero Ny := ⟨h2⟩
  obtain ⟨b, hA⟩ := toeplitz_ok h
  have hA' : ∀ i j, A i j = if (Nx : ℤ) ∣ (c.harmonics.get i).1 - (c.harmonics.get j).1 ∧
      (Ny : ℤ) ∣ (c.harmonics.get i).2 - (c.harmonics.get j).2 then v else 0 := by
    intro i j
    rw [hA, of_apply, coeff_const]
  by_cases hij : i = j
  · subst hij
    rw [hA']
    simp
  · rw [hA', if_neg, Matrix.smul_apply, one_apply_ne hij, smul_zero]
    rintro ⟨d1, d2⟩
    have b1 := b i j
    have b2 := b j i
    have e1 := Int.eq_zero_of_abs_lt_dvd d1 (by rw [abs_lt]; omega)
    have e2 := Int.eq_zero_of_abs_lt_dvd d2 (by rw [abs_lt]; omega)
    refine hd (det_zero_of_row_eq hij ?_)
    funext k
    rw [hA', hA', show (c.harmonics.get i).1 = (c.harmonics.get j).1 by omega,
      show (c.harmonics.get i).2 = (c.harmonics.get j).2 by omega]

theorem nu_const {u : PGrid} {v : ℂ} (hu : ∀ x y, u.g x y = v) {A}
    (h : nuHatInvIso c u = .ok A) : A = v • 1 := by
  unfold nuHatInvIso at h
  rw [bind_eq_ok] at h
  obtain ⟨nu, h1, h⟩ := h
  rw [bind_eq_ok] at h
  obtain ⟨B, h2, h⟩ := h
  rw [linInv_ok] at h
  unfold recipGrid at h1
  split at h1
  · simp at h1
  rename_i hne
  simp only [Except.ok.injEq] at h1
  subst h1
  have hB := toep_const (v := 1 / v) (fun x y => by dsimp only; rw [hu]) h2 h.1
  rw [h.2, hB]
  ext i j
  obtain ⟨p1, p2⟩ := toep_pos (u := fun x y => 1 / u.g x y) h2 i
  have hv : v ≠ 0 := by
    intro h0
    apply hne
    refine ⟨⟨0, Nat.pos_of_ne_zero p1⟩, ⟨0, Nat.pos_of_ne_zero p2⟩, ?_⟩
    rw [hu, h0]
  rw [smul_one_inv (by simpa using hv)]
  simp

theorem getPeps_diff {P t X} (h : getPeps c P P t = .ok X) : X = P := by
  unfold getPeps at h
  simp only [bind_eq_ok, except_pure_eq_ok, Except.ok.injEq] at h
  obtain ⟨a, -, b, -, d, -, e, -, h⟩ := h
  rw [← h, sub_self, Matrix.zero_mul, sub_zero]

/-- The operators of a constant pattern, in every formulation. -/
theorem buildPure_const {L : LayerSpec} (hmu : L.mu = 1) (ha : L.isAnisotropic = false) {v : ℂ}
    (hv : ∀ idx, List.Forall₂ (· < ·) idx L.epsilon.shape → L.epsilon.data idx = v)
    {M p Q} (h : buildPure E c L = .ok (.patterned M p Q)) :
    p.Peps = v • 1 ∧ p.epsHat = v • 1 := by
  obtain ⟨-, hd, -, -, -, -, -, zz, para, eph, Ht, n, h1, h2, h3, h4, -, h5⟩ := buildPure_patterned_ok hmu h
  rw [ha] at h1
  simp only [Bool.false_eq_true, if_false] at h1
  obtain ⟨s1, s2⟩ := toGrid_ok h1
  have hz : ∀ x y, zz.g x y = v := by
    intro x y
    rw [s2]
    exact hv _ (by rw [s1]; exact forall2_pixel x y)
  have he := toep_const hz h2 hd
  refine ⟨?_, he⟩
  unfold paraOf at h3
  rw [if_neg (by rw [ha]; simp)] at h3
  simp only [except_pure_eq_ok, Except.ok.injEq] at h3
  subst h3
  unfold epsParaHatOf at h4
  simp only [except_pure_eq_ok, Except.ok.injEq] at h4
  subst h4
  rw [he] at h5
  unfold pepsOf at h5
  dsimp only at h5
  split at h5
  · simp only [except_pure_eq_ok, Except.ok.injEq] at h5
    rw [← h5, diag2_smul_one]
  split at h5
  · split at h5
    · rw [bind_eq_ok] at h5
      obtain ⟨N, h6, h5⟩ := h5
      simp only [except_pure_eq_ok, Except.ok.injEq] at h5
      rw [← h5, nu_const hz h6, ← diag2_smul_one]
      rfl
    · simp only [bind_eq_ok, except_pure_eq_ok, Except.ok.injEq] at h5
      obtain ⟨t, -, B, ⟨N, h6, rfl⟩, h5⟩ := h5
      rw [nu_const hz h6] at h5
      rw [getPeps_diff h5, diag2_smul_one]
  split at h5
  · simp only [bind_eq_ok, except_pure_eq_ok, Except.ok.injEq] at h5
    obtain ⟨t, -, J, -, B, ⟨N, h6, rfl⟩, h5⟩ := h5
    rw [nu_const hz h6] at h5
    rw [getPeps_diff h5, diag2_smul_one]
  · simp only [bind_eq_ok, except_pure_eq_ok, Except.ok.injEq] at h5
    obtain ⟨t, -, B, ⟨N, h6, rfl⟩, h5⟩ := h5
    rw [nu_const hz h6] at h5
    rw [getPeps_diff h5, diag2_smul_one]

/-- Everything a successful computation of efficiencies on an object with a history establishes. -/
theorem efficiencies_of_history {lats stack exc nh form}
    (hinit : simInit E lats mats stack exc nh form = .ok c) :
    ∃ A1, ∀ (hist : List (Call c.nh)) RT,
      (efficienciesByOrder E c (afterCalls E c hist (Dyn.fresh mats (unsolved c.nh)))).1 = .ok RT →
      (∀ r ∈ c.stack, LayerFix E c mats A1 r) ∧ EffV c mats A1 (.ok ()) RT := by
  have hi := simInit_ok hinit
  have hst : c.stack = stack := hi.stack_eq
  have hnd : c.stack.Nodup := hst ▸ hi.nodup
  obtain ⟨A1, res, hs, -⟩ := solveSpec_of_noStale (E := E) (mats := mats) hnd
    (noStale_unsolved (c := c) mats c.stack)
  refine ⟨A1, fun hist RT h => ?_⟩
  have h0 : Inv E c mats (unsolved c.nh) A1 res (Dyn.fresh mats (unsolved c.nh)) := inv_fresh _ (.inl rfl)
  have h1 := h0.calls hs hist
  have hv := yields_efficiencies hs _ RT _ h1 (Prod.ext h rfl)
  have hres := hv.1
  have hfix := hs.fix hnd hres
  subst hres
  exact ⟨hfix, hv⟩

theorem diffraction_eq {o : Bool} {d : Dyn c.nh} {X}
    (h : (diffractionEfficiencies E c o d).1 = .ok X) :
    ∃ RT, (efficienciesByOrder E c d).1 = .ok RT ∧
      X = if o then .byOrder RT.1 RT.2 else .total (∑ i, RT.1 i) (∑ i, RT.2 i) := by
  unfold diffractionEfficiencies at h
  rw [PyM.bind_def] at h
  rcases he : efficienciesByOrder E c d with ⟨e | ⟨R', T'⟩, d'⟩
  · rw [he] at h; simp at h
  · rw [he] at h
    refine ⟨(R', T'), rfl, ?_⟩
    cases o <;> simpa [PyM.pure_def, eq_comm] using h

theorem getLayer_pyGet {id : LayerId} {r : ℕ} {i : ℤ} (h : getLayer c id = .ok (r, i)) :
    pyGet c.stack i = .ok r := by
  have hn : ∀ s : String, (match c.layerNames.findIdx? (· = s) with
      | none => (.error .valueError : Except PyErr (ℕ × ℤ))
      | some i => match c.stack[i]? with
        | some r => .ok (r, (i : ℤ))
        | none => .error .indexError) = .ok (r, i) → pyGet c.stack i = .ok r := by
    intro s hs
    split at hs
    · simp at hs
    · split at hs
      · rename_i k _ r' hr'
        simp only [Except.ok.injEq, Prod.mk.injEq] at hs
        obtain ⟨rfl, rfl⟩ := hs
        exact (pyGet_nat _ _ _).mpr hr'
      · simp at hs
  cases id with
  | name s => exact hn s h
  | named s => exact hn s h
  | idx j =>
    unfold getLayer at h
    dsimp only at h
    rw [bind_eq_ok] at h
    obtain ⟨r', h1, h2⟩ := h
    simp only [except_pure_eq_ok, Except.ok.injEq, Prod.mk.injEq] at h2
    obtain ⟨rfl, rfl⟩ := h2
    exact h1
  | other => simp [getLayer] at h

/-- Simulations of structures with the same media return the same results. -/
theorem SameMedia.results {lats stack exc nh form} (h : SameMedia E E' c mats mats')
    (hinit : simInit E lats mats stack exc nh form = .ok c)
    (hinit' : simInit E' lats mats' stack exc nh form = .ok c) (hom : c.omega ≠ 0)
    (hist hist' : List (Call c.nh)) :
    (∀ orders X X',
      (diffractionEfficiencies E c orders (afterCalls E c hist (Dyn.fresh mats (unsolved c.nh)))).1 = .ok X →
      (diffractionEfficiencies E' c orders (afterCalls E' c hist' (Dyn.fresh mats' (unsolved c.nh)))).1 = .ok X' →
      X = X') ∧
    ∀ id zs Fs Fs',
      (getFieldFourier E c id zs (afterCalls E c hist (Dyn.fresh mats (unsolved c.nh)))).1 = .ok Fs →
      (getFieldFourier E' c id zs (afterCalls E' c hist' (Dyn.fresh mats' (unsolved c.nh)))).1 = .ok Fs' →
      Fs = Fs' := by
  have hst : c.stack = stack := (simInit_ok hinit).stack_eq
  constructor
  · intro o X X' hX hX'
    obtain ⟨RT, e1, rfl⟩ := diffraction_eq hX
    obtain ⟨RT', e1', rfl⟩ := diffraction_eq hX'
    obtain ⟨A, hA⟩ := efficiencies_of_history hinit
    obtain ⟨A', hA'⟩ := efficiencies_of_history hinit'
    obtain ⟨f, v⟩ := hA _ _ e1
    obtain ⟨f', v'⟩ := hA' _ _ e1'
    rw [h.efficiencies hom f f' v v']
  · intro id zs Fs Fs' hF hF'
    rcases zs with _ | ⟨z0, zs⟩
    · obtain ⟨r, i, d1, ab, -, z2⟩ := getFieldFourier_run hF
      obtain ⟨r', i', d1', ab', -, z2'⟩ := getFieldFourier_run hF'
      rw [z2] at hF
      rw [z2'] at hF'
      rw [← Except.ok.inj hF, ← Except.ok.inj hF']
    · obtain ⟨A, hA⟩ := fields_of_history hinit h.eigc (hst ▸ h.placed) (hst ▸ h.mu)
      obtain ⟨A', hA'⟩ := fields_of_history hinit' h.eigc' (hst ▸ h.placed') (hst ▸ h.mu')
      obtain ⟨f, r, i, ab, g1, g2, -, M, t, F, g3, g4, g5, g6, g7, rfl⟩ := hA _ _ _ _ (by simp) hF
      obtain ⟨f', r', i', ab', g1', g2', -, M', t', F', g3', g4', g5', g6', g7', rfl⟩ := hA' _ _ _ _ (by simp) hF'
      obtain ⟨rfl, rfl⟩ := Prod.mk.inj (Except.ok.inj (g1.symm.trans g1'))
      have hr : pyGet c.stack i = .ok r := getLayer_pyGet g1
      refine List.map_congr_left fun z _ => ?_
      exact h.fields f f' hr g2 g2' g3 g3' (g6 z) (g6' z)

end Nannos

namespace Nannos

open Matrix Spec

variable {E E' : Ext} {c : Static} {mats mats' : ℕ → LayerSpec}

theorem Medium.congr_ext (h : ∀ L, buildPure E' c L = buildPure E c L) {r P e}
    (hm : Medium E' c mats r P e) : Medium E c mats r P e := by
  induction hm with
  | uniform r hc hu ha => exact .uniform r hc hu ha
  | patterned r M p Q hc hb => exact .patterned r M p Q hc (by rw [← h]; exact hb)
  | copy r P e hc ho ih => exact .copy r P e hc ih

theorem omega_ne_zero {lats stack exc nh form} (hinit : simInit E lats mats stack exc nh form = .ok c)
    {wl ang} (hp : planeWave wl ang = .ok exc) : c.omega ≠ 0 := by
  have h1 := (simInit_ok hinit).omega_eq
  obtain ⟨h2, h3, -⟩ := planeWave_ok hp
  rw [h1, h3]
  have := Real.pi_ne_zero
  positivity

theorem pixelated_shape {Nx Ny : ℕ} {L : LayerSpec} : (pixelated Nx Ny L).epsilon.shape = [Nx, Ny] := rfl

theorem pixelated_kind {Nx Ny : ℕ} (h : ¬ (Nx = 3 ∧ Ny = 3)) (L : LayerSpec) :
    (pixelated Nx Ny L).isUniform = false ∧ (pixelated Nx Ny L).isAnisotropic = false := by
  unfold LayerSpec.isUniform LayerSpec.isAnisotropic
  rw [pixelated_shape]
  simp [isUniform, isAnisotropic, h]

theorem simInit_congr {lats stack exc nh form} (hn : ∀ r ∈ stack, (mats' r).name = (mats r).name)
    (hl : ∀ r ∈ stack, (mats' r).lattice = (mats r).lattice)
    (h0 : ∀ r, stack.head? = some r → mats' r = mats r)
    (hnh : effectiveNh nh (stack.all fun r => (mats' r).isUniform) =
      effectiveNh nh (stack.all fun r => (mats r).isUniform)) :
    simInit E lats mats' stack exc nh form = simInit E lats mats stack exc nh form := by
  have e1 : (stack.map fun r => (mats' r).name) = stack.map fun r => (mats r).name :=
    List.map_congr_left hn
  unfold simInit
  dsimp only
  rw [e1]
  rcases stack with _ | ⟨r0, tl⟩
  · rfl
  have e0 := h0 r0 rfl
  have e2 : ((r0 :: tl).all fun r => decide ((mats' r).lattice = (mats' r0).lattice)) =
      (r0 :: tl).all fun r => decide ((mats r).lattice = (mats r0).lattice) := by
    rw [Bool.eq_iff_iff, List.all_eq_true, List.all_eq_true]
    refine forall₂_congr fun r hr => ?_
    rw [hl r hr, e0]
  dsimp only
  rw [e2, hnh, e0]

/-- The two structures of C19 have the same media. -/
theorem PixelatedSome.sameMedia {lats stack exc nh form} (h : PixelatedSome mats mats' stack)
    (hinit : simInit E lats mats stack exc nh form = .ok c) (hE : EigContract E) (hw : WellPlaced mats stack)
    (hmu : ∀ r ∈ stack, (mats r).mu = 1) (hhead : ∀ r, stack.head? = some r → mats' r = mats r)
    (hlast : ∀ rN, stack.getLast? = some rN → mats' rN = mats rN ∨ (0 ≤ (mats rN).epsilon.value.im ∧
      ∀ r0, stack.head? = some r0 → ∃ e : ℝ, 0 < e ∧ (mats r0).epsilon.value = e)) :
    SameMedia E E c mats mats' := by
  have hi := simInit_ok hinit
  have hst : c.stack = stack := hi.stack_eq
  have keep : ∀ r ∈ stack, (mats r).isUniform = false → mats' r = mats r := by
    intro r hr hu
    rcases h r hr with h1 | ⟨h1, -⟩
    · exact h1
    · rw [hu] at h1; simp at h1
  have cp : ∀ r ∈ stack, (mats' r).iscopy = (mats r).iscopy ∧ (mats' r).original = (mats r).original ∧
      (mats' r).mu = (mats r).mu ∧ (mats' r).thickness = (mats r).thickness := by
    intro r hr
    rcases h r hr with h1 | ⟨-, -, -, Nx, Ny, -, h1⟩ <;> rw [h1] <;> exact ⟨rfl, rfl, rfl, rfl⟩
  have horig : ∀ (k r : ℕ), stack[k]? = some r → (mats r).iscopy = true →
      mats' r = mats r ∧ mats' (mats r).original = mats (mats r).original ∧ (mats r).original ∈ stack := by
    intro k r hr hc
    obtain ⟨⟨j, hj, hj'⟩, h2, h3⟩ := hw k r hr hc
    have hm := List.mem_of_getElem? hj'
    refine ⟨keep r (List.mem_of_getElem? hr) h2, keep _ hm ?_, hm⟩
    unfold LayerSpec.isUniform at h2 ⊢
    rw [← h3]; exact h2
  have hw' : WellPlaced mats' stack := by
    intro k r hr hc
    have hrm := List.mem_of_getElem? hr
    rw [(cp r hrm).1] at hc
    obtain ⟨e1, e2, -⟩ := horig k r hr hc
    rw [e1, e2]
    exact hw k r hr hc
  have hmed : ∀ {r P e}, Medium E c mats r P e → r ∈ stack → ∀ P' e', Medium E c mats' r P' e' →
      P = P' ∧ e = e' := by
    intro r P e hm
    induction hm with
    | uniform r hc hu ha =>
      intro hr P' e' hm'
      rcases h r hr with h1 | ⟨-, -, -, Nx, Ny, h3, h1⟩
      · cases hm' with
        | uniform _ => rw [h1]; exact ⟨rfl, rfl⟩
        | patterned _ M p Q _ hb => rw [← h1, buildPure_patterned hb] at hu; simp at hu
        | copy _ _ _ hc' => rw [h1, hc] at hc'; simp at hc'
      · obtain ⟨k1, k2⟩ := pixelated_kind h3 (mats r)
        cases hm' with
        | uniform _ _ hu' => rw [h1, k1] at hu'; simp at hu'
        | patterned _ M p Q _ hb =>
          have hmu' : (mats' r).mu = 1 := by rw [(cp r hr).2.2.1]; exact hmu r hr
          have := buildPure_const (v := (mats r).epsilon.value) hmu' (by rw [h1]; exact k2) (by
            intro idx hidx
            rw [h1] at hidx ⊢
            simp only [pixelated, NdArr.ofGrid] at hidx ⊢
            cases hidx with
            | cons a hidx =>
              cases hidx with
              | cons b hidx =>
                cases hidx
                simp [a, b]) hb
          exact ⟨this.1.symm, this.2.symm⟩
        | copy _ _ _ hc' => rw [(cp r hr).1, hc] at hc'; simp at hc'
    | patterned r M p Q hc hb =>
      intro hr P' e' hm'
      have h1 := keep r hr (buildPure_patterned hb)
      cases hm' with
      | uniform _ _ hu => rw [h1, buildPure_patterned hb] at hu; simp at hu
      | patterned _ M p Q _ hb' =>
        rw [h1, hb] at hb'
        cases hb'
        exact ⟨rfl, rfl⟩
      | copy _ _ _ hc' => rw [h1, hc] at hc'; simp at hc'
    | copy r P e hc ho ih =>
      intro hr P' e' hm'
      obtain ⟨k, hk⟩ := List.getElem?_of_mem hr
      obtain ⟨h1, -, h3⟩ := horig k r hk hc
      cases hm' with
      | uniform _ hc' => rw [h1, hc] at hc'; simp at hc'
      | patterned _ M p Q hc' => rw [h1, hc] at hc'; simp at hc'
      | copy _ _ _ _ ho' => rw [h1] at ho'; exact ih h3 _ _ ho'
  refine ⟨hst ▸ hmu, ?_, hE, hE, hst ▸ hw, hst ▸ hw', ?_, ?_, ?_, ?_⟩
  · intro r hr
    rw [hst] at hr
    rw [(cp r hr).2.2.1]; exact hmu r hr
  · intro r hr
    rw [hst] at hr
    exact (cp r hr).2.2.2.symm
  · intro r hr P e P' e' m1 m2
    exact hmed m1 (hst ▸ hr) P' e' m2
  · intro r hr
    rw [hst] at hr
    exact ⟨(hhead r hr).symm, (hi.sup r hr).1⟩
  · intro rN hrN
    rw [hst] at hrN
    rcases h rN (List.mem_of_mem_getLast? hrN) with h1 | ⟨hu, -⟩
    · left; rw [h1]
    rcases hlast rN hrN with h1 | ⟨h1, h2⟩
    · left; rw [h1]
    · right
      refine ⟨.inl ⟨h1, hu⟩, ?_⟩
      obtain ⟨r0, hr0⟩ : ∃ r0, stack.head? = some r0 := by
        cases hs : stack with
        | nil => exact absurd hs hi.ne
        | cons a l => exact ⟨a, rfl⟩
      obtain ⟨e, he, hv⟩ := h2 r0 hr0
      obtain ⟨-, -, -, -, hk0⟩ := hi.sup r0 hr0
      rw [hmu r0 (List.mem_of_mem_head? hr0), mul_one, hv, csqrt_ofReal he.le] at hk0
      obtain ⟨g, -, hkx, hky⟩ := hi.recip
      intro i
      rw [hkx, hky, hk0]
      simp [kxOf, kyOf, k0para]

end Nannos
