import Verif.Props.Thick

/-! **C118**, absorbing stacks: the results of the cut stack and the matrix of the part below need not be assumed. -/

namespace Nannos

open Matrix Spec Filter Topology

section
variable {E : Ext} {c : Static} {mats : ℕ → LayerSpec} {lats : ℕ → Lattice} {exc : PlaneWave} {nh : ℤ} {form : String}

theorem solveAll_restacked (st : List ℕ) (nm : List String) (rs : List ℕ) :
    (solveAll E { c with stack := st, layerNames := nm } rs : PyM (Dyn c.nh) Unit) = solveAll E c rs := by
  induction rs with
  | nil => rfl
  | cons r rs ih =>
    change ((solveLayer E { c with stack := st, layerNames := nm } r >>= fun _ =>
      solveAll E { c with stack := st, layerNames := nm } rs) : PyM (Dyn c.nh) Unit) = (solveLayer E c r >>= fun _ => solveAll E c rs)
    refine congrArg₂ (fun x y => (x >>= fun _ => y : PyM (Dyn c.nh) Unit)) ?_ ih
    funext d
    refine (solveLayer_eq (c := { c with stack := st, layerNames := nm }) r d).trans (Eq.trans ?_ (solveLayer_eq (c := c) r d).symm)
    rw [stepOut_restack]

theorem solveAll_upper (ra rb : List ℕ) : ∀ d : Dyn c.nh, (solveAll E c (ra ++ rb) d).1 = .ok () →
    (solveAll E c ra d).1 = .ok () ∧ solveAll E c (ra ++ rb) d = solveAll E c rb (solveAll E c ra d).2 := by
  induction ra with
  | nil => intro d _; exact ⟨rfl, rfl⟩
  | cons r ra ih =>
    intro d h
    rw [List.cons_append, solveAll_cons] at h ⊢
    rw [solveAll_cons]
    rcases hl : solveLayer E c r d with ⟨e | u, d'⟩
    · rw [hl] at h; simp at h
    · rw [hl] at h
      exact ih d' h

/-- **C118** for absorbing stacks. A wave is incident from a lossless superstrate, all the layers inside absorb at every point, and
the homogeneous layer `z` gets thick: transmission tends to zero, and reflection to that of the stack cut inside the layer. -/
theorem C118_absorbing_stack {pre post : List ℕ} {z : ℕ} {names : List String} {wl : ℝ} {ang : ℝ × ℝ × ℝ} (hpre : pre ≠ []) (hpost : post ≠ [])
    (hinit : simInit E lats mats (pre ++ z :: post) exc nh form = .ok c)
    (hinit' : simInit E lats mats (pre ++ [z]) exc nh form = .ok { c with stack := pre ++ [z], layerNames := names })
    (hcp : ∀ r ∈ pre, (mats r).iscopy = false) (hu : Homogeneous (mats z)) {d0 : ℝ} (hd : (mats z).thickness = some d0)
    (hE : EigContract E) (hw : WellPlaced mats (pre ++ z :: post)) (hmu : ∀ r ∈ pre ++ z :: post, (mats r).mu = 1)
    (hp : planeWave wl ang = .ok exc) (hwl : 0 < wl) (hcos : 0 < Real.cos exc.theta)
    (h00 : ((0 : ℤ), (0 : ℤ)) ∈ c.harmonics)
    (hform : form = "original" ∨ c.lattice.is1D = true)
    {e : ℝ} (hpos : 0 < e)
    (hsup : ∀ r0, (pre ++ z :: post).head? = some r0 → (mats r0).epsilon.value = (e : ℂ))
    (hgraz : ∀ i : Fin c.nh, (e : ℂ) * (c.omega : ℂ) ^ 2 ≠ c.kx i ^ 2 + c.ky i ^ 2)
    (hin : ∀ k r, 0 < k → k + 1 < (pre ++ z :: post).length → (pre ++ z :: post)[k]? = some r → Absorbing (mats r) ∧
      ∀ t, (mats r).thickness = some t → 0 ≤ t)
    (hlast : ∀ r, (pre ++ z :: post).getLast? = some r → Absorbing (mats r) ∨ (Homogeneous (mats r) ∧
      (∀ i : Fin c.nh, (mats r).epsilon.value * (c.omega : ℂ) ^ 2 ≠ c.kx i ^ 2 + c.ky i ^ 2) ∧
      ∃ k s t, 0 < k ∧ k + 1 < (pre ++ z :: post).length ∧ (pre ++ z :: post)[k]? = some s ∧ (mats s).thickness = some t ∧ 0 < t))
    {d1 : Dyn c.nh} (hsolve : solve E c (Dyn.fresh mats (unsolved c.nh)) = (.ok (), d1))
    (hdet : ∀ r ∈ pre ++ z :: post, ∀ ev, (d1.attrs r).eig = some ev → ev.2.det ≠ 0)
    (hist : ℝ → List (Call c.nh)) :
    ∃ (R0 T0 : Fin c.nh → ℝ) (R T : ℝ → Fin c.nh → ℝ),
      (efficienciesByOrder E { c with stack := pre ++ [z], layerNames := names } (Dyn.fresh mats (unsolved c.nh))).1 = .ok (R0, T0) ∧
      (∀ᶠ d in atTop, (efficienciesByOrder E c (afterCalls E c (hist d)
        (Dyn.fresh (Function.update mats z { mats z with thickness := some d }) (unsolved c.nh)))).1 = .ok (R d, T d)) ∧
      ∀ i, Tendsto (fun d => R d i) atTop (𝓝 (R0 i)) ∧ Tendsto (fun d => T d i) atTop (𝓝 0) := by
  have hi := simInit_ok hinit
  have hst : c.stack = pre ++ z :: post := hi.stack_eq
  have hnd : c.stack.Nodup := hst ▸ hi.nodup
  have hpl : 0 < pre.length := List.length_pos_iff.mpr hpre
  have hql : 0 < post.length := List.length_pos_iff.mpr hpost
  have hzk : (pre ++ z :: post)[pre.length]? = some z := by simp
  have hzm : z ∈ pre ++ z :: post := by simp
  obtain ⟨r0, tl, rfl⟩ := List.exists_cons_of_ne_nil hpre
  have hza : Absorbing (mats z) := (hin _ z hpl (by simp; omega) hzk).1
  -- the matrix of the part below
  obtain ⟨Fs, hFs⟩ := (C85_absorbing_results_defined hinit hE hw hmu hp hwl hcos h00 (hform.imp id .inl) hpos (by simp) hsup hgraz hin
    hlast hsolve hdet []).2 (.idx ((r0 :: tl).length : ℕ)) z ((r0 :: tl).length : ℕ) (by
      unfold getLayer
      rw [hst]
      simp only [(pyGet_nat _ _ _).mpr hzk]
      rfl) (.inl (Int.natCast_nonneg _)) d0 hd [0]
  obtain ⟨A, res, sp, -⟩ := solveSpec_of_noStale (E := E) (mats := mats) hnd (noStale_unsolved (c := c) mats c.stack)
  have hinv : Inv E c mats (unsolved c.nh) A res (afterCalls E c [] (Dyn.fresh mats (unsolved c.nh))) :=
    Inv.calls sp [] (inv_fresh _ (.inl rfl))
  obtain ⟨-, -, r, j, ab, hg, hab, -⟩ := yields_getFieldFourier sp _ [0] _ Fs _ hinv (Prod.ext hFs rfl)
  have hj : j = ((r0 :: tl).length : ℕ) := by
    unfold getLayer at hg
    rw [hst] at hg
    simp only [(pyGet_nat _ _ _).mpr hzk] at hg
    exact (Prod.mk.inj (Except.ok.inj hg)).2.symm
  subst hj
  obtain ⟨B, hB⟩ : ∃ B, (getS E c (some (((r0 :: tl).length : ℤ), ((r0 :: tl ++ z :: post : List ℕ).length : ℤ) - 1))
      (afterCalls E c [] (Dyn.fresh mats (unsolved c.nh)))).1 = .ok B := by
    obtain ⟨-, ⟨h0, -⟩ | ⟨-, h0, -⟩ | ⟨-, -, -, S, P, -, hP, -⟩⟩ := hab
    · omega
    · rcases h0 with h0 | h0
      · rw [hst, List.length_append, List.length_cons (a := z)] at h0
        push_cast at h0
        omega
      · omega
    · refine ⟨P, ?_⟩
      rw [(det_getS' sp _ _ hinv).1]
      rw [hst] at hP
      exact hP
  -- the cut stack is solved
  have hall : (solveAll E c ((r0 :: tl ++ [z]) ++ post) (Dyn.fresh mats (unsolved c.nh))).1 = .ok () ∧
      d1.attrs = (solveAll E c ((r0 :: tl ++ [z]) ++ post) (Dyn.fresh mats (unsolved c.nh))).2.attrs := by
    rw [show (r0 :: tl ++ [z]) ++ post = c.stack by rw [hst]; simp]
    unfold solve at hsolve
    rcases hr : solveAll E c c.stack (Dyn.fresh mats (unsolved c.nh)) with ⟨e | u, d'⟩
    · rw [PyM.bind_error hr] at hsolve
      simp at hsolve
    · rw [PyM.bind_ok hr] at hsolve
      simp only [PyM.modify, Prod.mk.injEq, true_and] at hsolve
      exact ⟨rfl, by rw [← hsolve]⟩
  obtain ⟨hok, happ⟩ := solveAll_upper (r0 :: tl ++ [z]) post _ hall.1
  obtain ⟨A', hA', hfr⟩ := solveAll_frame (E := E) post (solveAll E c (r0 :: tl ++ [z]) (Dyn.fresh mats (unsolved c.nh))).2
  obtain ⟨d2, hs2, hd2⟩ : ∃ d2 : Dyn c.nh, solve E { c with stack := r0 :: tl ++ [z], layerNames := names } (Dyn.fresh mats (unsolved c.nh)) =
      (.ok (), d2) ∧ d2.attrs = (solveAll E c (r0 :: tl ++ [z]) (Dyn.fresh mats (unsolved c.nh))).2.attrs := by
    unfold solve
    dsimp only
    rw [solveAll_restacked, PyM.bind_ok (Prod.ext_iff.mpr ⟨hok, rfl⟩)]
    exact ⟨_, rfl, rfl⟩
  have hnd' : ((r0 :: tl ++ [z]) ++ post).Nodup := by
    rw [show (r0 :: tl ++ [z]) ++ post = c.stack by rw [hst]; simp]
    exact hnd
  have hsub : ∀ r ∈ r0 :: tl ++ [z], r ∈ r0 :: tl ++ z :: post := by
    intro r hr
    simp only [List.mem_append, List.mem_cons, List.not_mem_nil, or_false] at hr ⊢
    tauto
  have hget : ∀ k r : ℕ, (r0 :: tl ++ [z])[k]? = some r → (r0 :: tl ++ z :: post)[k]? = some r := by
    intro k r hk
    rw [show r0 :: tl ++ z :: post = (r0 :: tl ++ [z]) ++ post by simp]
    rw [List.getElem?_append_left (List.getElem?_eq_some_iff.mp hk).1]
    exact hk
  have hdet' : ∀ r ∈ r0 :: tl ++ [z], ∀ ev, (d2.attrs r).eig = some ev → ev.2.det ≠ 0 := by
    intro r hr ev he
    refine hdet r (hsub r hr) ev ?_
    rw [hall.2, happ, hA']
    dsimp only
    rw [hfr r fun hm => (List.disjoint_of_nodup_append hnd') hr hm, ← hd2]
    exact he
  obtain ⟨⟨⟨R0, T0⟩, hRT⟩, -⟩ := absorbing_succeeds hinit' hE (fun k r hk hcopy => by
      have hk' := hget k r hk
      obtain ⟨⟨j, hj, hj'⟩, h2⟩ := hw k r hk' hcopy
      refine ⟨⟨j, hj, ?_⟩, h2⟩
      have hkl := (List.getElem?_eq_some_iff.mp hk).1
      rw [show r0 :: tl ++ z :: post = (r0 :: tl ++ [z]) ++ post by simp, List.getElem?_append_left (by omega)] at hj'
      exact hj') (fun r hr => hmu r (hsub r hr)) hp hwl hcos h00 (hform.imp id .inl) hpos (by simp)
    (fun r hr => hsup r (by simpa using hr)) hgraz
    (fun k r hk hk' hr => hin k r hk (by simp at hk' ⊢; omega) (hget k r hr))
    (fun r hr => by
      rw [List.getLast?_concat] at hr
      obtain rfl := Option.some.inj hr
      exact .inl hza) hs2 hdet' []
  have hg := good_sup hi (by rw [(planeWave_ok hp).2.1]; exact hwl) (r0 := r0) (by simp) (hmu r0 (by simp)) (hsup r0 (by simp)) hpos h00
  have him := absorbing_value hza hu.2.2 hu.2.1
  have hop : Opaque c.omega c.kx c.ky (mats z).epsilon.value := by
    intro i
    have hx : (c.kx i).im = 0 := Complex.conj_eq_iff_im.mp (hg.kxr i)
    have hy : (c.ky i).im = 0 := Complex.conj_eq_iff_im.mp (hg.kyr i)
    have : 0 < ((mats z).epsilon.value * (c.omega : ℂ) ^ 2 - c.kx i ^ 2 - c.ky i ^ 2).im := by
      have hx2 : (c.kx i ^ 2).im = 0 := by rw [sq, Complex.mul_im, hx]; ring
      have hy2 : (c.ky i ^ 2).im = 0 := by rw [sq, Complex.mul_im, hy]; ring
      rw [Complex.sub_im, Complex.sub_im, hx2, hy2, sub_zero, sub_zero, ← Complex.ofReal_pow, Complex.im_mul_ofReal]
      exact mul_pos him (pow_pos hg.omega 2)
    exact ⟨this.le, fun h => this.ne' h.1⟩
  obtain ⟨R, T, h3, h4⟩ := C118_thick_layer hpre hpost hinit hinit' hcp hu (hmu z hzm) hd hop hB hRT hist
  exact ⟨R0, T0, R, T, hRT, h3, h4⟩

end

namespace Examples

/-- C118 for absorbing stacks: the film of index `2 + i` between air and a medium of index 2. -/
example : ∃ (c : Static) (names : List String) (R0 T0 : Fin c.nh → ℝ) (R T : ℝ → Fin c.nh → ℝ),
    simInit exE (fun _ => exLat) inkMats ([0] ++ 1 :: [2]) exExc 1 "original" = .ok c ∧
    (efficienciesByOrder exE { c with stack := [0] ++ [1], layerNames := names } (Dyn.fresh inkMats (unsolved c.nh))).1 = .ok (R0, T0) ∧
    (∀ᶠ d in atTop, (efficienciesByOrder exE c
        (Dyn.fresh (Function.update inkMats 1 { inkMats 1 with thickness := some d }) (unsolved c.nh))).1 = .ok (R d, T d)) ∧
      ∀ i, Tendsto (fun d => R d i) atTop (𝓝 (R0 i)) ∧ Tendsto (fun d => T d i) atTop (𝓝 0) := by
  obtain ⟨c, hc, hn, hst, -⟩ := exInit inkMats 0 [1, 2] 1 one_pos (by decide) (by decide) rfl rfl
  obtain ⟨c', hc', hn', -⟩ := exInit inkMats 0 [1] 1 one_pos (by decide) (by decide) rfl rfl
  have hgr : ∀ e : ℂ, e ≠ 0 → ∀ i : Fin c.nh, e * (c.omega : ℂ) ^ 2 ≠ c.kx i ^ 2 + c.ky i ^ 2 := by
    intro e he i
    rw [hn.kx, hn.ky]
    have : (c.omega : ℂ) ≠ 0 := by exact_mod_cast hn.omega_pos.ne'
    simpa [he] using this
  obtain ⟨h1, h2⟩ := exSolveAllC hn inkN [0, 1, 2] (Dyn.fresh inkMats (unsolved c.nh)) (by decide)
    fun r _ => ink_index c.omega hn.omega_pos r
  obtain ⟨d1, hs, hd⟩ : ∃ d1, solve exE c (Dyn.fresh inkMats (unsolved c.nh)) = (.ok (), d1) ∧
      d1.attrs = (solveAll exE c [0, 1, 2] (Dyn.fresh inkMats (unsolved c.nh))).2.attrs := by
    unfold solve
    rw [hst, PyM.bind_ok (Prod.ext_iff.mpr ⟨h1, rfl⟩)]
    exact ⟨_, rfl, rfl⟩
  have hdet : ∀ r ∈ ([0, 1, 2] : List ℕ), ∀ ev, (d1.attrs r).eig = some ev → ev.2.det ≠ 0 := by
    intro r hr ev he
    rw [hd, (h2 r hr).1] at he
    rw [← Option.some.inj he]
    simp
  have hv0 : (inkMats 0).epsilon.value = ((1 : ℝ) : ℂ) := by simp [inkMats, exLayer, NdArr.scalar, NdArr.value]
  have hv2 : (inkMats 2).epsilon.value = 4 := by simp [inkMats, exLayer, NdArr.scalar, NdArr.value]; norm_num
  obtain rfl := simInit_restack rfl hc hc' rfl (by rintro r r' ⟨⟩ ⟨⟩; exact ⟨rfl, rfl, rfl⟩)
  obtain ⟨R0, T0, R, T, h3, h4, h5⟩ := C118_absorbing_stack (pre := [0]) (post := [2]) (z := 1) (by simp) (by simp) hc hc'
    (fun r hr => by rw [List.mem_singleton.mp hr]; rfl) ⟨rfl, rfl, rfl⟩ (d0 := 1) rfl exE_eig (fun k r _ hcopy => by
      rw [(ink_index 1 one_pos r).1] at hcopy; simp at hcopy) (fun r _ => (ink_index 1 one_pos r).2.1)
    exExc_mk one_pos (by simp [exExc]) (by rw [hn.harm]; simp) (.inl rfl) one_pos
    (by
      intro r0 h
      obtain rfl : 0 = r0 := by simpa using h
      exact hv0) (hgr _ (by simp))
    (by
      intro k r hk hk' hr
      obtain rfl : k = 1 := by simp at hk'; omega
      obtain rfl : 1 = r := by simpa using hr
      refine ⟨ink_absorbing, fun t h => ?_⟩
      have : (1 : ℝ) = t := Option.some.inj h
      rw [← this]; norm_num)
    (by
      intro r h
      obtain rfl : 2 = r := by simpa using h
      exact .inr ⟨⟨rfl, rfl, rfl⟩, hgr _ (by rw [hv2]; norm_num), 1, 1, 1, by norm_num, by simp, rfl, rfl, by norm_num⟩) hs hdet (fun _ => [])
  exact ⟨c, _, R0, T0, R, T, hc, h3, h4, h5⟩

end Examples

end Nannos
