import Verif.Props.ThicknessPeriod
import Verif.Proofs.Thick
import Verif.Proofs.PlanarField
import Verif.Spec.Thick
import Verif.Props.Absorbing

/-! **C118**: a thick layer in which no wave propagates is a substrate. -/

namespace Nannos

open Matrix Spec Filter Topology

section
variable {m : Type} [Fintype m] [DecidableEq m]

theorem loopS_agree {l l' : List (Modes m)} : ∀ (n : ℕ), (∀ k, k ≤ n → l'[k]? = l[k]?) → ∀ S, loopS l (0 : ℕ) (n : ℕ) = .ok S →
    loopS l' (0 : ℕ) (n : ℕ) = .ok S := by
  intro n
  induction n with
  | zero =>
    intro _ S hS
    erw [loopS_self] at hS ⊢
    exact hS
  | succ n ih =>
    intro h S hS
    obtain ⟨S0, L, M, h1, h2, h3, h4⟩ := loopS_succ_ok (Nat.zero_le _) hS
    rw [Nat.cast_add, Nat.cast_one, loopS_succ _ _ _ (Nat.zero_le _), ih (fun k hk => h k (by omega)) S0 h1, except_bind_ok]
    exact stepAt_ok.mpr ⟨L, M, by rw [h n (by omega), h2], by rw [h (n + 1) le_rfl, h3], h4⟩

theorem exp_decay {q : ℂ} (hq : 0 < q.im) : Tendsto (fun d : ℝ => Complex.exp (Complex.I * q * (d : ℂ))) atTop (𝓝 0) := by
  rw [tendsto_zero_iff_norm_tendsto_zero]
  have : (fun d : ℝ => ‖Complex.exp (Complex.I * q * (d : ℂ))‖) = fun d => Real.exp (-(q.im * d)) := by
    funext d
    rw [Complex.norm_exp]
    simp
  rw [this]
  exact Real.tendsto_exp_neg_atTop_nhds_zero.comp (tendsto_id.const_mul_atTop hq)

theorem diagonal_decay {q : m → ℂ} (hq : ∀ j, 0 < (q j).im) :
    Tendsto (fun d : ℝ => diagonal (phasor q d)) atTop (𝓝 (0 : Matrix m m ℂ)) := by
  refine tendsto_pi_nhds.mpr fun i => tendsto_pi_nhds.mpr fun j => ?_
  by_cases hij : i = j
  · subst hij
    simpa [phasor] using exp_decay (hq i)
  · simp [Matrix.diagonal_apply_ne _ hij]

end

section
variable {E : Ext} {lats : ℕ → Lattice} {mats : ℕ → LayerSpec} {exc : PlaneWave} {nh : ℤ} {form : String} {c : Static}

theorem csqrt_im_pos {w : ℂ} (h : 0 ≤ w.im) (h0 : ¬ (w.im = 0 ∧ 0 ≤ w.re)) : 0 < (csqrt w).im := by
  refine lt_of_le_of_ne (csqrt_im_nonneg h) fun he => h0 ?_
  have hs := csqrt_sq w
  have h1 := congrArg Complex.im hs
  have h2 := congrArg Complex.re hs
  simp only [sq, Complex.mul_im, Complex.mul_re, ← he] at h1 h2
  refine ⟨by rw [← h1]; ring, by rw [← h2]; nlinarith [mul_self_nonneg (csqrt w).re]⟩

theorem poynting_conv {α : Type} {F : Filter α} {M : Modes (Idx c.nh)} {a b : α → Idx c.nh → ℂ} {a0 b0 : Idx c.nh → ℂ}
    (ha : Tendsto a F (𝓝 a0)) (hb : Tendsto b F (𝓝 b0)) {g : α → (Fin c.nh → ℝ) × (Fin c.nh → ℝ)} {g0}
    (hg : ∀ᶠ x in F, poyntingFlux c M (a x) (b x) = .ok (g x)) (hg0 : poyntingFlux c M a0 b0 = .ok g0) (i : Fin c.nh) :
    Tendsto (fun x => (g x).1 i) F (𝓝 (g0.1 i)) ∧ Tendsto (fun x => (g x).2 i) F (𝓝 (g0.2 i)) := by
  have hq : ¬ ∃ k, (c.omega : ℂ) * M.q k = 0 := by
    intro h
    unfold poyntingFlux at hg0
    rw [if_pos h] at hg0
    cases hg0
  have hv : ∀ (B : Matrix (Idx c.nh) (Idx c.nh) ℂ) {u : α → Idx c.nh → ℂ} {u0}, Tendsto u F (𝓝 u0) → ∀ k,
      Tendsto (fun x => (B *ᵥ u x) k) F (𝓝 ((B *ᵥ u0) k)) := by
    intro B u u0 hu k
    have hcont : Continuous fun v : Idx c.nh → ℂ => B *ᵥ v := continuous_const.matrix_mulVec continuous_id
    exact tendsto_pi_nhds.mp ((hcont.tendsto u0).comp hu) k
  have hre : ∀ {u : α → ℂ} {u0}, Tendsto u F (𝓝 u0) → Tendsto (fun x => (u x).re) F (𝓝 u0.re) :=
    fun hu => (Complex.continuous_re.tendsto _).comp hu
  have hof : ∀ {u : α → ℝ} {u0}, Tendsto u F (𝓝 u0) → Tendsto (fun x => ((u x : ℝ) : ℂ)) F (𝓝 (u0 : ℂ)) :=
    fun hu => (Complex.continuous_ofReal.tendsto _).comp hu
  unfold poyntingFlux at hg hg0
  simp only [if_neg hq, Except.ok.injEq] at hg hg0
  set A := M.Q * M.phi * diagonal fun k => 1 / ((c.omega : ℂ) * M.q k) with hA
  have pa := fun k => hv M.phi ha k
  have pb := fun k => hv M.phi hb k
  have Aa := fun k => hv A ha k
  have Ab := fun k => hv A hb k
  have cross := fun k => (((pb k).star.mul (Aa k)).sub ((Ab k).star.mul (pa k))).const_mul (1 / 2 : ℂ)
  have fwd := fun k => (hof (hre ((Aa k).star.mul (pa k)))).add (cross k)
  have bwd := fun k => (hof (hre ((Ab k).star.mul (pb k)))).neg.add (cross k).star
  rw [← hg0]
  refine ⟨?_, ?_⟩
  · refine (hre ((fwd (.inl i)).add (fwd (.inr i)))).congr' ?_
    filter_upwards [hg] with x hx
    rw [← hx]
  · refine (hre ((bwd (.inl i)).add (bwd (.inr i)))).congr' ?_
    filter_upwards [hg] with x hx
    rw [← hx]

/-- **C118**. A homogeneous layer in which no order propagates without loss, made thicker and thicker, acts as a substrate: for all
thicknesses above some value the efficiencies are returned, those in transmission tend to zero, and those in reflection to the ones
of the stack cut inside the layer, which is then the substrate.  The part of the stack below is any on which `get_S_matrix(indices)` is
defined. -/
theorem C118_thick_layer {pre post : List ℕ} {z : ℕ} {names : List String} (hpre : pre ≠ []) (hpost : post ≠ [])
    (hinit : simInit E lats mats (pre ++ z :: post) exc nh form = .ok c)
    (hinit' : simInit E lats mats (pre ++ [z]) exc nh form = .ok { c with stack := pre ++ [z], layerNames := names })
    (hcp : ∀ r ∈ pre, (mats r).iscopy = false)
    (hu : Homogeneous (mats z)) (hmu : (mats z).mu = 1) {d0 : ℝ} (hd : (mats z).thickness = some d0)
    (hop : Opaque c.omega c.kx c.ky (mats z).epsilon.value)
    {hist0 : List (Call c.nh)} {B : SMat (Idx c.nh)}
    (hB : (getS E c (some ((pre.length : ℤ), ((pre ++ z :: post).length : ℤ) - 1))
      (afterCalls E c hist0 (Dyn.fresh mats (unsolved c.nh)))).1 = .ok B)
    {hist' : List (Call c.nh)} {R0 T0 : Fin c.nh → ℝ}
    (h' : (efficienciesByOrder E { c with stack := pre ++ [z], layerNames := names }
      (afterCalls E { c with stack := pre ++ [z], layerNames := names } hist' (Dyn.fresh mats (unsolved c.nh)))).1 = .ok (R0, T0))
    (hist : ℝ → List (Call c.nh)) :
    ∃ R T : ℝ → Fin c.nh → ℝ, (∀ᶠ d in atTop, (efficienciesByOrder E c (afterCalls E c (hist d)
        (Dyn.fresh (Function.update mats z { mats z with thickness := some d }) (unsolved c.nh)))).1 = .ok (R d, T d)) ∧
      ∀ i, Tendsto (fun d => R d i) atTop (𝓝 (R0 i)) ∧ Tendsto (fun d => T d i) atTop (𝓝 0) := by
  let t : ℕ → ℝ := fun r => (mats r).thickness.getD 0
  let M : ℝ → ℕ → LayerSpec := fun d => Function.update mats z { mats z with thickness := some d }
  have e0 : mats = withThicknesses mats t := by
    funext r
    show mats r = { mats r with thickness := (mats r).thickness.map fun _ => (mats r).thickness.getD 0 }
    have : (mats r).thickness.map (fun _ => (mats r).thickness.getD 0) = (mats r).thickness := by
      rcases (mats r).thickness with _ | x <;> rfl
    rw [this]
  have e1 : ∀ d, M d = withThicknesses mats (Function.update t z d) := by
    intro d
    funext r
    by_cases hr : r = z
    · subst hr
      show Function.update mats r _ r = { mats r with thickness := (mats r).thickness.map fun _ => Function.update t r d r }
      rw [hd, Function.update_self, Function.update_self]
      rfl
    · show Function.update mats z _ r = { mats r with thickness := (mats r).thickness.map fun _ => Function.update t z d r }
      rw [Function.update_of_ne hr, Function.update_of_ne hr]
      exact congrFun e0 r
  have hne : ∀ r, r ≠ z → ∀ d, M d r = mats r := fun r hr d => Function.update_of_ne hr _ _
  have hi := simInit_ok hinit
  have hi' := simInit_ok hinit'
  have hst : c.stack = pre ++ z :: post := hi.stack_eq
  have hnd : c.stack.Nodup := hst ▸ hi.nodup
  have hpre' := List.length_pos_iff.mpr hpre
  have hpost' := List.length_pos_iff.mpr hpost
  obtain ⟨A, res, sp⟩ := withThicknesses_spec (E := E) (mats := mats) hnd
  have sp0 : SolveSpec E c mats (unsolved c.nh) A res := by have := sp t; rwa [← e0] at this
  have spd : ∀ d, SolveSpec E c (M d) (unsolved c.nh) A res := fun d => by have := sp (Function.update t z d); rwa [← e1] at this
  have i0 : Inv E c mats (unsolved c.nh) A res (afterCalls E c hist0 (Dyn.fresh mats (unsolved c.nh))) :=
    Inv.calls sp0 hist0 (inv_fresh _ (.inl rfl))
  have id : ∀ d, Inv E c (M d) (unsolved c.nh) A res (afterCalls E c (hist d) (Dyn.fresh (M d) (unsolved c.nh))) :=
    fun d => Inv.calls (spd d) (hist d) (inv_fresh _ (.inl rfl))
  -- the cut stack
  obtain ⟨A2, res', sp', -⟩ := solveSpec_of_noStale (E := E) (mats := mats) hi'.nodup
    (noStale_unsolved (c := { c with stack := pre ++ [z], layerNames := names }) mats _)
  have i2 : Inv E { c with stack := pre ++ [z], layerNames := names } mats (unsolved c.nh) A2 res' (Dyn.fresh mats (unsolved c.nh)) :=
    inv_fresh _ (.inl rfl)
  obtain ⟨hres', U, r0, rz, M0, MZ, f0, fZ, hU, hr0, hrz, hM0, -, hf0, -, hfl, hRT⟩ :=
    yields_efficiencies sp' _ (R0, T0) _ (i2.calls sp' hist') (Prod.ext h' rfl)
  have hfix' := sp'.fix hi'.nodup hres'
  subst hres'
  -- the lower part
  rw [(det_getS' sp0 _ _ i0).1] at hB
  obtain rfl := valS_ok hB
  have hfix := sp0.fix hnd rfl
  have hN : (((pre ++ z :: post).length : ℤ) - 1) = (((pre ++ z :: post).length - 1 : ℕ) : ℤ) := by
    simp only [List.length_append, List.length_cons]
    omega
  rw [valS_solved hfix, hN] at hB
  obtain ⟨hlt, hB⟩ := freshS_ok.mp hB
  have hmodes : ∀ r ∈ pre ++ [z], modesD (mats r) (A2 r) = modesD (mats r) (A r) := by
    intro r hr
    have hc : (mats r).iscopy = false := by
      rcases List.mem_append.mp hr with h | h
      · exact hcp r h
      · rw [List.mem_singleton.mp h]; exact hu.1
    have hr' : r ∈ c.stack := by
      rw [hst]
      rcases List.mem_append.mp hr with h | h
      · exact List.mem_append_left _ h
      · rw [List.mem_singleton.mp h]; simp
    exact modesD_of_form (c := c) hc (hfix r hr').form ((layerFix_restack.mp (hfix' r hr)).form)
  have hU0 : loopS (stackModes c mats A) (0 : ℕ) (pre.length : ℕ) = .ok U := by
    rw [valS_none, valS_solved hfix'] at hU
    have hl : ((({ c with stack := pre ++ [z], layerNames := names } : Static).stack.length : ℤ) - 1) = (pre.length : ℤ) := by simp
    erw [hl] at hU
    refine loopS_agree _ ?_ U ((freshS_ok (i := 0)).mp hU).2
    intro k hk
    unfold stackModes
    rw [hst, List.getElem?_map, List.getElem?_map]
    have : (pre ++ z :: post)[k]? = (pre ++ [z])[k]? := by
      rw [show pre ++ z :: post = (pre ++ [z]) ++ post by simp, List.getElem?_append_left (by simp; omega)]
    rw [this]
    dsimp only
    rcases hx : (pre ++ [z])[k]? with _ | r
    · rfl
    · simp only [Option.map_some]
      rw [hmodes r (List.mem_of_getElem? hx)]
  -- the thick layer
  have hzk : c.stack[pre.length]? = some z := by rw [hst]; simp
  have hth : Thickening atTop pre.length (stackModes c mats A) (fun d => stackModes c (M d) A) := by
    refine ⟨fun n hn d => ?_, fun L hL => ?_⟩
    · unfold stackModes
      rw [List.getElem?_map, List.getElem?_map]
      rcases hx : c.stack[n]? with _ | r
      · rfl
      · simp only [Option.map_some]
        rw [hne r]
        rintro rfl
        exact hn ((List.getElem?_inj (List.getElem?_eq_some_iff.mp hx).1 hnd).mp (hx.trans hzk.symm))
    · unfold stackModes at hL
      rw [List.getElem?_map, hzk] at hL
      obtain rfl := Option.some.inj hL
      refine ⟨fun d => modesD (M d z) (A z), fun d => ⟨by unfold stackModes; rw [List.getElem?_map, hzk]; rfl, rfl, rfl, rfl⟩, ?_⟩
      have hfz := hfix z (by rw [hst]; simp)
      obtain ⟨-, g, hg⟩ := uniform_flux hfz hu.1 hu.2.1 hmu hfz.form.modesD
      have hf : (fun d => (modesD (M d z) (A z)).f) = fun d : ℝ => diagonal (phasor (modesD (mats z) (A z)).q d) := by
        funext d
        unfold Modes.f
        have : (modesD (M d z) (A z)).z = d := by simp [Modes.z, modesD, M]
        rw [this]
        rfl
      rw [hf]
      refine diagonal_decay fun j => ?_
      rw [hg.q]
      rcases j with i | i
      · rw [Sum.elim_inl, hg.g_eq]; exact csqrt_im_pos (hop i).1 (hop i).2
      · rw [Sum.elim_inr, hg.g_eq]; exact csqrt_im_pos (hop i).1 (hop i).2
  obtain ⟨S, hS, hconv⟩ := loopS_thick hpre' hth hU0 _ hlt B hB
  have hval : ∀ᶠ d in atTop, valS c (M d) A (.ok ()) none = .ok (S d) := by
    filter_upwards [hS] with d hSd
    rw [valS_none, valS_solved ((spd d).fix hnd rfl), hst, hN]
    exact (freshS_ok (i := 0)).mpr ⟨by omega, hSd⟩
  -- the ends
  obtain ⟨a, pre', rfl⟩ := List.exists_cons_of_ne_nil hpre
  have q0 : a = r0 := by simpa using pyGet_zero_some hr0
  subst q0
  obtain ⟨rN, hrN⟩ : ∃ r, post.getLast? = some r := ⟨_, List.getLast?_eq_some_getLast hpost⟩
  have hr0c : pyGet c.stack 0 = .ok a := by
    rw [hst, pyGet_zero (by simp)]
    rfl
  have hrNc : pyGet c.stack (-1) = .ok rN := by
    rw [pyGet_last (by rw [hst]; simp)]
    have : c.stack.getLast? = some rN := by
      rw [hst, show a :: pre' ++ z :: post = (a :: pre' ++ [z]) ++ post by simp, List.getLast?_append_of_ne_nil _ hpost, hrN]
    rw [List.getLast?_eq_getElem?, List.getElem?_eq_some_iff] at this
    obtain ⟨_, h⟩ := this
    rw [h]
  have hnd2 := hst ▸ hnd
  have az : a ≠ z := by
    rintro rfl
    simp at hnd2
  have nz : rN ≠ z := by
    rintro rfl
    have hm := List.mem_of_getLast? hrN
    simp only [List.nodup_append, List.nodup_cons] at hnd2
    exact hnd2.2.1.1 hm
  have hM0c : modesOf (mats a) (A a) = .ok M0 := by
    rw [(hfix' a (by simp)).form.modesD, hmodes a (by simp)] at hM0
    rw [(hfix a (by rw [hst]; simp)).form.modesD, hM0]
  have mN : rN ∈ c.stack := by rw [hst]; exact List.mem_append_right _ (List.mem_cons_of_mem _ (List.mem_of_getLast? hrN))
  have hMNc := (hfix rN mN).form.modesD
  have hq0 : ∀ k, (c.omega : ℂ) * M0.q k ≠ 0 := by
    intro k hk
    have hf : poyntingFlux c M0 c.a0 (U.s21 *ᵥ c.a0) = .ok f0 := hf0
    unfold poyntingFlux at hf
    rw [if_pos ⟨k, hk⟩] at hf
    cases hf
  have hqN : ∀ k, (c.omega : ℂ) * (modesD (mats rN) (A rN)).q k ≠ 0 := by
    intro k
    refine mul_ne_zero (left_ne_zero_of_mul (hq0 k)) ?_
    refine loopS_q_from _ hB hlt ((a :: pre' ++ z :: post).length - 1) _ (by omega) le_rfl ?_ k
    unfold stackModes
    rw [List.getElem?_map]
    have : c.stack.getLast? = some rN := pyGet_last_some hrNc
    rw [List.getLast?_eq_getElem?, hst] at this
    rw [hst, this]
    rfl
  have hflux : ∀ {L : Modes (Idx c.nh)}, (∀ k, (c.omega : ℂ) * L.q k ≠ 0) → ∀ a b, ∃ f, poyntingFlux c L a b = .ok f := by
    intro L hL a b
    unfold poyntingFlux
    rw [if_neg (by rintro ⟨k, hk⟩; exact hL k hk)]
    exact ⟨_, rfl⟩
  choose g0 hg0 using fun d => hflux hq0 c.a0 ((S d).s21 *ᵥ c.a0)
  choose gN hgN using fun d => hflux hqN ((S d).s11 *ᵥ c.a0) 0
  refine ⟨fun d i => -(g0 d).2 i / c.incidentFlux, fun d i => (gN d).1 i / c.incidentFlux, ?_, fun i => ?_⟩
  · filter_upwards [hval] with d hSd
    obtain ⟨RT', d1, k1, -, x0, xN, y1, y2, rfl⟩ := succeeds_efficiencies (spd d) hSd hr0c hrNc (by rw [hne a az]; exact hM0c)
      (by rw [hne rN nz]; exact hMNc) hq0 hqN hfl _ (id d)
    obtain rfl := Except.ok.inj ((hg0 d).symm.trans y1)
    obtain rfl := Except.ok.inj ((hgN d).symm.trans y2)
    exact congrArg Prod.fst k1
  · have hmv : ∀ {P : ℝ → Matrix (Idx c.nh) (Idx c.nh) ℂ} {P0}, Tendsto P atTop (𝓝 P0) →
        Tendsto (fun d => P d *ᵥ c.a0) atTop (𝓝 (P0 *ᵥ c.a0)) := by
      intro P P0 hP
      have hcont : Continuous fun Q : Matrix (Idx c.nh) (Idx c.nh) ℂ => Q *ᵥ c.a0 := continuous_id.matrix_mulVec continuous_const
      exact (hcont.tendsto P0).comp hP
    constructor
    · have := (poynting_conv (F := atTop) tendsto_const_nhds (hmv hconv.s21) (Eventually.of_forall hg0) hf0 i).2
      have hR : R0 i = -f0.2 i / c.incidentFlux := congrFun (Prod.mk.inj hRT).1 i
      rw [hR]
      exact this.neg.div_const _
    · obtain ⟨x, hx⟩ := hflux hqN 0 0
      have hs := hmv hconv.s11
      dsimp only at hs
      rw [Matrix.zero_mulVec] at hs
      have := (poynting_conv (F := atTop) hs tendsto_const_nhds (Eventually.of_forall hgN) hx i).1
      have hx0 : x.1 i = 0 := by
        unfold poyntingFlux at hx
        rw [if_neg (by rintro ⟨k, hk⟩; exact hqN k hk)] at hx
        rw [← Except.ok.inj hx]
        simp
      rw [hx0] at this
      simpa using this.div_const c.incidentFlux

end

namespace Examples

/-- An absorbing film of index `2 + i` between air and a medium of index 2. -/
noncomputable def inkMats : ℕ → LayerSpec := fun r =>
  if r = 0 then exLayer "Superstrate" 1 (NdArr.scalar (((1 : ℝ) ^ 2 : ℝ) : ℂ))
  else if r = 1 then exLayer "Slab" 1 (NdArr.scalar ((2 + Complex.I) ^ 2))
  else exLayer "Substrate" 1 (NdArr.scalar (((2 : ℝ) ^ 2 : ℝ) : ℂ))

noncomputable def inkN : ℕ → ℂ := fun r => if r = 0 then 1 else if r = 1 then 2 + Complex.I else 2

theorem ink_im : 0 < ((2 + Complex.I) ^ 2).im := by
  simp [sq]

theorem ink_absorbing : Absorbing (inkMats 1) := by
  unfold Absorbing
  have ha : (inkMats 1).isAnisotropic = false := rfl
  rw [ha]
  intro idx _
  exact ink_im

theorem ink_index (om : ℝ) (h : 0 < om) (r : ℕ) : HasIndexC om (inkMats r) (inkN r) := by
  have hre : ∀ n : ℝ, 0 < n → csqrt ((n : ℂ) ^ 2 * (om : ℂ) ^ 2) = n * om := by
    intro n hn
    rw [show (n : ℂ) ^ 2 * (om : ℂ) ^ 2 = (((n * om) ^ 2 : ℝ) : ℂ) by push_cast; ring, csqrt_ofReal (by positivity),
      Real.sqrt_sq (by positivity)]
    push_cast
    rfl
  unfold inkN inkMats
  by_cases h0 : r = 0
  · subst h0
    exact ⟨rfl, rfl, by simp, .inl ⟨by simp [exLayer], by simpa using hre 1 one_pos⟩⟩
  by_cases h1 : r = 1
  · subst h1
    refine ⟨rfl, rfl, ?_, .inl ⟨by simp [exLayer], ?_⟩⟩
    · intro hc
      have := congrArg Complex.im hc
      simp at this
    · have : 0 ≤ ((2 + Complex.I) ^ 2 * (om : ℂ) ^ 2).im := by
        rw [← Complex.ofReal_pow, Complex.im_mul_ofReal]
        exact mul_nonneg ink_im.le (by positivity)
      have h2 := modeSqrt_eq_csqrt this
      rw [lossy_sqrt om h] at h2
      simpa using h2.symm
  · simp only [h0, h1, if_false]
    exact ⟨rfl, rfl, by simp, .inl ⟨by simp [exLayer], by simpa using hre 2 two_pos⟩⟩

/-- C118: the absorbing film gets thick. -/
example : ∃ (c : Static) (names : List String) (R0 T0 : Fin c.nh → ℝ) (R T : ℝ → Fin c.nh → ℝ),
    simInit exE (fun _ => exLat) inkMats ([0] ++ 1 :: [2]) exExc 1 "original" = .ok c ∧
    simInit exE (fun _ => exLat) inkMats ([0] ++ [1]) exExc 1 "original" = .ok { c with stack := [0] ++ [1], layerNames := names } ∧
    (efficienciesByOrder exE { c with stack := [0] ++ [1], layerNames := names } (Dyn.fresh inkMats (unsolved c.nh))).1 = .ok (R0, T0) ∧
    (∀ᶠ d in atTop, (efficienciesByOrder exE c
        (Dyn.fresh (Function.update inkMats 1 { inkMats 1 with thickness := some d }) (unsolved c.nh))).1 = .ok (R d, T d)) ∧
      ∀ i, Tendsto (fun d => R d i) atTop (𝓝 (R0 i)) ∧ Tendsto (fun d => T d i) atTop (𝓝 0) := by
  obtain ⟨c, hc, hn, hst, -⟩ := exInit inkMats 0 [1, 2] 1 one_pos (by decide) (by decide) rfl rfl
  obtain ⟨c', hc', hn', -⟩ := exInit inkMats 0 [1] 1 one_pos (by decide) (by decide) rfl rfl
  have hl' : c'.lattice = exLat := (simInit_ok hc').lat_eq 0 rfl
  have hgr : ∀ e : ℂ, e ≠ 0 → ∀ i : Fin c.nh, e * (c.omega : ℂ) ^ 2 ≠ c.kx i ^ 2 + c.ky i ^ 2 := by
    intro e he i
    rw [hn.kx, hn.ky]
    have : (c.omega : ℂ) ≠ 0 := by exact_mod_cast hn.omega_pos.ne'
    simpa [he] using this
  obtain ⟨h1, h2⟩ := exSolveAllC hn inkN [0, 1, 2] (Dyn.fresh inkMats (unsolved c.nh)) (by decide)
    fun r _ => ink_index c.omega hn.omega_pos r
  obtain ⟨d1, hs, hd⟩ : ∃ d1, solve exE c (Dyn.fresh inkMats (unsolved c.nh)) = (.ok (), d1) ∧
      d1.attrs = (solveAll exE c [0, 1, 2] (Dyn.fresh inkMats (unsolved c.nh))).2.attrs := by
    unfold solve
    rw [hst, PyM.bind_ok (Prod.ext_iff.mpr ⟨h1, rfl⟩)]
    exact ⟨_, rfl, rfl⟩
  have hdet : ∀ r ∈ ([0, 1, 2] : List ℕ), ∀ ev, (d1.attrs r).eig = some ev → ev.2.det ≠ 0 := by
    intro r hr ev he
    rw [hd, (h2 r hr).1] at he
    rw [← Option.some.inj he]
    simp
  have hv0 : (inkMats 0).epsilon.value = ((1 : ℝ) : ℂ) := by simp [inkMats, exLayer, NdArr.scalar, NdArr.value]
  have hv1 : (inkMats 1).epsilon.value = (2 + Complex.I) ^ 2 := by simp [inkMats, exLayer, NdArr.scalar, NdArr.value]
  have hv2 : (inkMats 2).epsilon.value = 4 := by simp [inkMats, exLayer, NdArr.scalar, NdArr.value]; norm_num
  have hfield := (C85_absorbing_results_defined hc exE_eig (fun k r _ hcopy => by
      rw [(ink_index 1 one_pos r).1] at hcopy; simp at hcopy) (fun r _ => (ink_index 1 one_pos r).2.1)
    exExc_mk one_pos (by simp [exExc]) (by rw [hn.harm]; simp) (.inl rfl) one_pos (by simp)
    (by
      intro r0 h
      obtain rfl : 0 = r0 := by simpa using h
      exact hv0) (hgr _ (by simp))
    (by
      intro k r hk hk' hr
      obtain rfl : k = 1 := by simp at hk'; omega
      obtain rfl : 1 = r := by simpa using hr
      refine ⟨ink_absorbing, fun t h => ?_⟩
      have : (1 : ℝ) = t := Option.some.inj h
      rw [← this]; norm_num)
    (by
      intro r h
      obtain rfl : 2 = r := by simpa using h
      exact .inr ⟨⟨rfl, rfl, rfl⟩, hgr _ (by rw [hv2]; norm_num), 1, 1, 1, by norm_num, by simp, rfl, rfl, by norm_num⟩) hs hdet []).2
    (.idx 1) 1 1 (by unfold getLayer; rw [hst]; rfl) (.inl (by norm_num)) 1 rfl [0]
  -- the part below
  obtain ⟨Fs, hFs⟩ := hfield
  have hnd : c.stack.Nodup := by rw [hst]; decide
  obtain ⟨A, res, sp, -⟩ := solveSpec_of_noStale (E := exE) (mats := inkMats) hnd (noStale_unsolved (c := c) inkMats c.stack)
  have hinv : Inv exE c inkMats (unsolved c.nh) A res (afterCalls exE c [] (Dyn.fresh inkMats (unsolved c.nh))) :=
    Inv.calls sp [] (inv_fresh _ (.inl rfl))
  obtain ⟨-, -, r, j, ab, hg, hab, -⟩ := yields_getFieldFourier sp (.idx 1) [0] _ Fs _ hinv (Prod.ext hFs rfl)
  have hj : j = 1 := by
    unfold getLayer at hg
    rw [hst] at hg
    exact (Prod.mk.inj (Except.ok.inj hg)).2.symm
  subst hj
  obtain ⟨B, hB⟩ : ∃ B, (getS exE c (some ((([0] : List ℕ).length : ℤ), (([0] ++ 1 :: [2] : List ℕ).length : ℤ) - 1))
      (afterCalls exE c [] (Dyn.fresh inkMats (unsolved c.nh)))).1 = .ok B := by
    obtain ⟨-, ⟨h0, -⟩ | ⟨-, h0, -⟩ | ⟨-, -, -, S, P, -, hP, -⟩⟩ := hab
    · norm_num at h0
    · rw [hst] at h0
      norm_num at h0
    · refine ⟨P, ?_⟩
      rw [(det_getS' sp _ _ hinv).1]
      rw [hst] at hP
      exact hP
  -- the cut stack
  obtain ⟨⟨R0, T0⟩, hRT⟩ := C80_planar_defined (e := 1) hc' (fun r _ => by
      unfold inkMats
      split
      · exact ⟨rfl, rfl, rfl⟩
      · split <;> exact ⟨rfl, rfl, rfl⟩) exExc_mk one_pos (by simp [exExc]) (by rw [hn'.harm]; simp) one_pos rfl hv0 rfl exSort_spec
    (by rw [hl']; rfl) (by simp) (fun r _ => (ink_index 1 one_pos r).2.1)
    (fun r hr => by
      have : r = 0 ∨ r = 1 := by simpa using hr
      rcases this with rfl | rfl
      · rw [hv0]; norm_num
      · rw [hv1]
        intro h
        have := ink_im
        rw [h] at this
        simp at this)
    (fun r hr => by
      have ht : Real.sin exExc.theta = 0 := by simp [exExc]
      rw [ht]
      have : r = 0 ∨ r = 1 := by simpa using hr
      rcases this with rfl | rfl
      · rw [hv0]; norm_num
      · rw [hv1]
        intro h
        have := ink_im
        rw [h] at this
        simp at this)
    (fun k r hk hk' => by simp at hk'; omega) []
  obtain rfl := simInit_restack rfl hc hc' rfl (by rintro r r' ⟨⟩ ⟨⟩; exact ⟨rfl, rfl, rfl⟩)
  have hop : Opaque c.omega c.kx c.ky (inkMats 1).epsilon.value := by
    intro i
    have him : 0 < ((inkMats 1).epsilon.value * (c.omega : ℂ) ^ 2 - c.kx i ^ 2 - c.ky i ^ 2).im := by
      rw [hn.kx, hn.ky, hv1, ← Complex.ofReal_pow]
      simp only [ne_eq, OfNat.ofNat_ne_zero, not_false_eq_true, zero_pow, sub_zero]
      rw [Complex.im_mul_ofReal]
      exact mul_pos ink_im (pow_pos hn.omega_pos 2)
    exact ⟨him.le, fun h => him.ne' h.1⟩
  obtain ⟨R, T, h3, h4⟩ := C118_thick_layer (pre := [0]) (post := [2]) (z := 1) (by simp) (by simp) hc hc' (fun r hr => by
    rw [List.mem_singleton.mp hr]; rfl) ⟨rfl, rfl, rfl⟩ rfl (d0 := 1) rfl hop hB hRT (fun _ => [])
  exact ⟨c, _, R0, T0, R, T, hc, hc', hRT, h3, h4⟩

end Examples

end Nannos
