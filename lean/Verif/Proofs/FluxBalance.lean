import Verif.Proofs.EnergyStack
import Verif.Proofs.Total

/-! Power balance of the scattering matrix for arbitrary incoming waves (C96). -/

namespace Nannos

open Matrix Spec

variable {E : Ext} {c : Static}
variable {mats : ℕ → LayerSpec} {A0 A1 : ℕ → LayerAttr c.nh} {res : Except PyErr Unit}

/-- In a layer of no thickness the fluxes of all orders add up to the power. -/
theorem flux_total (hom : c.omega ≠ 0) {M : Modes (Idx c.nh)} (hz : M.z = 0) {a b : Idx c.nh → ℂ} {f}
    (h : poyntingFlux c M a b = .ok f) : power M a b 0 = c.omega * ∑ i, (f.1 i + f.2 i) := by
  have hq := poyntingFlux_ok h
  unfold poyntingFlux at h
  rw [if_neg (by push Not; exact hq)] at h
  obtain rfl := Except.ok.inj h
  have hf : M.f *ᵥ b = b := by
    funext j
    rw [f_mulVec, hz]
    simp [phasor]
  unfold power
  rw [tanE_top, tanH_top, hf, amat_omega hom, smul_mulVec]
  rw [show ∀ v : Idx c.nh → ℂ, star ((c.omega : ℂ) • v) = (c.omega : ℂ) • star v from
      fun v => by rw [star_smul]; simp, smul_dotProduct, smul_eq_mul, Complex.re_ofReal_mul]
  congr 1
  simp only [dotProduct, Fintype.sum_sum_type, Pi.star_apply, ← Finset.sum_add_distrib, Complex.re_sum, mulVec_sub,
    mulVec_add, Pi.sub_apply, Pi.add_apply]
  refine Finset.sum_congr rfl fun i _ => ?_
  simp only [Complex.add_re, Complex.sub_re, Complex.mul_re, Complex.neg_re, Complex.neg_im, Complex.add_im, Complex.sub_im,
    Complex.mul_im, Complex.star_def, Complex.conj_re, Complex.conj_im, Complex.ofReal_re, Complex.ofReal_im]
  norm_num
  ring

/-- Power balance from the signs of the permittivity operators. -/
theorem flux_balance_of {S : Set ℝ} {D : ℝ → Prop} (hS : LossCone S D) {lats stack exc nh form}
    (hinit : simInit E lats mats stack exc nh form = .ok c) (hE : EigContract E) (hw : WellPlaced mats stack)
    (hmu : ∀ r ∈ stack, (mats r).mu = 1) {wl ang} (hp : planeWave wl ang = .ok exc) (hwl : 0 < wl)
    (h00 : ((0 : ℤ), (0 : ℤ)) ∈ c.harmonics)
    {e : ℝ} (hpos : 0 < e)
    (hsup : ∀ r0, stack.head? = some r0 → (mats r0).epsilon.value = (e : ℂ))
    (hin : ∀ k r, 0 < k → k + 1 < stack.length → stack[k]? = some r →
      (∀ P ee, Medium E c mats r P ee → Form S P ∧ Form S ee) ∧ ∀ t, (mats r).thickness = some t → D t)
    (hends : ∀ r, stack.head? = some r ∨ stack.getLast? = some r → (mats r).thickness.getD 0 = 0)
    (hist : List (Call c.nh)) (SM : SMat (Idx c.nh))
    (h : (getS E c none (afterCalls E c hist (Dyn.fresh mats (unsolved c.nh)))).1 = .ok SM) (a b : Idx c.nh → ℂ)
    (hist0 histN : List (Call c.nh)) :
    ∃ F0 FN, (getZPoyntingFlux E c 0 a (SM.s21 *ᵥ a + SM.s22 *ᵥ b)
        (afterCalls E c hist0 (Dyn.fresh mats (unsolved c.nh)))).1 = .ok F0 ∧
      (getZPoyntingFlux E c (-1) (SM.s11 *ᵥ a + SM.s12 *ᵥ b) b
        (afterCalls E c histN (Dyn.fresh mats (unsolved c.nh)))).1 = .ok FN ∧
      c.omega * (∑ i, (F0.1 i + F0.2 i) - ∑ i, (FN.1 i + FN.2 i)) ∈ S := by
  have hi := simInit_ok hinit
  have hst : c.stack = stack := hi.stack_eq
  have hnd : c.stack.Nodup := hst ▸ hi.nodup
  obtain ⟨A1, res, hs, -⟩ := solveSpec_of_noStale (E := E) (mats := mats) hnd
    (noStale_unsolved (c := c) mats c.stack)
  have h0 : Inv E c mats (unsolved c.nh) A1 res (Dyn.fresh mats (unsolved c.nh)) := inv_fresh _ (.inl rfl)
  have hSM : valS c mats A1 res none = .ok SM :=
    (yields_getS hs none _ SM _ (h0.calls hs hist) (Prod.ext h rfl)).2
  have hres : res = .ok () := by
    rw [valS_none] at hSM
    unfold valS at hSM
    rcases res with e | ⟨⟩
    · simp at hSM
    · rfl
  have hfix := hs.fix hnd hres
  have hlen := stackModes_length c mats A1
  have hne := hi.ne
  have hfull : 0 < c.stack.length - 1 ∧
      loopS (stackModes c mats A1) (0 : ℕ) (((stackModes c mats A1).length - 1 : ℕ) : ℤ) = .ok SM := by
    subst hres
    rw [valS_none, valS_solved hfix] at hSM
    have hl : 0 < c.stack.length := List.length_pos_iff.mpr (hst ▸ hne)
    have : ((c.stack.length : ℤ) - 1) = (((stackModes c mats A1).length - 1 : ℕ) : ℤ) := by
      rw [hlen]; omega
    rw [this] at hSM
    have := (freshS_ok (i := 0)).mp hSM
    rw [hlen] at this ⊢
    exact this
  obtain ⟨hlt, hloop⟩ := hfull
  obtain ⟨amp, hcons, ha0, hbN⟩ := loopS_exists _ 0 _ (Nat.zero_le _) SM hloop a b
  obtain ⟨haN, hb0⟩ := loopS_rel _ 0 _ (Nat.zero_le _) SM hloop amp hcons
  have hqs := loopS_q hloop (by rw [hlen]; exact hlt)
  obtain ⟨r0, hr0'⟩ : ∃ r, c.stack[0]? = some r := ⟨_, List.getElem?_eq_getElem (by omega)⟩
  obtain ⟨rN, hrN'⟩ : ∃ r, c.stack[c.stack.length - 1]? = some r := ⟨_, List.getElem?_eq_getElem (by omega)⟩
  have hr0 : pyGet c.stack 0 = .ok r0 := (pyGet_nat c.stack 0 r0).mpr hr0'
  have hrN : pyGet c.stack (-1) = .ok rN := by
    unfold pyGet
    have e3 : pyIdx c.stack.length (-1) = some (c.stack.length - 1) := by
      unfold pyIdx
      rw [if_neg (by omega), if_pos (by omega)]
      congr 1
      omega
    rw [e3]
    dsimp only
    rw [hrN']
  have hmd : ∀ (k r : ℕ), c.stack[k]? = some r → modesOf (mats r) (A1 r) = .ok (modesD (mats r) (A1 r)) ∧
      (stackModes c mats A1)[k]? = some (modesD (mats r) (A1 r)) := by
    intro k r hk
    have hs := hfix r (List.mem_of_getElem? hk)
    refine ⟨hs.form.modesD, ?_⟩
    unfold stackModes
    rw [List.getElem?_map, hk]
    rfl
  obtain ⟨hM0, hL0⟩ := hmd 0 r0 hr0'
  obtain ⟨hMN, hLN⟩ := hmd _ rN hrN'
  have hhead : stack.head? = some r0 := by rw [← hst, List.head?_eq_getElem?, hr0']
  have hlast : stack.getLast? = some rN := by rw [← hst, List.getLast?_eq_getElem?, hrN']
  have hm0 : r0 ∈ stack := hst ▸ pyGet_mem hr0
  have hg := good_sup hi (by rw [(planeWave_ok hp).2.1]; exact hwl) hhead (hmu r0 hm0) (hsup r0 hhead) hpos h00
  have hom := hg.omega
  -- the fluxes
  have hflux : ∀ (k : ℕ) (i : ℤ) (r : ℕ) (x y : Idx c.nh → ℂ) (hist : List (Call c.nh)), c.stack[k]? = some r →
      pyGet c.stack i = .ok r → k ≤ c.stack.length - 1 → ∃ F, (getZPoyntingFlux E c i x y
        (afterCalls E c hist (Dyn.fresh mats (unsolved c.nh)))).1 = .ok F ∧
        poyntingFlux c (modesD (mats r) (A1 r)) x y = .ok F := by
    intro k i r x y hist hk hr hkl
    obtain ⟨hM, hL⟩ := hmd k r hk
    have hq := hqs k _ (by rw [hlen]; exact hkl) hL
    obtain ⟨F, hF⟩ : ∃ F, poyntingFlux c (modesD (mats r) (A1 r)) x y = .ok F := by
      unfold poyntingFlux
      rw [if_neg]
      · exact ⟨_, rfl⟩
      · push Not
        exact fun j => mul_ne_zero (by exact_mod_cast hom.ne') (hq j)
    refine ⟨F, ?_, hF⟩
    have hsuc : Succeeds (Inv E c mats (unsolved c.nh) A1 res) (getZPoyntingFlux E c i x y) (fun f _ => f = F) := by
      unfold getZPoyntingFlux
      refine Succeeds.bind (succeeds_ensureSolved hs hres) fun _ => Succeeds.get_bind fun d hd => ?_
      refine Succeeds.bind (Q := fun M _ => M = modesD (mats r) (A1 r)) (Succeeds.lift (a := modesD (mats r) (A1 r)) ?_ fun _ _ => rfl) fun M => ?_
      · unfold layerModes
        rw [hr, except_bind_ok, hd.1.mats_eq, hd.attrs_eq]
        exact hM
      · rintro d' rfl
        exact ⟨F, d', by rw [hF]; rfl, rfl⟩
    obtain ⟨f, d', h1, rfl⟩ := hsuc _ (h0.calls hs hist)
    rw [h1]
  obtain ⟨F0, hF0, hP0⟩ := hflux 0 0 r0 a (SM.s21 *ᵥ a + SM.s22 *ᵥ b) hist0 hr0' hr0 (by omega)
  obtain ⟨FN, hFN, hPN⟩ := hflux _ (-1) rN (SM.s11 *ᵥ a + SM.s12 *ᵥ b) b histN hrN' hrN le_rfl
  refine ⟨F0, FN, hF0, hFN, ?_⟩
  -- the inner layers
  have hmed := solved_medium (stack := c.stack) (by rw [hst]; exact hmu) hE (by rw [hst]; exact hw) hfix
  obtain ⟨n, hn⟩ : ∃ n, c.stack.length - 1 = n + 1 := ⟨c.stack.length - 2, by omega⟩
  have hloss := stack_loss hS (amp := amp) hL0 n (by rw [hlen]; omega)
    (by rw [hlen, hn] at hcons; exact hcons) (by
      intro k L hk0 hkn hL
      obtain ⟨r, hr⟩ : ∃ r, c.stack[k]? = some r := ⟨_, List.getElem?_eq_getElem (by omega)⟩
      obtain ⟨P, ee, m1, m2⟩ := hmed k r hr
      obtain ⟨i1, i2⟩ := hin k r hk0 (by rw [← hst]; omega) (hst ▸ hr)
      obtain ⟨FP, Fe⟩ := i1 P ee m1
      obtain ⟨hMk, hLk⟩ := hmd k r hr
      rw [hL] at hLk
      obtain rfl := Option.some.inj hLk
      refine power_loss hS hom.ne' hg.kxr hg.kyr m2 FP Fe hMk
        (hqs k _ (by rw [hlen]; omega) hL) (amp k).1 (amp k).2 ?_
      unfold Modes.z modesD
      dsimp only
      rcases ht : (mats r).thickness with _ | t
      · exact hS.zeroD
      · exact i2 t ht) _ (by rw [← hn]; exact hLN)
  have z0 : (modesD (mats r0) (A1 r0)).z = 0 := hends r0 (.inl hhead)
  have zN : (modesD (mats rN) (A1 rN)).z = 0 := hends rN (.inr hlast)
  rw [z0, ← hn, ← hlen, ha0, hb0, ha0, hbN, haN, ha0, hbN, flux_total hom.ne' z0 hP0, flux_total hom.ne' zN hPN, ← mul_sub] at hloss
  exact hloss

end Nannos
