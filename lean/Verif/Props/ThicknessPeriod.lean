import Verif.Props.HalfWave
import Verif.Proofs.LastLayer

/-! **C117**: half waves more or less of a homogeneous layer. -/

namespace Nannos

open Matrix Spec

section
variable {m : Type} [Fintype m] [DecidableEq m]

theorem linSolve_smul {A B X : Matrix m m ℂ} (k : ℂ) (h : linSolve A B = .ok X) : linSolve A (k • B) = .ok (k • X) := by
  unfold linSolve at h ⊢
  split at h
  · cases h
  · rename_i hA
    rw [if_neg hA, ← Except.ok.inj h, Matrix.mul_smul]

/-- One step of the loop with signs on the blocks and on the phases of the two layers. -/
theorem stepS_signs {S T : SMat m} {L M L' M' : Modes m} {u v w e e' : ℂ} (hL : ThicknessOnly L L') (hM : ThicknessOnly M M')
    (fL : L'.f = e • L.f) (fM : M'.f = e' • M.f) (hev : e * v = 1) (hweu : w * (e * u) = 1) (h : stepS S L M = .ok T) :
    stepS ⟨u • S.s11, v • S.s12, S.s21, w • S.s22⟩ L' M' = .ok ⟨(e * u) • T.s11, e' • T.s12, T.s21, (w * e') • T.s22⟩ := by
  unfold stepS buildI at h ⊢
  rw [buildM_same hL, buildM_same hM]
  dsimp only at h ⊢
  rw [bind_eq_ok] at h
  obtain ⟨I, hI, h⟩ := h
  rw [bind_eq_ok] at h
  obtain ⟨s11, h11, h⟩ := h
  rw [bind_eq_ok] at h
  obtain ⟨s12, h12, h⟩ := h
  simp only [except_pure_eq_ok, Except.ok.injEq] at h
  subst h
  have e1 : L'.f * (v • S.s12) = L.f * S.s12 := by rw [fL, Matrix.smul_mul, Matrix.mul_smul, smul_smul, hev, one_smul]
  have e2 : L'.f * (u • S.s11) = (e * u) • (L.f * S.s11) := by rw [fL, Matrix.smul_mul, Matrix.mul_smul, smul_smul]
  rw [hI, except_bind_ok, e1, e2, fM, linSolve_smul _ h11, except_bind_ok, Matrix.mul_smul, linSolve_smul _ h12, except_bind_ok]
  simp only [except_pure_eq_ok, Except.ok.injEq, SMat.mk.injEq, true_and]
  refine ⟨?_, ?_⟩
  · rw [Matrix.mul_smul, Matrix.smul_mul, Matrix.smul_mul, smul_smul, mul_comm, hweu, one_smul]
  · simp only [Matrix.mul_smul, Matrix.smul_mul, smul_smul, smul_add, mul_comm e' w]

/-- Two lists of layers which differ by the thickness of layer `k`, whose phases take the sign `s`. -/
def OnePhase (k : ℕ) (s : ℂ) (l l' : List (Modes m)) : Prop :=
  ∀ n L, l[n]? = some L → ∃ L', l'[n]? = some L' ∧ ThicknessOnly L L' ∧ L'.f = (if n = k then s else 1 : ℂ) • L.f

theorem loopS_signs {k : ℕ} (hk : 0 < k) {s : ℂ} (hs : s * s = 1) {l l' : List (Modes m)} (h : OnePhase k s l l') :
    ∀ (n : ℕ) (S : SMat m), loopS l (0 : ℕ) (n : ℕ) = .ok S → loopS l' (0 : ℕ) (n : ℕ) =
      .ok ⟨(if k < n then s else 1 : ℂ) • S.s11, (if n = k then s else 1 : ℂ) • S.s12, S.s21, (if k ≤ n then s else 1 : ℂ) • S.s22⟩ := by
  intro n
  induction n with
  | zero =>
    intro S hS
    erw [loopS_self] at hS ⊢
    rw [if_neg (by omega), if_neg (by omega), if_neg (by omega), ← Except.ok.inj hS]
    simp [SMat.one]
  | succ n ih =>
    intro S hS
    obtain ⟨S0, L, M, h1, h2, h3, h4⟩ := loopS_succ_ok (Nat.zero_le _) hS
    obtain ⟨L', g1, t1, f1⟩ := h n L h2
    obtain ⟨M', g2, t2, f2⟩ := h (n + 1) M h3
    have hstep := stepS_signs (u := if k < n then s else 1) (v := if n = k then s else 1) (w := if k ≤ n then s else 1) t1 t2 f1 f2
      (by split <;> simp [hs]) (by
        rcases lt_trichotomy n k with hn | hn | hn
        · rw [if_neg (by omega), if_neg (by omega), if_neg (by omega)]; norm_num
        · rw [if_pos (by omega), if_pos (by omega), if_neg (by omega), mul_one, hs]
        · rw [if_pos (by omega), if_neg (by omega), if_pos (by omega), one_mul, hs]) h4
    rw [Nat.cast_add, Nat.cast_one, loopS_succ _ _ _ (Nat.zero_le _), ih S0 h1, except_bind_ok]
    refine stepAt_ok.mpr ⟨L', M', g1, g2, ?_⟩
    rw [hstep]
    congr 2
    · rcases lt_trichotomy n k with hn | hn | hn
      · rw [if_neg (by omega), if_neg (by omega), if_neg (by omega), one_mul]
      · rw [if_pos (by omega), if_neg (by omega), if_pos (by omega), mul_one]
      · rw [if_neg (by omega), if_pos (by omega), if_pos (by omega), one_mul]
    · by_cases hn : n + 1 = k
      · rw [if_neg (by omega), if_pos hn, if_pos (by omega), one_mul]
      · rw [if_neg hn, mul_one]
        by_cases h5 : k ≤ n
        · rw [if_pos h5, if_pos (by omega)]
        · rw [if_neg h5, if_neg (by omega)]

end

section
variable {E : Ext} {lats : ℕ → Lattice} {mats mats' : ℕ → LayerSpec} {pre post : List ℕ} {exc : PlaneWave} {nh : ℤ} {form : String}
  {c : Static} {z : ℕ}

/-- **C117**. `mats'` are the layers `mats`, an inner homogeneous one with the thickness `d'` instead of `d`, and the waves of all the
orders make across the thickness `d' - d` whole numbers of half waves, all even or all odd. Whatever efficiencies are returned for the
first structure are returned for the second, and the scattering matrix is the same but for the sign of the waves which go through. -/
theorem C117_half_waves_of_thickness (hpre : pre ≠ []) (hpost : post ≠ [])
    (hinit : simInit E lats mats (pre ++ z :: post) exc nh form = .ok c) (hu : Homogeneous (mats z)) (hmu : (mats z).mu = 1)
    {d d' : ℝ} (hd : (mats z).thickness = some d) (hdd : d' ≠ d)
    (hm : mats' = Function.update mats z { mats z with thickness := some d' }) {s : ℂ} (hs : s = 1 ∨ s = -1)
    (hh : HalfWaves c.omega c.kx c.ky (mats z).epsilon.value (d' - d) s) (hist hist' : List (Call c.nh)) :
    simInit E lats mats' (pre ++ z :: post) exc nh form = .ok c ∧
    (∀ R T, (efficienciesByOrder E c (afterCalls E c hist (Dyn.fresh mats (unsolved c.nh)))).1 = .ok (R, T) →
      (efficienciesByOrder E c (afterCalls E c hist' (Dyn.fresh mats' (unsolved c.nh)))).1 = .ok (R, T)) ∧
    ∀ S, (getS E c none (afterCalls E c hist (Dyn.fresh mats (unsolved c.nh)))).1 = .ok S →
      ∃ S', (getS E c none (afterCalls E c hist' (Dyn.fresh mats' (unsolved c.nh)))).1 = .ok S' ∧
        S'.s11 = s • S.s11 ∧ S'.s12 = S.s12 ∧ S'.s21 = S.s21 ∧ S'.s22 = s • S.s22 := by
  let t : ℕ → ℝ := fun r => (mats r).thickness.getD 0
  let t' : ℕ → ℝ := Function.update t z d'
  have e0 : mats = withThicknesses mats t := by
    funext r
    show mats r = { mats r with thickness := (mats r).thickness.map fun _ => (mats r).thickness.getD 0 }
    have : (mats r).thickness.map (fun _ => (mats r).thickness.getD 0) = (mats r).thickness := by
      rcases (mats r).thickness with _ | x <;> rfl
    rw [this]
  have e1 : mats' = withThicknesses mats t' := by
    funext r
    by_cases hr : r = z
    · subst hr
      rw [hm, Function.update_self]
      show _ = { mats r with thickness := (mats r).thickness.map fun _ => Function.update t r d' r }
      rw [hd, Function.update_self]
      rfl
    · rw [hm, Function.update_of_ne hr]
      show mats r = { mats r with thickness := (mats r).thickness.map fun _ => Function.update t z d' r }
      rw [Function.update_of_ne hr]
      exact congrFun e0 r
  have hi := simInit_ok hinit
  have hst : c.stack = pre ++ z :: post := hi.stack_eq
  have hnd : c.stack.Nodup := hst ▸ hi.nodup
  obtain ⟨A, res, sp⟩ := withThicknesses_spec (E := E) (mats := mats) hnd
  have sp0 : SolveSpec E c mats (unsolved c.nh) A res := by have := sp t; rwa [← e0] at this
  have sp1 : SolveSpec E c mats' (unsolved c.nh) A res := by have := sp t'; rwa [← e1] at this
  have i0 : Inv E c mats (unsolved c.nh) A res (afterCalls E c hist (Dyn.fresh mats (unsolved c.nh))) :=
    Inv.calls sp0 hist (inv_fresh _ (.inl rfl))
  have i1 : Inv E c mats' (unsolved c.nh) A res (afterCalls E c hist' (Dyn.fresh mats' (unsolved c.nh))) :=
    Inv.calls sp1 hist' (inv_fresh _ (.inl rfl))
  have hss : s * s = 1 := by rcases hs with rfl | rfl <;> norm_num
  have hst' : star s * s = 1 := by rcases hs with rfl | rfl <;> simp
  have hlen : ((c.stack.length : ℤ) - 1) = (((pre ++ z :: post).length - 1 : ℕ) : ℤ) := by
    rw [hst]
    simp only [List.length_append, List.length_cons]
    omega
  have hpost' := List.length_pos_iff.mpr hpost
  have hpre' := List.length_pos_iff.mpr hpre
  have hval : ∀ S, valS c mats A res none = .ok S →
      valS c mats' A res none = .ok ⟨s • S.s11, S.s12, S.s21, s • S.s22⟩ := by
    intro S hS
    obtain rfl := valS_ok hS
    have hfix := sp0.fix hnd rfl
    have hfix' := sp1.fix hnd rfl
    rw [valS_none, valS_solved hfix, hlen] at hS
    rw [valS_none, valS_solved hfix', hlen]
    obtain ⟨h1, h2⟩ := (freshS_ok (i := 0)).mp hS
    refine (freshS_ok (i := 0)).mpr ⟨h1, ?_⟩
    have hfz := hfix z (by rw [hst]; simp)
    obtain ⟨-, g, hg⟩ := uniform_flux hfz hu.1 hu.2.1 hmu hfz.form.modesD
    have hone : OnePhase pre.length s (stackModes c mats A) (stackModes c mats' A) := by
      intro n L hL
      unfold stackModes at hL ⊢
      rw [List.getElem?_map, Option.map_eq_some_iff] at hL
      obtain ⟨r, hr, rfl⟩ := hL
      refine ⟨modesD (mats' r) (A r), by rw [List.getElem?_map, hr]; rfl, ⟨rfl, rfl, rfl⟩, ?_⟩
      have hz : n = pre.length ↔ r = z := by
        have h0 : c.stack[pre.length]? = some z := by rw [hst]; simp
        constructor
        · rintro rfl
          exact Option.some.inj (hr.symm.trans h0)
        · rintro rfl
          have hlt := (List.getElem?_eq_some_iff.mp hr).1
          exact (List.getElem?_inj hlt hnd).mp (hr.trans h0.symm)
      by_cases hrz : r = z
      · subst hrz
        rw [if_pos (hz.mpr rfl)]
        have z0 : (modesD (mats r) (A r)).z = d := by simp [Modes.z, modesD, hd]
        have z1 : (modesD (mats' r) (A r)).z = d' := by simp [Modes.z, modesD, hm]
        unfold Modes.f
        rw [z0, z1, ← Matrix.diagonal_smul]
        congr 1
        funext j
        have hph : Complex.exp (Complex.I * (modesD (mats r) (A r)).q j * ((d' - d : ℝ) : ℂ)) = s := by
          rw [hg.q]
          rcases j with i | i
          · obtain ⟨p, h1, h2⟩ := hh i
            exact half_wave_exp (sub_ne_zero.mpr hdd) (by rw [Sum.elim_inl, hg.g_eq, csqrt_sq]) h1 h2
          · obtain ⟨p, h1, h2⟩ := hh i
            exact half_wave_exp (sub_ne_zero.mpr hdd) (by rw [Sum.elim_inr, hg.g_eq, csqrt_sq]) h1 h2
        have hq : (modesD (mats' r) (A r)).q = (modesD (mats r) (A r)).q := rfl
        simp only [phasor, Pi.smul_apply, smul_eq_mul]
        rw [← hph, ← Complex.exp_add, hq]
        congr 1
        push_cast
        ring
      · rw [if_neg (fun h => hrz (hz.mp h)), one_smul]
        have : mats' r = mats r := by rw [hm, Function.update_of_ne hrz]
        rw [this]
    have key := loopS_signs hpre' hss hone _ S h2
    rw [key]
    rw [if_pos (by simp only [List.length_append, List.length_cons]; omega),
      if_neg (by simp only [List.length_append, List.length_cons]; omega),
      if_pos (by simp only [List.length_append, List.length_cons]; omega), one_smul]
  refine ⟨by rw [e1, withThicknesses_init]; exact hinit, fun R T hRT => ?_, fun S hS => ?_⟩
  · obtain ⟨hres, S, r0, rn, M0, MN, f0, fN, hS, hr0, hrN, hM0, hMN, hf0, hfN, hfl, hRT⟩ :=
      yields_efficiencies sp0 _ (R, T) _ i0 (Prod.ext hRT rfl)
    have hne : ∀ r ∈ pre ++ post, mats' r = mats r := by
      intro r hr
      rw [hm, Function.update_of_ne]
      rintro rfl
      have := hst ▸ hnd
      simp only [List.nodup_append, List.nodup_cons, List.mem_cons] at this
      rcases List.mem_append.mp hr with h | h
      · exact this.2.2 r h r (.inl rfl) rfl
      · exact this.2.1.1 h
    have m0 : r0 ∈ pre ++ post := by
      have h0 := pyGet_zero_some hr0
      obtain ⟨a, pre', rfl⟩ := List.exists_cons_of_ne_nil hpre
      rw [hst] at h0
      obtain rfl : a = r0 := by simpa using h0
      simp
    have mN : rn ∈ pre ++ post := by
      have h0 := pyGet_last_some hrN
      rw [hst, show pre ++ z :: post = (pre ++ [z]) ++ post by simp, List.getLast?_append_of_ne_nil _ hpost] at h0
      exact List.mem_append_right _ (List.mem_of_getLast? h0)
    have hq : ∀ {M : Modes (Idx c.nh)} {a b f}, poyntingFlux c M a b = .ok f → ∀ k, (c.omega : ℂ) * M.q k ≠ 0 := by
      intro M a b f hf k hk
      unfold poyntingFlux at hf
      rw [if_pos ⟨k, hk⟩] at hf
      cases hf
    obtain ⟨RT', d1, k1, -, g0, gN, y1, y2, rfl⟩ := succeeds_efficiencies sp1 (hval S hS) hr0 hrN (by rw [hne r0 m0]; exact hM0)
      (by rw [hne rn mN]; exact hMN) (hq hf0) (hq hfN) hfl _ i1
    dsimp only at y1 y2
    rw [Matrix.smul_mulVec, poyntingFlux_sign hst'] at y2
    obtain rfl := Except.ok.inj (hf0.symm.trans y1)
    obtain rfl := Except.ok.inj (hfN.symm.trans y2)
    rw [k1, hRT]
  · rw [(det_getS' sp0 none _ i0).1] at hS
    rw [(det_getS' sp1 none _ i1).1]
    exact ⟨_, hval S hS, rfl, rfl, rfl, rfl⟩

end

namespace Examples

/-- At wavelength 4 the layer of permittivity 4 and thickness 1 is one half wave thick. -/
theorem five_half_wave {exc : PlaneWave} {c : Static} {stack : List ℕ} {ps : ℝ} (hp : planeWave 4 (0, 0, ps) = .ok exc)
    (hi : simInit exE (fun _ => exLat) fiveMats stack exc 1 "original" = .ok c) (h0 : stack.head? = some 0)
    (hH : c.harmonics = [(0, 0)]) : HalfWaves c.omega c.kx c.ky (fiveMats 2).epsilon.value 1 (-1) := by
  intro i
  refine ⟨1, ?_, by norm_num⟩
  have hsin : Real.sin exc.theta = 0 := by rw [(planeWave_ok hp).2.2.1]; simp
  have hI := simInit_ok hi
  obtain ⟨r, -, kx, ky⟩ := hI.recip
  have h00 : c.harmonics.get i = (0, 0) := by
    have := List.get_mem c.harmonics i
    generalize c.harmonics.get i = x at this ⊢
    rw [hH] at this
    simpa using this
  have hk := (hI.sup 0 h0).2.2.2.2
  have hwv : exc.wavevector 0 = 0 ∧ exc.wavevector 1 = 0 := by
    constructor <;> rw [(planeWave_ok hp).2.2.2.2.2.2.1] <;> simp [hsin]
  rw [kx i, ky i, h00, hI.omega_eq, (planeWave_ok hp).2.1, fiveMats_eps, hk]
  simp only [kxOf, kyOf, Nannos.k0para, hwv.1, hwv.2]
  simp
  push_cast
  ring

/-- C117: the layer of permittivity 4 between permittivities 1 and 2, of thickness 1, is given the thickness 2. -/
example : ∃ (exc : PlaneWave) (c : Static) (R T : Fin c.nh → ℝ), planeWave 4 (0, 0, 30) = .ok exc ∧
    simInit exE (fun _ => exLat) fiveMats [0, 2, 1] exc 1 "original" = .ok c ∧
    (efficienciesByOrder exE c (Dyn.fresh fiveMats (unsolved c.nh))).1 = .ok (R, T) ∧
    (efficienciesByOrder exE c
      (Dyn.fresh (Function.update fiveMats 2 { fiveMats 2 with thickness := some 2 }) (unsolved c.nh))).1 = .ok (R, T) := by
  have h4 : (0 : ℝ) < 4 := by norm_num
  obtain ⟨exc, hp, -⟩ := normal_incidence 4 30 h4
  obtain ⟨c, hi, hH, ⟨R, T⟩, hRT⟩ := five_eff 0 2 [1] h4 hp (by simp [fiveMats, exLayer])
  refine ⟨exc, c, R, T, hp, hi, hRT, ?_⟩
  have hh := five_half_wave hp hi rfl hH
  exact (C117_half_waves_of_thickness (pre := [0]) (post := [1]) (z := 2) (d := 1) (d' := 2) (by simp) (by simp) hi ⟨rfl, rfl, rfl⟩ rfl rfl
    (by norm_num) rfl (.inr rfl) (by rw [show (2 : ℝ) - 1 = 1 by norm_num]; exact hh) [] []).2.1 R T hRT

end Examples

end Nannos
