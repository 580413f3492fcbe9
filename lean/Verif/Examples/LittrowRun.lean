import Verif.Examples.LittrowModes

/-! The efficiencies of the grating of `Littrow`. -/

namespace Nannos.Examples

open Matrix Nannos Spec

variable {c : Static} {i0 i1 : Fin c.nh}

/-- Modes of air and of the grating. -/
noncomputable def airModes (c : Static) : Modes (Idx c.nh) := ⟨fun _ => (lz : ℂ), 1, airQ c, some 0⟩
noncomputable def gratingModes (c : Static) (i0 : Fin c.nh) : Modes (Idx c.nh) :=
  ⟨fun i => (Real.sqrt (lW i0 i) : ℂ), lV i0, lQ c i0, some (1 / (4 * lC))⟩
noncomputable def airZ (c : Static) : Idx c.nh → ℝ := Sum.elim (fun _ => lw ^ 2 / lz) (fun _ => lz)
noncomputable def gratingY (i0 : Fin c.nh) : Idx c.nh → ℝ := fun i => lY i0 i / Real.sqrt (lW i0 i)

theorem airZ_pos (i) : 0 < airZ c i := by
  have := lw_pos
  have := lz_pos
  unfold airZ
  rcases i with i | i <;> dsimp only [Sum.elim_inl, Sum.elim_inr] <;> positivity

theorem gratingY_pos (i) : 0 < gratingY i0 i := div_pos (lY_pos i0 i) (Real.sqrt_pos.mpr (lW_pos i0 i))

theorem Littrow.airQ (h : Littrow c i0 i1) : airQ c = fromBlocks (mat2 i0 ((lw : ℂ) ^ 2) 0 0 ((lw : ℂ) ^ 2)) 0 0
    (mat2 i0 ((lz : ℂ) ^ 2) 0 0 ((lz : ℂ) ^ 2)) := by
  have h2 := lw_sqC
  unfold Examples.airQ
  rw [div_one, one_smul, h.two.one, kEps_two h, h.one, h.omega, sub_eq_add_neg, fromBlocks_neg, fromBlocks_add]
  simp only [neg_zero, add_zero]
  rw [← sub_eq_add_neg, h.two.sub]
  congr 2 <;> first | (ring1; done) | linear_combination h2

theorem amat_eq {m : Type} [Fintype m] [DecidableEq m] (L : Modes m) : L.amat = L.Q * (L.phi * diagonal fun k => 1 / L.q k) := by
  unfold Modes.amat
  congr 1
  ext i k
  rw [mul_diagonal, Matrix.of_apply]

theorem Littrow.airAmat (h : Littrow c i0 i1) : (airModes c).amat = diagonal fun i => (airZ c i : ℂ) := by
  have hz : (lz : ℂ) ≠ 0 := by exact_mod_cast lz_pos.ne'
  rw [amat_eq, h.diag fun i => (airZ c i : ℂ)]
  unfold airModes
  dsimp only
  rw [h.airQ, Matrix.one_mul, h.diag, fromBlocks_multiply]
  simp only [Matrix.mul_zero, Matrix.zero_mul, add_zero, zero_add, h.two.mul]
  unfold airZ
  simp only [Sum.elim_inl, Sum.elim_inr]
  push_cast
  congr 2 <;> field_simp <;> ring

theorem Littrow.film (h : Littrow c i0 i1) : FilmModes (airModes c) (gratingModes c i0) (airModes c) (lV i0)
    (fun i => (airZ c i : ℂ)) (fun i => (gratingY i0 i : ℂ)) := by
  have hz : (lz : ℂ) ≠ 0 := by exact_mod_cast lz_pos.ne'
  have hq : ∀ i, (Real.sqrt (lW i0 i) : ℂ) ≠ 0 := fun i => by exact_mod_cast (Real.sqrt_pos.mpr (lW_pos i0 i)).ne'
  refine ⟨rfl, rfl, rfl, h.detV, fun _ => hz, hq, fun _ => hz, fun i => by exact_mod_cast (airZ_pos i).ne',
    fun i => by exact_mod_cast (gratingY_pos i).ne', h.airAmat, h.airAmat, ?_, ?_⟩
  · rw [amat_eq]
    unfold gratingModes
    dsimp only
    rw [← Matrix.mul_assoc, h.QV, Matrix.mul_assoc, diagonal_mul_diagonal]
    congr 2
    funext i
    unfold gratingY
    push_cast
    ring
  · rw [h.diag]
    unfold lV airZ
    simp only [Sum.elim_inl, Sum.elim_inr, fromBlocks_multiply, Matrix.mul_zero, Matrix.zero_mul, add_zero, zero_add, h.two.mul]
    congr 2 <;> ring

theorem phasor_norm (i : Idx c.nh) : ‖phasor (gratingModes c i0).q (gratingModes c i0).z i‖ = 1 := by
  unfold phasor
  rw [show Complex.I * (gratingModes c i0).q i * ((gratingModes c i0).z : ℂ) =
    ((Real.sqrt (lW i0 i) * (gratingModes c i0).z : ℝ) : ℂ) * Complex.I from by
      unfold gratingModes; push_cast; ring]
  exact Complex.norm_exp_ofReal_mul_I _

theorem Littrow.S (h : Littrow c i0 i1) : ∃ S, freshS [airModes c, gratingModes c i0, airModes c] (0 : ℕ) (2 : ℕ) = .ok S := by
  refine h.film.S (fun i => ?_) fun i => ?_
  · have := airZ_pos i
    have := gratingY_pos (i0 := i0) i
    have : (0 : ℝ) < 1 + gratingY i0 i / airZ c i := by positivity
    exact_mod_cast this.ne'
  · have h1 := airZ_pos i
    have h2 := gratingY_pos (i0 := i0) i
    intro he
    have he := congrArg (fun x : ℂ => ‖x‖) he
    simp only [norm_mul, norm_pow, phasor_norm, one_pow, one_mul] at he
    have e1 : (1 + (gratingY i0 i : ℂ) / (airZ c i : ℂ)) = ((1 + gratingY i0 i / airZ c i : ℝ) : ℂ) := by push_cast; rfl
    have e2 : (1 - (gratingY i0 i : ℂ) / (airZ c i : ℂ)) = ((1 - gratingY i0 i / airZ c i : ℝ) : ℂ) := by push_cast; rfl
    rw [e1, e2, Complex.norm_real, Complex.norm_real, Real.norm_eq_abs, Real.norm_eq_abs, sq_abs, sq_abs] at he
    have : 0 < gratingY i0 i / airZ c i := by positivity
    nlinarith

theorem lz_thick : lz * (1 / (4 * lC)) = Real.pi / 2 := by
  have := lC_pos
  unfold lz
  field_simp
  ring

theorem Littrow.phase0 (h : Littrow c i0 i1) : phasor (gratingModes c i0).q (gratingModes c i0).z (.inl i0) = Complex.I := by
  have e : Real.sqrt (lW i0 (.inl i0)) = lz := by
    unfold lW
    simp only [Sum.elim_inl, if_true]
    exact Real.sqrt_sq lz_pos.le
  unfold phasor gratingModes Modes.z
  simp only [e, Option.getD_some]
  rw [mul_assoc, ← Complex.ofReal_mul, lz_thick, mul_comm]
  push_cast
  exact Complex.exp_pi_div_two_mul_I

theorem Littrow.phase1 (h : Littrow c i0 i1) : phasor (gratingModes c i0).q (gratingModes c i0).z (.inl i1) = -1 := by
  have e : Real.sqrt (lW i0 (.inl i1)) = 2 * lz := by
    unfold lW
    simp only [Sum.elim_inl, if_neg h.two.ne.symm]
    rw [show 4 * lz ^ 2 = (2 * lz) ^ 2 by ring]
    exact Real.sqrt_sq (by have := lz_pos; positivity)
  unfold phasor gratingModes Modes.z
  simp only [e, Option.getD_some]
  rw [mul_assoc, ← Complex.ofReal_mul, mul_assoc, lz_thick, mul_comm, show 2 * (Real.pi / 2) = Real.pi by ring]
  exact Complex.exp_pi_mul_I

/-- Amplitudes of the modes of the grating below the first interface. -/
noncomputable def lAl (i0 : Fin c.nh) : Idx c.nh → ℂ :=
  Sum.elim (fun i => if i = i0 then -(lC : ℂ) / (lu + lu') else -(lC : ℂ) * lu' / (lu + lu')) 0

theorem Littrow.mulV (h : Littrow c i0 i1) (a b : ℂ) (v : Idx c.nh → ℂ) (h0 : v (.inl i0) = a) (h1 : v (.inl i1) = b)
    (hr : ∀ i, v (.inr i) = 0) : (lV i0 *ᵥ v) (.inl i0) = lu * a + b ∧ (lV i0 *ᵥ v) (.inl i1) = -lu' * a + b ∧
      ∀ i, (lV i0 *ᵥ v) (.inr i) = 0 := by
  refine ⟨?_, ?_, fun i => ?_⟩ <;> simp only [mulVec, dotProduct, Fintype.sum_sum_type, lV, fromBlocks_apply₁₁, fromBlocks_apply₁₂,
    fromBlocks_apply₂₁, hr, mul_zero, Finset.sum_const_zero, add_zero, h.two.sum, mat2_00, h.two.m01, h.two.m10, h.two.m11, h0, h1, one_mul,
    Matrix.zero_apply, zero_mul]

theorem Littrow.out (h : Littrow c i0 i1) {S : SMat (Idx c.nh)}
    (hS : freshS [airModes c, gratingModes c i0, airModes c] (0 : ℕ) (2 : ℕ) = .ok S) :
    S.s21 *ᵥ c.a0 = 0 ∧ (S.s11 *ᵥ c.a0) (.inl i0) = -(lC : ℂ) / (lu + lu') * (Complex.I * lu - lu') ∧
      (S.s11 *ᵥ c.a0) (.inl i1) = (lC : ℂ) / (lu + lu') * (lu' * (1 + Complex.I)) ∧ ∀ i, (S.s11 *ᵥ c.a0) (.inr i) = 0 := by
  have hne := lb_ne
  rw [← lu_add] at hne
  have hf0 : (airModes c).f = 1 := by
    unfold Modes.f phasor airModes Modes.z
    simp only [Option.getD_some, Complex.ofReal_zero, mul_zero, Complex.exp_zero]
    exact diagonal_one
  have hal : lV i0 *ᵥ lAl i0 = c.a0 := by
    obtain ⟨k0, k1, k2⟩ := h.mulV _ _ (lAl i0) rfl rfl (fun _ => rfl)
    have e0 : lAl i0 (.inl i0) = -(lC : ℂ) / (lu + lu') := by simp [lAl]
    have e1 : lAl i0 (.inl i1) = -(lC : ℂ) * lu' / (lu + lu') := by simp [lAl, h.two.ne.symm]
    rw [e0, e1] at k0 k1
    funext i
    rcases i with i | i
    · rcases h.two.all i with rfl | rfl
      · rw [k0, h.a00]; field_simp; ring
      · rw [k1, h.a01]; field_simp; ring
    · rw [k2, h.a0r]
  obtain ⟨t1, t2⟩ := h.film.through hS hf0 (lAl i0) (by
    intro i
    rcases i with i | i
    · left
      rcases h.two.all i with rfl | rfl
      · right
        have e : Real.sqrt (lW i (.inl i)) = lz := by
          unfold lW
          simp only [Sum.elim_inl, if_true]
          exact Real.sqrt_sq lz_pos.le
        unfold gratingY airZ
        rw [e]
        rfl
      · left
        rw [h.phase1]; norm_num
    · right; rfl)
  rw [hal] at t1 t2
  obtain ⟨k0, k1, k2⟩ := h.mulV (Complex.I * (-(lC : ℂ) / (lu + lu'))) (-1 * (-(lC : ℂ) * lu' / (lu + lu')))
    (fun i => phasor (gratingModes c i0).q (gratingModes c i0).z i * lAl i0 i)
    (by simp only [h.phase0]; simp [lAl]) (by simp only [h.phase1]; simp [lAl, h.two.ne.symm]) (fun i => by simp [lAl])
  rw [t1]
  refine ⟨t2, by rw [k0]; field_simp; ring, by rw [k1]; field_simp; ring, k2⟩

theorem Littrow.efficiencies (h : Littrow c i0 i1) :
    (diffractionEfficiencies (littrowE c i0) c false (Dyn.fresh littrowMats (unsolved c.nh))).1 =
      .ok (.total 0 (1 + 2 * lb / (1 - 2 * lb) ^ 2)) := by
  let ev : ℕ → (Idx c.nh → ℂ) × Matrix (Idx c.nh) (Idx c.nh) ℂ := fun r =>
    if r = 1 then (fun i => (Real.sqrt (lW i0 i) : ℂ), lV i0) else (fun _ => (lz : ℂ), 1)
  let Q : ℕ → Matrix (Idx c.nh) (Idx c.nh) ℂ := fun r => if r = 1 then Examples.lQ c i0 else Examples.airQ c
  have hnd : c.stack.Nodup := by rw [h.stack]; decide
  obtain ⟨A1, hs, h3, h4⟩ := solved_steps (E := littrowE c i0) (mats := littrowMats) ev Q hnd (by
    intro r hr Ao
    rw [h.stack] at hr
    simp only [List.mem_cons, List.not_mem_nil, or_false] at hr
    rcases hr with rfl | rfl | rfl
    · exact h.air _ rfl rfl rfl Ao
    · exact h.grating Ao
    · exact h.air _ rfl rfl rfl Ao)
  obtain ⟨S, hS⟩ := h.S
  have m0 : (⟨(ev 0).1, (ev 0).2, Q 0, (littrowMats 0).thickness⟩ : Modes (Idx c.nh)) = airModes c := rfl
  have m1 : (⟨(ev 1).1, (ev 1).2, Q 1, (littrowMats 1).thickness⟩ : Modes (Idx c.nh)) = gratingModes c i0 := rfl
  have m2 : (⟨(ev 2).1, (ev 2).2, Q 2, (littrowMats 2).thickness⟩ : Modes (Idx c.nh)) = airModes c := rfl
  have v0 := h4 0 (by rw [h.stack]; simp)
  have v2 := h4 2 (by rw [h.stack]; simp)
  rw [m0] at v0
  rw [m2] at v2
  have hS' : valS c littrowMats A1 (.ok ()) none = .ok S := by
    rw [valS_none, h3, h.stack]
    simp only [List.map_cons, List.map_nil, m0, m1, m2]
    exact hS
  have hr0 : pyGet c.stack 0 = .ok 0 := by rw [h.stack]; rfl
  have hrN : pyGet c.stack (-1) = .ok 2 := by rw [h.stack]; rfl
  have hz : (lz : ℂ) ≠ 0 := by exact_mod_cast lz_pos.ne'
  have hw : (lw : ℂ) ≠ 0 := by exact_mod_cast lw_pos.ne'
  have hq : ∀ k, (c.omega : ℂ) * (airModes c).q k ≠ 0 := fun k => by rw [h.omega]; exact mul_ne_zero hw hz
  have hC := lC_pos
  obtain ⟨RT, d', e1, -, f0, fN, e2, e3, e4⟩ := succeeds_efficiencies hs hS' hr0 hrN v0 v2 hq hq (by rw [h.flux]; exact hC.ne')
    (Dyn.fresh littrowMats (unsolved c.nh)) (inv_fresh _ (.inl rfl))
  obtain ⟨s21, t0, t1, tr⟩ := h.out hS
  have hA : (airModes c).Q * (airModes c).phi * diagonal (fun k => 1 / ((c.omega : ℂ) * (airModes c).q k)) =
      diagonal fun i => (airZ c i : ℂ) / lw := by
    have := h.airAmat
    rw [amat_eq, ← Matrix.mul_assoc] at this
    have e : (fun k => 1 / ((c.omega : ℂ) * (airModes c).q k)) = fun k => (1 / (airModes c).q k) * (1 / (lw : ℂ)) := by
      funext k
      rw [h.omega]
      have : (airModes c).q k ≠ 0 := hz
      field_simp
    rw [e, ← diagonal_mul_diagonal, ← Matrix.mul_assoc, this, diagonal_mul_diagonal]
    congr 1
    funext k
    ring
  have hne : ¬ ∃ k, (c.omega : ℂ) * (airModes c).q k = 0 := by push Not; exact hq
  have hphi : (airModes c).phi = 1 := rfl
  have g0 : ∀ i, f0.2 i = 0 := by
    intro i
    unfold poyntingFlux at e2
    rw [if_neg hne] at e2
    dsimp only at e2
    rw [s21] at e2
    obtain rfl := Except.ok.inj e2
    simp
  have hu2 : ‖lu + lu'‖ ^ 2 = (1 - 2 * lb) ^ 2 := by
    rw [lu_add, Complex.norm_real, Real.norm_eq_abs, sq_abs]
  have n0 : ‖Complex.I * lu - lu'‖ ^ 2 = 1 / 2 := by
    have : Complex.I * lu - lu' = ((-(1 / 2) : ℝ) : ℂ) + ((1 / 2 : ℝ) : ℂ) * Complex.I := by
      unfold lu lu'
      push_cast
      linear_combination (lb : ℂ) * Complex.I_mul_I
    rw [this, ← Complex.normSq_eq_norm_sq, Complex.normSq_add_mul_I]
    norm_num
  have n1 : ‖lu' * (1 + Complex.I)‖ ^ 2 = 2 * ((1 / 2 - lb) ^ 2 + lb ^ 2) := by
    have : lu' * (1 + Complex.I) = ((1 / 2 : ℝ) : ℂ) + ((1 / 2 - 2 * lb : ℝ) : ℂ) * Complex.I := by
      unfold lu'
      push_cast
      linear_combination (-(lb : ℂ)) * Complex.I_mul_I
    rw [this, ← Complex.normSq_eq_norm_sq, Complex.normSq_add_mul_I]
    ring
  have hzw : lw ^ 2 / lz / lw = 1 / lC := by
    have := lw_pos
    have e : lz = lw * lC := rfl
    rw [e]
    field_simp
  have gN : ∀ i, fN.1 i = 1 / lC * ‖(S.s11 *ᵥ c.a0) (.inl i)‖ ^ 2 := by
    intro i
    unfold poyntingFlux at e3
    rw [if_neg hne] at e3
    dsimp only at e3
    rw [hA, hphi] at e3
    obtain rfl := Except.ok.inj e3
    simp only [Matrix.one_mulVec, Matrix.mulVec_zero, mulVec_diagonal, Pi.zero_apply, star_zero, zero_mul, sub_zero, mul_zero, add_zero, tr, Complex.zero_re,
      Complex.ofReal_zero, Complex.ofReal_re]
    have ea : (airZ c (.inl i) : ℂ) / lw = ((1 / lC : ℝ) : ℂ) := by
      rw [← hzw]; unfold airZ; simp only [Sum.elim_inl]; push_cast; rfl
    rw [ea]
    have := Complex.conj_mul' ((S.s11 *ᵥ c.a0) (.inl i))
    rw [show star (((1 / lC : ℝ) : ℂ) * (S.s11 *ᵥ c.a0) (.inl i)) * (S.s11 *ᵥ c.a0) (.inl i) =
      ((1 / lC * ‖(S.s11 *ᵥ c.a0) (.inl i)‖ ^ 2 : ℝ) : ℂ) from by
        simp only [RCLike.star_def, map_mul, Complex.conj_ofReal]
        push_cast
        rw [mul_assoc, this]]
    rw [Complex.ofReal_re]
  unfold diffractionEfficiencies
  rw [PyM.bind_ok e1]
  subst e4
  simp only [Bool.false_eq_true, if_false, PyM.pure_def]
  have hb : (1 - 2 * lb) ≠ 0 := by have := lb_upper; linarith
  congr 2
  · simp [g0]
  · rw [h.two.sum, gN, gN, t0, t1, h.flux, norm_mul, norm_mul, norm_div, norm_div, norm_neg, Complex.norm_real, Real.norm_eq_abs, mul_pow, mul_pow,
      div_pow, sq_abs, hu2, n0, n1]
    field_simp
    ring

theorem littrow_more : 23 / 20 < 1 + 2 * lb / (1 - 2 * lb) ^ 2 := by
  have h1 := lb_lower
  have h2 := lb_upper
  have : 3 / 20 < 2 * lb / (1 - 2 * lb) ^ 2 := by
    rw [lt_div_iff₀ (by have : 0 < 1 - 2 * lb := by linarith
                        positivity)]
    nlinarith
  linarith

end Nannos.Examples
