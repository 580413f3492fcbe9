import Verif.Props.Stress
import Verif.Examples.QuarterWave

/-! C62 is false with formulation `tangent`: the normal stress in a lossless grating changes with the depth. -/

namespace Nannos

open Matrix Spec Examples

namespace Examples

variable {c : Static}

theorem quarter_placed : WellPlaced quarterMats [0, 1, 2] := by
  intro k r hk hc
  exfalso
  have : r ∈ [0, 1, 2] := List.mem_of_getElem? hk
  simp only [List.mem_cons, List.not_mem_nil, or_false] at this
  rcases this with rfl | rfl | rfl <;> exact absurd hc (by decide)

theorem quarter_mu (r : ℕ) (hr : r ∈ [0, 1, 2]) : (quarterMats r).mu = 1 := by
  simp only [List.mem_cons, List.not_mem_nil, or_false] at hr
  rcases hr with rfl | rfl | rfl <;> rfl

theorem quarter_lossless (r : ℕ) (hr : r ∈ [0, 1, 2]) : Lossless (quarterMats r) := by
  have ha : (quarterMats r).isAnisotropic = false := by
    simp only [List.mem_cons, List.not_mem_nil, or_false] at hr
    rcases hr with rfl | rfl | rfl <;>
      simp [quarterMats, exLayer, LayerSpec.isAnisotropic, NdArr.ofGrid, NdArr.scalar, isAnisotropic]
  unfold Lossless LossIn
  rw [ha]
  simp only [Bool.false_eq_true, if_false]
  intro idx _
  simp only [List.mem_cons, List.not_mem_nil, or_false] at hr
  rcases hr with rfl | rfl | rfl
  · show ((NdArr.scalar 1).data idx).im = 0
    simp [NdArr.scalar]
  · show ((NdArr.ofGrid quarterGrid).data idx).im = 0
    unfold NdArr.ofGrid
    dsimp only
    split
    · split
      · unfold quarterGrid; split <;> simp
      · rfl
    · rfl
  · show ((NdArr.scalar 1).data idx).im = 0
    simp [NdArr.scalar]

theorem QuarterSim.phase (i : Fin c.nh) : phasor (quarterModes c).q (quarterModes c).z (.inr i) = Complex.I := by
  have h4 : Real.sqrt 4 = 2 := by rw [show (4 : ℝ) = 2 ^ 2 by norm_num, Real.sqrt_sq (by norm_num)]
  unfold phasor
  rw [show Complex.I * (quarterModes c).q (.inr i) * ((quarterModes c).z : ℂ) = (Real.pi / 2 : ℂ) * Complex.I from by
    simp only [quarterModes, quarterP, Sum.elim_inr, h4, Modes.z, lw, Option.getD_some]; push_cast; ring]
  rw [Complex.exp_mul_I]
  simp

/-- In all histories the fields of the grating are computed, and `E_x` at its top and bottom is known. -/
theorem QuarterSim.fields (h : QuarterSim c) (hist : List (Call c.nh)) :
    (∃ Fs, (getFieldFourier exE c (.idx 1) [0]
        (afterCalls exE c hist (Dyn.fresh quarterMats (unsolved c.nh)))).1 = .ok Fs) ∧
    ∃ F F' : FieldF c.nh, (getFieldFourier exE c (.idx 1) [0, 1 / 8]
        (afterCalls exE c hist (Dyn.fresh quarterMats (unsolved c.nh)))).1 = .ok [F, F'] ∧
      ∀ i, Complex.normSq (F.ex i) = 4 / 25 ∧ Complex.normSq (F'.ex i) = 16 / 25 := by
  let ev : ℕ → (Idx c.nh → ℂ) × Matrix (Idx c.nh) (Idx c.nh) ℂ := fun r =>
    if r = 1 then (fun i => ((lw * Real.sqrt (quarterP c i) : ℝ) : ℂ), 1) else (fun _ => (lw : ℂ), 1)
  let Q : ℕ → Matrix (Idx c.nh) (Idx c.nh) ℂ := fun _ => (lw : ℂ) ^ 2 • 1
  have hnd : c.stack.Nodup := by rw [h.stack]; decide
  obtain ⟨hgr, hmed, M, p, Q', hb, hp⟩ := h.grating
  obtain ⟨A1, hs, h3, h4⟩ := solved_steps (E := exE) (mats := quarterMats) ev Q hnd (by
    intro r hr Ao
    rw [h.stack] at hr
    simp only [List.mem_cons, List.not_mem_nil, or_false] at hr
    rcases hr with rfl | rfl | rfl
    · exact h.air _ rfl rfl rfl Ao
    · exact hgr Ao
    · exact h.air _ rfl rfl rfl Ao)
  have m0 : (⟨(ev 0).1, (ev 0).2, Q 0, (quarterMats 0).thickness⟩ : Modes (Idx c.nh)) = quarterAir c := rfl
  have m1 : (⟨(ev 1).1, (ev 1).2, Q 1, (quarterMats 1).thickness⟩ : Modes (Idx c.nh)) = quarterModes c := rfl
  have m2 : (⟨(ev 2).1, (ev 2).2, Q 2, (quarterMats 2).thickness⟩ : Modes (Idx c.nh)) = quarterAir c := rfl
  have hmem : (1 : ℕ) ∈ c.stack := by rw [h.stack]; simp
  have v1 := h4 1 hmem
  rw [m1] at v1
  have hfix := hs.fix hnd rfl
  have hlen : (c.stack.length : ℤ) - 1 = 2 := by rw [h.stack]; rfl
  have hlist : (c.stack.map fun r => (⟨(ev r).1, (ev r).2, Q r, (quarterMats r).thickness⟩ : Modes (Idx c.nh))) =
      [quarterAir c, quarterModes c, quarterAir c] := by
    rw [h.stack]
    simp only [List.map_cons, List.map_nil, m0, m1, m2]
  obtain ⟨S, P, g1, g2, g3⟩ := quarter_interior (c := c)
  have hamp : AmpOk c quarterMats A1 (.ok ()) 1 := by
    refine ⟨⟨1, by rw [h.stack]; rfl⟩, fun hh => ?_, fun _ _ _ => ⟨S, P, ?_, ?_, g3⟩⟩
    · exfalso; rw [hlen] at hh; omega
    · rw [h3, hlist]; exact g1
    · rw [h3, hlist, hlen]; exact g2
  have hgl : getLayer c (.idx 1) = .ok (1, 1) := by
    unfold getLayer
    dsimp only
    rw [h.stack]
    rfl
  have hwp := lw_pos
  have hw : (lw : ℂ) ≠ 0 := by exact_mod_cast hwp.ne'
  have hq : ∀ k, (c.omega : ℂ) * (quarterModes c).q k ≠ 0 := fun k => by
    rw [h.om]; exact mul_ne_zero hw ((quarter_film (c := c)).q1 k)
  have hpat : (A1 1).pat = some p := by
    cases (hfix 1 hmem).form with
    | uniform Q ev hc hb' => rw [hb] at hb'; simp at hb'
    | patterned M' p' Q'' ev hc hb' he ha =>
      rw [hb] at hb'
      simp only [Except.ok.injEq, BuiltLayer.patterned.injEq] at hb'
      rw [ha, hb'.2.1]
    | copyUniform _ _ _ _ hc => exact absurd hc (by decide)
    | copyPatterned _ _ _ _ hc => exact absurd hc (by decide)
  have hu : (quarterMats 1).isUniform = false := by
    simp [quarterMats, exLayer, LayerSpec.isUniform, LayerSpec.isAnisotropic, NdArr.ofGrid, isUniform, isAnisotropic]
  have hdet : p.epsHat.det ≠ 0 := by
    rw [hp, det_smul, det_one, mul_one]; exact pow_ne_zero _ (by norm_num)
  have hfa : ∀ a b z, ∃ F, fieldAt c (quarterMats 1) (A1 1) a b z = .ok F := by
    intro a b z
    unfold fieldAt
    rw [v1, except_bind_ok]
    have : translateAmplitudes (quarterModes c) z a b = .ok (fun k => a k * phasor (quarterModes c).q z k,
      fun k => b k * phasor (quarterModes c).q (1 / 8 - z) k) := rfl
    rw [this, except_bind_ok]
    dsimp only
    rw [raiseIf_ok (u := ()).mpr (by push Not; exact hq), except_bind_ok]
    unfold normalE
    simp only [hu, Bool.false_eq_true, if_false, hpat, attr, except_bind_ok]
    rw [(linSolveVec_ok _ _ _).mpr ⟨hdet, rfl⟩]
    exact ⟨_, rfl⟩
  have hinv : Inv exE c quarterMats (unsolved c.nh) A1 (.ok ()) (Dyn.fresh quarterMats (unsolved c.nh)) := inv_fresh _ (.inl rfl)
  have hinv := hinv.calls hs hist
  generalize afterCalls exE c hist (Dyn.fresh quarterMats (unsolved c.nh)) = d at hinv ⊢
  have hrun := succeeds_getFieldFourier (E := exE) hs hgl rfl hamp hfa
  refine ⟨?_, ?_⟩
  · obtain ⟨Fs, d', e1, -⟩ := hrun [0] d hinv
    exact ⟨Fs, by rw [e1]⟩
  obtain ⟨Fs, d', e1, -⟩ := hrun [0, 1 / 8] d hinv
  obtain ⟨-, -, r, i, ab, y3, y4, y5⟩ := yields_getFieldFourier hs (.idx 1) [0, 1 / 8] d Fs d' hinv e1
  rw [hgl] at y3
  obtain ⟨rfl, rfl⟩ := Prod.mk.inj (Except.ok.inj y3)
  obtain ⟨F, Fs1, f1, f2, rfl⟩ := mapM_ok_cons.mp y5
  obtain ⟨F', Fs2, f1', f2', rfl⟩ := mapM_ok_cons.mp f2
  obtain rfl : [] = Fs2 := by simpa [List.mapM_nil] using f2'
  refine ⟨F, F', by rw [e1], fun i => ?_⟩
  obtain ⟨k, u1, amp, ⟨w1, w2, w3⟩, w4, -⟩ := ampV_solution hfix y4
  have hst : stackModes c quarterMats A1 = [quarterAir c, quarterModes c, quarterAir c] := by
    rw [← hlist]
    unfold stackModes
    refine List.map_congr_left fun r hr => ?_
    have := h4 r hr
    rw [(hfix r hr).form.modesD] at this
    exact Except.ok.inj this
  rw [hst] at w1 w3
  have hk : k = 1 := by
    rw [h.stack] at u1
    simpa [pyIdx] using u1.symm
  subst hk
  have c1 := w1 1 (quarterModes c) (quarterAir c) (by omega) (by simp) rfl rfl
  have c0 := w1 0 (quarterAir c) (quarterModes c) (by omega) (by simp) rfl rfl
  rw [match_iff_I (quarter_film (c := c)).I12] at c1
  rw [match_iff_I (quarter_film (c := c)).I01] at c0
  have w3 : (amp 2).2 = 0 := w3
  simp only [toBlocks_fromBlocks₁₁, toBlocks_fromBlocks₁₂, toBlocks_fromBlocks₂₁, toBlocks_fromBlocks₂₂, w2, w3, w4, inv_one, Matrix.mul_one,
    Matrix.one_mul, Nat.reduceAdd, zero_add, mulVec_zero, add_zero] at c0 c1
  have hph := QuarterSim.phase (c := c) i
  have hs4 : Real.sqrt (quarterP c (.inr i)) = 2 := by
    simp only [quarterP, Sum.elim_inr]
    rw [show (4 : ℝ) = 2 ^ 2 by norm_num, Real.sqrt_sq (by norm_num)]
  have a1 := congrFun c1.1 (.inr i)
  have b1 := congrFun c1.2 (.inr i)
  have a0 := congrFun c0.1 (.inr i)
  have hf : ∀ v : Idx c.nh → ℂ, ((quarterModes c).f *ᵥ v) (.inr i) = Complex.I * v (.inr i) := by
    intro v
    unfold Modes.f
    rw [mulVec_diagonal, hph]
  have hf0 : (quarterAir c).f = 1 := by
    unfold Modes.f phasor
    simp [quarterAir, Modes.z]
  rw [hf, mulVec_diagonal, hs4] at a1
  rw [mulVec_diagonal, hs4] at b1
  rw [hf0, one_mulVec, Pi.add_apply, mulVec_diagonal, mulVec_diagonal, hf, hs4, h.a0] at a0
  have r1 : ((lw : ℝ) : ℂ) / ((lw / 2 : ℝ) : ℂ) = 2 := by push_cast; field_simp
  have r2 : ((lw / 2 : ℝ) : ℂ) / ((lw : ℝ) : ℂ) = 1 / 2 := by push_cast; field_simp
  rw [r1] at a1 b1
  rw [r2] at a0
  obtain ⟨M1, t1, n1, n2, -, n4⟩ := fieldAt_spec f1
  obtain ⟨M2, t2, n1', -, -, n4'⟩ := fieldAt_spec f1'
  rw [v1] at n1 n1'
  obtain rfl := Except.ok.inj n1
  obtain rfl := Except.ok.inj n1'
  have hE : ∀ z, tanE (quarterModes c) ab.1 ab.2 z (.inr i) = (lw : ℂ) / 2 * (ab.1 (.inr i) * phasor (quarterModes c).q z (.inr i) -
      ab.2 (.inr i) * phasor (quarterModes c).q (1 / 8 - z) (.inr i)) := by
    intro z
    unfold tanE
    rw [Finset.sum_eq_single (Sum.inr i)]
    · rw [Finset.sum_eq_single (Sum.inr i)]
      · have : (quarterModes c).q (.inr i) = ((lw * 2 : ℝ) : ℂ) := by
          show ((lw * Real.sqrt (quarterP c (.inr i)) : ℝ) : ℂ) = _
          rw [hs4]
        rw [this]
        simp only [quarterModes, Matrix.smul_apply, Matrix.one_apply_eq, smul_eq_mul, phasor, hs4, Modes.z, Option.getD_some]
        push_cast
        field_simp
      · intro b _ hb
        simp [quarterModes, hb]
      · simp
    · intro b _ hb
      rw [Finset.sum_eq_zero, zero_div, zero_mul]
      intro k _
      by_cases hk : k = b
      · subst hk
        simp [quarterModes, Ne.symm hb]
      · simp [quarterModes, hk]
    · simp
  have p0 : phasor (quarterModes c).q 0 (.inr i) = 1 := by simp [phasor]
  have p8 : phasor (quarterModes c).q (1 / 8) (.inr i) = Complex.I := hph
  rw [n4.ex, n4'.ex, hE, hE, sub_zero, sub_self, p0, p8, h.om]
  generalize ab.1 (.inr i) = x at *
  generalize ab.2 (.inr i) = y at *
  generalize (amp 2).1 (.inr i) = t at *
  have hI := Complex.I_mul_I
  have hx : x = -(3 / 2) * Complex.I * t := by linear_combination (-Complex.I) * a1 + x * hI
  have hy : y = -(1 / 2) * t := by linear_combination b1
  subst hx hy
  have ht : t = 4 / 5 * Complex.I := by linear_combination (-(4 / 5) * Complex.I) * a0 + t * hI
  have q1 : (lw : ℂ) / 2 * (-(3 / 2) * Complex.I * t * 1 - -(1 / 2) * t * Complex.I) / lw = ((2 / 5 : ℝ) : ℂ) := by
    rw [ht]
    field_simp
    push_cast
    linear_combination (-8) * hI
  have q2 : (lw : ℂ) / 2 * (-(3 / 2) * Complex.I * t * Complex.I - -(1 / 2) * t * phasor (quarterModes c).q 0 (.inr i)) / lw =
      ((4 / 5 : ℝ) : ℂ) * Complex.I := by
    rw [ht, p0]
    field_simp
    push_cast
    linear_combination (-12) * hI
  rw [q1]
  have q3 := congrArg Complex.normSq q2
  rw [p0] at q3
  rw [q3]
  constructor <;> simp only [Complex.normSq_mul, Complex.normSq_ofReal, Complex.normSq_I] <;> norm_num

end Examples

/-- **C62** is false for the formulation `tangent`: in a lossless grating of period 1 in air (permittivities 3 and 6, thickness
1/8, wavelength 1, normal incidence), after any history, the normal component of the stress at the bottom of the grating differs
by `3/25` from that at its top. -/
theorem C62_normal_stress_varies : ∃ c, simInit exE (fun _ => sqLat true) quarterMats [0, 1, 2] exExc 1 "tangent" = .ok c ∧
    EigContract exE ∧ (∀ r ∈ [0, 1, 2], Lossless (quarterMats r)) ∧ ∀ hist : List (Call c.nh), ∃ T T' : ℝ × ℝ × ℝ,
      (getZStress exE c (.idx 1) 0 (afterCalls exE c hist (Dyn.fresh quarterMats (unsolved c.nh)))).1 = .ok T ∧
      (getZStress exE c (.idx 1) (1 / 8) (afterCalls exE c hist (Dyn.fresh quarterMats (unsolved c.nh)))).1 = .ok T' ∧
      T'.2.2 = T.2.2 - 3 / 25 := by
  obtain ⟨c, hc, h⟩ := quarter_init
  refine ⟨c, hc, exE_eig, quarter_lossless, fun hist => ?_⟩
  obtain ⟨⟨Fs, hFs⟩, F, F', hF, hn⟩ := h.fields hist
  obtain ⟨_, _, P', e', G, -, -, -, -, -, hT⟩ := stress_fields hc exE_eig quarter_placed quarter_mu hist (.idx 1) 0 Fs hFs
  refine ⟨_, _, hT _, hT _, ?_⟩
  have hgl : getLayer c (.idx 1) = .ok (1, 1) := by
    unfold getLayer
    dsimp only
    rw [h.stack]
    rfl
  have key := C62_normal_stress hc exE_eig quarter_placed quarter_mu (by simp [exExc]) 1 one_pos (fun r0 h0 => by
      obtain rfl : 0 = r0 := by simpa using h0
      simp [quarterMats, exLayer, NdArr.scalar, NdArr.value]) (.inr (.inl (by rw [h.sq.lat]; rfl))) hist (.idx 1) 1 1 hgl
    (quarter_lossless 1 (by simp)) _ _ h.grating.2.1 0 (1 / 8) _ _ F F' (hT _) (hT _) hF
  have hen : ∀ F : FieldF c.nh, tangentialEnergy (diagonal fun i => (quarterP c i : ℂ)) F -
      tangentialEnergy (fromBlocks ((9 / 2 : ℂ) • 1) 0 0 ((9 / 2 : ℂ) • 1)) F = ∑ i, -(1 / 2) * Complex.normSq (F.ex i) := by
    intro F
    unfold tangentialEnergy
    rw [← Complex.sub_re, ← Finset.sum_sub_distrib, Complex.re_sum]
    refine Finset.sum_congr rfl fun i _ => ?_
    have hu : ∀ j, j = i := fun j => h.sub j i
    have hs : ∀ f : Fin c.nh → ℂ, ∑ j, f j = f i := fun f => by
      rw [Finset.sum_eq_single i (fun b _ hb => absurd (hu b) hb) (by simp)]
    unfold dispX dispY
    simp only [hs, diagonal_apply_eq, quarterP, Sum.elim_inl, Sum.elim_inr, fromBlocks_apply₁₁, fromBlocks_apply₁₂, fromBlocks_apply₂₁,
      fromBlocks_apply₂₂, Matrix.smul_apply, Matrix.one_apply_eq, Matrix.zero_apply, diagonal_apply_ne _ (Sum.inl_ne_inr),
      diagonal_apply_ne _ (Sum.inr_ne_inl)]
    simp [Complex.normSq_apply]
    ring
  rw [hen, hen] at key
  have hcard : (Finset.univ : Finset (Fin c.nh)).card = 1 := by
    have : c.nh = 1 := by unfold Static.nh; rw [h.sq.harm]; rfl
    simp [this]
  simp only [(hn _).1, (hn _).2, Finset.sum_const, hcard] at key
  norm_num at key ⊢
  linarith

end Nannos
