import Verif.Examples.Solve
import Verif.Proofs.Total

/-! A concrete simulation: a grating (permittivity 1 and 7) of thickness 1/8 in air, normal incidence. -/

namespace Nannos.Examples

open Matrix Nannos Spec

theorem exp_two_pi : Complex.exp (Complex.I * (1 * ((2 * Real.pi : ℝ) : ℂ)) * ((1 : ℝ) : ℂ)) = 1 := by
  have : Complex.I * (1 * ((2 * Real.pi : ℝ) : ℂ)) * ((1 : ℝ) : ℂ) = 2 * Real.pi * Complex.I := by
    push_cast; ring
  rw [this, Complex.exp_two_pi_mul_I]

theorem exp_quarter : Complex.exp (Complex.I * (2 * ((2 * Real.pi : ℝ) : ℂ)) * ((1 / 8 : ℝ) : ℂ)) = Complex.I := by
  have : Complex.I * (2 * ((2 * Real.pi : ℝ) : ℂ)) * ((1 / 8 : ℝ) : ℂ) = Real.pi / 2 * Complex.I := by
    push_cast; ring
  rw [this, Complex.exp_pi_div_two_mul_I]

section
variable {m : Type} [Fintype m] [DecidableEq m]

theorem two_pi_ne : ((2 * Real.pi : ℝ) : ℂ) ≠ 0 := by
  exact_mod_cast (by positivity : (2 * Real.pi : ℝ) ≠ 0)

/-- The grating in air. -/
noncomputable def slabModes (m : Type) [Fintype m] [DecidableEq m] : List (Modes m) :=
  [scal ((2 * Real.pi : ℝ) : ℂ) 1 (some 1), scal ((2 * Real.pi : ℝ) : ℂ) 2 (some (1 / 8)),
    scal ((2 * Real.pi : ℝ) : ℂ) 1 (some 1)]

theorem slab_step1 : stepS (sscal 1 0 0 1) (scal ((2 * Real.pi : ℝ) : ℂ) 1 (some 1) : Modes m)
    (scal ((2 * Real.pi : ℝ) : ℂ) 2 (some (1 / 8))) =
      .ok (sscal (4 / 3) (-(Complex.I / 3)) (1 / 3) (2 * Complex.I / 3)) := by
  rw [scal_step (f := 1) (f' := Complex.I) two_pi_ne one_ne_zero two_ne_zero (some 1) (some (1 / 8)) 1 0 0 1 exp_two_pi exp_quarter
    (3 / 4) (by norm_num) (by norm_num) (4 / 3) (-(Complex.I / 3)) (by norm_num) (by ring)]
  congr 1
  unfold sscal
  congr 2 <;> ring

theorem slab_step2 : stepS (sscal (4 / 3) (-(Complex.I / 3)) (1 / 3) (2 * Complex.I / 3))
    (scal ((2 * Real.pi : ℝ) : ℂ) 2 (some (1 / 8)) : Modes m)
    (scal ((2 * Real.pi : ℝ) : ℂ) 1 (some 1)) =
      .ok (sscal (4 * Complex.I / 5) (3 / 5) (3 / 5) (4 * Complex.I / 5)) := by
  have hI : Complex.I * Complex.I = -1 := Complex.I_mul_I
  rw [scal_step (f := Complex.I) (f' := 1) two_pi_ne two_ne_zero one_ne_zero (some (1 / 8)) (some 1) _ _ _ _ exp_quarter exp_two_pi
    (5 / 3) (by linear_combination (1 / 6 : ℂ) * hI) (by norm_num) (4 * Complex.I / 5) (3 / 5) (by ring)
    (by linear_combination (1 / 2 : ℂ) * hI)]
  congr 1
  unfold sscal
  congr 2
  · linear_combination (-4 / 15 : ℂ) * hI
  · ring

theorem slab_step3 : stepS (sscal 1 0 0 1)
    (scal ((2 * Real.pi : ℝ) : ℂ) 2 (some (1 / 8)) : Modes m)
    (scal ((2 * Real.pi : ℝ) : ℂ) 1 (some 1)) =
      .ok (sscal (2 * Complex.I / 3) (1 / 3) (-(Complex.I / 3)) (4 / 3)) := by
  rw [scal_step (f := Complex.I) (f' := 1) two_pi_ne two_ne_zero one_ne_zero (some (1 / 8)) (some 1) _ _ _ _ exp_quarter exp_two_pi
    (3 / 2) (by norm_num) (by norm_num) (2 * Complex.I / 3) (1 / 3) (by ring)
    (by norm_num)]
  congr 1
  unfold sscal
  congr 2
  · ring
  · norm_num

theorem loop_one {l : List (Modes m)} {i : ℕ} {L L' S} (h1 : l[i]? = some L) (h2 : l[i + 1]? = some L')
    (h : stepS (sscal 1 0 0 1) L L' = .ok S) : loopS l (i : ℤ) ((i + 1 : ℕ) : ℤ) = .ok S := by
  rw [Nat.cast_add, Nat.cast_one, loopS_succ l i i le_rfl, loopS_self, except_bind_ok, stepAt_ok]
  rw [sscal_one] at h
  exact ⟨L, L', h1, h2, h⟩

theorem slab_01 : freshS (slabModes m) (0 : ℕ) (1 : ℕ) =
    .ok (sscal (4 / 3) (-(Complex.I / 3)) (1 / 3) (2 * Complex.I / 3)) :=
  freshS_ok.mpr ⟨by omega, loop_one rfl rfl slab_step1⟩

theorem slab_12 : freshS (slabModes m) (1 : ℕ) (2 : ℕ) =
    .ok (sscal (2 * Complex.I / 3) (1 / 3) (-(Complex.I / 3)) (4 / 3)) :=
  freshS_ok.mpr ⟨by omega, loop_one rfl rfl slab_step3⟩

theorem slab_02 : freshS (slabModes m) (0 : ℕ) (2 : ℕ) =
    .ok (sscal (4 * Complex.I / 5) (3 / 5) (3 / 5) (4 * Complex.I / 5)) := by
  refine freshS_ok.mpr ⟨by omega, ?_⟩
  have h1 := (freshS_ok.mp (slab_01 (m := m))).2
  have : ((2 : ℕ) : ℤ) = ((1 : ℕ) : ℤ) + 1 := rfl
  rw [this, loopS_succ _ 0 1 (by omega), h1, except_bind_ok, stepAt_ok]
  exact ⟨_, _, rfl, rfl, slab_step2⟩

end

/-- The grating. -/
noncomputable def exGrid : Grid 4 1 := fun x _ => if (x : ℕ) < 2 then 1 else 7

/-- Air, grating, air. -/
noncomputable def slabMats : ℕ → LayerSpec := fun r =>
  if r = 0 then exLayer "Superstrate" 1 (NdArr.scalar (((1 : ℝ) ^ 2 : ℝ) : ℂ))
  else if r = 1 then exLayer "Slab" (1 / 8) (NdArr.ofGrid exGrid)
  else exLayer "Substrate" 1 (NdArr.scalar (((1 : ℝ) ^ 2 : ℝ) : ℂ))

/-- Indices of the layers. -/
noncomputable def slabN : ℕ → ℝ := fun r => if r = 1 then 2 else 1

theorem slab_index (r : ℕ) : 0 < slabN r ∧ HasIndex (slabMats r) (slabN r) := by
  unfold slabN slabMats
  by_cases h0 : r = 0
  · subst h0; exact ⟨by norm_num, rfl, rfl, .inl (by simp [exLayer])⟩
  by_cases h1 : r = 1
  · subst h1
    refine ⟨by norm_num, rfl, rfl, .inr ⟨4, 1, exGrid, rfl, by norm_num, by norm_num, by decide, ?_⟩⟩
    simp [Fin.sum_univ_succ, exGrid]
    norm_num
  · simp only [h0, h1, if_false]
    exact ⟨by norm_num, rfl, rfl, .inl rfl⟩

theorem slab_init : ∃ c, simInit exE (fun _ => exLat) slabMats [0, 1, 2] exExc 1 "original" = .ok c ∧
    NormalSim c ∧ c.stack = [0, 1, 2] ∧ c.layerNames = ["Superstrate", "Slab", "Substrate"] ∧
    c.incidentFlux = 1 := by
  obtain ⟨c, h1, h2, h3, h4, h5⟩ := exInit slabMats 0 [1, 2] 1 one_pos (by decide) (by decide) rfl rfl
  exact ⟨c, h1, h2, h3, h4, by rw [h5]; norm_num⟩

theorem slab_placed : WellPlaced slabMats [0, 1, 2] := by
  intro k r _ hc
  have : (slabMats r).iscopy = false := (slab_index r).2.1
  rw [this] at hc
  simp at hc

theorem slab_mu (r : ℕ) : (slabMats r).mu = 1 := (slab_index r).2.2.1

theorem slab_solved {c : Static} (hn : NormalSim c) (hst : c.stack = [0, 1, 2])
    {A0 A1 : ℕ → LayerAttr c.nh} {res} (hs : SolveSpec exE c slabMats A0 A1 res) :
    res = .ok () ∧ stackModes c slabMats A1 = slabModes (Idx c.nh) ∧
    valS c slabMats A1 res none = .ok (sscal (4 * Complex.I / 5) (3 / 5) (3 / 5) (4 * Complex.I / 5)) ∧
    valS c slabMats A1 res (some (0, 1)) =
      .ok (sscal (4 / 3) (-(Complex.I / 3)) (1 / 3) (2 * Complex.I / 3)) ∧
    valS c slabMats A1 res (some (1, 2)) = .ok (sscal (2 * Complex.I / 3) (1 / 3) (-(Complex.I / 3)) (4 / 3)) := by
  have hnd : c.stack.Nodup := by rw [hst]; decide
  obtain ⟨h1, h2⟩ := exModes hn hs slabN hnd fun r _ => slab_index r
  have h3 : stackModes c slabMats A1 = slabModes (Idx c.nh) := by
    rw [h2, hst, hn.omega]
    simp [slabModes, slabN, slabMats, exLayer]
  have hf := hs.fix hnd h1
  subst h1
  refine ⟨rfl, h3, ?_, ?_, ?_⟩
  · rw [valS_none, valS_solved hf, h3, hst]; exact slab_02
  · rw [valS_solved hf, h3]; exact slab_01
  · rw [valS_solved hf, h3]; exact slab_12

/-- After any history, fields can be retrieved in all three layers at all depths, and the efficiencies
computed. -/
theorem slab_runs {c : Static} (hc : simInit exE (fun _ => exLat) slabMats [0, 1, 2] exExc 1 "original" = .ok c)
    (hn : NormalSim c) (hst : c.stack = [0, 1, 2]) (hfl : c.incidentFlux = 1) (hist : List (Call c.nh)) :
    (∀ k : ℕ, k < 3 → ∀ zs, ∃ Fs, (getFieldFourier exE c (.idx k) zs
      (afterCalls exE c hist (Dyn.fresh slabMats (unsolved c.nh)))).1 = .ok Fs) ∧
    (∀ (i : ℤ) an bn, (i = 0 ∨ i = 1 ∨ i = 2 ∨ i = -1) → ∃ fb, (getZPoyntingFlux exE c i an bn
      (afterCalls exE c hist (Dyn.fresh slabMats (unsolved c.nh)))).1 = .ok fb) ∧
    (∃ RT, (efficienciesByOrder exE c
      (afterCalls exE c hist (Dyn.fresh slabMats (unsolved c.nh)))).1 = .ok RT) := by
  have hnd : c.stack.Nodup := by rw [hst]; decide
  obtain ⟨A1, res, hs, -⟩ := solveSpec_of_noStale (E := exE) (mats := slabMats) hnd
    (noStale_unsolved (c := c) slabMats c.stack)
  have h0 : Inv exE c slabMats (unsolved c.nh) A1 res (Dyn.fresh slabMats (unsolved c.nh)) := inv_fresh _ (.inl rfl)
  have hd := h0.calls hs hist
  generalize afterCalls exE c hist (Dyn.fresh slabMats (unsolved c.nh)) = d at hd ⊢
  obtain ⟨hres, hmodes, v02, v01, v12⟩ := slab_solved hn hst hs
  have hfix := hs.fix hnd hres
  have hmed := solved_medium (stack := c.stack) (fun r _ => slab_mu r) exE_eig (hst ▸ slab_placed) hfix
  have ho : (c.omega : ℂ) ≠ 0 := by rw [hn.omega]; exact two_pi_ne
  -- modes of the layer at position `k`
  have hmod : ∀ (k r : ℕ), c.stack[k]? = some r → ∃ M t, modesOf (slabMats r) (A1 r) = .ok M ∧
      M.thickness = some t ∧ ∀ l, (c.omega : ℂ) * M.q l ≠ 0 := by
    intro k r hr
    have hm := (hfix r (List.mem_of_getElem? hr)).form.modesD
    have h1 : (stackModes c slabMats A1)[k]? = some (modesD (slabMats r) (A1 r)) := by
      unfold stackModes
      rw [List.getElem?_map, hr]; rfl
    rw [hmodes] at h1
    have hk : k < 3 := by
      have := (List.getElem?_eq_some_iff.mp hr).1
      rw [hst] at this; simpa using this
    have h2 : ∃ n t, modesD (slabMats r) (A1 r) = scal ((2 * Real.pi : ℝ) : ℂ) n (some t) ∧ n ≠ 0 := by
      unfold slabModes at h1
      interval_cases k <;> simp only [List.getElem?_cons_zero, List.getElem?_cons_succ, Option.some.injEq] at h1
      · exact ⟨1, 1, h1.symm, one_ne_zero⟩
      · exact ⟨2, 1 / 8, h1.symm, two_ne_zero⟩
      · exact ⟨1, 1, h1.symm, one_ne_zero⟩
    obtain ⟨n, t, h3, h4⟩ := h2
    refine ⟨_, t, hm, by rw [h3]; rfl, fun l => ?_⟩
    rw [h3]
    exact mul_ne_zero ho (mul_ne_zero h4 two_pi_ne)
  have hget : ∀ i : ℤ, (i = 0 ∨ i = 1 ∨ i = 2 ∨ i = -1) → ∃ (k r : ℕ), c.stack[k]? = some r ∧
      pyGet c.stack i = .ok r := by
    rintro i (rfl | rfl | rfl | rfl) <;> rw [hst]
    · exact ⟨0, 0, rfl, rfl⟩
    · exact ⟨1, 1, rfl, rfl⟩
    · exact ⟨2, 2, rfl, rfl⟩
    · exact ⟨2, 2, rfl, rfl⟩
  refine ⟨fun k hk zs => ?_, fun i an bn hi => ?_, ?_⟩
  · obtain ⟨r, hr⟩ : ∃ r, c.stack[k]? = some r := by
      rw [hst]; interval_cases k <;> exact ⟨_, rfl⟩
    have hg : getLayer c (.idx k) = .ok (r, (k : ℤ)) := by
      have : pyGet c.stack k = .ok r := by
        rw [hst] at hr ⊢
        interval_cases k <;> simpa [pyGet, pyIdx] using hr
      unfold getLayer
      simp only [this]
      rfl
    obtain ⟨M, t, hM, ht, hq⟩ := hmod k r hr
    have hamp : AmpOk c slabMats A1 res k := by
      refine ⟨?_, fun _ => ⟨_, v02⟩, ?_⟩
      · obtain ⟨_, r', -, h⟩ := hget k (by omega)
        exact ⟨r', h⟩
      · rw [hst]
        intro e1 e2 e3
        obtain rfl : k = 1 := by simp at e2; omega
        refine ⟨_, _, v01, v12, ?_⟩
        simp only [sscal]
        rw [mul_smul_one]
        have : (1 : Matrix (Idx c.nh) (Idx c.nh) ℂ) - (-(Complex.I / 3) * -(Complex.I / 3)) • 1 = (10 / 9 : ℂ) • 1 := by
          have e : -(Complex.I / 3) * -(Complex.I / 3) = (-1 / 9 : ℂ) := by
            linear_combination (1 / 9 : ℂ) * Complex.I_mul_I
          rw [e]
          nth_rewrite 1 [← one_smul ℂ (1 : Matrix (Idx c.nh) (Idx c.nh) ℂ)]
          rw [← sub_smul]
          norm_num
        rw [this, det_smul, det_one, mul_one]
        exact pow_ne_zero _ (by norm_num)
    have hnormal : ∀ dz, ∃ x, normalE (slabMats r) (A1 r) dz = .ok x := by
      intro dz
      obtain ⟨P, e, h1, h2⟩ := hmed k r hr
      unfold normalE
      cases h1 with
      | uniform _ hc hu ha =>
        have hne : (slabMats r).epsilon.value ≠ 0 := by
          intro h
          have := h2.det
          have hne : Nonempty (Fin c.nh) := ⟨⟨0, by rw [hn.nh]; norm_num⟩⟩
          rw [h, zero_smul, Matrix.det_zero] at this
          exact this rfl
        simp only [hu, if_true, hne, if_false]
        exact ⟨_, rfl⟩
      | patterned _ M' p Q hc hb =>
        have hu := buildPure_patterned hb
        simp only [hu, Bool.false_eq_true, if_false]
        cases (hfix r (List.mem_of_getElem? hr)).form with
        | uniform Q' ev hc hb' he hQ ha => rw [hb] at hb'; simp at hb'
        | patterned M2 p2 Q2 ev hc hb' he ha =>
          rw [ha]
          rw [hb] at hb'
          simp only [Except.ok.injEq, BuiltLayer.patterned.injEq] at hb'
          obtain ⟨-, rfl, -⟩ := hb'
          simp only [attr, except_bind_ok]
          exact ⟨_, (linSolveVec_ok _ _ _).mpr ⟨h2.det, rfl⟩⟩
        | copyUniform M p Q ev hc' => rw [hc] at hc'; simp at hc'
        | copyPatterned M p Q ev hc' => rw [hc] at hc'; simp at hc'
      | copy _ P' e' hc ho' => rw [(slab_index r).2.1] at hc; simp at hc
    obtain ⟨Fs, d', h1, -⟩ := succeeds_getFieldFourier hs hg hres hamp (fieldAt_ok hM ht hq hnormal) zs d hd
    exact ⟨Fs, by rw [h1]⟩
  · obtain ⟨k, r, h1, h2⟩ := hget i hi
    obtain ⟨M, t, hM, ht, hq⟩ := hmod k r h1
    obtain ⟨fb, d', h3, -⟩ := succeeds_flux hs h2 hres hM hq an bn d hd
    exact ⟨fb, by rw [h3]⟩
  · obtain ⟨k0, r0, a1, a2⟩ := hget 0 (by simp)
    obtain ⟨kN, rN, b1, b2⟩ := hget (-1) (by simp)
    obtain ⟨M0, t0, m1, -, m2⟩ := hmod k0 r0 a1
    obtain ⟨MN, tN, n1, -, n2⟩ := hmod kN rN b1
    obtain ⟨RT, d', h3, -⟩ := succeeds_efficiencies hs v02 a2 b2 m1 n1 m2 n2 (by rw [hfl]; norm_num) d hd
    exact ⟨RT, by rw [h3]⟩

end Nannos.Examples
