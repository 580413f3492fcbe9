import Verif.Examples.LittrowRun

/-! A lossless grating in air on a square lattice, one order, with the same tangent vector at all pixels. -/

namespace Nannos.Examples

open Matrix Nannos Spec

variable {c : Static} {f : String} {st : List ℕ} {l : Lattice}

noncomputable def oneLat : Lattice := ⟨![![1, 0], ![0, 1]], false, .circular, (4, 4), some [(0, 0)]⟩

/-- Columns of permittivity 1 and 7. -/
noncomputable def oneGrid : Grid 4 4 := fun x _ => if (x : ℕ) < 2 then 1 else 7

noncomputable def oneMats : ℕ → LayerSpec := fun r =>
  if r = 0 then exLayer "Superstrate" 0 (NdArr.scalar 1)
  else if r = 1 then { exLayer "Grating" 1 (NdArr.ofGrid oneGrid) with tangentField := some ⟨4, 4, fun _ _ => 0, fun _ _ => 1⟩ }
  else exLayer "Substrate" 0 (NdArr.scalar 1)

structure OneSim (c : Static) (f : String := "tangent") (st : List ℕ := [0, 1, 2]) (l : Lattice := oneLat) : Prop where
  harm : c.harmonics = [(0, 0)]
  om : c.omega = lw
  kx : ∀ i, c.kx i = 0
  ky : ∀ i, c.ky i = 0
  form : c.formulation = f
  lat : c.lattice = l
  flux : c.incidentFlux = 1
  stack : c.stack = st

theorem one_harm : ∀ n, oneLat.getHarmonics exSort n true = .ok ([(0, 0)], 1) := by
  intro n
  have : oneLat.getHarmonics' exSort n = .ok ([(0, 0)], 1) := rfl
  unfold Lattice.getHarmonics
  rw [this]
  simp only [except_bind_ok, if_true, except_pure_eq_ok, Except.ok.injEq, Prod.mk.injEq, and_true]
  exact List.perm_singleton.mp (argsort_gather_perm [((0 : ℤ), (0 : ℤ))] (fun g => (g.1 : ℝ)) (exSort_spec _))

theorem one_initW {exc : PlaneWave} (hw : exc.wavelength = 1) (ht : exc.theta = 0) (hx0 : exc.wavevector 0 = 0)
    (hx1 : exc.wavevector 1 = 0) : ∃ c, simInit exE (fun _ => oneLat) oneMats [0, 1, 2] exc 1 "tangent" = .ok c ∧ OneSim c := by
  have hdet : oneLat.matrix.det ≠ 0 := by simp [oneLat, Lattice.matrix, det_fin_two]
  have hny : checkNyquist oneLat [(0, 0)] = .ok () := by
    unfold checkNyquist maxHarmonic
    simp [oneLat]
  obtain ⟨c, hc⟩ := simInit_exists (E := exE) (lats := fun _ => oneLat) (mats := oneMats)
    (r0 := 0) (tl := [1, 2]) (exc := exc) (nh := 1) (form := "tangent")
    (by simp [oneMats, exLayer]) (fun r hr => by
      simp only [List.mem_cons, List.not_mem_nil, or_false] at hr
      rcases hr with rfl | rfl | rfl <;> rfl)
    (by tauto) (fun h => by tauto) (one_harm _) hny ⟨rfl, rfl⟩
    (by simp [oneMats, exLayer, NdArr.scalar, NdArr.value]) (reciprocal_ok.mpr ⟨hdet, rfl⟩)
  have hi := simInit_ok hc
  have hl' : c.lattice = oneLat := hi.lat_eq 0 rfl
  have hharm : c.harmonics = [(0, 0)] := by
    obtain ⟨k, hk⟩ := hi.harm
    rw [hl', show exE.argsort = exSort from rfl, one_harm] at hk
    simp only [Except.ok.injEq, Prod.mk.injEq] at hk
    exact hk.1.symm
  have hget : ∀ i, c.harmonics.get i = (0, 0) := by
    intro i
    have h0 := List.get_mem c.harmonics i
    have h1 : ∀ x ∈ c.harmonics, x = (0, 0) := by rw [hharm]; simp
    exact h1 _ h0
  obtain ⟨-, -, -, hfl, hk0⟩ := hi.sup 0 rfl
  have hsq : csqrt ((oneMats 0).epsilon.value * (oneMats 0).mu) = 1 := by
    have : (oneMats 0).epsilon.value * (oneMats 0).mu = ((1 : ℝ) : ℂ) := by
      simp [oneMats, exLayer, NdArr.scalar, NdArr.value]
    rw [this, csqrt_ofReal zero_le_one]
    simp
  rw [hsq] at hfl hk0
  obtain ⟨r, hr, hkx, hky⟩ := hi.recip
  refine ⟨c, hc, hharm, ?_, fun i => ?_, fun i => ?_, hi.form_eq, hl', ?_, hi.stack_eq⟩
  · rw [hi.omega_eq]; rw [hw]; unfold lw; norm_num
  · rw [hkx, hget, hk0]; simp [kxOf, k0para, hx0]
  · rw [hky, hget, hk0]; simp [kyOf, k0para, hx1]
  · rw [hfl]; simp [ht]

theorem one_init : ∃ c, simInit exE (fun _ => oneLat) oneMats [0, 1, 2] exExc 1 "tangent" = .ok c ∧ OneSim c :=
  one_initW rfl rfl rfl rfl

theorem OneSim.nh (h : OneSim c f st l) : c.nh = 1 := by unfold Static.nh; rw [h.harm]; rfl

theorem OneSim.sub (h : OneSim c f st l) (i j : Fin c.nh) : i = j := by
  have := h.nh
  ext
  omega

theorem OneSim.kEps (h : OneSim c f st l) (e) : Spec.kEps c.kx c.ky e = 0 := by
  ext a b
  rcases a with i | i <;> rcases b with j | j <;> simp [Spec.kEps, h.kx, h.ky]

theorem OneSim.kMu (h : OneSim c f st l) : Spec.kMu c.kx c.ky = 0 := by
  ext a b
  rcases a with i | i <;> rcases b with j | j <;> simp [Spec.kMu, h.kx, h.ky]

theorem OneSim.toep (h : OneSim c f st l) (u : Grid 4 4) : c.toep ⟨4, 4, u⟩ = .ok (((∑ x, ∑ y, u x y) / 16) • 1) := by
  have hget : ∀ i, c.harmonics.get i = (0, 0) := by
    intro i
    have h0 := List.get_mem c.harmonics i
    have h1 : ∀ x ∈ c.harmonics, x = (0, 0) := by rw [h.harm]; simp
    exact h1 _ h0
  obtain ⟨A, hA⟩ := toeplitz_exists (H := c.harmonics.get) u (by
    intro i j; simp only [hget, sub_self]; omega)
  unfold Static.toep
  dsimp only
  rw [hA, (toeplitz_ok hA).2]
  congr 1
  ext i j
  obtain rfl := h.sub i j
  simp only [Matrix.of_apply, sub_self, coeff_zero_zero, Matrix.smul_apply, Matrix.one_apply_eq, smul_eq_mul, mul_one]
  unfold mean
  norm_num

/-- The transverse permittivities. -/
noncomputable def oneP (c : Static) : Idx c.nh → ℝ := Sum.elim (fun _ => 4 - 36 * lb) (fun _ => 4)

theorem oneP_pos (i) : 0 < oneP c i := by
  have := lb_upper
  unfold oneP
  rcases i with i | i <;> dsimp only [Sum.elim_inl, Sum.elim_inr] <;> linarith

theorem OneSim.air (h : OneSim c f st l) {E : Ext} (L : LayerSpec) (hc : L.iscopy = false) (he : L.epsilon = NdArr.scalar 1) (hmu : L.mu = 1)
    (Ao : LayerAttr c.nh) : (stepOut E c L Ao).1 = .ok () ∧ ∀ a, ((stepOut E c L Ao).2 a).eig = some (fun _ => (lw : ℂ), 1) ∧
      ((stepOut E c L Ao).2 a).Qeps = some ((lw : ℂ) ^ 2 • 1) := by
  have hu : L.isUniform = true ∧ L.isAnisotropic = false := by
    unfold LayerSpec.isUniform LayerSpec.isAnisotropic
    rw [he]; exact ⟨rfl, rfl⟩
  have hv : L.epsilon.value = 1 := by rw [he]; rfl
  obtain ⟨Q, hb⟩ : ∃ Q, buildPure E c L = .ok (.uniform Q) := by
    unfold buildPure
    simp only [hu, if_true, Bool.false_eq_true, if_false, hv, one_ne_zero]
    exact ⟨_, rfl⟩
  obtain ⟨-, -, -, hQ⟩ := buildPure_uniform_ok hmu hb
  rw [h.kEps, sub_zero, h.om] at hQ
  have hq : csqrt ((lw : ℂ) ^ 2) = lw := by
    rw [← Complex.ofReal_pow, csqrt_ofReal (sq_nonneg _), Real.sqrt_sq lw_pos.le]
  have hs : solveUniform L c.omega c.kx c.ky = .ok (fun _ => (lw : ℂ), 1) := by
    unfold solveUniform
    simp only [hu, Bool.false_eq_true, if_false, hv, hmu, h.kx, h.ky, h.om, Except.ok.injEq, Prod.mk.injEq, and_true]
    funext k
    rcases k with i | i <;> simp [hq]
  unfold stepOut
  simp only [hc, Bool.false_eq_true, if_false, hb, hs, hQ]
  exact ⟨trivial, fun _ => ⟨trivial, trivial⟩⟩

theorem OneSim.grating (h : OneSim c) (Ao : LayerAttr c.nh) : (stepOut exE c (oneMats 1) Ao).1 = .ok () ∧
    ∀ a, ((stepOut exE c (oneMats 1) Ao).2 a).eig = some (fun i => ((lw * Real.sqrt (oneP c i) : ℝ) : ℂ), 1) ∧
      ((stepOut exE c (oneMats 1) Ao).2 a).Qeps = some ((lw : ℂ) ^ 2 • 1) := by
  have hu : (oneMats 1).isUniform = false ∧ (oneMats 1).isAnisotropic = false := by
    constructor <;> simp [oneMats, exLayer, LayerSpec.isUniform, LayerSpec.isAnisotropic, NdArr.ofGrid, isUniform, isAnisotropic]
  have hmu : (oneMats 1).mu = 1 := rfl
  have hc : (oneMats 1).iscopy = false := rfl
  have hg : (oneMats 1).epsilon.toGrid = .ok ⟨4, 4, oneGrid⟩ := by
    show (NdArr.ofGrid oneGrid).toGrid = _
    unfold NdArr.toGrid NdArr.ofGrid
    simp
  have ht : c.toep ⟨4, 4, oneGrid⟩ = .ok ((4 : ℂ) • 1) := by
    rw [h.toep]
    congr 2
    simp [oneGrid, Fin.sum_univ_succ]
    norm_num
  have hdet : ((4 : ℂ) • (1 : Matrix (Fin c.nh) (Fin c.nh) ℂ)).det ≠ 0 := by
    rw [det_smul, det_one, mul_one]; exact pow_ne_zero _ (by norm_num)
  have hnu : nuHatInvIso c ⟨4, 4, oneGrid⟩ = .ok ((7 / 4 : ℂ) • 1) := by
    unfold nuHatInvIso recipGrid
    rw [if_neg (by
      push Not
      intro x y
      show (if (x : ℕ) < 2 then (1 : ℂ) else 7) ≠ 0
      split <;> norm_num)]
    simp only [except_bind_ok]
    rw [h.toep (fun x y => 1 / oneGrid x y), except_bind_ok, linInv_ok]
    have e : (∑ x, ∑ y, 1 / oneGrid x y) / 16 = (4 / 7 : ℂ) := by
      simp [oneGrid, Fin.sum_univ_succ]
      norm_num
    rw [e]
    refine ⟨?_, ?_⟩
    · rw [det_smul, det_one, mul_one]; exact pow_ne_zero _ (by norm_num)
    · symm
      refine inv_eq_right_inv ?_
      rw [Matrix.smul_mul, Matrix.one_mul, smul_smul]
      norm_num
  have hP : ∀ H, pepsOf exE c (oneMats 1) ⟨4, 4, oneGrid⟩ none ((4 : ℂ) • 1) (diag2 ((4 : ℂ) • 1)) H =
      .ok (diagonal fun i => (oneP c i : ℂ)) := by
    intro H
    unfold pepsOf
    have hf1 : c.lattice.is1D = false := by rw [h.lat]; rfl
    simp only [h.form, hf1, Bool.false_eq_true, if_false, if_true, show ¬ ("tangent" = "original") by decide, hnu, except_bind_ok,
      except_pure_eq_ok]
    have htan : getTangentField exE (oneMats 1) ⟨4, 4, oneGrid⟩ H true = .ok ⟨4, 4, fun _ _ => 0, fun _ _ => 1⟩ := rfl
    rw [htan, except_bind_ok]
    have hp : ∀ f : ℂ → ℂ → ℂ, c.toep (projField ⟨4, 4, fun _ _ => 0, fun _ _ => 1⟩ f) = .ok ((f 0 1 * (16 * lb)) • 1) := by
      intro f
      have e : projField ⟨4, 4, fun _ _ => 0, fun _ _ => 1⟩ f = ⟨4, 4, fun _ _ => f 0 1 / ((|normPt 0 1| ^ 2 : ℝ) : ℂ)⟩ := rfl
      have hn : (1 : ℂ) / ((|normPt 0 1| ^ 2 : ℝ) : ℂ) = 16 * lb := by
        have : (1 : ℝ) / |normPt 0 1| ^ 2 = 16 * lb := by
          unfold normPt lb
          simp only [map_zero, map_one, zero_add, Real.sqrt_one, sq_abs]
          norm_num
        exact_mod_cast congrArg (fun x : ℝ => (x : ℂ)) this
      have e1 : f 0 1 / ((|normPt 0 1| ^ 2 : ℝ) : ℂ) = f 0 1 * (16 * lb) := by rw [div_eq_mul_one_div, hn]
      rw [e, h.toep, e1]
      congr 2
      simp
      ring
    unfold getPeps
    rw [hp, hp, hp, hp]
    simp only [except_bind_ok, except_pure_eq_ok, star_zero, star_one, mul_zero, zero_mul, one_mul, zero_smul]
    congr 1
    unfold diag2
    rw [sub_eq_add_neg (fromBlocks _ _ _ _) (fromBlocks ((7 / 4 : ℂ) • 1) _ _ _), fromBlocks_neg, fromBlocks_add]
    simp only [neg_zero, add_zero, ← sub_eq_add_neg, fromBlocks_multiply, Matrix.mul_zero, Matrix.zero_mul, ← sub_smul, Matrix.smul_mul, Matrix.one_mul,
      smul_smul]
    rw [sub_eq_add_neg, fromBlocks_neg, fromBlocks_add]
    simp only [neg_zero, add_zero, ← sub_eq_add_neg, smul_one_eq_diagonal, diagonal_sub]
    rw [fromBlocks_diagonal]
    congr 1
    funext i
    unfold oneP
    rcases i with i | i <;> simp only [Sum.elim_inl, Sum.elim_inr] <;> push_cast <;> ring
  have hG := one_harm
  obtain ⟨M, p, Q, hb⟩ : ∃ M p Q, buildPure exE c (oneMats 1) = .ok (.patterned M p Q) := by
    unfold buildPure
    simp only [hu, Bool.false_eq_true, if_false, hg, ht, except_bind_ok, hmu, one_ne_zero]
    rw [(linInv_ok _ _).mpr ⟨hdet, rfl⟩, except_bind_ok, raiseIf_ok (u := ()).mpr (by simp), except_bind_ok]
    unfold paraOf epsParaHatOf
    simp only [hu, Bool.false_eq_true, if_false, except_bind_ok, except_pure_eq_ok]
    rw [h.lat, show exE.argsort = exSort from rfl, hG]
    simp only [except_bind_ok, hP]
    exact ⟨_, _, _, rfl⟩
  obtain ⟨-, -, -, h4, h5, -, -, epszz, para, eph, Ht, k, h6, h7, h8, h9, h10, h11⟩ := buildPure_patterned_ok hmu hb
  simp only [hu, Bool.false_eq_true, if_false, hg, Except.ok.injEq] at h6
  subst h6
  rw [ht, Except.ok.injEq] at h7
  unfold paraOf at h8
  simp only [hu, Bool.false_eq_true, if_false, except_pure_eq_ok, Except.ok.injEq] at h8
  subst h8
  unfold epsParaHatOf at h9
  simp only [except_pure_eq_ok, Except.ok.injEq] at h9
  rw [← h9, ← h7, hP, Except.ok.injEq] at h11
  rw [h.kEps, sub_zero, h.om] at h4
  have hM : M = diagonal fun i => ((lw ^ 2 * oneP c i : ℝ) : ℂ) := by
    rw [h5]
    unfold waveMatrix
    rw [h.kEps, h.kMu, Matrix.mul_zero, sub_zero, sub_zero, ← h11, h.om, ← diagonal_smul]
    congr 1
    funext i
    simp
  have hs : solveEigenproblem exE M = .ok (fun i => ((lw * Real.sqrt (oneP c i) : ℝ) : ℂ), 1) := by
    unfold solveEigenproblem exE
    have : M = diagonal (fun i => M i i) := by rw [hM]; simp
    dsimp only
    rw [if_pos this]
    simp only [except_bind_ok, except_pure_eq_ok, Except.ok.injEq, Prod.mk.injEq, and_true]
    funext k
    have h1 := oneP_pos k
    have h2 := lw_pos
    rw [hM, diagonal_apply_eq, modeSqrt_real (by positivity), Real.sqrt_mul (sq_nonneg _), Real.sqrt_sq h2.le]
  unfold stepOut
  simp only [hc, Bool.false_eq_true, if_false, hb, hs, h4]
  exact ⟨trivial, fun _ => ⟨trivial, trivial⟩⟩

/-- The efficiencies are defined. -/
theorem OneSim.byOrder (h : OneSim c) :
    ∃ RT d', efficienciesByOrder exE c (Dyn.fresh oneMats (unsolved c.nh)) = (.ok RT, d') := by
  let ev : ℕ → (Idx c.nh → ℂ) × Matrix (Idx c.nh) (Idx c.nh) ℂ := fun r =>
    if r = 1 then (fun i => ((lw * Real.sqrt (oneP c i) : ℝ) : ℂ), 1) else (fun _ => (lw : ℂ), 1)
  let Q : ℕ → Matrix (Idx c.nh) (Idx c.nh) ℂ := fun _ => (lw : ℂ) ^ 2 • 1
  have hnd : c.stack.Nodup := by rw [h.stack]; decide
  obtain ⟨A1, hs, h3, h4⟩ := solved_steps (E := exE) (mats := oneMats) ev Q hnd (by
    intro r hr Ao
    rw [h.stack] at hr
    simp only [List.mem_cons, List.not_mem_nil, or_false] at hr
    rcases hr with rfl | rfl | rfl
    · exact h.air _ rfl rfl rfl Ao
    · exact h.grating Ao
    · exact h.air _ rfl rfl rfl Ao)
  let La : Modes (Idx c.nh) := ⟨fun _ => (lw : ℂ), 1, (lw : ℂ) ^ 2 • 1, some 0⟩
  let Lg : Modes (Idx c.nh) := ⟨fun i => ((lw * Real.sqrt (oneP c i) : ℝ) : ℂ), 1, (lw : ℂ) ^ 2 • 1, some 1⟩
  have hwp := lw_pos
  have hw : (lw : ℂ) ≠ 0 := by exact_mod_cast hwp.ne'
  have hsp : ∀ i, 0 < Real.sqrt (oneP c i) := fun i => Real.sqrt_pos.mpr (oneP_pos i)
  have hqg : ∀ i, ((lw * Real.sqrt (oneP c i) : ℝ) : ℂ) ≠ 0 := fun i => by
    have := hsp i
    exact_mod_cast (by positivity : 0 < lw * Real.sqrt (oneP c i)).ne'
  have hfilm : FilmModes La Lg La 1 (fun _ => ((lw : ℝ) : ℂ)) (fun i => ((lw / Real.sqrt (oneP c i) : ℝ) : ℂ)) := by
    have ha : La.amat = diagonal fun _ => ((lw : ℝ) : ℂ) := by
      rw [amat_eq]
      simp only [La, Matrix.one_mul, Matrix.smul_mul]
      rw [← diagonal_smul]
      congr 1
      funext i
      simp only [Pi.smul_apply, smul_eq_mul]
      field_simp
    refine ⟨rfl, rfl, rfl, by simp, fun _ => hw, hqg, fun _ => hw, fun _ => hw, fun i => ?_, ha, ha, ?_, by simp⟩
    · have := hsp i
      exact_mod_cast (by positivity : 0 < lw / Real.sqrt (oneP c i)).ne'
    · rw [amat_eq]
      simp only [Lg, Matrix.one_mul, Matrix.smul_mul]
      rw [← diagonal_smul]
      congr 1
      funext i
      simp only [Pi.smul_apply, smul_eq_mul]
      have : (Real.sqrt (oneP c i) : ℂ) ≠ 0 := by exact_mod_cast (hsp i).ne'
      push_cast
      field_simp
  obtain ⟨S, hS⟩ := hfilm.S (fun i => by
      have := hsp i
      have : 0 < 1 + lw / Real.sqrt (oneP c i) / lw := by positivity
      exact_mod_cast this.ne') (fun i => by
      have h1 := hsp i
      intro he
      have he := congrArg (fun x : ℂ => ‖x‖) he
      have hn : ‖phasor Lg.q Lg.z i‖ = 1 := by
        unfold phasor
        rw [show Complex.I * Lg.q i * (Lg.z : ℂ) = ((lw * Real.sqrt (oneP c i) * Lg.z : ℝ) : ℂ) * Complex.I from by
          simp only [Lg]; push_cast; ring]
        exact Complex.norm_exp_ofReal_mul_I _
      simp only [norm_mul, norm_pow, hn, one_pow, one_mul] at he
      have e1 : (1 + ((lw / Real.sqrt (oneP c i) : ℝ) : ℂ) / ((lw : ℝ) : ℂ)) = ((1 + lw / Real.sqrt (oneP c i) / lw : ℝ) : ℂ) := by push_cast; rfl
      have e2 : (1 - ((lw / Real.sqrt (oneP c i) : ℝ) : ℂ) / ((lw : ℝ) : ℂ)) = ((1 - lw / Real.sqrt (oneP c i) / lw : ℝ) : ℂ) := by push_cast; rfl
      rw [e1, e2, Complex.norm_real, Complex.norm_real, Real.norm_eq_abs, Real.norm_eq_abs, sq_abs, sq_abs] at he
      have : 0 < lw / Real.sqrt (oneP c i) / lw := by positivity
      nlinarith)
  have m0 : (⟨(ev 0).1, (ev 0).2, Q 0, (oneMats 0).thickness⟩ : Modes (Idx c.nh)) = La := rfl
  have m1 : (⟨(ev 1).1, (ev 1).2, Q 1, (oneMats 1).thickness⟩ : Modes (Idx c.nh)) = Lg := rfl
  have m2 : (⟨(ev 2).1, (ev 2).2, Q 2, (oneMats 2).thickness⟩ : Modes (Idx c.nh)) = La := rfl
  have v0 := h4 0 (by rw [h.stack]; simp)
  have v2 := h4 2 (by rw [h.stack]; simp)
  rw [m0] at v0
  rw [m2] at v2
  have hS' : valS c oneMats A1 (.ok ()) none = .ok S := by
    rw [valS_none, h3, h.stack]
    simp only [List.map_cons, List.map_nil, m0, m1, m2]
    exact hS
  have hq : ∀ k, (c.omega : ℂ) * La.q k ≠ 0 := fun k => by rw [h.om]; exact mul_ne_zero hw hw
  obtain ⟨RT, d', e1, -⟩ := succeeds_efficiencies hs hS' (by rw [h.stack]; rfl) (by rw [h.stack]; rfl) v0 v2 hq hq (by rw [h.flux]; norm_num)
    (Dyn.fresh oneMats (unsolved c.nh)) (inv_fresh _ (.inl rfl))
  exact ⟨RT, d', e1⟩

theorem OneSim.efficiencies (h : OneSim c) :
    ∃ R T, (diffractionEfficiencies exE c false (Dyn.fresh oneMats (unsolved c.nh))).1 = .ok (.total R T) := by
  obtain ⟨RT, d', e1⟩ := h.byOrder
  unfold diffractionEfficiencies
  rw [PyM.bind_ok e1]
  simp only [Bool.false_eq_true, if_false, PyM.pure_def]
  exact ⟨_, _, rfl⟩

end Nannos.Examples
