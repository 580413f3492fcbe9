import Verif.Examples.Littrow

/-! The modes of the grating of `Littrow`. -/

namespace Nannos.Examples

open Matrix Nannos Spec

variable {c : Static} {i0 i1 : Fin c.nh}

/-- `omega`, `kx` and `kz`. -/
noncomputable def lw : ℝ := 2 * Real.pi
noncomputable def lk : ℝ := 2 * Real.pi * lS
noncomputable def lz : ℝ := 2 * Real.pi * lC

theorem lw_pos : 0 < lw := by unfold lw; positivity
theorem lk_pos : 0 < lk := by have := lS_pos; unfold lk; positivity
theorem lz_pos : 0 < lz := by have := lC_pos; unfold lz; positivity
theorem lw_sq : lw ^ 2 = lk ^ 2 + lz ^ 2 := by
  unfold lw lk lz
  linear_combination (-(4 * Real.pi ^ 2)) * lCS
theorem lw_lb : lw ^ 2 * (1 - 2 * lb) = 3 * lz ^ 2 := by
  unfold lw lz
  linear_combination (-(12 * Real.pi ^ 2)) * lC_sq
theorem lw_half : 0 < lw ^ 2 - lk ^ 2 / 2 := by
  have := lw_sq
  have := lk_pos
  have := lz_pos
  nlinarith [sq_nonneg lk, sq_pos_of_pos lz_pos]

theorem lw_sqC : (lw : ℂ) ^ 2 = (lk : ℂ) ^ 2 + (lz : ℂ) ^ 2 := by exact_mod_cast lw_sq
theorem lw_lbC : (lw : ℂ) ^ 2 * (1 - 2 * (lb : ℂ)) = 3 * (lz : ℂ) ^ 2 := by exact_mod_cast lw_lb

/-- First column of the modes of the grating. -/
noncomputable def lu : ℂ := 1 / 2 - lb + Complex.I * lb
noncomputable def lu' : ℂ := 1 / 2 - lb - Complex.I * lb

theorem kEps_two (h : Littrow c i0 i1) (a b a' b' : ℂ) : kEps c.kx c.ky (mat2 i0 a b a' b') =
    fromBlocks 0 0 0 (mat2 i0 ((lk : ℂ) ^ 2 * a) (-((lk : ℂ) ^ 2 * b)) (-((lk : ℂ) ^ 2 * a')) ((lk : ℂ) ^ 2 * b')) := by
  have e0 : c.kx i0 = (lk : ℂ) := h.kx0
  have e1 : c.kx i1 = -(lk : ℂ) := h.kx1
  have : kEps c.kx c.ky (mat2 i0 a b a' b') = fromBlocks 0 0 0 (Matrix.of fun i j => c.kx i * mat2 i0 a b a' b' i j * c.kx j) := by
    ext x y
    rcases x with i | i <;> rcases y with j | j <;> simp [kEps, h.ky]
  rw [this]
  congr 1
  apply h.two.ext <;> simp only [Matrix.of_apply, mat2_00, h.two.m01, h.two.m10, h.two.m11, e0, e1] <;> ring

theorem kMu_two (h : Littrow c i0 i1) : kMu c.kx c.ky = fromBlocks (mat2 i0 ((lk : ℂ) ^ 2) 0 0 ((lk : ℂ) ^ 2)) 0 0 0 := by
  have e0 : c.kx i0 = (lk : ℂ) := h.kx0
  have e1 : c.kx i1 = -(lk : ℂ) := h.kx1
  have : kMu c.kx c.ky = fromBlocks (diagonal fun i => c.kx i * c.kx i) 0 0 0 := by
    ext x y
    rcases x with i | i <;> rcases y with j | j <;> simp [kMu, h.ky, diagonal_apply]
    by_cases e : i = j
    · subst e; simp
    · simp [e]
  rw [this, h.two.diag, e0, e1]
  congr 2 <;> ring

/-- Convolution matrix of the grating and its inverse. -/
noncomputable def lEps (i0 : Fin c.nh) : Matrix (Fin c.nh) (Fin c.nh) ℂ := mat2 i0 (3 / 2) (1 / 2) (1 / 2) (3 / 2)
noncomputable def lEta (i0 : Fin c.nh) : Matrix (Fin c.nh) (Fin c.nh) ℂ := mat2 i0 (3 / 4) (-(1 / 4)) (-(1 / 4)) (3 / 4)
/-- The transverse permittivity. -/
noncomputable def lP (i0 : Fin c.nh) : Matrix (Idx c.nh) (Idx c.nh) ℂ :=
  fromBlocks (mat2 i0 (1 + lu') lu lu' (1 + lu)) 0 0 (mat2 i0 (3 / 2) (1 / 2) (1 / 2) (3 / 2))
/-- The modes. -/
noncomputable def lV (i0 : Fin c.nh) : Matrix (Idx c.nh) (Idx c.nh) ℂ :=
  fromBlocks (mat2 i0 lu 1 (-lu') 1) 0 0 (mat2 i0 1 1 1 (-1))
/-- Squares of the propagation constants. -/
noncomputable def lW (i0 : Fin c.nh) : Idx c.nh → ℝ :=
  Sum.elim (fun i => if i = i0 then lz ^ 2 else 4 * lz ^ 2) (fun i => if i = i0 then 2 * lz ^ 2 else lw ^ 2 - lk ^ 2 / 2)
/-- Eigenvalues of `omega^2 - K_eps`. -/
noncomputable def lY (i0 : Fin c.nh) : Idx c.nh → ℝ :=
  Sum.elim (fun _ => lw ^ 2) (fun i => if i = i0 then lz ^ 2 else lw ^ 2 - lk ^ 2 / 2)
noncomputable def lQ (c : Static) (i0 : Fin c.nh) : Matrix (Idx c.nh) (Idx c.nh) ℂ :=
  (c.omega : ℂ) ^ 2 • 1 - kEps c.kx c.ky (lEta i0)
noncomputable def lM (c : Static) (i0 : Fin c.nh) : Matrix (Idx c.nh) (Idx c.nh) ℂ :=
  waveMatrix c.omega c.kx c.ky (lP i0) (lEta i0)

theorem lW_pos (i0 : Fin c.nh) (i) : 0 < lW i0 i := by
  have := lz_pos
  have := lw_half
  unfold lW
  rcases i with i | i <;> dsimp only [Sum.elim_inl, Sum.elim_inr] <;> split <;> positivity

theorem lY_pos (i0 : Fin c.nh) (i) : 0 < lY i0 i := by
  have := lz_pos
  have := lw_pos
  have := lw_half
  unfold lY
  rcases i with i | i <;> dsimp only [Sum.elim_inl, Sum.elim_inr]
  · positivity
  · split <;> positivity

theorem Littrow.diag (h : Littrow c i0 i1) (f : Idx c.nh → ℂ) : diagonal f =
    fromBlocks (mat2 i0 (f (.inl i0)) 0 0 (f (.inl i1))) 0 0 (mat2 i0 (f (.inr i0)) 0 0 (f (.inr i1))) := by
  have e : f = Sum.elim (fun i => f (.inl i)) fun i => f (.inr i) := by
    funext i; rcases i with i | i <;> rfl
  conv_lhs => rw [e]
  rw [← fromBlocks_diagonal, h.two.diag, h.two.diag]

theorem Littrow.omega (h : Littrow c i0 i1) : (c.omega : ℂ) = (lw : ℂ) := by rw [h.om]; rfl

theorem Littrow.one (h : Littrow c i0 i1) (s : ℂ) : s • (1 : Matrix (Idx c.nh) (Idx c.nh) ℂ) =
    fromBlocks (mat2 i0 s 0 0 s) 0 0 (mat2 i0 s 0 0 s) := by
  rw [smul_one_eq_diagonal, h.diag]

theorem Littrow.lQ (h : Littrow c i0 i1) : lQ c i0 = fromBlocks (mat2 i0 ((lw : ℂ) ^ 2) 0 0 ((lw : ℂ) ^ 2)) 0 0
    (mat2 i0 ((lw : ℂ) ^ 2 - 3 / 4 * (lk : ℂ) ^ 2) (-((lk : ℂ) ^ 2 / 4)) (-((lk : ℂ) ^ 2 / 4)) ((lw : ℂ) ^ 2 - 3 / 4 * (lk : ℂ) ^ 2)) := by
  unfold Examples.lQ lEta
  rw [kEps_two h, h.one, h.omega, sub_eq_add_neg, fromBlocks_neg, fromBlocks_add]
  simp only [neg_zero, add_zero]
  rw [← sub_eq_add_neg, h.two.sub]
  congr 2 <;> ring

theorem Littrow.QV (h : Littrow c i0 i1) : Examples.lQ c i0 * lV i0 = lV i0 * diagonal fun i => (lY i0 i : ℂ) := by
  have h2 := lw_sqC
  rw [h.lQ, h.diag]
  unfold lV lY
  simp only [Sum.elim_inl, Sum.elim_inr, if_true, if_neg h.two.ne.symm, fromBlocks_multiply, Matrix.mul_zero, Matrix.zero_mul, add_zero, zero_add,
    h.two.mul]
  push_cast
  congr 2 <;> first | (ring1; done) | linear_combination h2 | linear_combination -h2

theorem Littrow.MV (h : Littrow c i0 i1) : lM c i0 * lV i0 = lV i0 * diagonal fun i => (lW i0 i : ℂ) := by
  have h2 := lw_sqC
  have h3 := lw_lbC
  have hM : lM c i0 = fromBlocks (mat2 i0 ((lw : ℂ) ^ 2 * (1 + lu') - (lk : ℂ) ^ 2) ((lw : ℂ) ^ 2 * lu) ((lw : ℂ) ^ 2 * lu')
      ((lw : ℂ) ^ 2 * (1 + lu) - (lk : ℂ) ^ 2)) 0 0 (mat2 i0 (3 / 2 * (lw : ℂ) ^ 2 - 5 / 4 * (lk : ℂ) ^ 2)
      (1 / 2 * (lw : ℂ) ^ 2 - 3 / 4 * (lk : ℂ) ^ 2) (1 / 2 * (lw : ℂ) ^ 2 - 3 / 4 * (lk : ℂ) ^ 2)
      (3 / 2 * (lw : ℂ) ^ 2 - 5 / 4 * (lk : ℂ) ^ 2)) := by
    unfold lM waveMatrix lP lEta
    rw [kEps_two h, kMu_two h, h.omega, fromBlocks_smul, fromBlocks_multiply, h.two.smul, h.two.smul]
    simp only [smul_zero, Matrix.mul_zero, Matrix.zero_mul, add_zero, zero_add, h.two.mul, sub_eq_add_neg, fromBlocks_neg, fromBlocks_add, neg_zero]
    simp only [← sub_eq_add_neg, h.two.sub]
    congr 2 <;> ring
  rw [hM, h.diag]
  unfold lV lW
  simp only [Sum.elim_inl, Sum.elim_inr, if_true, if_neg h.two.ne.symm, fromBlocks_multiply, Matrix.mul_zero, Matrix.zero_mul, add_zero, zero_add,
    h.two.mul]
  push_cast
  congr 2
  · linear_combination lu * h2
  · unfold lu lu'; linear_combination h2 + h3
  · linear_combination (-lu') * h2
  · unfold lu lu'; linear_combination h2 + h3
  · linear_combination 2 * h2
  · ring
  · linear_combination 2 * h2
  · ring

theorem lu_add : lu + lu' = ((1 - 2 * lb : ℝ) : ℂ) := by unfold lu lu'; push_cast; ring

theorem lb_ne : ((1 - 2 * lb : ℝ) : ℂ) ≠ 0 := by
  have := lb_upper
  exact_mod_cast (by linarith : 0 < 1 - 2 * lb).ne'

theorem Littrow.detV (h : Littrow c i0 i1) : (lV i0).det ≠ 0 := by
  have hne := lb_ne
  rw [← lu_add] at hne
  unfold lV
  rw [det_fromBlocks_zero₂₁]
  refine mul_ne_zero (h.two.inv (a' := 1 / (lu + lu')) (b' := -(1 / (lu + lu'))) (c' := lu' / (lu + lu')) (d' := lu / (lu + lu')) ?_ ?_ ?_ ?_).1
    (h.two.inv (a' := 1 / 2) (b' := 1 / 2) (c' := 1 / 2) (d' := -(1 / 2)) ?_ ?_ ?_ ?_).1
  · field_simp
  · field_simp; ring
  · field_simp; ring
  · field_simp; ring
  all_goals norm_num

theorem Littrow.col (h : Littrow c i0 i1) (j) : ∃ i, lV i0 i j ≠ 0 := by
  by_contra h0
  push Not at h0
  exact h.detV (det_eq_zero_of_column_eq_zero j h0)

/-! ### The eigenvalue routine -/

/-- `exE`, which also knows the modes of one matrix. -/
noncomputable def eigWith {n0 : ℕ} (M : Matrix (Idx n0) (Idx n0) ℂ) (w : Idx n0 → ℂ) (V : Matrix (Idx n0) (Idx n0) ℂ) : Ext :=
  { exE with
    eig := fun n A => open Classical in
      if h : ∃ e : n0 = n, A = e ▸ M then .ok (h.choose ▸ w, h.choose ▸ V) else exE.eig n A }

theorem eigWith_contract {n0 : ℕ} {M : Matrix (Idx n0) (Idx n0) ℂ} {w : Idx n0 → ℂ} {V : Matrix (Idx n0) (Idx n0) ℂ}
    (h1 : M * V = V * diagonal w) (h2 : ∀ j, ∃ i, V i j ≠ 0) : EigContract (eigWith M w V) := by
  intro n A w' v' h
  unfold eigWith at h
  dsimp only at h
  split at h
  · rename_i hx
    obtain ⟨e, he⟩ := hx
    subst e
    simp only [Except.ok.injEq, Prod.mk.injEq] at h
    obtain ⟨rfl, rfl⟩ := h
    have he : A = M := he
    subst he
    intro j
    refine ⟨fun i => ?_, h2 j⟩
    have := congrFun (congrFun h1 i) j
    rw [mul_apply, mul_diagonal] at this
    rw [this, mul_comm]
  · exact exE_eig n A w' v' h

theorem eigWith_eig {n0 : ℕ} (M : Matrix (Idx n0) (Idx n0) ℂ) (w : Idx n0 → ℂ) (V : Matrix (Idx n0) (Idx n0) ℂ) :
    (eigWith M w V).eig n0 M = .ok (w, V) := by
  unfold eigWith
  dsimp only
  rw [dif_pos ⟨rfl, rfl⟩]

/-- The numerical library of the example. -/
noncomputable def littrowE (c : Static) (i0 : Fin c.nh) : Ext := eigWith (lM c i0) (fun i => (lW i0 i : ℂ)) (lV i0)

theorem Littrow.contract (h : Littrow c i0 i1) : EigContract (littrowE c i0) := eigWith_contract h.MV h.col

theorem littrowE_sort (c : Static) (i0 : Fin c.nh) : ArgsortContract (littrowE c i0).argsort := exSort_spec

/-! ### The layers -/

/-- Attributes of air. -/
noncomputable def airQ (c : Static) : Matrix (Idx c.nh) (Idx c.nh) ℂ := (c.omega : ℂ) ^ 2 • 1 - kEps c.kx c.ky (((1 : ℂ) / 1) • 1)

theorem Littrow.air (h : Littrow c i0 i1) {E : Ext} (L : LayerSpec) (hc : L.iscopy = false) (he : L.epsilon = NdArr.scalar 1) (hmu : L.mu = 1)
    (Ao : LayerAttr c.nh) : (stepOut E c L Ao).1 = .ok () ∧ ∀ a, ((stepOut E c L Ao).2 a).eig = some (fun _ => (lz : ℂ), 1) ∧
      ((stepOut E c L Ao).2 a).Qeps = some (airQ c) := by
  have hu : L.isUniform = true ∧ L.isAnisotropic = false := by
    unfold LayerSpec.isUniform LayerSpec.isAnisotropic
    rw [he]; exact ⟨rfl, rfl⟩
  have hv : L.epsilon.value = 1 := by rw [he]; rfl
  obtain ⟨Q, hb⟩ : ∃ Q, buildPure E c L = .ok (.uniform Q) := by
    unfold buildPure
    simp only [hu, if_true, Bool.false_eq_true, if_false, hv, one_ne_zero]
    exact ⟨_, rfl⟩
  obtain ⟨-, -, -, hQ⟩ := buildPure_uniform_ok hmu hb
  rw [hv] at hQ
  have hq : csqrt ((lz : ℂ) ^ 2) = lz := by
    rw [← Complex.ofReal_pow, csqrt_ofReal (sq_nonneg _), Real.sqrt_sq lz_pos.le]
  have e0 : c.kx i0 = (lk : ℂ) := h.kx0
  have e1 : c.kx i1 = -(lk : ℂ) := h.kx1
  have hq' : ∀ i, csqrt (1 * 1 * (c.omega : ℂ) ^ 2 - c.kx i ^ 2 - c.ky i ^ 2) = lz := by
    intro i
    have h2 := lw_sqC
    rw [← hq, h.ky, h.omega, h2]
    congr 1
    rcases h.two.all i with rfl | rfl
    · rw [e0]; ring
    · rw [e1]; ring
  have hs : solveUniform L c.omega c.kx c.ky = .ok (fun _ => (lz : ℂ), 1) := by
    unfold solveUniform
    simp only [hu, Bool.false_eq_true, if_false, hv, hmu, hq', Except.ok.injEq, Prod.mk.injEq, and_true]
    funext k
    rcases k with i | i <;> rfl
  unfold stepOut
  simp only [hc, Bool.false_eq_true, if_false, hb, hs, hQ]
  exact ⟨trivial, fun _ => ⟨trivial, rfl⟩⟩

theorem modeSqrt_real {x : ℝ} (hx : 0 ≤ x) : modeSqrt (x : ℂ) = (Real.sqrt x : ℂ) := by
  rw [modeSqrt_eq_csqrt (by simp), csqrt_ofReal hx]

theorem Littrow.grating (h : Littrow c i0 i1) (Ao : LayerAttr c.nh) : (stepOut (littrowE c i0) c (littrowMats 1) Ao).1 = .ok () ∧
    ∀ a, ((stepOut (littrowE c i0) c (littrowMats 1) Ao).2 a).eig = some (fun i => (Real.sqrt (lW i0 i) : ℂ), lV i0) ∧
      ((stepOut (littrowE c i0) c (littrowMats 1) Ao).2 a).Qeps = some (Examples.lQ c i0) := by
  have hu : (littrowMats 1).isUniform = false ∧ (littrowMats 1).isAnisotropic = false := by
    constructor <;> simp [littrowMats, exLayer, LayerSpec.isUniform, LayerSpec.isAnisotropic, NdArr.ofGrid, isUniform, isAnisotropic]
  have hmu : (littrowMats 1).mu = 1 := rfl
  have hc : (littrowMats 1).iscopy = false := rfl
  let ga : Fin 4 → ℂ := fun x => if x = 0 then 3 else 1
  have hg : (littrowMats 1).epsilon.toGrid = .ok ⟨4, 4, fun x _ => ga x⟩ := by
    show (NdArr.ofGrid littrowGrid).toGrid = _
    unfold NdArr.toGrid NdArr.ofGrid
    simp [littrowGrid, ga]
  have ht : c.toep ⟨4, 4, fun x _ => ga x⟩ = .ok (lEps i0) := by
    rw [h.two.toep h.get0 h.get1]
    congr 1
    unfold lEps
    simp only [ga, if_true, if_neg (show (1 : Fin 4) ≠ 0 by decide), if_neg (show (2 : Fin 4) ≠ 0 by decide), if_neg (show (3 : Fin 4) ≠ 0 by decide)]
    congr 1 <;> ring
  obtain ⟨hdet, hinv⟩ : (lEps i0).det ≠ 0 ∧ (lEps i0)⁻¹ = lEta i0 := by
    unfold lEps lEta
    apply h.two.inv <;> norm_num
  obtain ⟨H, hH, hG⟩ := littrow_harm (littrowE_sort c i0)
  have hnu : nuHatInvIso c ⟨4, 4, fun x _ => ga x⟩ = .ok (mat2 i0 (5 / 4) (1 / 4) (1 / 4) (5 / 4)) := by
    unfold nuHatInvIso recipGrid
    rw [if_neg (by
      push Not
      intro x _
      show (if x = 0 then (3 : ℂ) else 1) ≠ 0
      split <;> norm_num)]
    simp only [except_bind_ok]
    rw [h.two.toep h.get0 h.get1 (fun x => 1 / ga x), except_bind_ok, linInv_ok]
    simp only [ga, if_true, if_neg (show (1 : Fin 4) ≠ 0 by decide), if_neg (show (2 : Fin 4) ≠ 0 by decide), if_neg (show (3 : Fin 4) ≠ 0 by decide)]
    obtain ⟨k1, k2⟩ := h.two.inv (a := (1 / 3 + 1 / 1 + 1 / 1 + 1 / 1) / 4) (b := (1 / 3 - Complex.I * (1 / 1) - 1 / 1 + Complex.I * (1 / 1)) / 4)
      (c := (1 / 3 + Complex.I * (1 / 1) - 1 / 1 - Complex.I * (1 / 1)) / 4) (d := (1 / 3 + 1 / 1 + 1 / 1 + 1 / 1) / 4)
      (a' := 5 / 4) (b' := 1 / 4) (c' := 1 / 4) (d' := 5 / 4) (by ring) (by ring) (by ring) (by ring)
    exact ⟨k1, k2.symm⟩
  have hP : pepsOf (littrowE c i0) c (littrowMats 1) ⟨4, 4, fun x _ => ga x⟩ none (lEps i0) (diag2 (lEps i0)) H = .ok (lP i0) := by
    unfold pepsOf
    have hf1 : c.lattice.is1D = false := by rw [h.lat]; rfl
    simp only [h.form, hf1, Bool.false_eq_true, if_false, if_true, show ¬ ("tangent" = "original") by decide, hnu, except_bind_ok,
      except_pure_eq_ok]
    have htan : getTangentField (littrowE c i0) (littrowMats 1) ⟨4, 4, fun x _ => ga x⟩ H true = .ok littrowField := rfl
    rw [htan, except_bind_ok]
    have hp : ∀ f : ℂ → ℂ → ℂ, f 0 0 = 0 → c.toep (projField littrowField f) =
        .ok (mat2 i0 (f 0 1 * (4 * lb)) (-(Complex.I * (f 0 1 * (4 * lb)))) (Complex.I * (f 0 1 * (4 * lb))) (f 0 1 * (4 * lb))) := by
      intro f hf
      have e : projField littrowField f = ⟨4, 4, fun x _ => (fun x : Fin 4 => f 0 (if x = 1 then 1 else 0) /
          ((|normPt 0 (if x = 1 then 1 else 0)| ^ 2 : ℝ) : ℂ)) x⟩ := rfl
      rw [e, h.two.toep h.get0 h.get1]
      have hn : (1 : ℂ) / ((|normPt 0 1| ^ 2 : ℝ) : ℂ) = 16 * lb := by
        have : (1 : ℝ) / |normPt 0 1| ^ 2 = 16 * lb := by
          unfold normPt lb
          simp only [map_zero, map_one, zero_add, Real.sqrt_one, sq_abs]
          norm_num
        exact_mod_cast congrArg (fun x : ℝ => (x : ℂ)) this
      have e1 : f 0 1 / ((|normPt 0 1| ^ 2 : ℝ) : ℂ) = f 0 1 * (16 * lb) := by rw [div_eq_mul_one_div, hn]
      simp only [if_true, if_neg (show (0 : Fin 4) ≠ 1 by decide), if_neg (show (2 : Fin 4) ≠ 1 by decide), if_neg (show (3 : Fin 4) ≠ 1 by decide), hf,
        zero_div, e1]
      congr 2 <;> ring
    unfold getPeps
    rw [hp _ (by simp), hp _ (by simp), hp _ (by simp), hp _ (by simp)]
    simp only [except_bind_ok, except_pure_eq_ok, star_zero, star_one, mul_zero, zero_mul, mul_one, one_mul, neg_zero]
    congr 1
    unfold diag2 lEps lP
    rw [← h.two.zero, sub_eq_add_neg (fromBlocks _ _ _ _) (fromBlocks (mat2 i0 (5 / 4) _ _ _) _ _ _), fromBlocks_neg, fromBlocks_add]
    simp only [neg_zero, add_zero, ← sub_eq_add_neg, h.two.sub, fromBlocks_multiply, Matrix.mul_zero, Matrix.zero_mul, h.two.mul]
    rw [sub_eq_add_neg, fromBlocks_neg, fromBlocks_add]
    simp only [neg_zero, add_zero, ← sub_eq_add_neg, h.two.sub]
    have d1 : lu = 1 / 2 - lb + Complex.I * lb := rfl
    have d2 : lu' = 1 / 2 - lb - Complex.I * lb := rfl
    congr 2 <;> (try rw [d1]) <;> (try rw [d2]) <;> ring
  obtain ⟨M, p, Q, hb⟩ : ∃ M p Q, buildPure (littrowE c i0) c (littrowMats 1) = .ok (.patterned M p Q) := by
    unfold buildPure
    simp only [hu, Bool.false_eq_true, if_false, hg, ht, except_bind_ok, hmu, one_ne_zero]
    rw [(linInv_ok _ _).mpr ⟨hdet, hinv.symm⟩, except_bind_ok, raiseIf_ok (u := ()).mpr (by simp), except_bind_ok]
    unfold paraOf epsParaHatOf
    simp only [hu, Bool.false_eq_true, if_false, except_bind_ok, except_pure_eq_ok]
    rw [h.lat, hG]
    simp only [except_bind_ok, hP]
    exact ⟨_, _, _, rfl⟩
  obtain ⟨-, -, h3', h4, h5, -, -, epszz, para, eph, Ht, k, h6, h7, h8, h9, h10, h11⟩ := buildPure_patterned_ok hmu hb
  simp only [hu, Bool.false_eq_true, if_false, hg, Except.ok.injEq] at h6
  subst h6
  rw [ht, Except.ok.injEq] at h7
  unfold paraOf at h8
  simp only [hu, Bool.false_eq_true, if_false, except_pure_eq_ok, Except.ok.injEq] at h8
  subst h8
  unfold epsParaHatOf at h9
  simp only [except_pure_eq_ok, Except.ok.injEq] at h9
  rw [h.lat, hG] at h10
  simp only [Except.ok.injEq, Prod.mk.injEq] at h10
  rw [← h9, ← h7, ← h10.1, hP, Except.ok.injEq] at h11
  rw [← h7, hinv] at h3'
  rw [h3'] at h4 h5
  rw [← h11] at h5
  have hM : M = lM c i0 := h5
  have hQ : Q = Examples.lQ c i0 := h4
  have hs : solveEigenproblem (littrowE c i0) M = .ok (fun i => (Real.sqrt (lW i0 i) : ℂ), lV i0) := by
    unfold solveEigenproblem
    rw [hM, show (littrowE c i0).eig c.nh (lM c i0) = _ from eigWith_eig _ _ _]
    simp only [except_bind_ok, except_pure_eq_ok, Except.ok.injEq, Prod.mk.injEq, and_true]
    funext k
    exact modeSqrt_real (lW_pos i0 k).le
  unfold stepOut
  simp only [hc, Bool.false_eq_true, if_false, hb, hs, hQ]
  exact ⟨trivial, fun _ => ⟨trivial, trivial⟩⟩

end Nannos.Examples
