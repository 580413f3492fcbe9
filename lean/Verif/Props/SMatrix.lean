import Verif.Proofs.SMatrix2

/-!
Properties C22-C26: the scattering matrix of a stack.
`freshS layers i j` is what `get_S_matrix((i, j))` computes (C27 relates it to the cached version).
-/

namespace Nannos

open Matrix Spec

variable {m : Type} [Fintype m] [DecidableEq m]

/-- **C22**. When `get_S_matrix((i,j))` succeeds, `i < j` and all the layers exist; every assignment of
amplitudes matching the tangential fields at the interfaces is related by the returned matrix, and for
all incoming amplitudes there is exactly one such assignment (on the layers `i..j`). -/
theorem C22_scattering_matrix_solves_stack (layers : List (Modes m)) (i j : ℕ) (S : SMat m)
    (h : freshS layers i j = .ok S) :
    i < j ∧ j < layers.length ∧
    (∀ amp, Consistent layers i j amp →
      (amp j).1 = S.s11 *ᵥ (amp i).1 + S.s12 *ᵥ (amp j).2 ∧
      (amp i).2 = S.s21 *ᵥ (amp i).1 + S.s22 *ᵥ (amp j).2) ∧
    (∀ a b : m → ℂ, ∃ amp, Consistent layers i j amp ∧ (amp i).1 = a ∧ (amp j).2 = b ∧
      ∀ amp', Consistent layers i j amp' → (amp' i).1 = a → (amp' j).2 = b →
        ∀ k, i ≤ k → k ≤ j → amp' k = amp k) := by
  obtain ⟨hij, hl⟩ := (freshS_ok (S := S)).mp h
  refine ⟨hij, loopS_length hij hl, fun amp hc => loopS_rel layers i j hij.le S hl amp hc, ?_⟩
  intro a b
  obtain ⟨amp, hc, ha, hb⟩ := loopS_exists layers i j hij.le S hl a b
  refine ⟨amp, hc, ha, hb, fun amp' hc' ha' hb' k h1 h2 => ?_⟩
  exact loopS_unique layers i j hij.le S hl amp' amp hc' hc (ha'.trans ha.symm) (hb'.trans hb.symm)
    k h1 h2

/-- **C23**. Partial scattering matrices compose by the star product, whose inner matrix is
invertible. -/
theorem C23_partial_scattering_matrices_compose (layers : List (Modes m)) (i j k : ℕ)
    (S P T : SMat m) (hS : freshS layers i j = .ok S) (hP : freshS layers j k = .ok P)
    (hT : freshS layers i k = .ok T) :
    (1 - S.s12 * P.s21).det ≠ 0 ∧ T = cascade S P := by
  obtain ⟨h1, hS⟩ := (freshS_ok (S := S)).mp hS
  obtain ⟨h2, hP⟩ := (freshS_ok (S := P)).mp hP
  obtain ⟨h3, hT⟩ := (freshS_ok (S := T)).mp hT
  exact ⟨cascade_unit h1.le h2.le hS hP hT, cascade_eq h1.le h2.le hS hP hT⟩

/-- **C24**. A layer `Z` of zero (or absent) thickness inserted strictly inside a stack does not change
its scattering matrix. -/
theorem C24_zero_thickness_layer_is_transparent (pre post : List (Modes m)) (Z : Modes m)
    (hZ : Z.thickness = none ∨ Z.thickness = some 0) (hpre : pre ≠ []) (hpost : post ≠ [])
    (S S' : SMat m)
    (hS : freshS (pre ++ post) (0 : ℕ) ((pre ++ post).length - 1 : ℕ) = .ok S)
    (hS' : freshS (pre ++ Z :: post) (0 : ℕ) ((pre ++ Z :: post).length - 1 : ℕ) = .ok S') :
    S' = S := by
  have hz : Z.z = 0 := by rcases hZ with h | h <;> simp [Modes.z, h]
  obtain ⟨h1, hS⟩ := (freshS_ok (S := S)).mp hS
  obtain ⟨h2, hS'⟩ := (freshS_ok (S := S')).mp hS'
  have e : (pre ++ Z :: post).length - 1 = ((pre ++ post).length - 1) + 1 := by
    simp only [List.length_append, List.length_cons] at *; omega
  have hp : 0 < post.length := List.length_pos_iff.mpr hpost
  rw [e] at hS'
  refine (smat_eq_of_collapse hS hS' fun amp' hc => ?_).symm
  exact insert_zero_collapse hz hpre _ (by simp only [List.length_append]; omega) amp' hc

/-- **C25**. Replacing an inner layer `L` by two layers with the same modes whose thicknesses add up to
that of `L` does not change the scattering matrix. -/
theorem C25_splitting_a_layer_changes_nothing (pre post : List (Modes m)) (L L1 L2 : Modes m)
    (d d1 d2 : ℝ) (h1 : SameModes L L1) (h2 : SameModes L L2)
    (hd : L.thickness = some d) (hd1 : L1.thickness = some d1) (hd2 : L2.thickness = some d2)
    (hsum : d = d1 + d2) (hpre : pre ≠ []) (hpost : post ≠ []) (S S' : SMat m)
    (hS : freshS (pre ++ L :: post) (0 : ℕ) ((pre ++ L :: post).length - 1 : ℕ) = .ok S)
    (hS' : freshS (pre ++ L1 :: L2 :: post) (0 : ℕ) ((pre ++ L1 :: L2 :: post).length - 1 : ℕ)
      = .ok S') :
    S' = S := by
  have hz : L.z = L1.z + L2.z := by simp [Modes.z, hd, hd1, hd2, hsum]
  obtain ⟨i1, hS⟩ := (freshS_ok (S := S)).mp hS
  obtain ⟨i2, hS'⟩ := (freshS_ok (S := S')).mp hS'
  have hp : 0 < post.length := List.length_pos_iff.mpr hpost
  have hdet := (loopS_invertible (Nat.zero_le _) hS' (k := pre.length) (Nat.zero_le _)
    (by simp only [List.length_append, List.length_cons]; omega) (L := L1) (by simp)).1
  have e : (pre ++ L1 :: L2 :: post).length - 1 = ((pre ++ L :: post).length - 1) + 1 := by
    simp only [List.length_append, List.length_cons] at *; omega
  rw [e] at hS'
  refine (smat_eq_of_collapse hS hS' fun amp' hc => ?_).symm
  exact split_collapse h1 h2 hz hdet hpre _
    (by simp only [List.length_append, List.length_cons]; omega) amp' hc

/-- **C26**. A stack all of whose layers share the modes of `L0` (non-zero propagation constants, modal
matrix invertible) has a scattering matrix, does not reflect, and transmits mode `x` with the phase
`exp(i q_x d)`, `d` the distance travelled: layers `i..j-1` downwards, layers `i+1..j` upwards (backward
amplitudes are measured at the bottom of a layer). -/
theorem C26_homogeneous_stack_does_not_reflect (layers : List (Modes m)) (L0 : Modes m)
    (hsame : ∀ L ∈ layers, SameModes L0 L) (hq : ∀ x, L0.q x ≠ 0) (hdet : L0.M.det ≠ 0)
    (i j : ℕ) (hij : i < j) (hj : j < layers.length) :
    ∃ S, freshS layers i j = .ok S ∧ S.s12 = 0 ∧ S.s21 = 0 ∧
      (∀ x y, S.s11 x y = if x = y then Complex.exp (Complex.I * L0.q x * depth layers i j) else 0) ∧
      (∀ x y, S.s22 x y =
        if x = y then Complex.exp (Complex.I * L0.q x * depth layers (i + 1) (j + 1)) else 0) := by
  have h := loopS_homogeneous layers L0 hsame hq hdet i j hij.le hj
  refine ⟨_, freshS_ok.mpr ⟨hij, h⟩, rfl, rfl, ?_, ?_⟩ <;>
  · intro x y
    simp [diagonal_apply, phasor]

/-! ### Concrete cases -/

namespace Examples

/-- One mode per direction, `q = 1`. -/
noncomputable def airLike (d : Option ℝ) : Modes (Fin 1) := ⟨fun _ => 1, 1, 1, d⟩

/-- One mode per direction, `q = 2` (different impedance). -/
noncomputable def slabLike (d : Option ℝ) : Modes (Fin 1) := ⟨fun _ => 2, 1, 1, d⟩

theorem amat_air (d) : (airLike d).amat = 1 := by
  ext i j
  fin_cases i; fin_cases j
  simp [airLike, Modes.amat]

theorem amat_slab (d) : (slabLike d).amat = (1 / 2 : ℂ) • 1 := by
  ext i j
  fin_cases i; fin_cases j
  simp [slabLike, Modes.amat]

theorem M_air (d) : (airLike d).M = fromBlocks 1 (-1) 1 1 := by
  unfold Modes.M; rw [amat_air]; rfl

theorem M_slab (d) : (slabLike d).M = fromBlocks ((1 / 2 : ℂ) • 1) (-((1 / 2 : ℂ) • 1)) 1 1 := by
  unfold Modes.M; rw [amat_slab]; rfl

theorem M_air_inv (d) : (airLike d).M *
    fromBlocks ((1 / 2 : ℂ) • 1) ((1 / 2 : ℂ) • 1) (-((1 / 2 : ℂ) • 1)) ((1 / 2 : ℂ) • 1) = 1 := by
  rw [M_air, fromBlocks_multiply, ← fromBlocks_one]
  congr 1 <;> · ext i j; fin_cases i; fin_cases j; simp; try norm_num

theorem M_slab_inv (d) : (slabLike d).M *
    fromBlocks 1 ((1 / 2 : ℂ) • 1) (-1) ((1 / 2 : ℂ) • 1) = 1 := by
  rw [M_slab, fromBlocks_multiply, ← fromBlocks_one]
  congr 1 <;> · ext i j; fin_cases i; fin_cases j; simp; try norm_num

theorem det_ne_of_mul_eq_one {n : Type} [Fintype n] [DecidableEq n] {A B : Matrix n n ℂ}
    (h : A * B = 1) : A.det ≠ 0 := by
  intro h0
  have := congrArg det h
  rw [det_mul, h0] at this
  simp at this

/-- C26's hypotheses are met by any stack of the same material. -/
example : ∃ S, freshS [airLike none, airLike (some 3), airLike (some 5), airLike none] (0 : ℕ) (3 : ℕ)
      = .ok S ∧ S.s12 = 0 ∧ S.s21 = 0 ∧
      (∀ x y, S.s11 x y = if x = y then Complex.exp (Complex.I * 1 * (8 : ℝ)) else 0) := by
  obtain ⟨S, h1, h2, h3, h4, -⟩ := C26_homogeneous_stack_does_not_reflect
    [airLike none, airLike (some 3), airLike (some 5), airLike none] (airLike none)
    (by intro L hL; fin_cases hL <;> exact ⟨rfl, rfl, rfl⟩)
    (by intro x; simp [airLike]) (det_ne_of_mul_eq_one (M_air_inv _)) 0 3 (by omega) (by simp)
  refine ⟨S, h1, h2, h3, ?_⟩
  intro x y
  rw [h4]
  have : depth [airLike none, airLike (some 3), airLike (some 5), airLike none] 0 3 = 8 := by
    simp [depth, Modes.z, airLike]; norm_num
  rw [this]
  simp [airLike]

/-- Interface of the two materials. -/
theorem buildI_air_slab (d d') : buildI (airLike d) (slabLike d') =
    .ok (fromBlocks ((3 / 4 : ℂ) • 1) ((1 / 4 : ℂ) • 1) ((1 / 4 : ℂ) • 1) ((3 / 4 : ℂ) • 1)) := by
  rw [buildI_ok]
  refine ⟨by simp [airLike], by simp [slabLike], det_ne_of_mul_eq_one (M_air_inv _), ?_⟩
  rw [inv_eq_right_inv (M_air_inv d), M_slab, fromBlocks_multiply]
  congr 1 <;> · ext i j; fin_cases i; fin_cases j; simp; try norm_num

theorem buildI_slab_air (d d') : buildI (slabLike d) (airLike d') =
    .ok (fromBlocks ((3 / 2 : ℂ) • 1) (-((1 / 2 : ℂ) • 1)) (-((1 / 2 : ℂ) • 1))
      ((3 / 2 : ℂ) • 1)) := by
  rw [buildI_ok]
  refine ⟨by simp [slabLike], by simp [airLike], det_ne_of_mul_eq_one (M_slab_inv _), ?_⟩
  rw [inv_eq_right_inv (M_slab_inv d), M_air, fromBlocks_multiply]
  congr 1 <;> · ext i j; fin_cases i; fin_cases j; simp; try norm_num

theorem stepS_exists {S : SMat (Fin 1)} {L L' : Modes (Fin 1)} {I : Matrix (Fin 1 ⊕ Fin 1) _ ℂ}
    (hI : buildI L L' = .ok I)
    (hA : I (Sum.inl 0) (Sum.inl 0) - L.f 0 0 * S.s12 0 0 * I (Sum.inr 0) (Sum.inl 0) ≠ 0) :
    ∃ S', stepS S L L' = .ok S' ∧ S'.s12 0 0 =
      (I (Sum.inl 0) (Sum.inl 0) - L.f 0 0 * S.s12 0 0 * I (Sum.inr 0) (Sum.inl 0))⁻¹ *
        ((L.f 0 0 * S.s12 0 0 * I (Sum.inr 0) (Sum.inr 0) - I (Sum.inl 0) (Sum.inr 0))
          * L'.f 0 0) := by
  have hdet : (I.toBlocks₁₁ - L.f * S.s12 * I.toBlocks₂₁).det ≠ 0 := by
    rw [det_fin_one]
    simpa [mul_apply, toBlocks₁₁, toBlocks₂₁] using hA
  have hst : ∃ S', stepS S L L' = .ok S' := by
    simp only [stepS, hI, except_bind_ok, (linSolve_ok _ _ _).mpr ⟨hdet, rfl⟩]
    exact ⟨_, rfl⟩
  obtain ⟨S', h⟩ := hst
  refine ⟨S', h, ?_⟩
  obtain ⟨I', A, hI', hA', -, -, h12, -⟩ := stepS_ok h
  rw [hI] at hI'
  cases hI'
  have h12' := congrFun (congrFun h12 0) 0
  rw [eq_inv_mul_iff_mul_eq₀ hA]
  simpa [hA', mul_apply, toBlocks₁₁, toBlocks₂₁, toBlocks₂₂, toBlocks₁₂] using h12'

theorem norm_f_air (d) : ‖(airLike d).f 0 0‖ = 1 := by
  simp [Modes.f, phasor, airLike, Complex.norm_exp]

theorem norm_f_slab (d) : ‖(slabLike d).f 0 0‖ = 1 := by
  simp [Modes.f, phasor, slabLike, Complex.norm_exp]

theorem step_air_slab (d d') : ∃ S', stepS SMat.one (airLike d) (slabLike d') = .ok S' ∧
    ‖S'.s12 0 0‖ = 1 / 3 := by
  obtain ⟨S', h, e⟩ := stepS_exists (S := SMat.one) (buildI_air_slab d d') (by simp [SMat.one])
  refine ⟨S', h, ?_⟩
  rw [e]
  simp [SMat.one, norm_f_slab]
  norm_num

theorem step_slab_slab (d d') (S : SMat (Fin 1)) :
    ∃ S', stepS S (slabLike d) (slabLike d') = .ok S' ∧ ‖S'.s12 0 0‖ = ‖S.s12 0 0‖ := by
  obtain ⟨S', h, e⟩ := stepS_exists (S := S)
    (buildI_same (L := slabLike d) (L' := slabLike d') ⟨rfl, rfl, rfl⟩ (by simp [slabLike])
      (det_ne_of_mul_eq_one (M_slab_inv _))) (by simp)
  refine ⟨S', h, ?_⟩
  rw [e]
  simp [norm_f_slab]

theorem step_slab_air (d d') (S : SMat (Fin 1)) (hS : ‖S.s12 0 0‖ ≤ 1 / 3) :
    ∃ S', stepS S (slabLike d) (airLike d') = .ok S' := by
  obtain ⟨S', h, -⟩ := stepS_exists (S := S) (buildI_slab_air d d') (by
    intro h0
    have e : (slabLike d).f 0 0 * S.s12 0 0 = -3 := by
      simp at h0
      linear_combination 2 * h0
    have := congrArg norm e
    rw [norm_mul, norm_f_slab] at this
    simp at this
    linarith)
  exact ⟨S', h⟩

theorem step_air_air (d d') : ∃ S', stepS SMat.one (airLike d) (airLike d') = .ok S' := by
  obtain ⟨S', h, -⟩ := stepS_exists (S := SMat.one)
    (buildI_same (L := airLike d) (L' := airLike d') ⟨rfl, rfl, rfl⟩ (by simp [airLike])
      (det_ne_of_mul_eq_one (M_air_inv _))) (by simp)
  exact ⟨S', h⟩

theorem loop_two {S S' : SMat (Fin 1)} (l : List (Modes (Fin 1))) (i : ℕ) (L L')
    (h1 : l[i]? = some L) (h2 : l[i + 1]? = some L') (hS : loopS l (0 : ℕ) i = .ok S)
    (h : stepS S L L' = .ok S') : loopS l (0 : ℕ) (i + 1 : ℕ) = .ok S' := by
  rw [Nat.cast_add, Nat.cast_one, loopS_succ l 0 i (Nat.zero_le _), hS, except_bind_ok, stepAt_ok]
  exact ⟨L, L', h1, h2, h⟩

theorem ex_three (d0 d1 d2) : ∃ S, freshS [airLike d0, slabLike d1, airLike d2] (0 : ℕ) (2 : ℕ) = .ok S := by
  obtain ⟨S1, h1, n1⟩ := step_air_slab d0 d1
  obtain ⟨S2, h2⟩ := step_slab_air d1 d2 S1 n1.le
  exact ⟨S2, freshS_ok.mpr ⟨by omega, loop_two _ 1 _ _ rfl rfl
    (loop_two _ 0 _ _ rfl rfl (loopS_self _ _) h1) h2⟩⟩

/-- C22: a slab in air has a scattering matrix (for every thickness), to which C22 applies. -/
example : ∃ S, freshS [airLike none, slabLike (some 1), airLike none] (0 : ℕ) (2 : ℕ) = .ok S ∧
    ∀ a b : Fin 1 → ℂ, ∃ amp,
      Consistent [airLike none, slabLike (some 1), airLike none] 0 2 amp ∧ (amp 0).1 = a ∧
        (amp 2).2 = b := by
  obtain ⟨S, h⟩ := ex_three none (some 1) none
  refine ⟨S, h, fun a b => ?_⟩
  obtain ⟨-, -, -, h4⟩ := C22_scattering_matrix_solves_stack _ _ _ _ h
  obtain ⟨amp, h5, h6, h7, -⟩ := h4 a b
  exact ⟨amp, h5, h6, h7⟩

/-- C23: the three scattering matrices exist for the slab, with a reflecting interface. -/
example : ∃ S P T : SMat (Fin 1),
    freshS [airLike none, slabLike (some 1), airLike none] (0 : ℕ) (1 : ℕ) = .ok S ∧
    freshS [airLike none, slabLike (some 1), airLike none] (1 : ℕ) (2 : ℕ) = .ok P ∧
    freshS [airLike none, slabLike (some 1), airLike none] (0 : ℕ) (2 : ℕ) = .ok T ∧
    S.s12 ≠ 0 := by
  obtain ⟨S1, h1, n1⟩ := step_air_slab none (some 1)
  obtain ⟨P, hP⟩ := step_slab_air (some 1) none SMat.one (by simp [SMat.one])
  obtain ⟨T, hT⟩ := ex_three none (some 1) none
  refine ⟨S1, P, T, freshS_ok.mpr ⟨by omega, loop_two _ 0 _ _ rfl rfl (loopS_self _ _) h1⟩,
    freshS_ok.mpr ⟨by omega, ?_⟩, hT, ?_⟩
  · have : ((2 : ℕ) : Int) = ((1 : ℕ) : Int) + 1 := rfl
    rw [this, loopS_succ _ 1 1 le_rfl, loopS_self, except_bind_ok, stepAt_ok]
    exact ⟨_, _, rfl, rfl, hP⟩
  · intro h0
    rw [h0] at n1
    simp at n1

/-- C24: inserting a zero-thickness slab in air. -/
example : ∃ S S' : SMat (Fin 1),
    freshS ([airLike none] ++ [airLike none]) (0 : ℕ)
      (([airLike none] ++ [airLike none]).length - 1 : ℕ) = .ok S ∧
    freshS ([airLike none] ++ slabLike (some 0) :: [airLike none]) (0 : ℕ)
      (([airLike none] ++ slabLike (some 0) :: [airLike none]).length - 1 : ℕ) = .ok S' ∧ S' = S := by
  obtain ⟨S, hS⟩ := step_air_air none none
  obtain ⟨T, hT⟩ := ex_three none (some 0) none
  have hS' : freshS ([airLike none] ++ [airLike none]) (0 : ℕ)
      (([airLike none] ++ [airLike none]).length - 1 : ℕ) = .ok S :=
    freshS_ok.mpr ⟨by simp, loop_two _ 0 _ _ rfl rfl (loopS_self _ _) hS⟩
  exact ⟨S, T, hS', hT, C24_zero_thickness_layer_is_transparent [airLike none] [airLike none]
    (slabLike (some 0)) (Or.inr rfl) (by simp) (by simp) S T hS' hT⟩

/-- C25: splitting the slab. -/
example : ∃ S S' : SMat (Fin 1),
    freshS ([airLike none] ++ slabLike (some 3) :: [airLike none]) (0 : ℕ)
      (([airLike none] ++ slabLike (some 3) :: [airLike none]).length - 1 : ℕ) = .ok S ∧
    freshS ([airLike none] ++ slabLike (some 1) :: slabLike (some 2) :: [airLike none]) (0 : ℕ)
      (([airLike none] ++ slabLike (some 1) :: slabLike (some 2) :: [airLike none]).length - 1 : ℕ)
      = .ok S' ∧ S' = S := by
  obtain ⟨S, hS⟩ := ex_three none (some 3) none
  obtain ⟨S1, h1, n1⟩ := step_air_slab none (some 1)
  obtain ⟨S2, h2, n2⟩ := step_slab_slab (some 1) (some 2) S1
  obtain ⟨S3, h3⟩ := step_slab_air (some 2) none S2 (by rw [n2, n1])
  have h : freshS ([airLike none] ++ slabLike (some 1) :: slabLike (some 2) :: [airLike none]) (0 : ℕ)
      (([airLike none] ++ slabLike (some 1) :: slabLike (some 2) :: [airLike none]).length - 1 : ℕ)
      = .ok S3 :=
    freshS_ok.mpr ⟨by simp, loop_two _ 2 _ _ rfl rfl (loop_two _ 1 _ _ rfl rfl
      (loop_two _ 0 _ _ rfl rfl (loopS_self _ _) h1) h2) h3⟩
  exact ⟨S, S3, hS, h, C25_splitting_a_layer_changes_nothing [airLike none] [airLike none]
    (slabLike (some 3)) (slabLike (some 1)) (slabLike (some 2)) 3 1 2 ⟨rfl, rfl, rfl⟩
    ⟨rfl, rfl, rfl⟩ rfl rfl rfl (by norm_num) (by simp) (by simp) S S3 hS h⟩

end Examples

end Nannos
