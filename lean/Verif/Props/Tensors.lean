import Verif.Props.Blocks
import Verif.Props.Constitutive
import Verif.Proofs.MovedLayers
import Verif.Examples.Solve

/-! **C17**, **C19** for anisotropic patterns. -/

namespace Nannos

open Matrix Spec

variable {E : Ext} {c : Static}

/-- **C17**, where it is used: the inverse of the transverse tensor of an anisotropic pattern is computed by assembling
the components of the tensor, `inv2by2block`, and splitting the result again. -/
theorem C17_tensor_inverse {N : ℕ} (a b d e : Grid N N) :
    (do
      let T ← blockL (rows (Matrix.of a)) (rows (Matrix.of b)) (rows (Matrix.of d)) (rows (Matrix.of e))
      let X ← inv2by2block T N
      pure (block2list X N)) =
    (pointwiseInv ⟨N, N, a⟩ ⟨N, N, b⟩ ⟨N, N, d⟩ ⟨N, N, e⟩).map fun q =>
      (rows (Matrix.of q.xx.g), rows (Matrix.of q.xy.g), rows (Matrix.of q.yx.g), rows (Matrix.of q.yy.g)) := by
  obtain ⟨h1, h2, h3, h4⟩ := getBlock_rows (fromBlocks (Matrix.of a) (Matrix.of b) (Matrix.of d) (Matrix.of e))
  rw [blockL_rows, except_bind_ok]
  unfold inv2by2block block2list
  simp only [h1, h2, h3, h4, toBlocks_fromBlocks₁₁, toBlocks_fromBlocks₁₂, toBlocks_fromBlocks₂₁, toBlocks_fromBlocks₂₂,
    map2_rows, neg2_rows, of_apply, blockL_rows, Matrix.neg_apply]
  rw [pointwiseInv_square]
  unfold inv4
  have hz : (∃ row ∈ rows (Matrix.of fun i j => a i j * e i j - d i j * b i j), (0 : ℂ) ∈ row) ↔
      ∃ i j, a i j * e i j - d i j * b i j = 0 := by
    simp only [rows, List.mem_ofFn]
    constructor
    · rintro ⟨row, ⟨i, rfl⟩, h⟩
      rw [List.mem_ofFn] at h
      obtain ⟨j, hj⟩ := h
      exact ⟨i, j, hj⟩
    · rintro ⟨i, j, h⟩
      exact ⟨_, ⟨i, rfl⟩, by rw [List.mem_ofFn]; exact ⟨j, h⟩⟩
  dsimp only
  by_cases hd : ∃ i j, a i j * e i j - d i j * b i j = 0
  · rw [if_pos (hz.mpr hd), if_pos hd]
    rfl
  · rw [if_neg (fun h => hd (hz.mp h)), if_neg hd, except_bind_ok]
    obtain ⟨h1, h2, h3, h4⟩ := getBlock_rows (fromBlocks
      (Matrix.of fun i j => e i j / (a i j * e i j - d i j * b i j))
      (Matrix.of fun i j => -b i j / (a i j * e i j - d i j * b i j))
      (Matrix.of fun i j => -d i j / (a i j * e i j - d i j * b i j))
      (Matrix.of fun i j => a i j / (a i j * e i j - d i j * b i j)))
    rw [h1, h2, h3, h4]
    simp only [toBlocks_fromBlocks₁₁, toBlocks_fromBlocks₁₂, toBlocks_fromBlocks₂₁, toBlocks_fromBlocks₂₂]
    rfl

/-- Where the convolution matrix of a constant is a multiple of the identity, that of any constant is. -/
theorem toep_const_of {Nx Ny : ℕ} {z v : ℂ} {A B} (h : c.toep ⟨Nx, Ny, fun _ _ => z⟩ = .ok A) (hd : A.det ≠ 0)
    {u : Grid Nx Ny} (hu : ∀ x y, u x y = v) (h' : c.toep ⟨Nx, Ny, u⟩ = .ok B) : B = v • 1 := by
  obtain rfl : u = fun _ _ => v := by funext x y; exact hu x y
  have hA := toep_const (v := z) (fun _ _ => rfl) h hd
  ext i j
  obtain ⟨h1, h2⟩ := toep_pos h i
  haveI : NeZero Nx := ⟨h1⟩
  haveI : NeZero Ny := ⟨h2⟩
  have hz : z ≠ 0 := by
    rintro rfl
    have : Nonempty (Fin c.nh) := ⟨i⟩
    rw [hA, zero_smul, det_zero] at hd
    exact hd rfl
  have e1 := congrFun (congrFun ((toeplitz_ok h).2.symm.trans hA) i) j
  have e2 := congrFun (congrFun (toeplitz_ok h').2 i) j
  rw [of_apply, coeff_const] at e1 e2
  rw [e2, Matrix.smul_apply]
  rw [Matrix.smul_apply] at e1
  by_cases hij : i = j
  · subst hij
    simp
  · rw [Matrix.one_apply_ne hij, smul_zero] at e1 ⊢
    rw [ite_eq_right_iff] at e1 ⊢
    intro hdv
    exact absurd (e1 hdv) hz

theorem beside_const {N M : ℕ} (a b : ℂ) (x : Fin N) {k : ℕ} (hk : k < 2 * M) :
    beside (fun (_ : Fin N) (_ : Fin M) => a) (fun _ _ => b) x k = if k < M then a else b := by
  unfold beside
  split
  · rfl
  · rw [dif_pos (by omega)]

/-- On arrays which are not square the "inverse" of a constant tensor does not exist. -/
theorem mixedInv_const {N M : ℕ} (h : N ≠ M) (h1 : N ≠ 0) (h2 : M ≠ 0) (a b d e : ℂ) :
    mixedInv (fun (_ : Fin N) (_ : Fin M) => a) (fun _ _ => b) (fun _ _ => d) (fun _ _ => e) =
      .error (if M < N ∧ N + 1 ≠ 2 * M then .valueError else .nonfinite) := by
  unfold mixedInv
  split
  · rfl
  rename_i hh
  unfold inv4
  dsimp only
  rw [if_pos]
  by_cases hMN : M < N
  · have hN : N + 1 = 2 * M := by tauto
    refine ⟨⟨0, by omega⟩, ⟨N - 1, by omega⟩, ?_⟩
    simp only [if_pos hMN]
    rw [beside_const _ _ _ (by omega), beside_const _ _ _ (by omega), beside_const _ _ _ (by omega),
      beside_const _ _ _ (by omega), if_neg (by omega), if_neg (by omega), if_neg (by omega), if_neg (by omega)]
    ring
  · refine ⟨⟨0, by omega⟩, ⟨0, by omega⟩, ?_⟩
    simp only [if_neg hMN]
    rw [beside_const _ _ _ (by omega), beside_const _ _ _ (by omega), beside_const _ _ _ (by omega),
      beside_const _ _ _ (by omega), if_pos (by omega), if_pos (by omega), if_pos (by omega), if_pos (by omega)]
    ring

theorem nuAniso_const {N N' : ℕ} {z : ℂ} {A} (h : c.toep ⟨N, N', fun _ _ => z⟩ = .ok A) (hd : A.det ≠ 0)
    {a b d e : ℂ} {B} (hB : nuHatInvAniso c ⟨⟨N, N', fun _ _ => a⟩, ⟨N, N', fun _ _ => b⟩, ⟨N, N', fun _ _ => d⟩,
      ⟨N, N', fun _ _ => e⟩⟩ = .ok B) :
    B = fromBlocks (a • 1) (b • 1) (d • 1) (e • 1) := by
  unfold nuHatInvAniso at hB
  rw [bind_eq_ok] at hB
  obtain ⟨q, hq, hB⟩ := hB
  rw [bind_eq_ok] at hB
  obtain ⟨r, hr, hB⟩ := hB
  rw [linInv_ok] at hB
  dsimp only at hq
  by_cases hN : N = N'
  · rw [pointwiseInv_same, if_pos hN] at hq
    obtain ⟨hne, rfl⟩ := inv4_ok hq
    obtain ⟨r1, r2, r3, r4⟩ := trans4_mapM_ok hr
    have e1 := toep_const_of h hd (fun _ _ => rfl) r1
    have e2 := toep_const_of h hd (fun _ _ => rfl) r2
    have e3 := toep_const_of h hd (fun _ _ => rfl) r3
    have e4 := toep_const_of h hd (fun _ _ => rfl) r4
    rcases isEmpty_or_nonempty (Fin c.nh) with hemp | ⟨⟨i⟩⟩
    · ext i j
      rcases i with i | i <;> exact (hemp.false i).elim
    obtain ⟨p1, p2⟩ := toep_pos h i
    have hdet : a * e - d * b ≠ 0 := hne ⟨0, Nat.pos_of_ne_zero p1⟩ ⟨0, Nat.pos_of_ne_zero p2⟩
    rw [hB.2]
    have hinv : (a * e - d * b) * (a * e - d * b)⁻¹ = 1 := mul_inv_cancel₀ hdet
    refine Matrix.inv_eq_right_inv ?_
    unfold Trans4.block
    rw [e1, e2, e3, e4, fromBlocks_multiply, ← fromBlocks_one]
    simp only [Matrix.smul_mul, Matrix.one_mul, smul_smul, ← add_smul]
    refine fromBlocks_inj.2 ⟨?_, ?_, ?_, ?_⟩
    · rw [show e / (a * e - d * b) * a + -b / (a * e - d * b) * d = 1 by linear_combination hinv, one_smul]
    · rw [show e / (a * e - d * b) * b + -b / (a * e - d * b) * e = 0 by ring, zero_smul]
    · rw [show -d / (a * e - d * b) * a + a / (a * e - d * b) * d = 0 by ring, zero_smul]
    · rw [show -d / (a * e - d * b) * b + a / (a * e - d * b) * e = 1 by linear_combination hinv, one_smul]
  · rcases isEmpty_or_nonempty (Fin c.nh) with hemp | ⟨⟨i⟩⟩
    · ext i j
      rcases i with i | i <;> exact (hemp.false i).elim
    obtain ⟨p1, p2⟩ := toep_pos h i
    rw [pointwiseInv_mixed hN, mixedInv_const hN p1 p2] at hq
    split at hq <;> cases hq

/-- **C19**, anisotropic: a pattern with the same tensor `t` at every pixel. Whatever the formulation, the transverse
operator is that of the tensor, without coupling between orders. -/
theorem C19_constant_tensor_operators (L : LayerSpec) (hmu : L.mu = 1) (Nx Ny : ℕ)
    (hs : L.epsilon.shape = [3, 3, Nx, Ny]) (t : ℕ → ℕ → ℂ)
    (hv : ∀ a b x y, L.epsilon.data [a, b, x, y] = t a b) (X : BuiltLayer c.nh)
    (h : buildPure E c L = .ok X) :
    ∃ M p Q, X = .patterned M p Q ∧ p.epsHat = t 2 2 • 1 ∧
      p.Peps = fromBlocks (t 0 0 • 1) (t 0 1 • 1) (t 1 0 • 1) (t 1 1 • 1) := by
  have ha := aniso_of_shape hs
  have hk : L.isUniform = false := by
    unfold LayerSpec.isUniform isUniform
    rw [hs]
    simp [isAnisotropic]
  cases X with
  | uniform Q => have := buildPure_uniform h; rw [hk] at this; simp at this
  | patterned M p Q =>
    obtain ⟨-, hd, -, -, -, -, -, zz, para, eph, Ht, n, h1, h2, h3, h4, -, h5⟩ := buildPure_patterned_ok hmu h
    have hg : ∀ a b, (L.epsilon.comp a b).toGrid = .ok ⟨Nx, Ny, fun _ _ => t a b⟩ := by
      intro a b
      rw [comp_toGrid hs]
      congr 2
      funext x y
      exact hv a b x y
    rw [if_pos ha, hg, Except.ok.injEq] at h1
    subst h1
    have hz := toep_const (v := t 2 2) (fun _ _ => rfl) h2 hd
    have hpara : paraOf L = .ok (some ⟨⟨Nx, Ny, fun _ _ => t 0 0⟩, ⟨Nx, Ny, fun _ _ => t 0 1⟩, ⟨Nx, Ny, fun _ _ => t 1 0⟩,
        ⟨Nx, Ny, fun _ _ => t 1 1⟩⟩) := by
      unfold paraOf Trans4.mapM NdArr.trans
      rw [if_pos ha]
      simp only [hg, except_bind_ok]
      rfl
    rw [hpara, Except.ok.injEq] at h3
    subst h3
    unfold epsParaHatOf at h4
    simp only [bind_eq_ok, except_pure_eq_ok, Except.ok.injEq] at h4
    obtain ⟨r, hr, h4⟩ := h4
    obtain ⟨r1, r2, r3, r4⟩ := trans4_mapM_ok hr
    have e1 := toep_const_of h2 hd (fun _ _ => rfl) r1
    have e2 := toep_const_of h2 hd (fun _ _ => rfl) r2
    have e3 := toep_const_of h2 hd (fun _ _ => rfl) r3
    have e4 := toep_const_of h2 hd (fun _ _ => rfl) r4
    have heph : eph = fromBlocks (t 0 0 • 1) (t 0 1 • 1) (t 1 0 • 1) (t 1 1 • 1) := by
      rw [← h4, ← e1, ← e2, ← e3, ← e4]; rfl
    refine ⟨M, p, Q, rfl, hz, ?_⟩
    rw [← heph]
    unfold pepsOf at h5
    dsimp only at h5
    have key : ∀ {B F}, nuHatInvAniso c ⟨⟨Nx, Ny, fun _ _ => t 0 0⟩, ⟨Nx, Ny, fun _ _ => t 0 1⟩,
        ⟨Nx, Ny, fun _ _ => t 1 0⟩, ⟨Nx, Ny, fun _ _ => t 1 1⟩⟩ = .ok B → getPeps c eph B F = .ok p.Peps → p.Peps = eph := by
      intro B F hB hP
      rw [nuAniso_const h2 hd hB, ← heph] at hP
      exact getPeps_diff hP
    split at h5
    · simp only [except_pure_eq_ok, Except.ok.injEq] at h5
      exact h5.symm
    split at h5
    · split at h5
      · rw [bind_eq_ok] at h5
        obtain ⟨_, -, h5⟩ := h5
        simp at h5
      · simp only [bind_eq_ok] at h5
        obtain ⟨t, -, B, hB, h5⟩ := h5
        exact key hB h5
    split at h5
    · simp only [bind_eq_ok] at h5
      obtain ⟨t, -, J, -, B, hB, h5⟩ := h5
      exact key hB h5
    · simp only [bind_eq_ok] at h5
      obtain ⟨t, -, B, hB, h5⟩ := h5
      exact key hB h5

namespace Examples

/-- C17: the inverse of a tensor `[[2, i], [-i, 2]]` at every pixel of a `2 x 2` grid. -/
example : ∃ q, pointwiseInv ⟨2, 2, fun _ _ => 2⟩ ⟨2, 2, fun _ _ => Complex.I⟩ ⟨2, 2, fun _ _ => -Complex.I⟩
    ⟨2, 2, fun _ _ => 2⟩ = .ok q := by
  rw [pointwiseInv_square]
  unfold inv4
  dsimp only
  rw [if_neg]
  · exact ⟨_, rfl⟩
  · push Not
    intro x y
    have : (2 : ℂ) * 2 - -Complex.I * Complex.I = 3 := by linear_combination Complex.I_mul_I
    rw [this]
    norm_num

/-- A gyrotropic medium given by pixels. -/
noncomputable def gyroLayer : LayerSpec := exLayer "Slab" 1 ⟨[3, 3, 4, 4], fun idx => match idx with
  | [0, 1, _, _] => Complex.I
  | [1, 0, _, _] => -Complex.I
  | [a, b, _, _] => if a = b then 2 else 0
  | _ => 0⟩

/-- C19: a gyrotropic medium given by pixels, at normal incidence. -/
example : ∃ c M p Q, simInit exE (fun _ => exLat) (fun r => if r = 1 then gyroLayer else
      exLayer (if r = 0 then "Superstrate" else "Substrate") 1 (NdArr.scalar (((1 : ℝ) ^ 2 : ℝ) : ℂ))) [0, 1, 2] exExc 1
      "original" = .ok c ∧
    gyroLayer.epsilon.shape = [3, 3, 4, 4] ∧
    (∀ a b x y, gyroLayer.epsilon.data [a, b, x, y] = gyroLayer.epsilon.data [a, b, 0, 0]) ∧
    buildPure exE c gyroLayer = .ok (.patterned M p Q) := by
  obtain ⟨c, h1, hn, -⟩ := exInit (fun r => if r = 1 then gyroLayer else
      exLayer (if r = 0 then "Superstrate" else "Substrate") 1 (NdArr.scalar (((1 : ℝ) ^ 2 : ℝ) : ℂ))) 0 [1, 2] 1 one_pos
      (by decide) (by decide) rfl rfl
  have hd : ∀ a b x y, gyroLayer.epsilon.data [a, b, x, y] = gyroLayer.epsilon.data [a, b, 0, 0] := by
    intro a b x y
    rcases a with _ | _ | a <;> rcases b with _ | _ | b <;> rfl
  have ha : gyroLayer.isAnisotropic = true := rfl
  have hu : gyroLayer.isUniform = false := rfl
  have hg : ∀ a b, (gyroLayer.epsilon.comp a b).toGrid = .ok ⟨4, 4, fun x y => gyroLayer.epsilon.data [a, b, x, y]⟩ :=
    fun a b => rfl
  have ht := fun a b => hn.toep (by norm_num) (by norm_num)
    (fun x y => gyroLayer.epsilon.data [a, b, x, y] : Grid 4 4)
  have hz : (∑ x : Fin 4, ∑ y : Fin 4, gyroLayer.epsilon.data [2, 2, x, y]) / (((4 : ℕ) : ℂ) * ((4 : ℕ) : ℂ)) = 2 := by
    simp only [hd 2 2]
    rw [show gyroLayer.epsilon.data [2, 2, 0, 0] = 2 from rfl]
    norm_num
  have hdet : ((2 : ℂ) • (1 : Matrix (Fin c.nh) (Fin c.nh) ℂ)).det ≠ 0 := by
    rw [det_smul, det_one, mul_one]; exact pow_ne_zero _ two_ne_zero
  have hb : ∃ M p Q, buildPure exE c gyroLayer = .ok (.patterned M p Q) := by
    unfold buildPure
    simp only [hu, ha, Bool.false_eq_true, if_false, if_true, hg, except_bind_ok]
    rw [ht, except_bind_ok, hz, (linInv_ok _ _).mpr ⟨hdet, rfl⟩, except_bind_ok,
      raiseIf_ok (u := ()).mpr (by simp [gyroLayer, exLayer]), except_bind_ok]
    unfold paraOf epsParaHatOf Trans4.mapM NdArr.trans
    simp only [ha, if_true, hg, except_bind_ok, except_pure_eq_ok, ht]
    rw [hn.lat, show exE.argsort = exSort from rfl, exHarm c.nh (by rw [hn.nh]; norm_num)]
    unfold pepsOf
    simp only [hn.form, if_true, except_bind_ok, except_pure_eq_ok]
    exact ⟨_, _, _, rfl⟩
  obtain ⟨M, p, Q, hb⟩ := hb
  exact ⟨c, M, p, Q, h1, rfl, hd, hb⟩

end Examples

end Nannos
