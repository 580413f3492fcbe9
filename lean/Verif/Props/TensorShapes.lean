import Verif.Props.Tensors
import Verif.Props.GeneratorsOpt
import Verif.Props.Full

/-! **C108**: patterns of tensors on arrays which are not square. -/

namespace Nannos

open Matrix Spec

/-! ### What is computed -/

/-- The rows of an array. -/
def Spec.toRows (u : PGrid) : Arr2 := rows (Matrix.of u.g)

theorem slice_ofFn {α : Type} {K : ℕ} (f : Fin K → α) (i n : ℕ) (h : (i + 1) * n ≤ K) :
    slice (List.ofFn f) i n = List.ofFn fun y : Fin n => f ⟨i * n + y, by
      have := y.2
      have e : (i + 1) * n = i * n + n := by ring
      omega⟩ := by
  have e : (i + 1) * n = i * n + n := by ring
  unfold slice
  apply List.ext_getElem
  · simp only [List.length_take, List.length_drop, List.length_ofFn]
    omega
  · intro k h1 h2
    simp [List.getElem_take, List.getElem_drop]

/-- `get_block` of an array with enough rows and columns. -/
theorem getBlock_wide {K J : ℕ} (A : Matrix (Fin K) (Fin J) ℂ) (i j n : ℕ) (hi : (i + 1) * n ≤ K) (hj : (j + 1) * n ≤ J) :
    getBlock (rows A) i j n = rows (Matrix.of fun (x y : Fin n) => A ⟨i * n + x, by
      have := x.2
      have e : (i + 1) * n = i * n + n := by ring
      omega⟩ ⟨j * n + y, by
      have := y.2
      have e : (j + 1) * n = j * n + n := by ring
      omega⟩) := by
  unfold getBlock rows
  rw [slice_ofFn _ _ _ hi, List.map_ofFn]
  congr 1
  funext x
  simp only [Function.comp]
  rw [slice_ofFn _ _ _ hj]
  rfl

/-- `block` of four arrays with `N` rows and `M` columns. -/
theorem blockL_wide {N M : ℕ} (a b d e : Grid N M) :
    blockL (rows (Matrix.of a)) (rows (Matrix.of b)) (rows (Matrix.of d)) (rows (Matrix.of e)) =
      .ok (rows (Matrix.of fun (i : Fin (N + N)) (j : Fin (M + M)) =>
        if h : (i : ℕ) < N then beside a b ⟨i, h⟩ j else beside d e ⟨i - N, by omega⟩ j)) := by
  have h1 : ∀ X Y : Grid N M, hstack2 (rows (Matrix.of X)) (rows (Matrix.of Y)) =
      .ok (rows (Matrix.of fun (i : Fin N) (j : Fin (M + M)) => beside X Y i j)) := by
    intro X Y
    unfold hstack2
    rw [if_pos (by simp [rows])]
    congr 1
    apply List.ext_getElem
    · simp [rows]
    · intro i h2 h3
      apply List.ext_getElem
      · simp [rows]
      · intro j h4 h5
        have hj : j < M + M := by simpa [rows] using h5
        simp only [rows, List.getElem_ofFn, List.getElem_zipWith, List.getElem_append, List.length_ofFn, of_apply]
        unfold beside
        by_cases hj2 : j < M
        · simp [hj2]
        · simp only [hj2, dif_neg, not_false_eq_true]
          rw [dif_pos (by omega)]
  unfold blockL
  rw [h1, h1]
  simp only [except_bind_ok]
  unfold vstack2
  rw [if_pos]
  · congr 1
    apply List.ext_getElem
    · simp [rows]
    · intro i h2 h3
      have hi : i < N + N := by simpa [rows] using h3
      simp only [rows, List.getElem_ofFn, List.getElem_append, List.length_ofFn, of_apply]
      by_cases hi2 : i < N
      · simp [hi2]
      · simp [hi2]
  · intro r hr r' hr'
    simp only [rows, List.mem_ofFn] at hr hr'
    obtain ⟨i, rfl⟩ := hr
    obtain ⟨i', rfl⟩ := hr'
    simp

theorem inv2by2block_of {N : ℕ} {T : Arr2} {a b d e : Grid N N} (h1 : getBlock T 0 0 N = rows (Matrix.of a))
    (h2 : getBlock T 0 1 N = rows (Matrix.of b)) (h3 : getBlock T 1 0 N = rows (Matrix.of d))
    (h4 : getBlock T 1 1 N = rows (Matrix.of e)) :
    (do
      let X ← inv2by2block T N
      pure (block2list X N)) = (inv4 a b d e).map fun q =>
      (rows (Matrix.of q.xx.g), rows (Matrix.of q.xy.g), rows (Matrix.of q.yx.g), rows (Matrix.of q.yy.g)) := by
  unfold inv2by2block block2list
  simp only [h1, h2, h3, h4, map2_rows, neg2_rows, of_apply, blockL_rows, Matrix.neg_apply]
  unfold inv4
  have hz : (∃ row ∈ rows (Matrix.of fun i j => a i j * e i j - d i j * b i j), (0 : ℂ) ∈ row) ↔
      ∃ i j, a i j * e i j - d i j * b i j = 0 := by
    simp only [rows, List.mem_ofFn]
    constructor
    · rintro ⟨row, ⟨i, rfl⟩, h⟩
      rw [List.mem_ofFn] at h
      obtain ⟨j, hj⟩ := h
      exact ⟨i, j, hj⟩
    · rintro ⟨i, j, h⟩
      exact ⟨_, ⟨i, rfl⟩, by rw [List.mem_ofFn]; exact ⟨j, h⟩⟩
  dsimp only
  by_cases hd : ∃ i j, a i j * e i j - d i j * b i j = 0
  · rw [if_pos (hz.mpr hd), if_pos hd]
    rfl
  · rw [if_neg (fun h => hd (hz.mp h)), if_neg hd, except_bind_ok]
    obtain ⟨h1, h2, h3, h4⟩ := getBlock_rows (fromBlocks
      (Matrix.of fun i j => e i j / (a i j * e i j - d i j * b i j))
      (Matrix.of fun i j => -b i j / (a i j * e i j - d i j * b i j))
      (Matrix.of fun i j => -d i j / (a i j * e i j - d i j * b i j))
      (Matrix.of fun i j => a i j / (a i j * e i j - d i j * b i j)))
    rw [h1, h2, h3, h4]
    simp only [toBlocks_fromBlocks₁₁, toBlocks_fromBlocks₁₂, toBlocks_fromBlocks₂₁, toBlocks_fromBlocks₂₂]
    rfl

/-- **C108**, what the statements of the code do when there are more columns than rows: assembling the components of the
tensor, `inv2by2block` and splitting the result give the inverse, at each pixel, of a matrix which is not that of the
tensor. -/
theorem C108_wide_arrays {N M : ℕ} (h : N < M) (a b d e : Grid N M) :
    (do
      let T ← blockL (rows (Matrix.of a)) (rows (Matrix.of b)) (rows (Matrix.of d)) (rows (Matrix.of e))
      let X ← inv2by2block T N
      pure (block2list X N)) =
    (pointwiseInv ⟨N, M, a⟩ ⟨N, M, b⟩ ⟨N, M, d⟩ ⟨N, M, e⟩).map fun q =>
      (toRows q.xx, toRows q.xy, toRows q.yx, toRows q.yy) := by
  rw [blockL_wide, except_bind_ok, pointwiseInv_mixed h.ne]
  unfold mixedInv
  rw [if_neg (by omega)]
  simp only [if_neg (show ¬ M < N by omega)]
  refine inv2by2block_of ?_ ?_ ?_ ?_
  · rw [getBlock_wide _ _ _ _ (by omega) (by omega)]
    congr 2
    funext x y
    have := x.2
    simp
  · rw [getBlock_wide _ _ _ _ (by omega) (by omega)]
    congr 2
    funext x y
    have := x.2
    simp
  · rw [getBlock_wide _ _ _ _ (by omega) (by omega)]
    congr 2
    funext x y
    simp
  · rw [getBlock_wide _ _ _ _ (by omega) (by omega)]
    congr 2
    funext x y
    simp

/-! ### Which patterns are refused -/

/-- The off-diagonal components vanish: the axes of the crystal are those of the lattice. -/
def Spec.Aligned (L : LayerSpec) (Nx Ny : ℕ) : Prop :=
  ∀ x < Nx, ∀ y < Ny, L.epsilon.data [0, 1, x, y] = 0 ∧ L.epsilon.data [1, 0, x, y] = 0

/-- The transverse tensor is the same at all pixels. -/
def Spec.SameTensor (L : LayerSpec) (Nx Ny : ℕ) : Prop :=
  ∃ t : ℕ → ℕ → ℂ, ∀ x < Nx, ∀ y < Ny, ∀ i < 2, ∀ j < 2, L.epsilon.data [i, j, x, y] = t i j

theorem beside_left {N M : ℕ} (a b : Grid N M) (x : Fin N) {k : ℕ} (hk : k < M) : beside a b x k = a x ⟨k, hk⟩ := by
  unfold beside
  rw [dif_pos hk]

theorem beside_right {N M : ℕ} (a b : Grid N M) (x : Fin N) {k : ℕ} (hk : M ≤ k) (hk2 : k - M < M) :
    beside a b x k = b x ⟨k - M, hk2⟩ := by
  unfold beside
  rw [dif_neg (by omega), dif_pos hk2]

theorem mixedInv_aligned {N M : ℕ} (h : N ≠ M) (h1 : 0 < N) (h2 : 0 < M) {a b d e : Grid N M}
    (hb : ∀ x y, b x y = 0) (hd : ∀ x y, d x y = 0) (q : Trans4 PGrid) : mixedInv a b d e ≠ .ok q := by
  unfold mixedInv
  split
  · simp
  rename_i hh
  intro hq
  have := (inv4_ok hq).1
  by_cases hMN : M < N
  · have hN : N + 1 = 2 * M := by tauto
    simp only [if_pos hMN] at this
    refine this ⟨0, by omega⟩ ⟨M, by omega⟩ ?_
    rw [beside_right a b _ le_rfl (by omega), beside_right a b _ (by omega) (by omega), hb, hb]
    ring
  · simp only [if_neg hMN] at this
    refine this ⟨0, by omega⟩ ⟨0, by omega⟩ ?_
    rw [beside_left d e _ (show ((⟨0, by omega⟩ : Fin N) : ℕ) < M from h2),
      beside_left d e _ (show N + ((⟨0, by omega⟩ : Fin N) : ℕ) < M by show N + 0 < M; omega), hd, hd]
    ring

theorem buildPure_rectangular {E : Ext} {c : Static} {L : LayerSpec} (hmu : L.mu = 1) (hf : c.formulation ≠ "original") {Nx Ny : ℕ}
    (hs : L.epsilon.shape = [3, 3, Nx, Ny]) (hN : Nx ≠ Ny) (h1 : 0 < Nx) (h2 : 0 < Ny)
    (h : Aligned L Nx Ny ∨ SameTensor L Nx Ny ∨ (Ny < Nx ∧ Nx + 1 ≠ 2 * Ny)) (X : BuiltLayer c.nh) :
    buildPure E c L ≠ .ok X := by
  intro hb
  have ha := aniso_of_shape hs
  have hk : L.isUniform = false := by
    unfold LayerSpec.isUniform isUniform
    rw [hs]
    simp [isAnisotropic]
  cases X with
  | uniform Q => have := buildPure_uniform hb; rw [hk] at this; simp at this
  | patterned M p Q =>
    obtain ⟨-, -, -, -, -, -, -, zz, para, eph, Ht, n, -, -, h3, -, -, h5⟩ := buildPure_patterned_ok hmu hb
    have hg : ∀ a b, (L.epsilon.comp a b).toGrid = .ok ⟨Nx, Ny, fun x y => L.epsilon.data [a, b, x, y]⟩ := fun a b =>
      comp_toGrid hs a b
    have hpara : paraOf L = .ok (some ⟨⟨Nx, Ny, fun x y => L.epsilon.data [0, 0, x, y]⟩, ⟨Nx, Ny, fun x y => L.epsilon.data [0, 1, x, y]⟩,
        ⟨Nx, Ny, fun x y => L.epsilon.data [1, 0, x, y]⟩, ⟨Nx, Ny, fun x y => L.epsilon.data [1, 1, x, y]⟩⟩) := by
      unfold paraOf Trans4.mapM NdArr.trans
      rw [if_pos ha]
      simp only [hg, except_bind_ok]
      rfl
    rw [hpara, Except.ok.injEq] at h3
    subst h3
    have key : ∀ B, nuHatInvAniso c ⟨⟨Nx, Ny, fun x y => L.epsilon.data [0, 0, x, y]⟩, ⟨Nx, Ny, fun x y => L.epsilon.data [0, 1, x, y]⟩,
        ⟨Nx, Ny, fun x y => L.epsilon.data [1, 0, x, y]⟩, ⟨Nx, Ny, fun x y => L.epsilon.data [1, 1, x, y]⟩⟩ ≠ .ok B := by
      intro B hB
      unfold nuHatInvAniso at hB
      rw [bind_eq_ok] at hB
      obtain ⟨q, hq, -⟩ := hB
      dsimp only at hq
      rw [pointwiseInv_mixed hN] at hq
      rcases h with h | ⟨t, h⟩ | h
      · exact mixedInv_aligned hN h1 h2 (fun x y => (h x x.2 y y.2).1) (fun x y => (h x x.2 y y.2).2) q hq
      · have e : ∀ i < 2, ∀ j < 2, (fun (x : Fin Nx) (y : Fin Ny) => L.epsilon.data [i, j, x, y]) = fun _ _ => t i j := by
          intro i hi j hj
          funext x y
          exact h x x.2 y y.2 i hi j hj
        rw [e 0 (by norm_num) 0 (by norm_num), e 0 (by norm_num) 1 (by norm_num), e 1 (by norm_num) 0 (by norm_num),
          e 1 (by norm_num) 1 (by norm_num), mixedInv_const hN h1.ne' h2.ne'] at hq
        cases hq
      · unfold mixedInv at hq
        rw [if_pos h] at hq
        cases hq
    unfold pepsOf at h5
    dsimp only at h5
    rw [if_neg hf] at h5
    split at h5
    · split at h5
      · rw [bind_eq_ok] at h5
        obtain ⟨_, -, h5⟩ := h5
        simp at h5
      · simp only [bind_eq_ok] at h5
        obtain ⟨t, -, B, hB, h5⟩ := h5
        exact key B hB
    split at h5
    · simp only [bind_eq_ok] at h5
      obtain ⟨t, -, J, -, B, hB, h5⟩ := h5
      exact key B hB
    · simp only [bind_eq_ok] at h5
      obtain ⟨t, -, B, hB, h5⟩ := h5
      exact key B hB

/-- **C108** is false: in the formulations which invert the tensors, a pattern of tensors on an array which is not square
gives no result, whatever the values of the diagonal components, when the off-diagonal components vanish (so for an
isotropic pattern written as a pattern of tensors); nor when the tensor is the same everywhere; nor, whatever the tensors,
when there are more rows than columns, except when `Nx + 1 = 2 * Ny`. The constructor accepts the pattern; neither `solve`
nor `diffraction_efficiencies` ever returns. -/
theorem C108_rectangular_arrays_fail {E : Ext} {lats : ℕ → Lattice} {mats : ℕ → LayerSpec} {stack : List ℕ} {exc : PlaneWave}
    {nh : ℤ} {form : String} {c : Static} (hinit : simInit E lats mats stack exc nh form = .ok c) (hform : form ≠ "original")
    {r : ℕ} (hr : r ∈ stack) (hcp : (mats r).iscopy = false) (hmu : (mats r).mu = 1) {Nx Ny : ℕ}
    (hs : (mats r).epsilon.shape = [3, 3, Nx, Ny]) (hN : Nx ≠ Ny) (h1 : 0 < Nx) (h2 : 0 < Ny)
    (h : Aligned (mats r) Nx Ny ∨ SameTensor (mats r) Nx Ny ∨ (Ny < Nx ∧ Nx + 1 ≠ 2 * Ny)) (hist : List (Call c.nh)) :
    (solve E c (afterCalls E c hist (Dyn.fresh mats (unsolved c.nh)))).1 ≠ .ok () ∧
    ∀ orders X, (diffractionEfficiencies E c orders (afterCalls E c hist (Dyn.fresh mats (unsolved c.nh)))).1 ≠ .ok X := by
  have hi := simInit_ok hinit
  have key : ∀ {A1}, LayerFix E c mats A1 r → False := by
    intro A1 hfix
    cases hfix.form with
    | uniform Q ev hc hb => exact buildPure_rectangular hmu (by rw [hi.form_eq]; exact hform) hs hN h1 h2 h _ hb
    | patterned M p Q ev hc hb => exact buildPure_rectangular hmu (by rw [hi.form_eq]; exact hform) hs hN h1 h2 h _ hb
    | copyUniform M p Q ev hc => rw [hc] at hcp; cases hcp
    | copyPatterned M p Q ev hc => rw [hc] at hcp; cases hcp
  constructor
  · intro hsol
    obtain ⟨A1, res, hs, h0, h1, -⟩ := history_inv (E := E) hi.nodup (noStale_unsolved mats c.stack) hist
    rw [solve_result hs h1] at hsol
    exact key (hs.fix hi.nodup hsol r (by rw [hi.stack_eq]; exact hr))
  · intro o X hX
    obtain ⟨RT, e1, -⟩ := diffraction_eq hX
    obtain ⟨A, hA⟩ := efficiencies_of_history hinit
    exact key ((hA _ _ e1).1 r (by rw [hi.stack_eq]; exact hr))

/-- Other tensors are inverted wrongly: here, for a pattern of two pixels with tensors `[[2, 1], [1, 2]]` and
`[[2, 0], [0, 2]]`, the first component of the result, `0`, is that of the inverse of neither. -/
theorem C108_wrong_inverse : ∃ (a b d e : Grid 1 2) (q : Trans4 PGrid),
    (∀ y, !![a 0 y, b 0 y; d 0 y, e 0 y] = if y = 0 then !![2, 1; 1, 2] else !![2, 0; 0, 2]) ∧
    pointwiseInv ⟨1, 2, a⟩ ⟨1, 2, b⟩ ⟨1, 2, d⟩ ⟨1, 2, e⟩ = .ok q ∧ q.xx = ⟨1, 1, fun _ _ => 0⟩ ∧
    (!![(2 : ℂ), 1; 1, 2]⁻¹) 0 0 ≠ 0 ∧ (!![(2 : ℂ), 0; 0, 2]⁻¹) 0 0 ≠ 0 := by
  refine ⟨fun _ _ => 2, fun _ y => if y = 0 then 1 else 0, fun _ y => if y = 0 then 1 else 0, fun _ _ => 2,
    ⟨⟨1, 1, fun _ _ => 0⟩, ⟨1, 1, fun _ _ => 1⟩, ⟨1, 1, fun _ _ => 1 / 2⟩, ⟨1, 1, fun _ _ => -1⟩⟩, ?_, ?_, rfl, ?_, ?_⟩
  · intro y
    fin_cases y <;> simp
  · rw [pointwiseInv_mixed (by norm_num)]
    unfold mixedInv inv4 beside
    simp
  · rw [Matrix.inv_def]
    simp [Matrix.adjugate_fin_two]
    norm_num
  · rw [Matrix.inv_def]
    simp [Matrix.adjugate_fin_two]

end Nannos

namespace Nannos.Examples

open Matrix Spec

/-- A pattern of an isotropic material, written as a pattern of tensors. -/
noncomputable def diagPixels (g : Grid 8 6) : NdArr := ⟨[3, 3, 8, 6], fun idx => match idx with
  | [a, b, x, y] => if a = b then (if h : x < 8 ∧ y < 6 then g ⟨x, h.1⟩ ⟨y, h.2⟩ else 0) else 0
  | _ => 0⟩

/-- C108: any isotropic pattern of eight by six pixels written as a pattern of tensors, in any formulation but the first. -/
example (E : Ext) (hA : ArgsortContract E.argsort) (exc : PlaneWave) (g : Grid 8 6) (form : String)
    (hf : form = "tangent" ∨ form = "jones" ∨ form = "pol") :
    ∃ c, simInit E (fun _ => cell) (fieldMats (diagPixels g) 5) [0, 1, 2] exc 25 form = .ok c ∧
      (solve E c (Dyn.fresh (fieldMats (diagPixels g) 5) (unsolved c.nh))).1 ≠ .ok () := by
  obtain ⟨c, h⟩ := cell_init hA (mats := fieldMats (diagPixels g) 5) 2 (by norm_num) (by norm_num)
    (by simp [fieldMats, exLayer]) (fieldMats_lattice _ _) rfl rfl exc (form := form) (by tauto)
  refine ⟨c, h, (C108_rectangular_arrays_fail h (by rintro rfl; rcases hf with hf | hf | hf <;> simp at hf) (r := 1) (by simp) rfl
    rfl (Nx := 8) (Ny := 6) rfl (by norm_num) (by norm_num) (by norm_num) (.inl fun x _ y _ => ⟨rfl, rfl⟩) []).1⟩

end Nannos.Examples
