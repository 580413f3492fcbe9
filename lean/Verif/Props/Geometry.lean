import Verif.Proofs.Geometry
import Verif.Props.Lattice
import Mathlib.Tactic.Ring
import Mathlib.Tactic.FieldSimp
import Mathlib.Tactic.LinearCombination
import Mathlib.Tactic.FinCases
import Mathlib.LinearAlgebra.Matrix.Notation
import Mathlib.Topology.Constructions

/-!
C43, C44 and C59: masks of shapes.
`S` is shapely and `pts g` the closed set of points of the geometry `g`; `S` satisfies the contract of
`Verif.Spec.Geometry`.
-/

namespace Nannos

open Spec

variable {G : Type} {S : Shapely G} {ρ : ℝ} {pts : G → Set (ℝ × ℝ)}

/-- **C43.**  For every shape and every non-empty increasing grid the recursion ends, at a depth of at most
`1 + log₂` of the size of the grid, with a mask of shape `(len(y), len(x))` whose entry `[j, i]` is `True` if
`(x[i], y[j])` is inside the shape and `False` if it is outside. -/
theorem C43_shape_mask (hS : ShapelyContract S ρ pts) (g : G) (x y : List ℝ) (hx : x.Pairwise (· ≤ ·))
    (hy : y.Pairwise (· ≤ ·)) (hx0 : x ≠ []) (hy0 : y ≠ []) (n : ℕ) (hxn : x.length ≤ 2 ^ n) (hyn : y.length ≤ 2 ^ n)
    (depth : ℕ) (hd : n < depth) :
    ∃ m, shapeMask S depth g x y none = .ok m ∧ m.rows = y.length ∧ m.cols = x.length ∧
      ∀ (i j : ℕ) (hi : i < x.length) (hj : j < y.length),
        ((x[i], y[j]) ∈ interior (pts g) → m.get j i = true) ∧ ((x[i], y[j]) ∉ pts g → m.get j i = false) := by
  obtain ⟨d, rfl⟩ : ∃ d, depth = d + 1 := ⟨depth - 1, by omega⟩
  have hp : 2 ^ n ≤ 2 ^ d := Nat.pow_le_pow_right (by norm_num) (by omega)
  obtain ⟨m, h1, h2⟩ := shapeMask_good hS g d none hx hy (List.length_pos_iff.2 hx0) (List.length_pos_iff.2 hy0)
    (hxn.trans hp) (hyn.trans hp) (fun _ h => by cases h)
  exact ⟨m, h1, h2.rows, h2.cols, h2.val⟩

/-- **C43**, empty grids raise `IndexError`. -/
theorem C43_empty_grid (S : Shapely G) (g : G) (x y : List ℝ) (h : x = [] ∨ y = []) (depth : ℕ) :
    shapeMask S (depth + 1) g x y none = .error .indexError := by
  unfold shapeMask
  have : gridRect x y = .error .indexError := by
    rcases h with rfl | rfl
    · rfl
    · rcases List.eq_nil_or_concat' x with rfl | ⟨l, a, rfl⟩
      · rfl
      · have hl : 0 < (l ++ [a]).length := by simp
        unfold gridRect
        rw [pyGet_zero hl, pyGet_last hl]
        rfl
  rw [this]
  rfl

theorem linspace01_length (n : ℕ) : (linspace01 n).length = n := by simp [linspace01]

theorem linspace01_get (n : ℕ) {i : ℕ} (hi : i < (linspace01 n).length) :
    (linspace01 n)[i] = (i : ℝ) / ((n - 1 : ℕ) : ℝ) := by simp [linspace01]

theorem linspace01_sorted (n : ℕ) : (linspace01 n).Pairwise (· ≤ ·) := by
  unfold linspace01
  rw [List.pairwise_map]
  refine (List.pairwise_lt_range (n := n)).imp ?_
  intro a b hab
  exact div_le_div_of_nonneg_right (by exact_mod_cast hab.le) (Nat.cast_nonneg _)

/-- The points of the lattice grid, `lattice.grid[:, i, j]`. -/
noncomputable def Lattice.gridPoint (lat : Lattice) (i j : ℕ) : ℝ × ℝ := (lat.grid 0 i j, lat.grid 1 i j)

/-- The linear map of a matrix, as `affine_transform` applies it. -/
theorem affine_mem {A : Matrix (Fin 2) (Fin 2) ℝ} (hA : A.det ≠ 0) (K : Set (ℝ × ℝ)) (u v : ℝ) :
    let f : ℝ × ℝ → ℝ × ℝ := fun q => (A⁻¹ 0 0 * q.1 + A⁻¹ 0 1 * q.2 + 0, A⁻¹ 1 0 * q.1 + A⁻¹ 1 1 * q.2 + 0)
    let w : ℝ × ℝ := (A 0 0 * u + A 0 1 * v, A 1 0 * u + A 1 1 * v)
    ((u, v) ∈ f '' K ↔ w ∈ K) ∧ ((u, v) ∈ interior (f '' K) ↔ w ∈ interior K) := by
  intro f w
  have hu : IsUnit A.det := isUnit_iff_ne_zero.2 hA
  have h1 := Matrix.mul_nonsing_inv A hu
  have h2 := Matrix.nonsing_inv_mul A hu
  have e1 : ∀ i j, A i 0 * A⁻¹ 0 j + A i 1 * A⁻¹ 1 j = (1 : Matrix (Fin 2) (Fin 2) ℝ) i j := fun i j => by
    rw [← h1, Matrix.mul_apply, Fin.sum_univ_two]
  have e2 : ∀ i j, A⁻¹ i 0 * A 0 j + A⁻¹ i 1 * A 1 j = (1 : Matrix (Fin 2) (Fin 2) ℝ) i j := fun i j => by
    rw [← h2, Matrix.mul_apply, Fin.sum_univ_two]
  have a00 := e1 0 0; have a01 := e1 0 1; have a10 := e1 1 0; have a11 := e1 1 1
  have b00 := e2 0 0; have b01 := e2 0 1; have b10 := e2 1 0; have b11 := e2 1 1
  simp only [Matrix.one_apply_eq, ne_eq, zero_ne_one, one_ne_zero, not_false_eq_true, Matrix.one_apply_ne] at a00 a01 a10 a11 b00 b01 b10 b11
  let F : (ℝ × ℝ) ≃ₜ (ℝ × ℝ) :=
    { toFun := f
      invFun := fun q => (A 0 0 * q.1 + A 0 1 * q.2, A 1 0 * q.1 + A 1 1 * q.2)
      left_inv := fun q => by
        refine Prod.ext ?_ ?_
        · change A 0 0 * (A⁻¹ 0 0 * q.1 + A⁻¹ 0 1 * q.2 + 0) + A 0 1 * (A⁻¹ 1 0 * q.1 + A⁻¹ 1 1 * q.2 + 0) = q.1
          linear_combination q.1 * a00 + q.2 * a01
        · change A 1 0 * (A⁻¹ 0 0 * q.1 + A⁻¹ 0 1 * q.2 + 0) + A 1 1 * (A⁻¹ 1 0 * q.1 + A⁻¹ 1 1 * q.2 + 0) = q.2
          linear_combination q.1 * a10 + q.2 * a11
      right_inv := fun q => by
        refine Prod.ext ?_ ?_
        · change A⁻¹ 0 0 * (A 0 0 * q.1 + A 0 1 * q.2) + A⁻¹ 0 1 * (A 1 0 * q.1 + A 1 1 * q.2) + 0 = q.1
          linear_combination q.1 * b00 + q.2 * b01
        · change A⁻¹ 1 0 * (A 0 0 * q.1 + A 0 1 * q.2) + A⁻¹ 1 1 * (A 1 0 * q.1 + A 1 1 * q.2) + 0 = q.2
          linear_combination q.1 * b10 + q.2 * b11
      continuous_toFun := by fun_prop
      continuous_invFun := by fun_prop }
  have hw : F w = (u, v) := F.right_inv (u, v)
  have hF : f '' K = F '' K := rfl
  have hm : ∀ s : Set (ℝ × ℝ), (u, v) ∈ F '' s ↔ w ∈ s := fun s => by
    rw [← hw]
    exact F.injective.mem_set_image
  constructor
  · exact hm K
  · rw [hF, ← F.image_interior]
    exact hm _

/-- **C44.**  The mask of any geometry on any lattice with independent basis vectors has the shape
`lattice.discretization` and tells at `[i, j]` whether `lattice.grid[:, i, j]` is in the geometry. -/
theorem C44_geometry_mask (hS : ShapelyContract S ρ pts) (g : G) (lat : Lattice) (hl : LinearIndependent ℝ lat.basis)
    (hNx : 0 < lat.discretization.1) (hNy : 0 < lat.discretization.2) (n : ℕ) (hx : lat.discretization.1 ≤ 2 ^ n)
    (hy : lat.discretization.2 ≤ 2 ^ n) (depth : ℕ) (hd : n < depth) :
    ∃ m, lat.geometryMask S depth g = .ok m ∧ m.rows = lat.discretization.1 ∧ m.cols = lat.discretization.2 ∧
      ∀ i j : ℕ, i < lat.discretization.1 → j < lat.discretization.2 →
        (lat.gridPoint i j ∈ interior (pts g) → m.get i j = true) ∧ (lat.gridPoint i j ∉ pts g → m.get i j = false) := by
  classical
  have hdet := (det_ne_zero_iff lat).2 hl
  obtain ⟨m, h1, h2, h3, h4⟩ := C43_shape_mask hS (S.affine g (lat.matrix⁻¹ 0 0) (lat.matrix⁻¹ 0 1) (lat.matrix⁻¹ 1 0) (lat.matrix⁻¹ 1 1) 0 0)
    (linspace01 lat.discretization.1) (linspace01 lat.discretization.2) (linspace01_sorted _) (linspace01_sorted _)
    (by rw [← List.length_pos_iff, linspace01_length]; exact hNx) (by rw [← List.length_pos_iff, linspace01_length]; exact hNy) n
    (by rwa [linspace01_length]) (by rwa [linspace01_length]) depth hd
  rw [linspace01_length] at h2 h3
  refine ⟨m.transpose, ?_, h3, h2, fun i j hi hj => ?_⟩
  · unfold Lattice.geometryMask geometryMask raiseIf
    rw [if_neg (by omega), inv2_ok.2 ⟨hdet, rfl⟩]
    simp only [except_ok_bind]
    rw [h1]
    rfl
  · have := h4 i j (by rwa [linspace01_length]) (by rwa [linspace01_length])
    rw [linspace01_get, linspace01_get, hS.affine] at this
    obtain ⟨q1, q2⟩ := affine_mem hdet (pts g) ((i : ℝ) / ((lat.discretization.1 - 1 : ℕ) : ℝ)) ((j : ℝ) / ((lat.discretization.2 - 1 : ℕ) : ℝ))
    have hp : lat.gridPoint i j = (lat.matrix 0 0 * ((i : ℝ) / ((lat.discretization.1 - 1 : ℕ) : ℝ)) + lat.matrix 0 1 * ((j : ℝ) / ((lat.discretization.2 - 1 : ℕ) : ℝ)),
        lat.matrix 1 0 * ((i : ℝ) / ((lat.discretization.1 - 1 : ℕ) : ℝ)) + lat.matrix 1 1 * ((j : ℝ) / ((lat.discretization.2 - 1 : ℕ) : ℝ))) := by
      simp [Lattice.gridPoint, Lattice.grid, Lattice.unitGrid, Fin.sum_univ_two]
    rw [hp]
    exact ⟨fun h => this.1 (q2.2 h), fun h => this.2 (fun h' => h (q1.1 h'))⟩

/-- **C44**, the other cases: an empty grid raises `IndexError`, dependent basis vectors `LinAlgError`. -/
theorem C44_bad_lattices (S : Shapely G) (g : G) (lat : Lattice) (depth : ℕ) :
    (lat.discretization.1 = 0 ∨ lat.discretization.2 = 0 → lat.geometryMask S depth g = .error .indexError) ∧
    (0 < lat.discretization.1 → 0 < lat.discretization.2 → ¬ LinearIndependent ℝ lat.basis →
      lat.geometryMask S depth g = .error .linAlgError) := by
  constructor
  · intro h
    unfold Lattice.geometryMask geometryMask raiseIf
    rw [if_pos h]
    rfl
  · intro h1 h2 h3
    have : lat.matrix.det = 0 := by
      by_contra h
      exact h3 ((det_ne_zero_iff lat).1 h)
    unfold Lattice.geometryMask geometryMask raiseIf inv2
    rw [if_neg (by omega), if_pos this]
    rfl

/-! ### Shapes.  `turn deg c` is the rotation by `deg` degrees about `c`; a shape rotated by `deg` contains a point
if the shape itself contains the point turned back. -/

theorem turn_turn (deg : ℝ) (c q : ℝ × ℝ) : turn deg c (turn (-deg) c q) = q ∧ turn (-deg) c (turn deg c q) = q := by
  have e : -deg * Real.pi / 180 = -(deg * Real.pi / 180) := by ring
  have h := Real.sin_sq_add_cos_sq (deg * Real.pi / 180)
  unfold turn
  simp only [e, Real.cos_neg, Real.sin_neg]
  constructor <;> refine Prod.ext ?_ ?_ <;> dsimp only
  · linear_combination (q.1 - c.1) * h
  · linear_combination (q.2 - c.2) * h
  · linear_combination (q.1 - c.1) * h
  · linear_combination (q.2 - c.2) * h

theorem turn_zero (c q : ℝ × ℝ) : turn 0 c q = q := by
  unfold turn
  simp

theorem turn_continuous (deg : ℝ) (c : ℝ × ℝ) : Continuous (turn deg c) := by
  unfold turn
  fun_prop

open Classical in
theorem rotated_pts (hS : ShapelyContract S ρ pts) (g : G) (deg : ℝ) (c q : ℝ × ℝ) :
    q ∈ pts (if deg ≠ 0 then S.rotate g deg c else g) ↔ turn (-deg) c q ∈ pts g := by
  split_ifs with h
  · rw [hS.rotate]
    constructor
    · rintro ⟨r, hr, rfl⟩
      rwa [(turn_turn deg c r).2]
    · intro hr
      exact ⟨_, hr, (turn_turn deg c q).1⟩
  · rw [not_not] at h
    rw [h, neg_zero, turn_zero]

/-- Rasterisation of a geometry that contains an open set and is contained in another set. -/
theorem mask_between (hS : ShapelyContract S ρ pts) (g : G) (lat : Lattice) (hl : LinearIndependent ℝ lat.basis)
    (hNx : 0 < lat.discretization.1) (hNy : 0 < lat.discretization.2) (n : ℕ) (hx : lat.discretization.1 ≤ 2 ^ n)
    (hy : lat.discretization.2 ≤ 2 ^ n) (depth : ℕ) (hd : n < depth) (P Q : ℝ × ℝ → Prop) (hPo : IsOpen {q | P q})
    (hP : ∀ q, P q → q ∈ pts g) (hQ : ∀ q, Q q → q ∉ pts g) :
    ∃ m, lat.geometryMask S depth g = .ok m ∧ m.rows = lat.discretization.1 ∧ m.cols = lat.discretization.2 ∧
      ∀ i j : ℕ, i < lat.discretization.1 → j < lat.discretization.2 →
        (P (lat.gridPoint i j) → m.get i j = true) ∧ (Q (lat.gridPoint i j) → m.get i j = false) := by
  obtain ⟨m, h1, h2, h3, h4⟩ := C44_geometry_mask hS g lat hl hNx hNy n hx hy depth hd
  refine ⟨m, h1, h2, h3, fun i j hi hj => ⟨fun h => (h4 i j hi hj).1 ?_, fun h => (h4 i j hi hj).2 (hQ _ h)⟩⟩
  exact interior_maximal (t := {q | P q}) hP hPo h

/-- **C44**, rectangles: `lattice.rectangle(center, widths, rotate)`. -/
theorem C44_rectangle (hS : ShapelyContract S ρ pts) (lat : Lattice) (h1d : lat.is1D = false) (hl : LinearIndependent ℝ lat.basis)
    (hNx : 0 < lat.discretization.1) (hNy : 0 < lat.discretization.2) (n : ℕ) (hx : lat.discretization.1 ≤ 2 ^ n)
    (hy : lat.discretization.2 ≤ 2 ^ n) (depth : ℕ) (hd : n < depth) (c w : ℝ × ℝ) (hw1 : 0 < w.1) (hw2 : 0 < w.2) (deg : ℝ) :
    ∃ m, lat.rectangleMask S depth c w deg = .ok m ∧ m.rows = lat.discretization.1 ∧ m.cols = lat.discretization.2 ∧
      ∀ i j : ℕ, i < lat.discretization.1 → j < lat.discretization.2 →
        let p := turn (-deg) c (lat.gridPoint i j)
        (|p.1 - c.1| < w.1 / 2 ∧ |p.2 - c.2| < w.2 / 2 → m.get i j = true) ∧
        (|p.1 - c.1| > w.1 / 2 ∨ |p.2 - c.2| > w.2 / 2 → m.get i j = false) := by
  classical
  have hin : ∀ q : ℝ × ℝ, q ∈ pts (rectShape S c w deg) ↔ |(turn (-deg) c q).1 - c.1| ≤ w.1 / 2 ∧ |(turn (-deg) c q).2 - c.2| ≤ w.2 / 2 := by
    intro q
    unfold rectShape
    dsimp only
    rw [rotated_pts hS, hS.polygon_rect _ _ _ _ (by linarith) (by linarith)]
    unfold rectPts
    rw [Set.mem_setOf_eq, abs_le, abs_le]
    dsimp only
    constructor
    · rintro ⟨a, b, c, d⟩
      refine ⟨⟨?_, ?_⟩, ?_, ?_⟩ <;> linarith
    · rintro ⟨⟨a, b⟩, c, d⟩
      refine ⟨?_, ?_, ?_, ?_⟩ <;> linarith
  unfold Lattice.rectangleMask no1d
  rw [h1d, if_neg (by simp)]
  refine mask_between hS _ lat hl hNx hNy n hx hy depth hd (fun q => |(turn (-deg) c q).1 - c.1| < w.1 / 2 ∧ |(turn (-deg) c q).2 - c.2| < w.2 / 2)
    (fun q => |(turn (-deg) c q).1 - c.1| > w.1 / 2 ∨ |(turn (-deg) c q).2 - c.2| > w.2 / 2) ?_ ?_ ?_
  · have ht := turn_continuous (-deg) c
    rw [Set.setOf_and]
    exact IsOpen.inter (isOpen_lt (by fun_prop) (by fun_prop)) (isOpen_lt (by fun_prop) (by fun_prop))
  · rintro q ⟨h1, h2⟩
    exact (hin q).2 ⟨h1.le, h2.le⟩
  · rintro q h hq
    obtain ⟨h1, h2⟩ := (hin q).1 hq
    rcases h with h | h <;> linarith

/-- **C44**, squares: `lattice.square(center, width, rotate)` is the rectangle with equal sides. -/
theorem C44_square (S : Shapely G) (lat : Lattice) (depth : ℕ) (c : ℝ × ℝ) (w deg : ℝ) :
    lat.squareMask S depth c w deg = lat.rectangleMask S depth c (w, w) deg := rfl

/-- **C44**, discs: `lattice.circle(center, radius)`, up to the polygon that shapely draws for a circle. -/
theorem C44_circle (hS : ShapelyContract S ρ pts) (hρ : 0 < ρ) (lat : Lattice) (h1d : lat.is1D = false)
    (hl : LinearIndependent ℝ lat.basis)
    (hNx : 0 < lat.discretization.1) (hNy : 0 < lat.discretization.2) (n : ℕ) (hx : lat.discretization.1 ≤ 2 ^ n)
    (hy : lat.discretization.2 ≤ 2 ^ n) (depth : ℕ) (hd : n < depth) (c : ℝ × ℝ) (R : ℝ) (hR : 0 < R) :
    ∃ m, lat.circleMask S depth c R = .ok m ∧ m.rows = lat.discretization.1 ∧ m.cols = lat.discretization.2 ∧
      ∀ i j : ℕ, i < lat.discretization.1 → j < lat.discretization.2 →
        let p := lat.gridPoint i j
        (Real.sqrt ((p.1 - c.1) ^ 2 + (p.2 - c.2) ^ 2) < ρ * R → m.get i j = true) ∧
        (R < Real.sqrt ((p.1 - c.1) ^ 2 + (p.2 - c.2) ^ 2) → m.get i j = false) := by
  unfold Lattice.circleMask no1d
  rw [h1d, if_neg (by simp)]
  refine mask_between hS _ lat hl hNx hNy n hx hy depth hd (fun q => Real.sqrt ((q.1 - c.1) ^ 2 + (q.2 - c.2) ^ 2) < ρ * R)
    (fun q => R < Real.sqrt ((q.1 - c.1) ^ 2 + (q.2 - c.2) ^ 2)) ?_ ?_ ?_
  · exact isOpen_lt (by fun_prop) (by fun_prop)
  · intro q h
    exact hS.disc_sup c R hR q ((Real.sqrt_le_left (by positivity)).1 h.le)
  · intro q h hq
    have := hS.disc_sub c R hR q hq
    exact absurd h (not_lt.2 ((Real.sqrt_le_left hR.le).2 this))

/-- **C44**, ellipses: `lattice.ellipse(center, radii, rotate)`. -/
theorem C44_ellipse (hS : ShapelyContract S ρ pts) (lat : Lattice) (h1d : lat.is1D = false)
    (hl : LinearIndependent ℝ lat.basis)
    (hNx : 0 < lat.discretization.1) (hNy : 0 < lat.discretization.2) (n : ℕ) (hx : lat.discretization.1 ≤ 2 ^ n)
    (hy : lat.discretization.2 ≤ 2 ^ n) (depth : ℕ) (hd : n < depth) (c r : ℝ × ℝ) (hr1 : 0 < r.1) (hr2 : 0 < r.2) (deg : ℝ) :
    ∃ m, lat.ellipseMask S depth c r deg = .ok m ∧ m.rows = lat.discretization.1 ∧ m.cols = lat.discretization.2 ∧
      ∀ i j : ℕ, i < lat.discretization.1 → j < lat.discretization.2 →
        let p := turn (-deg) c (lat.gridPoint i j)
        (((p.1 - c.1) / r.1) ^ 2 + ((p.2 - c.2) / r.2) ^ 2 < ρ ^ 2 → m.get i j = true) ∧
        (1 < ((p.1 - c.1) / r.1) ^ 2 + ((p.2 - c.2) / r.2) ^ 2 → m.get i j = false) := by
  classical
  have hf : r.2 / r.1 ≠ 0 := (div_pos hr2 hr1).ne'
  have hsc : ∀ q : ℝ × ℝ, q ∈ pts (S.scale (S.disc c r.1) 1 (r.2 / r.1) c) ↔
      (q.1, c.2 + (q.2 - c.2) / (r.2 / r.1)) ∈ pts (S.disc c r.1) := by
    intro q
    rw [hS.scale]
    constructor
    · rintro ⟨s, hs, rfl⟩
      dsimp only
      have e : (c.1 + 1 * (s.1 - c.1), c.2 + (c.2 + r.2 / r.1 * (s.2 - c.2) - c.2) / (r.2 / r.1)) = s := by
        refine Prod.ext ?_ ?_ <;> dsimp only
        · ring
        · rw [add_sub_cancel_left, mul_div_cancel_left₀ _ hf]
          ring
      rwa [e]
    · intro h
      refine ⟨_, h, Prod.ext ?_ ?_⟩ <;> dsimp only
      · ring
      · rw [add_sub_cancel_left, mul_div_cancel₀ _ hf]
        ring
  have he : ∀ a b : ℝ, a ^ 2 + (b / (r.2 / r.1)) ^ 2 = r.1 ^ 2 * ((a / r.1) ^ 2 + (b / r.2) ^ 2) := by
    intro a b
    field_simp
  have hpt : ∀ q : ℝ × ℝ, q ∈ pts (if deg ≠ 0 then S.rotate (S.scale (S.disc c r.1) 1 (r.2 / r.1) c) deg c else S.scale (S.disc c r.1) 1 (r.2 / r.1) c) ↔
      ((turn (-deg) c q).1, c.2 + ((turn (-deg) c q).2 - c.2) / (r.2 / r.1)) ∈ pts (S.disc c r.1) := by
    intro q
    rw [rotated_pts hS, hsc]
  unfold Lattice.ellipseMask no1d raiseIf
  rw [h1d, if_neg (by simp), if_neg hr1.ne']
  refine mask_between hS _ lat hl hNx hNy n hx hy depth hd
    (fun q => (((turn (-deg) c q).1 - c.1) / r.1) ^ 2 + (((turn (-deg) c q).2 - c.2) / r.2) ^ 2 < ρ ^ 2)
    (fun q => 1 < (((turn (-deg) c q).1 - c.1) / r.1) ^ 2 + (((turn (-deg) c q).2 - c.2) / r.2) ^ 2) ?_ ?_ ?_
  · have ht := turn_continuous (-deg) c
    exact isOpen_lt (by fun_prop) (by fun_prop)
  · intro q h
    rw [hpt]
    apply hS.disc_sup c r.1 hr1
    dsimp only
    rw [add_sub_cancel_left, he, mul_pow]
    nlinarith [sq_pos_of_pos hr1]
  · intro q h hq
    rw [hpt] at hq
    have := hS.disc_sub c r.1 hr1 _ hq
    dsimp only at this
    rw [add_sub_cancel_left, he] at this
    nlinarith [sq_pos_of_pos hr1]

/-- **C44**, polygons: `lattice.polygon(vertices)` is the mask of shapely's polygon. -/
theorem C44_polygon (hS : ShapelyContract S ρ pts) (lat : Lattice) (h1d : lat.is1D = false) (hl : LinearIndependent ℝ lat.basis)
    (hNx : 0 < lat.discretization.1) (hNy : 0 < lat.discretization.2) (n : ℕ) (hx : lat.discretization.1 ≤ 2 ^ n)
    (hy : lat.discretization.2 ≤ 2 ^ n) (depth : ℕ) (hd : n < depth) (vertices : List (ℝ × ℝ)) :
    ∃ m, lat.polygonMask S depth vertices = .ok m ∧ m.rows = lat.discretization.1 ∧ m.cols = lat.discretization.2 ∧
      ∀ i j : ℕ, i < lat.discretization.1 → j < lat.discretization.2 →
        (lat.gridPoint i j ∈ interior (pts (S.polygon vertices)) → m.get i j = true) ∧
        (lat.gridPoint i j ∉ pts (S.polygon vertices) → m.get i j = false) := by
  unfold Lattice.polygonMask no1d
  rw [h1d, if_neg (by simp)]
  exact C44_geometry_mask hS _ lat hl hNx hNy n hx hy depth hd

/-- **C44**, bi-periodic shapes on mono-periodic lattices raise `ValueError`. -/
theorem C44_no_shapes_in_1d (S : Shapely G) (lat : Lattice) (h : lat.is1D = true) (depth : ℕ) (c w : ℝ × ℝ) (R deg : ℝ)
    (vs : List (ℝ × ℝ)) :
    lat.rectangleMask S depth c w deg = .error .valueError ∧ lat.squareMask S depth c R deg = .error .valueError ∧
    lat.circleMask S depth c R = .error .valueError ∧ lat.ellipseMask S depth c w deg = .error .valueError ∧
    lat.polygonMask S depth vs = .error .valueError := by
  unfold Lattice.rectangleMask Lattice.squareMask Lattice.circleMask Lattice.ellipseMask Lattice.polygonMask no1d
  simp [h]

/-- **C44**, stripes: `lattice.stripe(center, width)` tells at `[i, j]` whether the first coordinate of the grid point is
at most half the width from the centre. -/
theorem C44_stripe (lat : Lattice) (c w : ℝ) (i j : ℕ) :
    (lat.stripe c w).rows = lat.discretization.1 ∧ (lat.stripe c w).cols = lat.discretization.2 ∧
    ((lat.stripe c w).get i j = true ↔ |(lat.gridPoint i j).1 - c| ≤ w / 2) := by
  classical
  refine ⟨rfl, rfl, ?_⟩
  unfold Lattice.stripe Lattice.gridPoint
  simp

/-- **C44**, where the grid points are: `lattice.grid[:, i, j]` is `i / (Nx - 1)` times the first basis vector plus
`j / (Ny - 1)` times the second one. -/
theorem C44_grid (lat : Lattice) (i j : ℕ) :
    (lat.gridPoint i j).1 = (i : ℝ) / ((lat.discretization.1 - 1 : ℕ) : ℝ) * lat.basis 0 0 + (j : ℝ) / ((lat.discretization.2 - 1 : ℕ) : ℝ) * lat.basis 1 0 ∧
    (lat.gridPoint i j).2 = (i : ℝ) / ((lat.discretization.1 - 1 : ℕ) : ℝ) * lat.basis 0 1 + (j : ℝ) / ((lat.discretization.2 - 1 : ℕ) : ℝ) * lat.basis 1 1 := by
  simp [Lattice.gridPoint, Lattice.grid, Lattice.unitGrid, Fin.sum_univ_two, Lattice.matrix, mul_comm]

/-! ### C59: the grid and the pixels of a pattern

The Fourier coefficients of a pattern take pixel `i` of `Nx` to be at `i / Nx` of the period, and the fields on a grid
are given at these points (C15). -/

/-- Where pixel `(i, j)` is for the Fourier transforms. -/
noncomputable def Lattice.pixelPoint (lat : Lattice) (i j : ℕ) : ℝ × ℝ :=
  ((i : ℝ) / lat.discretization.1 * lat.basis 0 0 + (j : ℝ) / lat.discretization.2 * lat.basis 1 0,
    (i : ℝ) / lat.discretization.1 * lat.basis 0 1 + (j : ℝ) / lat.discretization.2 * lat.basis 1 1)

/-- **C59, the claim fails**: on every mono-periodic lattice with at least two pixels, every pixel but the first is drawn
away from where the Fourier transforms place it; the last one is drawn at the end of the period, where the first one of the next
period is, so that the masks of periodic shapes repeat their first pixel. -/
theorem C59_grid_is_not_the_pixel_grid (a : ℝ) (ha : a ≠ 0) (N : ℕ) (hN : 2 ≤ N) (lat : Lattice)
    (h : mkLattice (.period a) (.int N) "circular" none = .ok lat) :
    (∀ i, 0 < i → (lat.gridPoint i 0).1 ≠ (lat.pixelPoint i 0).1) ∧
    (lat.gridPoint (N - 1) 0).1 = (lat.gridPoint 0 0).1 + a := by
  have hl : lat = { basis := ![![a, 0], ![0, 1]], is1D := true, truncation := .oneD, discretization := (N, 1), harmonicsArray := none } := by
    unfold mkLattice at h
    simpa using h.symm
  subst hl
  have e : ((N - 1 : ℕ) : ℝ) = (N : ℝ) - 1 := by
    rw [Nat.cast_sub (by omega), Nat.cast_one]
  have hN1 : (N : ℝ) - 1 ≠ 0 := by
    have : (2 : ℝ) ≤ N := by exact_mod_cast hN
    linarith
  have hN0 : (N : ℝ) ≠ 0 := by
    have : (2 : ℝ) ≤ N := by exact_mod_cast hN
    linarith
  constructor
  · intro i hi
    rw [(C44_grid _ _ _).1]
    unfold Lattice.pixelPoint
    have hi0 : (i : ℝ) ≠ 0 := by exact_mod_cast hi.ne'
    simp only [e, Matrix.cons_val_zero, Matrix.cons_val_one, mul_zero, add_zero, CharP.cast_eq_zero, zero_div]
    intro hh
    have h2 := mul_right_cancel₀ ha hh
    rw [div_eq_div_iff hN1 hN0] at h2
    have h3 := mul_left_cancel₀ hi0 h2
    linarith
  · rw [(C44_grid _ _ _).1, (C44_grid _ _ _).1]
    simp [e, div_self hN1]

/-- **C59, the part that holds**: every grid point is within one pixel of where the Fourier transforms place it. -/
theorem C59_within_one_pixel_partial (lat : Lattice) (hx : 2 ≤ lat.discretization.1) (hy : 2 ≤ lat.discretization.2) (i j : ℕ)
    (hi : i < lat.discretization.1) (hj : j < lat.discretization.2) :
    ∃ u v : ℝ, 0 ≤ u ∧ u ≤ 1 / lat.discretization.1 ∧ 0 ≤ v ∧ v ≤ 1 / lat.discretization.2 ∧
      (lat.gridPoint i j).1 = (lat.pixelPoint i j).1 + u * lat.basis 0 0 + v * lat.basis 1 0 ∧
      (lat.gridPoint i j).2 = (lat.pixelPoint i j).2 + u * lat.basis 0 1 + v * lat.basis 1 1 := by
  have key : ∀ k N : ℕ, 2 ≤ N → k < N → 0 ≤ (k : ℝ) / ((N - 1 : ℕ) : ℝ) - k / N ∧ (k : ℝ) / ((N - 1 : ℕ) : ℝ) - k / N ≤ 1 / N := by
    intro k N hN hk
    have e : ((N - 1 : ℕ) : ℝ) = (N : ℝ) - 1 := by
      rw [Nat.cast_sub (by omega), Nat.cast_one]
    have hN' : (2 : ℝ) ≤ N := by exact_mod_cast hN
    have hk' : (k : ℝ) ≤ N - 1 := by
      rw [← e]
      exact_mod_cast (by omega : k ≤ N - 1)
    have h1 : (0 : ℝ) < N - 1 := by linarith
    have h0 : (0 : ℝ) < N := by linarith
    have e2 : (k : ℝ) / ((N : ℝ) - 1) - k / N = (k / (N - 1)) * (1 / N) := by
      field_simp
      ring
    rw [e, e2]
    have h3 : (k : ℝ) / (N - 1) ≤ 1 := (div_le_one h1).2 hk'
    have h4 : (0 : ℝ) ≤ k / (N - 1) := by positivity
    have h5 : (0 : ℝ) ≤ 1 / N := by positivity
    exact ⟨mul_nonneg h4 h5, mul_le_of_le_one_left h5 h3⟩
  obtain ⟨a1, a2⟩ := key i _ hx hi
  obtain ⟨b1, b2⟩ := key j _ hy hj
  refine ⟨_, _, a1, a2, b1, b2, ?_, ?_⟩
  · rw [(C44_grid lat i j).1]
    unfold Lattice.pixelPoint
    ring
  · rw [(C44_grid lat i j).2]
    unfold Lattice.pixelPoint
    ring

/-! ### The contract can be met: exact geometry. -/

open Classical in
/-- Sets of points as geometries, polygons only for rectangles. -/
noncomputable def idealShapely : Shapely (Set (ℝ × ℝ)) where
  intersects g r := decide (∃ q ∈ rectPts r, q ∈ g)
  containsRect g r := decide (rectPts r ⊆ g)
  containsPt g q := decide (q ∈ interior g)
  affine g a b d e xo yo := (fun q : ℝ × ℝ => (a * q.1 + b * q.2 + xo, d * q.1 + e * q.2 + yo)) '' g
  polygon vs := match vs with
    | [p, q, r, _] => rectPts ⟨p.1, q.1, p.2, r.2⟩
    | _ => ∅
  disc c R := {q | (q.1 - c.1) ^ 2 + (q.2 - c.2) ^ 2 ≤ R ^ 2}
  scale g fx fy c := (fun q : ℝ × ℝ => (c.1 + fx * (q.1 - c.1), c.2 + fy * (q.2 - c.2))) '' g
  rotate g deg c := turn deg c '' g

open Classical in
theorem idealShapely_contract : ShapelyContract idealShapely 1 id where
  intersects_false g r h q hq hg := (decide_eq_false_iff_not.1 h) ⟨q, hq, hg⟩
  contains_rect g r h q hq := (of_decide_eq_true h) hq
  contains_pt_true g q h := interior_subset (of_decide_eq_true h)
  contains_pt_false g q h := decide_eq_false_iff_not.1 h
  affine _ _ _ _ _ _ _ := rfl
  polygon_rect _ _ _ _ _ _ := rfl
  disc_sub _ _ _ _ h := h
  disc_sup c R _ q h := by
    rw [one_mul] at h
    exact h
  scale _ _ _ _ := rfl
  rotate _ _ _ := rfl

/-- A square lattice of 100 by 80 pixels. -/
def squareGrid : Lattice :=
  { basis := ![![1, 0], ![0, 1]], is1D := false, truncation := .circular, discretization := (100, 80), harmonicsArray := none }

theorem squareGrid_indep : LinearIndependent ℝ squareGrid.basis := by
  rw [← det_ne_zero_iff]
  simp [squareGrid, Lattice.matrix, Matrix.det_fin_two]

/-- The hypotheses of the theorems are met: a disc of radius 1/4 in the square lattice contains the grid point `[40, 40]` and
not `[10, 40]`. -/
example : ∃ m, squareGrid.circleMask idealShapely 8 (1 / 2, 1 / 2) (1 / 4) = .ok m ∧ m.get 40 40 = true ∧ m.get 10 40 = false := by
  obtain ⟨m, h1, -, -, h4⟩ := C44_circle idealShapely_contract one_pos squareGrid rfl squareGrid_indep
    (by norm_num [squareGrid]) (by norm_num [squareGrid]) 7 (by norm_num [squareGrid]) (by norm_num [squareGrid]) 8 (by norm_num) (1 / 2, 1 / 2) (1 / 4) (by norm_num)
  refine ⟨m, h1, (h4 40 40 (by norm_num [squareGrid]) (by norm_num [squareGrid])).1 ?_,
    (h4 10 40 (by norm_num [squareGrid]) (by norm_num [squareGrid])).2 ?_⟩
  · rw [(C44_grid squareGrid 40 40).1, (C44_grid squareGrid 40 40).2, Real.sqrt_lt' (by norm_num)]
    norm_num [squareGrid]
  · rw [(C44_grid squareGrid 10 40).1, (C44_grid squareGrid 10 40).2, Real.lt_sqrt (by norm_num)]
    norm_num [squareGrid]

end Nannos
