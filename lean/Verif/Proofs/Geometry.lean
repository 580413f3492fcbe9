import Verif.Spec.Geometry
import Mathlib.Tactic.Linarith
import Mathlib.Topology.Homeomorph.Defs
import Mathlib.Topology.Algebra.Ring.Real
import Mathlib.LinearAlgebra.Matrix.NonsingularInverse
import Mathlib.Topology.Instances.Real.Lemmas

/-! Helper lemmas about rasterisation. -/

namespace Nannos

open Spec

variable {G : Type} {S : Shapely G} {ρ : ℝ} {pts : G → Set (ℝ × ℝ)}

/-- `v` tells whether `q` is in the shape, except on the boundary. -/
def Tells (K : Set (ℝ × ℝ)) (q : ℝ × ℝ) (v : Bool) : Prop := (q ∈ interior K → v = true) ∧ (q ∉ K → v = false)

theorem tells_false {K : Set (ℝ × ℝ)} {q : ℝ × ℝ} (h : q ∉ K) : Tells K q false :=
  ⟨fun hi => absurd (interior_subset hi) h, fun _ => rfl⟩

theorem tells_true {K : Set (ℝ × ℝ)} {q : ℝ × ℝ} (h : q ∈ K) : Tells K q true := ⟨fun _ => rfl, fun hn => absurd h hn⟩

theorem tells_pt (hS : ShapelyContract S ρ pts) (g : G) (q : ℝ × ℝ) : Tells (pts g) q (S.containsPt g q) := by
  cases h : S.containsPt g q with
  | true => exact tells_true (hS.contains_pt_true g q h)
  | false =>
    exact ⟨fun hi => absurd hi (hS.contains_pt_false g q h), fun _ => rfl⟩

theorem pyGet_zero {α : Type} {l : List α} (h : 0 < l.length) : pyGet l 0 = .ok l[0] := by
  unfold pyGet pyIdx
  simp [h]

theorem pyGet_last {α : Type} {l : List α} (h : 0 < l.length) : pyGet l (-1) = .ok (l[l.length - 1]) := by
  have h1 : pyIdx l.length (-1) = some (l.length - 1) := by
    unfold pyIdx
    rw [if_neg (by omega), if_pos (by omega)]
    congr 1
    omega
  unfold pyGet
  rw [h1]
  dsimp only
  rw [List.getElem?_eq_getElem (by omega)]

theorem except_ok_bind {α β : Type} (a : α) (f : α → Except PyErr β) : (Except.ok a >>= f) = f a := rfl

theorem gridRect_ok {x y : List ℝ} (hx : 0 < x.length) (hy : 0 < y.length) :
    gridRect x y = .ok ⟨x[0], x[x.length - 1], y[0], y[y.length - 1]⟩ := by
  unfold gridRect
  rw [pyGet_zero hx, pyGet_last hx, pyGet_zero hy, pyGet_last hy]
  rfl

theorem pairwise_le {x : List ℝ} (h : x.Pairwise (· ≤ ·)) {i j : ℕ} (hi : i < x.length) (hj : j < x.length) (hij : i ≤ j) :
    x[i] ≤ x[j] := by
  rcases Nat.eq_or_lt_of_le hij with h1 | h1
  · subst h1
    exact le_refl _
  · exact List.pairwise_iff_getElem.1 h i j hi hj h1

theorem mem_gridRect {x y : List ℝ} (hx : x.Pairwise (· ≤ ·)) (hy : y.Pairwise (· ≤ ·)) {i j : ℕ} (hi : i < x.length)
    (hj : j < y.length) :
    (x[i], y[j]) ∈ rectPts ⟨x[0], x[x.length - 1], y[0], y[y.length - 1]⟩ :=
  ⟨pairwise_le hx _ hi (by omega), pairwise_le hx hi _ (by omega), pairwise_le hy _ hj (by omega),
    pairwise_le hy hj _ (by omega)⟩

/-- The mask is right on the whole grid. -/
structure GoodMask (K : Set (ℝ × ℝ)) (x y : List ℝ) (m : Mask) : Prop where
  rows : m.rows = y.length
  cols : m.cols = x.length
  val : ∀ (i j : ℕ) (hi : i < x.length) (hj : j < y.length), Tells K (x[i], y[j]) (m.get j i)

theorem put_ok {m v : Mask} {r0 r1 c0 c1 : ℕ} (h1 : v.rows = r1 - r0) (h2 : v.cols = c1 - c0) :
    m.put v r0 r1 c0 c1 = .ok ⟨m.rows, m.cols, fun j i => if r0 ≤ j ∧ j < r1 ∧ c0 ≤ i ∧ i < c1 then v.get (j - r0) (i - c0) else m.get j i⟩ := by
  unfold Mask.put
  rw [if_pos ⟨h1, h2⟩]

theorem shapeMask_good (hS : ShapelyContract S ρ pts) (g : G) : ∀ (n : ℕ) {x y : List ℝ} (m : Option Mask),
    x.Pairwise (· ≤ ·) → y.Pairwise (· ≤ ·) → 0 < x.length → 0 < y.length → x.length ≤ 2 ^ n → y.length ≤ 2 ^ n →
    (∀ m', m = some m' → m'.rows = y.length ∧ m'.cols = x.length) →
    ∃ m', shapeMask S (n + 1) g x y m = .ok m' ∧ GoodMask (pts g) x y m' := by
  intro n
  induction n with
  | zero =>
    intro x y m hx hy hx0 hy0 hxn hyn hm
    have hr : (m.getD ⟨y.length, x.length, fun _ _ => false⟩).rows = y.length ∧
        (m.getD ⟨y.length, x.length, fun _ _ => false⟩).cols = x.length := by
      cases m with
      | none => exact ⟨rfl, rfl⟩
      | some m' => exact hm m' rfl
    unfold shapeMask
    rw [gridRect_ok hx0 hy0]
    simp only [except_ok_bind]
    split_ifs with h1 h2 h3 h4 h5
    · exact ⟨_, rfl, hr.1, hr.2, fun i j hi hj => tells_false (hS.intersects_false _ _ h1 _ (mem_gridRect hx hy hi hj))⟩
    · exact ⟨_, rfl, hr.1, hr.2, fun i j hi hj => tells_true (hS.contains_rect _ _ h2 _ (mem_gridRect hx hy hi hj))⟩
    · rw [pyGet_zero hx0, pyGet_zero hy0]
      refine ⟨_, rfl, hr.1, hr.2, fun i j hi hj => ?_⟩
      have hi0 : i = 0 := by simp at hxn; omega
      have hj0 : j = 0 := by simp at hyn; omega
      subst hi0 hj0
      exact tells_pt hS g _
    all_goals
      exfalso
      simp only [pow_zero] at hxn hyn
      omega
  | succ n ih =>
    intro x y m hx hy hx0 hy0 hxn hyn hm
    have hr : (m.getD ⟨y.length, x.length, fun _ _ => false⟩).rows = y.length ∧
        (m.getD ⟨y.length, x.length, fun _ _ => false⟩).cols = x.length := by
      cases m with
      | none => exact ⟨rfl, rfl⟩
      | some m' => exact hm m' rfl
    rw [pow_succ] at hxn hyn
    unfold shapeMask
    rw [gridRect_ok hx0 hy0]
    generalize m.getD ⟨y.length, x.length, fun _ _ => false⟩ = m at hr ⊢
    obtain ⟨hrow, hcol⟩ := hr
    simp only [except_ok_bind]
    split_ifs with h1 h2 h3 h4 h5
    · exact ⟨_, rfl, hrow, hcol, fun i j hi hj => tells_false (hS.intersects_false _ _ h1 _ (mem_gridRect hx hy hi hj))⟩
    · exact ⟨_, rfl, hrow, hcol, fun i j hi hj => tells_true (hS.contains_rect _ _ h2 _ (mem_gridRect hx hy hi hj))⟩
    · rw [pyGet_zero hx0, pyGet_zero hy0]
      refine ⟨_, rfl, hrow, hcol, fun i j hi hj => ?_⟩
      have hi0 : i = 0 := by omega
      have hj0 : j = 0 := by omega
      subst hi0 hj0
      exact tells_pt hS g _
    · -- one row
      rw [not_and] at h3
      have hc2 : m.cols ≠ 1 := h3 h4
      set k := m.cols / 2 with hk
      have htl : (x.take k).length = k := by rw [List.length_take]; omega
      have hdl : (x.drop k).length = m.cols - k := by rw [List.length_drop]; omega
      obtain ⟨v1, e1, g1⟩ := ih (x := x.take k) (y := y) (some (m.slice 0 m.rows 0 k)) (hx.take) hy (by omega) hy0 (by omega)
        (by omega) (by rintro _ ⟨⟩; exact ⟨by simp [Mask.slice, hrow], by rw [htl]; simp [Mask.slice]⟩)
      rw [e1]
      change ∃ m', (m.put v1 0 m.rows 0 k >>= _) = .ok m' ∧ _
      rw [put_ok (by rw [g1.rows, hrow]; rfl) (by rw [g1.cols, htl]; rfl)]
      obtain ⟨v2, e2, g2⟩ := ih (x := x.drop k) (y := y)
        (some (Mask.slice ⟨m.rows, m.cols, fun j i => if 0 ≤ j ∧ j < m.rows ∧ 0 ≤ i ∧ i < k then v1.get (j - 0) (i - 0) else m.get j i⟩ 0 m.rows k m.cols))
        (hx.drop) hy (by omega) hy0 (by omega)
        (by omega) (by rintro _ ⟨⟩; exact ⟨by simp [Mask.slice, hrow], by rw [hdl]; simp [Mask.slice]⟩)
      change ∃ m', (shapeMask S (n + 1) g (x.drop k) y _ >>= _) = .ok m' ∧ _
      rw [e2]
      change ∃ m', Mask.put _ v2 0 m.rows k m.cols = .ok m' ∧ _
      rw [put_ok (by rw [g2.rows, hrow]; rfl) (by rw [g2.cols, hdl])]
      refine ⟨_, rfl, hrow, hcol, fun i j hi hj => ?_⟩
      dsimp only
      by_cases hik : i < k
      · rw [if_neg (by omega), if_pos (by omega)]
        have := g1.val i j (by omega) hj
        simpa using this
      · rw [if_pos (by omega)]
        have := g2.val (i - k) j (by omega) hj
        simp only [List.getElem_drop] at this
        have e : k + (i - k) = i := by omega
        simp only [e] at this
        simpa using this
    · -- one column
      set k := m.rows / 2 with hk
      have htl : (y.take k).length = k := by rw [List.length_take]; omega
      have hdl : (y.drop k).length = m.rows - k := by rw [List.length_drop]; omega
      obtain ⟨v1, e1, g1⟩ := ih (x := x) (y := y.take k) (some (m.slice 0 k 0 m.cols)) hx (hy.take) (by omega) (by omega) (by omega)
        (by omega) (by rintro _ ⟨⟩; exact ⟨by rw [htl]; simp [Mask.slice], by simp [Mask.slice, hcol]⟩)
      rw [e1]
      change ∃ m', (m.put v1 0 k 0 m.cols >>= _) = .ok m' ∧ _
      rw [put_ok (by rw [g1.rows, htl]; rfl) (by rw [g1.cols, hcol]; rfl)]
      obtain ⟨v2, e2, g2⟩ := ih (x := x) (y := y.drop k)
        (some (Mask.slice ⟨m.rows, m.cols, fun j i => if 0 ≤ j ∧ j < k ∧ 0 ≤ i ∧ i < m.cols then v1.get (j - 0) (i - 0) else m.get j i⟩ k m.rows 0 m.cols))
        hx (hy.drop) (by omega) (by omega) (by omega)
        (by omega) (by rintro _ ⟨⟩; exact ⟨by rw [hdl]; simp [Mask.slice], by simp [Mask.slice, hcol]⟩)
      change ∃ m', (shapeMask S (n + 1) g x (y.drop k) _ >>= _) = .ok m' ∧ _
      rw [e2]
      change ∃ m', Mask.put _ v2 k m.rows 0 m.cols = .ok m' ∧ _
      rw [put_ok (by rw [g2.rows, hdl]) (by rw [g2.cols, hcol]; rfl)]
      refine ⟨_, rfl, hrow, hcol, fun i j hi hj => ?_⟩
      dsimp only
      by_cases hjk : j < k
      · rw [if_neg (by omega), if_pos (by omega)]
        have := g1.val i j hi (by omega)
        simpa using this
      · rw [if_pos (by omega)]
        have := g2.val i (j - k) hi (by omega)
        simp only [List.getElem_drop] at this
        have e : k + (j - k) = j := by omega
        simp only [e] at this
        simpa using this
    · -- four blocks
      rw [not_and] at h3
      set k := m.rows / 2 with hk
      set l := m.cols / 2 with hl
      have htx : (x.take l).length = l := by rw [List.length_take]; omega
      have hdx : (x.drop l).length = m.cols - l := by rw [List.length_drop]; omega
      have hty : (y.take k).length = k := by rw [List.length_take]; omega
      have hdy : (y.drop k).length = m.rows - k := by rw [List.length_drop]; omega
      have key : ∀ (x' y' : List ℝ) (r0 r1 c0 c1 : ℕ) (mm : Mask), x'.Pairwise (· ≤ ·) → y'.Pairwise (· ≤ ·) →
          x'.length = c1 - c0 → y'.length = r1 - r0 → 0 < c1 - c0 → 0 < r1 - r0 → c1 - c0 ≤ 2 ^ n → r1 - r0 ≤ 2 ^ n →
          ∃ v, shapeMask S (n + 1) g x' y' (some (mm.slice r0 r1 c0 c1)) = .ok v ∧ GoodMask (pts g) x' y' v ∧
            mm.put v r0 r1 c0 c1 = .ok ⟨mm.rows, mm.cols, fun j i => if r0 ≤ j ∧ j < r1 ∧ c0 ≤ i ∧ i < c1 then v.get (j - r0) (i - c0) else mm.get j i⟩ := by
        intro x' y' r0 r1 c0 c1 mm a1 a2 a3 a4 a5 a6 a7 a8
        obtain ⟨v, e, gv⟩ := ih (x := x') (y := y') (some (mm.slice r0 r1 c0 c1)) a1 a2 (by omega) (by omega) (by omega)
          (by omega) (by rintro _ ⟨⟩; exact ⟨a4.symm, a3.symm⟩)
        exact ⟨v, e, gv, put_ok (gv.rows.trans a4) (gv.cols.trans a3)⟩
      obtain ⟨v1, e1, g1, p1⟩ := key (x.take l) (y.take k) 0 k 0 l m hx.take hy.take (by omega) (by omega) (by omega)
        (by omega) (by omega) (by omega)
      rw [e1]
      change ∃ m', (m.put v1 0 k 0 l >>= _) = .ok m' ∧ _
      rw [p1]
      set m1 : Mask := ⟨m.rows, m.cols, fun j i => if 0 ≤ j ∧ j < k ∧ 0 ≤ i ∧ i < l then v1.get (j - 0) (i - 0) else m.get j i⟩ with hm1
      obtain ⟨v2, e2, g2, p2⟩ := key (x.drop l) (y.take k) 0 k l m.cols m1 hx.drop hy.take (by omega) (by omega) (by omega)
        (by omega) (by omega) (by omega)
      change ∃ m', (shapeMask S (n + 1) g (x.drop l) (y.take k) (some (m1.slice 0 k l m.cols)) >>= _) = .ok m' ∧ _
      rw [e2]
      change ∃ m', (m1.put v2 0 k l m.cols >>= _) = .ok m' ∧ _
      rw [p2]
      set m2 : Mask := ⟨m1.rows, m1.cols, fun j i => if 0 ≤ j ∧ j < k ∧ l ≤ i ∧ i < m.cols then v2.get (j - 0) (i - l) else m1.get j i⟩ with hm2
      obtain ⟨v3, e3, g3, p3⟩ := key (x.take l) (y.drop k) k m.rows 0 l m2 hx.take hy.drop (by omega) (by omega) (by omega)
        (by omega) (by omega) (by omega)
      change ∃ m', (shapeMask S (n + 1) g (x.take l) (y.drop k) (some (m2.slice k m.rows 0 l)) >>= _) = .ok m' ∧ _
      rw [e3]
      change ∃ m', (m2.put v3 k m.rows 0 l >>= _) = .ok m' ∧ _
      rw [p3]
      set m3 : Mask := ⟨m2.rows, m2.cols, fun j i => if k ≤ j ∧ j < m.rows ∧ 0 ≤ i ∧ i < l then v3.get (j - k) (i - 0) else m2.get j i⟩ with hm3
      obtain ⟨v4, e4, g4, p4⟩ := key (x.drop l) (y.drop k) k m.rows l m.cols m3 hx.drop hy.drop (by omega) (by omega) (by omega)
        (by omega) (by omega) (by omega)
      change ∃ m', (shapeMask S (n + 1) g (x.drop l) (y.drop k) (some (m3.slice k m.rows l m.cols)) >>= _) = .ok m' ∧ _
      rw [e4]
      change ∃ m', m3.put v4 k m.rows l m.cols = .ok m' ∧ _
      rw [p4]
      refine ⟨_, rfl, hrow, hcol, fun i j hi hj => ?_⟩
      dsimp only
      have ei : ¬ i < l → l + (i - l) = i := by omega
      have ej : ¬ j < k → k + (j - k) = j := by omega
      by_cases hil : i < l <;> by_cases hjk : j < k
      · rw [if_neg (by omega), hm3]
        dsimp only
        rw [if_neg (by omega), hm2]
        dsimp only
        rw [if_neg (by omega), hm1]
        dsimp only
        rw [if_pos (by omega)]
        have := g1.val i j (by omega) (by omega)
        simpa using this
      · rw [if_neg (by omega), hm3]
        dsimp only
        rw [if_pos (by omega)]
        have := g3.val i (j - k) (by omega) (by omega)
        simp only [List.getElem_drop, ej hjk] at this
        simpa using this
      · rw [if_neg (by omega), hm3]
        dsimp only
        rw [if_neg (by omega), hm2]
        dsimp only
        rw [if_pos (by omega)]
        have := g2.val (i - l) j (by omega) (by omega)
        simp only [List.getElem_drop, ei hil] at this
        simpa using this
      · rw [if_pos (by omega)]
        have := g4.val (i - l) (j - k) (by omega) (by omega)
        simp only [List.getElem_drop, ei hil, ej hjk] at this
        simpa using this

end Nannos
