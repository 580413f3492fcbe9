import Verif.Model.Pattern
import Verif.Props.Geometry
import Verif.Props.Layer
import Verif.Props.LayerObject
import Verif.Props.Grating

/-! **C102**: patterns painted on the grid of a lattice. -/

namespace Nannos

open Spec

theorem assign_ok {a b : NdArr} {m : Mask} {v : ℂ} (h : a.assign m v = .ok b) : a.shape = [m.rows, m.cols] ∧ b.shape = a.shape ∧
    ∀ i j, b.data [i, j] = if m.get i j then v else a.data [i, j] := by
  unfold NdArr.assign at h
  split_ifs at h with hs
  cases h
  exact ⟨hs, rfl, fun i j => rfl⟩

/-- Painting any array: it succeeds exactly when the masks have its shape, and at each pixel the last shape wins. -/
theorem assignAll_spec (shapes : List (Mask × ℂ)) : ∀ a : NdArr,
    ((∃ b, a.assignAll shapes = .ok b) ↔ ∀ s ∈ shapes, a.shape = [s.1.rows, s.1.cols]) ∧
    ((¬∀ s ∈ shapes, a.shape = [s.1.rows, s.1.cols]) → a.assignAll shapes = .error .indexError) ∧
    ∀ b, a.assignAll shapes = .ok b → b.shape = a.shape ∧ ∀ i j, b.data [i, j] =
      match shapes.reverse.find? fun s => s.1.get i j with
      | some s => s.2
      | none => a.data [i, j] := by
  induction shapes with
  | nil =>
    intro a
    refine ⟨by simp [NdArr.assignAll], by simp, fun b h => ?_⟩
    simp only [NdArr.assignAll, Except.ok.injEq] at h
    subst h
    exact ⟨rfl, fun i j => by simp⟩
  | cons s rest ih =>
    intro a
    obtain ⟨m, v⟩ := s
    by_cases hs : a.shape = [m.rows, m.cols]
    · obtain ⟨b1, hb⟩ : ∃ b1, a.assign m v = .ok b1 := by unfold NdArr.assign; rw [if_pos hs]; exact ⟨_, rfl⟩
      obtain ⟨-, h2, h3⟩ := assign_ok hb
      have e : a.assignAll ((m, v) :: rest) = b1.assignAll rest := by
        rw [NdArr.assignAll, hb]; rfl
      obtain ⟨i1, i2, i3⟩ := ih b1
      rw [h2] at i1 i2
      rw [e]
      refine ⟨by rw [i1]; simp [hs], fun h => i2 fun hr => h (by simpa [hs] using hr), fun b h => ?_⟩
      obtain ⟨j1, j2⟩ := i3 b h
      refine ⟨j1.trans h2, fun i j => ?_⟩
      rw [j2, List.reverse_cons, List.find?_append]
      rcases hf : rest.reverse.find? fun s => s.1.get i j with _ | s
      · simp only [hf, Option.none_or, List.find?_cons, List.find?_nil, h3]
        cases m.get i j <;> rfl
      · simp only [hf, Option.some_or]
    · have hb : a.assign m v = .error .indexError := by unfold NdArr.assign; rw [if_neg hs]
      have e : a.assignAll ((m, v) :: rest) = .error .indexError := by
        rw [NdArr.assignAll, hb]; rfl
      rw [e]
      refine ⟨by simp [hs], fun _ => rfl, fun b h => by cases h⟩

/-- **C102**, painting. `eps = lattice.constant(e0)`, then `eps[mask] = e` for a list of masks and numbers: it succeeds exactly
when every mask has the shape of the grid of the lattice (`IndexError` otherwise), and the pixel `[i, j]` of the result is the
number of the last mask which contains it, `e0` if there is none. `lattice.ones()` and `lattice.zeros()` are the constants one
and zero. -/
theorem C102_painting (lat : Lattice) (e0 : ℂ) (shapes : List (Mask × ℂ)) :
    ((∃ a, (lat.constant e0).assignAll shapes = .ok a) ↔
      ∀ s ∈ shapes, s.1.rows = lat.discretization.1 ∧ s.1.cols = lat.discretization.2) ∧
    ((∃ s ∈ shapes, ¬(s.1.rows = lat.discretization.1 ∧ s.1.cols = lat.discretization.2)) →
      (lat.constant e0).assignAll shapes = .error .indexError) ∧
    (∀ a, (lat.constant e0).assignAll shapes = .ok a → a.shape = [lat.discretization.1, lat.discretization.2] ∧
      ∀ i j, a.data [i, j] = match shapes.reverse.find? fun s => s.1.get i j with
        | some s => s.2
        | none => e0) ∧
    lat.ones = lat.constant 1 ∧ lat.zeros = lat.constant 0 := by
  obtain ⟨h1, h2, h3⟩ := assignAll_spec shapes (lat.constant e0)
  have hsh : (lat.constant e0).shape = [lat.discretization.1, lat.discretization.2] := rfl
  have hiff : (∀ s ∈ shapes, (lat.constant e0).shape = [s.1.rows, s.1.cols]) ↔
      ∀ s ∈ shapes, s.1.rows = lat.discretization.1 ∧ s.1.cols = lat.discretization.2 := by
    refine forall₂_congr fun s _ => ?_
    rw [hsh]
    simp [eq_comm]
  refine ⟨by rw [h1, hiff], fun ⟨s, hs, hn⟩ => h2 fun h => hn (hiff.mp h s hs), fun a h => ?_, ?_, ?_⟩
  · obtain ⟨k1, k2⟩ := h3 a h
    refine ⟨k1.trans hsh, fun i j => ?_⟩
    rw [k2]
    have : (lat.constant e0).data [i, j] = e0 := by simp [Lattice.constant, Lattice.ones]
    rw [this]
  · simp [Lattice.constant, Lattice.ones]
  · simp [Lattice.constant, Lattice.ones, Lattice.zeros]

/-- **C102**, layers of a lattice. `lattice.Layer(...)` is `Layer(..., lattice=lattice)`, whatever is given as its own argument
`lattice`: it succeeds and fails in the same way, and the layer belongs to this lattice. A painted permittivity is kept; on any
grid but one of 3 by 3 pixels the layer is a patterned isotropic layer. -/
theorem C102_layer (lat : Lattice) (this self : ℕ) (name : String) (thickness : Option ℝ) (eps mu : NdArr) (lattice : Option ℕ)
    (tf : Option Field2) (ty : String) :
    Lattice.layer this self name thickness eps mu lattice tf ty = mkLayer self name thickness eps mu this tf ty ∧
    ∀ L, Lattice.layer this self name thickness eps mu lattice tf ty = .ok L → L.lattice = this ∧ L.epsilon = eps ∧
      L.thickness = thickness ∧ L.name = name ∧ L.mu = 1 ∧ L.tangentField = tf ∧ L.tangentFieldType = ty ∧
      (∀ e0 shapes, (lat.constant e0).assignAll shapes = .ok eps → lat.discretization ≠ (3, 3) →
        L.isUniform = false ∧ L.isAnisotropic = false) := by
  refine ⟨rfl, fun L h => ?_⟩
  obtain ⟨h1, h2, h3, h4, h5, h6, h7, -⟩ := (C68_layer_construction self name thickness eps mu this tf ty).2.2.2 L h
  refine ⟨h5, h3, h2, h1, h4, h6, h7, fun e0 shapes ha hd => ?_⟩
  have hs := ((C102_painting lat e0 shapes).2.2.1 eps ha).1
  refine ((C53_material_classification L).2.2.1 _ _ (by rw [h3]; exact hs)).mpr fun h => hd (Prod.ext h.1 h.2)

/-- **C102**, what it gives with C44: a disc of permittivity `e1` in a background `e0`. -/
theorem C102_disc {G : Type} {S : Shapely G} {ρ : ℝ} {pts : G → Set (ℝ × ℝ)} (hS : ShapelyContract S ρ pts) (hρ : 0 < ρ)
    (lat : Lattice) (h1d : lat.is1D = false) (hl : LinearIndependent ℝ lat.basis)
    (hNx : 0 < lat.discretization.1) (hNy : 0 < lat.discretization.2) (n : ℕ) (hx : lat.discretization.1 ≤ 2 ^ n)
    (hy : lat.discretization.2 ≤ 2 ^ n) (depth : ℕ) (hd : n < depth) (c : ℝ × ℝ) (R : ℝ) (hR : 0 < R) (e0 e1 : ℂ) :
    ∃ m a, lat.circleMask S depth c R = .ok m ∧ (lat.constant e0).assignAll [(m, e1)] = .ok a ∧
      ∀ i j : ℕ, i < lat.discretization.1 → j < lat.discretization.2 →
        let p := lat.gridPoint i j
        (Real.sqrt ((p.1 - c.1) ^ 2 + (p.2 - c.2) ^ 2) < ρ * R → a.data [i, j] = e1) ∧
        (R < Real.sqrt ((p.1 - c.1) ^ 2 + (p.2 - c.2) ^ 2) → a.data [i, j] = e0) := by
  obtain ⟨m, h1, h2, h3, h4⟩ := C44_circle hS hρ lat h1d hl hNx hNy n hx hy depth hd c R hR
  obtain ⟨p1, -, p2, -⟩ := C102_painting lat e0 [(m, e1)]
  obtain ⟨a, ha⟩ := p1.mpr (by simpa using ⟨h2, h3⟩)
  refine ⟨m, a, h1, ha, fun i j hi hj => ?_⟩
  obtain ⟨q1, q2⟩ := h4 i j hi hj
  have q3 := (p2 a ha).2 i j
  refine ⟨fun h => ?_, fun h => ?_⟩
  · rw [q3]; simp [q1 h]
  · rw [q3]; simp [q2 h]

/-- **C102**, what it gives for gratings: stripes, the last one wins where they overlap. If all permittivities are real and
positive the layer is one of those of C100. -/
theorem C102_stripes (lat : Lattice) (e0 : ℂ) (stripes : List ((ℝ × ℝ) × ℂ)) :
    ∃ a, (lat.constant e0).assignAll (stripes.map fun s => (lat.stripe s.1.1 s.1.2, s.2)) = .ok a ∧
      (∀ i j, (∀ s ∈ stripes, s.1.2 / 2 < |(lat.gridPoint i j).1 - s.1.1|) → a.data [i, j] = e0) ∧
      (∀ i j pre s post, stripes = pre ++ s :: post → |(lat.gridPoint i j).1 - s.1.1| ≤ s.1.2 / 2 →
        (∀ s' ∈ post, s'.1.2 / 2 < |(lat.gridPoint i j).1 - s'.1.1|) → a.data [i, j] = s.2) ∧
      (∀ L : LayerSpec, L.epsilon = a → lat.discretization ≠ (3, 3) → (e0.im = 0 ∧ 0 < e0.re) →
        (∀ s ∈ stripes, s.2.im = 0 ∧ 0 < s.2.re) → Dielectric L) := by
  obtain ⟨p1, -, p2, -⟩ := C102_painting lat e0 (stripes.map fun s => (lat.stripe s.1.1 s.1.2, s.2))
  obtain ⟨a, ha⟩ := p1.mpr (by
    intro s hs
    obtain ⟨t, -, rfl⟩ := List.mem_map.mp hs
    exact ⟨(C44_stripe lat _ _ 0 0).1, (C44_stripe lat _ _ 0 0).2.1⟩)
  obtain ⟨s1, s2⟩ := p2 a ha
  have hg : ∀ i j (s : (ℝ × ℝ) × ℂ), (lat.stripe s.1.1 s.1.2).get i j = true ↔ |(lat.gridPoint i j).1 - s.1.1| ≤ s.1.2 / 2 :=
    fun i j s => (C44_stripe lat _ _ i j).2.2
  refine ⟨a, ha, fun i j h => ?_, fun i j pre s post he hin hout => ?_, fun L hL hd h0 hpos => ?_⟩
  · rw [s2]
    have : ((stripes.map fun s => (lat.stripe s.1.1 s.1.2, s.2)).reverse.find? fun s => s.1.get i j) = none := by
      rw [List.find?_eq_none]
      intro x hx
      rw [List.mem_reverse, List.mem_map] at hx
      obtain ⟨t, ht, rfl⟩ := hx
      rw [hg]
      exact not_le.mpr (h t ht)
    rw [this]
  · rw [s2]
    have : ((stripes.map fun s => (lat.stripe s.1.1 s.1.2, s.2)).reverse.find? fun s => s.1.get i j) =
        some (lat.stripe s.1.1 s.1.2, s.2) := by
      rw [he, List.map_append, List.map_cons, List.reverse_append, List.reverse_cons, List.append_assoc, List.find?_append]
      have h1 : ((post.map fun s => (lat.stripe s.1.1 s.1.2, s.2)).reverse.find? fun s => s.1.get i j) = none := by
        rw [List.find?_eq_none]
        intro x hx
        rw [List.mem_reverse, List.mem_map] at hx
        obtain ⟨t, ht, rfl⟩ := hx
        rw [hg]
        exact not_le.mpr (hout t ht)
      rw [h1, Option.none_or, List.singleton_append, List.find?_cons_of_pos]
      exact (hg i j s).mpr hin
    rw [this]
  · refine ⟨((C53_material_classification L).2.2.1 _ _ (by rw [hL]; exact s1)).mpr (fun h => hd (Prod.ext h.1 h.2)) |>.2,
      fun idx hidx => ?_⟩
    rw [hL, s1] at hidx
    rcases hidx with _ | @⟨x, _, _, _, hx, h2⟩
    rcases h2 with _ | @⟨y, _, _, _, hy, h3⟩
    cases h3
    rw [hL, s2]
    rcases hf : (stripes.map fun s => (lat.stripe s.1.1 s.1.2, s.2)).reverse.find? fun s => s.1.get x y with _ | s
    · simpa only [hf] using h0
    · simp only [hf]
      have := List.mem_of_find?_eq_some hf
      rw [List.mem_reverse, List.mem_map] at this
      obtain ⟨t, ht, rfl⟩ := this
      exact hpos t ht

namespace Examples

/-- C102: a stripe of permittivity 4 in the middle of the period, and a narrower one of permittivity 9 painted over it. -/
example : ∃ a L, (exLat.constant 1).assignAll [(exLat.stripe (1 / 2) (1 / 2), 4), (exLat.stripe (1 / 2) (1 / 4), 9)] = .ok a ∧
    Lattice.layer 0 1 "Grating" (some 1) a (NdArr.scalar 1) (some 7) none "opt" = .ok L ∧ L.lattice = 0 ∧ Dielectric L ∧
    a.data [10, 0] = 1 ∧ a.data [80, 0] = 4 ∧ a.data [128, 0] = 9 := by
  obtain ⟨a, h1, h2, h3, h4⟩ := C102_stripes exLat 1 [((1 / 2, 1 / 2), 4), ((1 / 2, 1 / 4), 9)]
  have hp : ∀ i, (exLat.gridPoint i 0).1 = (i : ℝ) / 255 := by
    intro i
    rw [(C44_grid exLat i 0).1]
    norm_num [exLat]
  obtain ⟨L, hL⟩ : ∃ L, Lattice.layer 0 1 "Grating" (some 1) a (NdArr.scalar 1) (some 7) none "opt" = .ok L := by
    rw [(C102_layer exLat 0 1 "Grating" (some 1) a (NdArr.scalar 1) (some 7) none "opt").1]
    exact (C68_layer_construction 1 "Grating" (some 1) a _ 0 none "opt").1.mpr
      ⟨fun d hd => by cases hd; norm_num, rfl, rfl⟩
  obtain ⟨k1, k2, -⟩ := (C102_layer exLat 0 1 "Grating" (some 1) a (NdArr.scalar 1) (some 7) none "opt").2 L hL
  refine ⟨a, L, h1, hL, k1, h4 L k2 (by decide) (by norm_num) (by simp), h2 10 0 ?_, h3 80 0 [] _ _ rfl ?_ ?_,
    h3 128 0 [_] _ [] rfl ?_ (by simp)⟩
  · intro s hs
    simp only [List.mem_cons, List.not_mem_nil, or_false] at hs
    rw [hp]
    rcases hs with rfl | rfl <;> norm_num [abs_of_neg]
  · rw [hp]; norm_num [abs_of_neg]
  · intro s hs
    simp only [List.mem_cons, List.not_mem_nil, or_false] at hs
    subst hs
    rw [hp]; norm_num [abs_of_neg]
  · rw [hp]; norm_num [abs_le]

/-- C102: a disc of permittivity 12 in air, on the square lattice. -/
example : ∃ m a, squareGrid.circleMask idealShapely 8 (1 / 2, 1 / 2) (1 / 4) = .ok m ∧
    (squareGrid.constant 1).assignAll [(m, 12)] = .ok a ∧ a.data [40, 40] = 12 ∧ a.data [10, 40] = 1 := by
  obtain ⟨m, a, h1, h2, h4⟩ := C102_disc idealShapely_contract one_pos squareGrid rfl squareGrid_indep
    (by norm_num [squareGrid]) (by norm_num [squareGrid]) 7 (by norm_num [squareGrid]) (by norm_num [squareGrid]) 8 (by norm_num)
    (1 / 2, 1 / 2) (1 / 4) (by norm_num) 1 12
  refine ⟨m, a, h1, h2, (h4 40 40 (by norm_num [squareGrid]) (by norm_num [squareGrid])).1 ?_,
    (h4 10 40 (by norm_num [squareGrid]) (by norm_num [squareGrid])).2 ?_⟩
  · rw [(C44_grid squareGrid 40 40).1, (C44_grid squareGrid 40 40).2, Real.sqrt_lt' (by norm_num)]
    norm_num [squareGrid]
  · rw [(C44_grid squareGrid 10 40).1, (C44_grid squareGrid 10 40).2, Real.lt_sqrt (by norm_num)]
    norm_num [squareGrid]

/-- C102: masks of another lattice are refused. -/
example : (exLat.constant 1).assignAll [(squareGrid.stripe 0 1, 4)] = .error .indexError :=
  (C102_painting exLat 1 _).2.1 ⟨_, List.mem_singleton.mpr rfl, by
    rw [(C44_stripe squareGrid 0 1 0 0).1]; simp [exLat, squareGrid]⟩

end Examples

end Nannos
