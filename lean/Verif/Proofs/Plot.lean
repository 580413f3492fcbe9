import Verif.Spec.Plot
import Mathlib.Tactic.Linarith
import Mathlib.Tactic.FieldSimp

/-! Pictures of structures (C91). -/

namespace Nannos

open Matrix Spec

theorem except_mapM_ok {α β : Type} {f : α → Except PyErr β} {g : α → β} :
    ∀ {l : List α}, (∀ a ∈ l, f a = .ok (g a)) → l.mapM f = .ok (l.map g)
  | [], _ => rfl
  | a :: l, h => by
    rw [List.mapM_cons, h a (by simp), except_mapM_ok fun b hb => h b (by simp [hb])]
    rfl

theorem flatMap_range {α : Type} (f : ℕ → ℕ → α) (Nx : ℕ) : ∀ Ny : ℕ,
    ((List.range Ny).flatMap fun a => (List.range Nx).map fun b => f a b) =
      (List.range (Ny * Nx)).map fun k => f (k / Nx) (k % Nx)
  | 0 => by simp
  | n + 1 => by
    rw [List.range_succ, List.flatMap_append, flatMap_range f Nx n, Nat.succ_mul, List.range_add, List.map_append]
    congr 1
    simp only [List.flatMap_cons, List.flatMap_nil, List.append_nil, List.map_map]
    refine List.map_congr_left fun b hb => ?_
    have hb := List.mem_range.mp hb
    simp only [Function.comp]
    rw [Nat.mul_comm n Nx, Nat.mul_add_div (by omega), Nat.div_eq_of_lt hb, Nat.mul_add_mod, Nat.mod_eq_of_lt hb, add_zero]

theorem mem_imageCells {n0 n1 n2 : ℕ} {o s : Fin 3 → ℝ} {data : List ℝ} (h : data.length = n0 * n1 * n2) :
    ∃ cells, imageCells (n0 + 1, n1 + 1, n2 + 1) o s data = .ok cells ∧ ∀ b, b ∈ cells ↔ ∃ k v, data[k]? = some v ∧
      b = ⟨fun a => o a + ![((k % n0 : ℕ) : ℝ), ((k / n0 % n1 : ℕ) : ℝ), ((k / (n0 * n1) : ℕ) : ℝ)] a * s a, s, v⟩ := by
  unfold imageCells
  simp only [Nat.add_sub_cancel]
  rw [if_pos h]
  refine ⟨_, rfl, fun b => ?_⟩
  rw [List.mem_map]
  constructor
  · rintro ⟨⟨v, k⟩, h1, rfl⟩
    exact ⟨k, v, List.mem_zipIdx_iff_getElem?.mp h1, rfl⟩
  · rintro ⟨k, v, h1, rfl⟩
    exact ⟨(v, k), List.mem_zipIdx_iff_getElem?.mpr h1, rfl⟩

theorem mem_uniqueValues {l : List ℝ} {v : ℝ} : v ∈ uniqueValues l ↔ v ∈ l := by
  unfold uniqueValues
  simp

theorem mem_threshold {l : List PlotCell} {v : ℝ} {b : PlotCell} : b ∈ threshold l v ↔
    b ∈ l ∧ v - 1e-7 * |v| ≤ b.value ∧ b.value ≤ v + 1e-7 * |v| := by
  unfold threshold
  simp

/-- A box contains the point of coordinates `X` before the transformation. -/
def Hit (p : List PlotMesh) (X : Fin 3 → ℝ) (w : ℝ) : Prop :=
  ∃ m ∈ p, ∃ b ∈ m.cells, b.value = w ∧ ∀ a, b.lo a ≤ X a ∧ X a < b.lo a + b.size a

theorem hit_append {p q : List PlotMesh} {X : Fin 3 → ℝ} {w : ℝ} : Hit (p ++ q) X w ↔ Hit p X w ∨ Hit q X w := by
  unfold Hit
  simp only [List.mem_append, or_and_right, exists_or]

theorem plotMatrix_mulVec (basis : Fin 2 → Fin 2 → ℝ) (X : Fin 3 → ℝ) :
    plotMatrix basis *ᵥ X = latticePoint basis (X 0) (X 1) (X 2) := by
  unfold plotMatrix latticePoint
  ext i
  fin_cases i <;> simp [mulVec, dotProduct, Fin.sum_univ_three, mul_comm]

theorem painted_iff {basis : Fin 2 → Fin 2 → ℝ} (hb : basis 0 0 * basis 1 1 - basis 0 1 * basis 1 0 ≠ 0) {p : List PlotMesh}
    (hm : ∀ m ∈ p, m.matrix = plotMatrix basis) (x y z w : ℝ) :
    Painted p (latticePoint basis x y z) w ↔ Hit p ![x, y, z] w := by
  constructor
  · rintro ⟨m, h1, b, h2, h3, X, h4, h5⟩
    rw [hm m h1, plotMatrix_mulVec] at h5
    have e0 := congrFun h5 0
    have e1 := congrFun h5 1
    have e2 := congrFun h5 2
    simp only [latticePoint, cons_val_zero, cons_val_one, cons_val] at e0 e1 e2
    have hx : x = X 0 := by
      apply mul_left_cancel₀ hb
      linear_combination basis 1 1 * e0 - basis 1 0 * e1
    have hy : y = X 1 := by
      apply mul_left_cancel₀ hb
      linear_combination basis 0 0 * e1 - basis 0 1 * e0
    have : ![x, y, z] = X := by
      rw [hx, hy, e2]
      ext i
      fin_cases i <;> rfl
    exact ⟨m, h1, b, h2, h3, by rw [this]; exact h4⟩
  · rintro ⟨m, h1, b, h2, h3, h4⟩
    refine ⟨m, h1, b, h2, h3, _, h4, ?_⟩
    rw [hm m h1, plotMatrix_mulVec]
    rfl

theorem fract_of_mem {x : ℝ} {j : ℕ} (h0 : (j : ℝ) ≤ x) (h1 : x < j + 1) : Int.fract x = x - j := by
  rw [Int.fract_eq_iff]
  refine ⟨by linarith, by linarith, j, ?_⟩
  push_cast
  ring

theorem pixel_of_mem {x : ℝ} {j i N : ℕ} (hi : i < N) :
    ((j : ℝ) + i * (1 / N) ≤ x ∧ x < (j : ℝ) + i * (1 / N) + 1 / N) ↔
      ((j : ℝ) ≤ x ∧ x < j + 1) ∧ ⌊(N : ℝ) * Int.fract x⌋₊ = i := by
  have hN : (0 : ℝ) < N := by exact_mod_cast (by omega : 0 < N)
  have hi' : (i : ℝ) + 1 ≤ N := by exact_mod_cast hi
  have hi0 : (0 : ℝ) ≤ i := Nat.cast_nonneg i
  have key : ((j : ℝ) + i * (1 / N) ≤ x ∧ x < (j : ℝ) + i * (1 / N) + 1 / N) ↔
      ((i : ℝ) ≤ N * (x - j) ∧ N * (x - j) < i + 1) := by
    have e : (j : ℝ) + i * (1 / N) = j + i / N := by ring
    rw [e]
    constructor
    · rintro ⟨h1, h2⟩
      have h1' : (i : ℝ) / N ≤ x - j := by linarith
      have h2' : x - j < (i + 1) / N := by rw [add_div]; linarith
      rw [div_le_iff₀ hN] at h1'
      rw [lt_div_iff₀ hN] at h2'
      exact ⟨by linarith, by linarith⟩
    · rintro ⟨h1, h2⟩
      have h1' : (i : ℝ) / N ≤ x - j := by rw [div_le_iff₀ hN]; linarith
      have h2' : x - j < (i + 1) / N := by rw [lt_div_iff₀ hN]; linarith
      rw [add_div] at h2'
      exact ⟨by linarith, by linarith⟩
  rw [key]
  constructor
  · rintro ⟨h1, h2⟩
    have hx0 : 0 ≤ x - j := by
      by_contra h
      push Not at h
      have := mul_neg_of_pos_of_neg hN h
      linarith
    have hx1 : x - j < 1 := by
      by_contra h
      push Not at h
      have := mul_le_mul_of_nonneg_left h hN.le
      linarith
    refine ⟨⟨by linarith, by linarith⟩, ?_⟩
    rw [fract_of_mem (by linarith) (by linarith), Nat.floor_eq_iff (by positivity)]
    exact ⟨h1, h2⟩
  · rintro ⟨⟨h1, h2⟩, h3⟩
    rw [fract_of_mem h1 h2, Nat.floor_eq_iff (mul_nonneg hN.le (by linarith))] at h3
    exact h3

/-- A layer in one period. -/
theorem plotOne_spec (basis : Fin 2 → Fin 2 → ℝ) (jx jy il : ℕ) {L : LayerSpec} (hL : Drawable L)
    (hsq : ∀ Nx Ny, L.isUniform = false → L.epsilon.shape = [Nx, Ny] → Nx = Ny) (z t : ℝ) :
    ∃ ms, plotOne basis jx jy il L z t = .ok ms ∧ (∀ m ∈ ms, m.matrix = plotMatrix basis) ∧ ∀ X : Fin 3 → ℝ,
      (∀ w, Hit ms X w → ((jx : ℝ) ≤ X 0 ∧ X 0 < jx + 1) ∧ ((jy : ℝ) ≤ X 1 ∧ X 1 < jy + 1) ∧ (z ≤ X 2 ∧ X 2 < z + t) ∧
        w = permittivityAt L (X 0) (X 1)) ∧
      (((jx : ℝ) ≤ X 0 ∧ X 0 < jx + 1) → ((jy : ℝ) ≤ X 1 ∧ X 1 < jy + 1) → (z ≤ X 2 ∧ X 2 < z + t) →
        permittivityAt L (X 0) (X 1) ≠ 1 → Hit ms X (permittivityAt L (X 0) (X 1))) := by
  obtain ⟨-, ⟨hu, han⟩ | ⟨hu, Nx, Ny, hs, hN, -⟩⟩ := hL
  · have hval : ∀ x y, permittivityAt L x y = L.epsilon.value.re := by
      intro x y
      unfold permittivityAt
      split
      · rename_i Nx Ny hs
        exfalso
        unfold LayerSpec.isUniform isUniform at hu
        unfold LayerSpec.isAnisotropic at han
        rw [han, hs] at hu
        simp at hu
      · rfl
    unfold plotOne
    rw [if_pos hu, if_neg (by simp [han])]
    by_cases h1 : L.epsilon.value.re = 1
    · rw [if_neg (by simp [h1])]
      refine ⟨[], rfl, by simp, fun X => ⟨?_, ?_⟩⟩
      · rintro w ⟨m, hm, -⟩
        simp at hm
      · intro _ _ _ h
        exact absurd (by rw [hval, h1]) h
    · rw [if_pos h1]
      obtain ⟨cells, hc, hmem⟩ := mem_imageCells (n0 := 1) (n1 := 1) (n2 := 1) (o := ![(jx : ℝ), jy, z]) (s := ![1, 1, t])
        (data := [L.epsilon.value.re]) (by simp)
      rw [hc]
      refine ⟨_, rfl, by simp, fun X => ⟨?_, ?_⟩⟩
      · rintro w ⟨m, hm, b, hb, rfl, hX⟩
        obtain rfl := List.mem_singleton.mp hm
        obtain ⟨k, v, hk, rfl⟩ := (hmem b).mp hb
        obtain rfl : k = 0 := by
          rcases k with _ | k
          · rfl
          · simp at hk
        obtain rfl : L.epsilon.value.re = v := by simpa using hk
        have a0 := hX 0
        have a1 := hX 1
        have a2 := hX 2
        simp at a0 a1 a2
        exact ⟨a0, a1, a2, (hval _ _).symm⟩
      · intro h0 h1 h2 _
        refine ⟨_, List.mem_singleton_self _, _, (hmem _).mpr ⟨0, _, rfl, rfl⟩, (hval _ _).symm, fun a => ?_⟩
        fin_cases a
        · simpa using h0
        · simpa using h1
        · simpa using h2
  · obtain rfl := hsq Nx Ny hu hs
    unfold plotOne
    rw [if_neg (by simp [hu]), hs]
    dsimp only
    have hfl := flatMap_range (fun a b => (L.epsilon.data [b, a]).re) Nx Nx
    rw [hfl]
    set vals := (List.range (Nx * Nx)).map fun k => (L.epsilon.data [k % Nx, k / Nx]).re with hvals
    obtain ⟨cells, hc, hmem⟩ := mem_imageCells (n0 := Nx) (n1 := Nx) (n2 := 1) (o := ![(jx : ℝ), jy, z])
      (s := ![1 / Nx, 1 / Nx, t]) (data := vals) (by rw [hvals]; simp)
    rw [hc]
    have hget : ∀ k v, vals[k]? = some v ↔ k < Nx * Nx ∧ v = (L.epsilon.data [k % Nx, k / Nx]).re := by
      intro k v
      rw [hvals, List.getElem?_map, Option.map_eq_some_iff]
      constructor
      · rintro ⟨a, h1, h2⟩
        obtain ⟨h3, h4⟩ := List.getElem?_eq_some_iff.mp h1
        rw [List.getElem_range] at h4
        subst h4
        exact ⟨by simpa using h3, h2.symm⟩
      · rintro ⟨h1, h2⟩
        exact ⟨k, List.getElem?_range h1, h2.symm⟩
    have hval : ∀ x y, permittivityAt L x y = (L.epsilon.data [⌊Nx * Int.fract x⌋₊, ⌊Nx * Int.fract y⌋₊]).re := by
      intro x y
      unfold permittivityAt
      rw [hs]
    refine ⟨_, rfl, ?_, fun X => ⟨?_, ?_⟩⟩
    · intro m hm
      obtain ⟨vk, -, rfl⟩ := List.mem_map.mp hm
      rfl
    · rintro w ⟨m, hm, b, hb, rfl, hX⟩
      obtain ⟨vk, -, rfl⟩ := List.mem_map.mp hm
      obtain ⟨hb, -, -⟩ := mem_threshold.mp hb
      obtain ⟨k, v, hkv, rfl⟩ := (hmem b).mp hb
      obtain ⟨hk, rfl⟩ := (hget k v).mp hkv
      have hk2 : k / Nx < Nx := Nat.div_lt_of_lt_mul hk
      have a0 := hX 0
      have a1 := hX 1
      have a2 := hX 2
      simp only [cons_val_zero, cons_val_one, cons_val, Nat.mod_eq_of_lt hk2, Nat.div_eq_of_lt hk] at a0 a1 a2
      rw [pixel_of_mem (Nat.mod_lt _ hN)] at a0
      rw [pixel_of_mem hk2] at a1
      refine ⟨a0.1, a1.1, by simpa using a2, ?_⟩
      rw [hval, a0.2, a1.2]
    · intro h0 h1 h2 hne
      rw [hval] at hne ⊢
      set i := ⌊(Nx : ℝ) * Int.fract (X 0)⌋₊ with hi
      set j := ⌊(Nx : ℝ) * Int.fract (X 1)⌋₊ with hj
      have hlt : ∀ u : ℝ, 0 < Nx → ⌊(Nx : ℝ) * Int.fract u⌋₊ < Nx := by
        intro u hN
        rw [Nat.floor_lt (mul_nonneg (Nat.cast_nonneg _) (Int.fract_nonneg _))]
        have : (0 : ℝ) < Nx := by exact_mod_cast hN
        have := mul_lt_mul_of_pos_left (Int.fract_lt_one u) this
        linarith
      have hi' : i < Nx := hlt _ hN
      have hj' : j < Nx := hlt _ hN
      have hk : j * Nx + i < Nx * Nx := by nlinarith
      have e1 : (j * Nx + i) % Nx = i := by rw [Nat.mul_comm, Nat.mul_add_mod, Nat.mod_eq_of_lt hi']
      have e2 : (j * Nx + i) / Nx = j := by rw [Nat.mul_comm, Nat.mul_add_div hN, Nat.div_eq_of_lt hi', add_zero]
      have hv : vals[j * Nx + i]? = some (L.epsilon.data [i, j]).re := by
        rw [hget, e1, e2]
        exact ⟨hk, rfl⟩
      have hmv := mem_uniqueValues.mpr (List.mem_of_getElem? hv)
      obtain ⟨n, hn⟩ := List.mem_iff_getElem?.mp hmv
      refine ⟨_, List.mem_map.mpr ⟨((L.epsilon.data [i, j]).re, n), ?_, rfl⟩, _,
        mem_threshold.mpr ⟨(hmem _).mpr ⟨_, _, hv, rfl⟩, ?_, ?_⟩, rfl, fun a => ?_⟩
      · rw [List.mem_filter]
        exact ⟨List.mem_zipIdx_iff_getElem?.mpr hn, by simpa using hne⟩
      · have := abs_nonneg (L.epsilon.data [i, j]).re
        dsimp only
        linarith
      · have := abs_nonneg (L.epsilon.data [i, j]).re
        dsimp only
        linarith
      · fin_cases a
        · have := (pixel_of_mem hi').mpr ⟨h0, hi.symm⟩
          simpa [e1] using this
        · have := (pixel_of_mem hj').mpr ⟨h1, hj.symm⟩
          simpa [e2, Nat.mod_eq_of_lt hj'] using this
        · simpa [Nat.div_eq_of_lt hk] using h2

theorem drawnHeight_zero (nt dz : ℝ) (ls : List LayerSpec) : drawnHeight nt dz ls 0 = 0 := by simp [drawnHeight]

theorem drawnHeight_succ (nt dz : ℝ) (L : LayerSpec) (ls : List LayerSpec) (k : ℕ) :
    drawnHeight nt dz (L :: ls) (k + 1) = drawnThickness nt L + dz + drawnHeight nt dz ls k := by
  simp [drawnHeight]

/-- The layers in one period. -/
theorem plotLayers_spec (basis : Fin 2 → Fin 2 → ℝ) (jx jy : ℕ) (nt dz : ℝ) : ∀ (ls : List LayerSpec)
    (_ : ∀ L ∈ ls, Drawable L ∧ ∀ Nx Ny, L.isUniform = false → L.epsilon.shape = [Nx, Ny] → Nx = Ny) (il : ℕ) (z : ℝ),
    ∃ ms, plotLayers basis jx jy nt dz (ls.zip (ls.map fun L => L.thickness.getD 0)) il z = .ok ms ∧
      (∀ m ∈ ms, m.matrix = plotMatrix basis) ∧ ∀ X : Fin 3 → ℝ,
      (∀ w, Hit ms X w → ((jx : ℝ) ≤ X 0 ∧ X 0 < jx + 1) ∧ ((jy : ℝ) ≤ X 1 ∧ X 1 < jy + 1) ∧ ∃ k L, ls[k]? = some L ∧
        (z + drawnHeight nt dz ls k ≤ X 2 ∧ X 2 < z + drawnHeight nt dz ls k + drawnThickness nt L) ∧
        w = permittivityAt L (X 0) (X 1)) ∧
      (((jx : ℝ) ≤ X 0 ∧ X 0 < jx + 1) → ((jy : ℝ) ≤ X 1 ∧ X 1 < jy + 1) → ∀ k L, ls[k]? = some L →
        (z + drawnHeight nt dz ls k ≤ X 2 ∧ X 2 < z + drawnHeight nt dz ls k + drawnThickness nt L) →
        permittivityAt L (X 0) (X 1) ≠ 1 → Hit ms X (permittivityAt L (X 0) (X 1)))
  | [], _, il, z => by
    refine ⟨[], by unfold plotLayers; rfl, by simp, fun X => ⟨?_, ?_⟩⟩
    · rintro w ⟨m, hm, -⟩
      simp at hm
    · intro _ _ k L hk
      simp at hk
  | L :: ls, h, il, z => by
    obtain ⟨hL, hsq⟩ := h L (by simp)
    obtain ⟨ms, m1, m2, m3⟩ := plotOne_spec basis jx jy il hL hsq z (drawnThickness nt L)
    obtain ⟨ns, n1, n2, n3⟩ := plotLayers_spec basis jx jy nt dz ls (fun L hL => h L (by simp [hL])) (il + 1)
      (z + drawnThickness nt L + dz)
    refine ⟨ms ++ ns, ?_, ?_, fun X => ⟨?_, ?_⟩⟩
    · rw [List.map_cons, List.zip_cons_cons]
      unfold plotLayers
      unfold drawnThickness at m1 n1
      dsimp only
      rw [m1]
      dsimp only [bind, Except.bind]
      rw [n1]
      rfl
    · intro m hm
      rcases List.mem_append.mp hm with hm | hm
      · exact m2 m hm
      · exact n2 m hm
    · intro w hw
      rcases hit_append.mp hw with hw | hw
      · obtain ⟨h1, h2, h3, h4⟩ := (m3 X).1 w hw
        refine ⟨h1, h2, 0, L, rfl, ?_, h4⟩
        rw [drawnHeight_zero]
        simpa using h3
      · obtain ⟨h1, h2, k, L', h3, h4, h5⟩ := (n3 X).1 w hw
        refine ⟨h1, h2, k + 1, L', h3, ?_, h5⟩
        rw [drawnHeight_succ]
        exact ⟨by linarith [h4.1], by linarith [h4.2]⟩
    · intro h1 h2 k L' hk h3 h4
      rw [hit_append]
      rcases k with _ | k
      · obtain rfl : L = L' := by simpa using hk
        rw [drawnHeight_zero] at h3
        exact .inl ((m3 X).2 h1 h2 (by simpa using h3) h4)
      · rw [drawnHeight_succ] at h3
        exact .inr ((n3 X).2 h1 h2 k L' (by simpa using hk) ⟨by linarith [h3.1], by linarith [h3.2]⟩ h4)

theorem drawnThickness_nonneg {nt : ℝ} (hnt : 0 ≤ nt) {L : LayerSpec} (hL : Drawable L) : 0 ≤ drawnThickness nt L := by
  obtain ⟨⟨t, ht, h0⟩, -⟩ := hL
  unfold drawnThickness
  split
  · exact hnt
  · rw [ht]; exact h0

/-- Layers are drawn one above the other. -/
theorem drawnHeight_mono {nt dz : ℝ} (hnt : 0 ≤ nt) (hdz : 0 ≤ dz) : ∀ {ls : List LayerSpec} (_ : ∀ L ∈ ls, Drawable L)
    {k k' : ℕ} {L : LayerSpec}, ls[k]? = some L → k < k' → k' ≤ ls.length →
      drawnHeight nt dz ls k + drawnThickness nt L ≤ drawnHeight nt dz ls k'
  | [], _, k, k', L, h, _, _ => by simp at h
  | L0 :: ls, hd, k, k' + 1, L, h, hk, hl => by
    rw [drawnHeight_succ]
    have hd' : ∀ L ∈ ls, Drawable L := fun L hL => hd L (by simp [hL])
    rcases k with _ | k
    · obtain rfl : L0 = L := by simpa using h
      rw [drawnHeight_zero]
      have : 0 ≤ drawnHeight nt dz ls k' := by
        unfold drawnHeight
        refine List.sum_nonneg fun x hx => ?_
        obtain ⟨L, hL, rfl⟩ := List.mem_map.mp hx
        have := drawnThickness_nonneg hnt (hd' L (List.mem_of_mem_take hL))
        linarith
      linarith
    · rw [drawnHeight_succ]
      have := drawnHeight_mono hnt hdz hd' (k := k) (k' := k') (L := L) (by simpa using h) (by omega) (by simpa using hl)
      linarith

theorem hit_flatten {ps : List (List PlotMesh)} {X : Fin 3 → ℝ} {w : ℝ} : Hit ps.flatten X w ↔ ∃ p ∈ ps, Hit p X w := by
  unfold Hit
  constructor
  · rintro ⟨m, hm, h⟩
    obtain ⟨p, hp, hmp⟩ := List.mem_flatten.mp hm
    exact ⟨p, hp, m, hmp, h⟩
  · rintro ⟨p, hp, m, hmp, h⟩
    exact ⟨m, List.mem_flatten.mpr ⟨p, hp, hmp⟩, h⟩

theorem plotStructure_spec {basis : Fin 2 → Fin 2 → ℝ} (hb : basis 0 0 * basis 1 1 - basis 0 1 * basis 1 0 ≠ 0)
    {ls : List LayerSpec} (hne : ls ≠ [])
    (hd : ∀ L ∈ ls, Drawable L ∧ ∀ Nx Ny, L.isUniform = false → L.epsilon.shape = [Nx, Ny] → Nx = Ny) (nper : ℕ × ℕ) {dz : ℝ}
    (hdz : 0 ≤ dz) (o : Option ℝ) (ho : ∀ t, o = some t → 0 ≤ t) :
    ∃ p nt, plotStructure basis ls nper dz o = .ok p ∧ nt = nullThick o (ls.map fun L => L.thickness.getD 0) ∧
      ∀ k L, ls[k]? = some L → ∀ x y h : ℝ, 0 ≤ x → x < nper.1 → 0 ≤ y → y < nper.2 → 0 ≤ h → h < drawnThickness nt L →
        (∀ w, Painted p (latticePoint basis x y (drawnHeight nt dz ls k + h)) w → w = permittivityAt L x y) ∧
        (permittivityAt L x y ≠ 1 →
          Painted p (latticePoint basis x y (drawnHeight nt dz ls k + h)) (permittivityAt L x y)) := by
  have hts : ls.mapM thicknessValue =
      .ok (ls.map fun L => L.thickness.getD 0) := by
    refine except_mapM_ok fun L hL => ?_
    obtain ⟨⟨t, ht, -⟩, -⟩ := (hd L hL).1
    unfold thicknessValue
    rw [ht]; rfl
  set ts := ls.map fun L => L.thickness.getD 0 with htsdef
  have hmax : ∃ m, ts.max? = some m ∧ 0 ≤ m := by
    rcases hm : ts.max? with _ | m
    · rw [List.max?_eq_none_iff] at hm
      rw [htsdef] at hm
      simp at hm
      exact absurd hm hne
    · refine ⟨m, rfl, ?_⟩
      have := List.max?_mem hm
      obtain ⟨L, hL, rfl⟩ := List.mem_map.mp this
      obtain ⟨⟨t, ht, h0⟩, -⟩ := (hd L hL).1
      rw [ht]; exact h0
  obtain ⟨m, hm, hm0⟩ := hmax
  have hnt : 0 ≤ nullThick o ts := by
    unfold nullThick
    rw [hm]
    split
    · split
      · exact ho _ rfl
      · exact hm0
    · exact hm0
  have hall : ∀ j : ℕ × ℕ, ∃ ms, plotLayers basis j.1 j.2 (nullThick o ts) dz (ls.zip ts) 0 0 = .ok ms ∧ _ :=
    fun j => plotLayers_spec basis j.1 j.2 (nullThick o ts) dz ls hd 0 0
  choose ms h1 h2 using hall
  refine ⟨(((List.range nper.1).flatMap fun jx => (List.range nper.2).map fun jy => (jx, jy)).map ms).flatten,
    nullThick o ts, ?_, rfl, ?_⟩
  · unfold plotStructure
    rw [hts]
    dsimp only [bind, Except.bind]
    have hsel : chooseNull o ts = .ok (nullThick o ts) := by
      unfold chooseNull nullThick
      rw [hm]
      rcases o with _ | t
      · rfl
      · dsimp only
        split <;> rfl
    rw [hsel]
    dsimp only
    rw [except_mapM_ok (g := ms) fun j _ => h1 j]
    rfl
  · intro k L hk x y h hx0 hx1 hy0 hy1 hh0 hh1
    have hfl : ∀ j ∈ ((List.range nper.1).flatMap fun jx => (List.range nper.2).map fun jy => (jx, jy)).map ms,
      ∀ m ∈ j, m.matrix = plotMatrix basis := by
      intro p hp m hm
      obtain ⟨j, -, rfl⟩ := List.mem_map.mp hp
      exact (h2 j).1 m hm
    have hmat : ∀ m ∈ (((List.range nper.1).flatMap fun jx => (List.range nper.2).map fun jy => (jx, jy)).map ms).flatten,
        m.matrix = plotMatrix basis := by
      intro m hm
      obtain ⟨p, hp, hmp⟩ := List.mem_flatten.mp hm
      exact hfl p hp m hmp
    simp only [painted_iff hb hmat, hit_flatten]
    constructor
    · rintro w ⟨p, hp, hw⟩
      obtain ⟨j, -, rfl⟩ := List.mem_map.mp hp
      obtain ⟨-, -, k', L', hk', ⟨a1, a2⟩, hw'⟩ := ((h2 j).2 _).1 w hw
      simp only [cons_val_zero, cons_val_one, cons_val, zero_add] at a1 a2 hw'
      have hkk : k' = k := by
        have hlt : k < ls.length := (List.getElem?_eq_some_iff.mp hk).1
        have hlt' : k' < ls.length := (List.getElem?_eq_some_iff.mp hk').1
        rcases lt_trichotomy k k' with hl | hl | hl
        · have := drawnHeight_mono hnt hdz (fun L hL => (hd L hL).1) hk hl hlt'.le
          linarith
        · exact hl.symm
        · have := drawnHeight_mono hnt hdz (fun L hL => (hd L hL).1) hk' hl hlt.le
          linarith
      subst hkk
      obtain rfl := Option.some.inj (hk.symm.trans hk')
      exact hw'
    · intro hne1
      refine ⟨ms (⌊x⌋₊, ⌊y⌋₊), List.mem_map.mpr ⟨_, ?_, rfl⟩, ?_⟩
      · rw [List.mem_flatMap]
        refine ⟨⌊x⌋₊, List.mem_range.mpr ((Nat.floor_lt hx0).mpr hx1), List.mem_map.mpr ⟨⌊y⌋₊, ?_, rfl⟩⟩
        exact List.mem_range.mpr ((Nat.floor_lt hy0).mpr hy1)
      · refine ((h2 (⌊x⌋₊, ⌊y⌋₊)).2 ![x, y, drawnHeight (nullThick o ts) dz ls k + h]).2 ⟨Nat.floor_le hx0, Nat.lt_floor_add_one x⟩
          ⟨Nat.floor_le hy0, Nat.lt_floor_add_one y⟩ k L hk ?_ hne1
        simp only [cons_val, zero_add]
        exact ⟨by linarith, by linarith⟩

end Nannos
