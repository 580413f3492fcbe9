import Verif.Proofs.Plot
import Mathlib.Tactic.NormNum

/-! **C91**, **C92**: pictures. -/

namespace Nannos

open Matrix Spec

/-! ### C91: the picture of a structure -/

/-- **C91** (partial: square arrays). The picture of a stack of homogeneous isotropic layers, and of patterns with as many
pixels along both axes, exists, and shows the structure: `nper` periods along the basis vectors, the layers in order from
height zero with gaps `dz`, each one with its thickness (or `null_thickness`, or the largest one, if it is empty), and at each
point of a layer a box with the real part of the permittivity of the pixel there. Where it is one, nothing needs to be
drawn. Missing: rectangular arrays, for which the claim is false (see below). -/
theorem C91_structure_picture_partial (basis : Fin 2 → Fin 2 → ℝ) (hb : basis 0 0 * basis 1 1 - basis 0 1 * basis 1 0 ≠ 0)
    (layers : List LayerSpec) (hne : layers ≠ []) (hd : ∀ L ∈ layers, Drawable L)
    (hsq : ∀ L ∈ layers, ∀ Nx Ny, L.isUniform = false → L.epsilon.shape = [Nx, Ny] → Nx = Ny)
    (nper : ℕ × ℕ) (dz : ℝ) (hdz : 0 ≤ dz) (o : Option ℝ) (ho : ∀ t, o = some t → 0 ≤ t) :
    ∃ p nt, plotStructure basis layers nper dz o = .ok p ∧ nt = nullThick o (layers.map fun L => L.thickness.getD 0) ∧
      ∀ k L, layers[k]? = some L → ∀ x y h : ℝ, 0 ≤ x → x < nper.1 → 0 ≤ y → y < nper.2 → 0 ≤ h → h < drawnThickness nt L →
        (∀ w, Painted p (latticePoint basis x y (drawnHeight nt dz layers k + h)) w → w = permittivityAt L x y) ∧
        (permittivityAt L x y ≠ 1 →
          Painted p (latticePoint basis x y (drawnHeight nt dz layers k + h)) (permittivityAt L x y)) :=
  plotStructure_spec hb hne (fun L hL => ⟨hd L hL, hsq L hL⟩) nper hdz o ho

/-- C91 fails for rectangular arrays: if there are more pixels along the first axis than along the second, as in every
grating, the boxes are laid on a grid with the numbers of pixels exchanged but their sizes not. Beyond the fraction
`Ny / Nx` of the period along the first axis nothing is drawn, whatever the permittivity is. -/
theorem C91_rectangular_pattern_cut (basis : Fin 2 → Fin 2 → ℝ)
    (hb : basis 0 0 * basis 1 1 - basis 0 1 * basis 1 0 ≠ 0) (L : LayerSpec) (t : ℝ) (ht : L.thickness = some t) (h0 : 0 < t)
    (hu : L.isUniform = false) (Nx Ny : ℕ) (hs : L.epsilon.shape = [Nx, Ny]) (hy : 0 < Ny) (hlt : Ny < Nx) (dz : ℝ) :
    ∃ p, plotStructure basis [L] (1, 1) dz none = .ok p ∧
      ∀ x y z w : ℝ, (Ny : ℝ) / Nx ≤ x → ¬ Painted p (latticePoint basis x y z) w := by
  have hx : (0 : ℝ) < Nx := by exact_mod_cast (by omega : 0 < Nx)
  have hfl := flatMap_range (fun a b => (L.epsilon.data [b, a]).re) Nx Ny
  obtain ⟨cells, hc, hmem⟩ := mem_imageCells (n0 := Ny) (n1 := Nx) (n2 := 1) (o := ![((0 : ℕ) : ℝ), ((0 : ℕ) : ℝ), 0])
    (s := ![1 / Nx, 1 / Ny, t]) (data := (List.range (Ny * Nx)).map fun k => (L.epsilon.data [k % Nx, k / Nx]).re) (by simp)
  have hone : ∃ ms, plotOne basis 0 0 0 L 0 t = .ok ms ∧ ∀ m ∈ ms, m.matrix = plotMatrix basis ∧ ∀ b ∈ m.cells, b ∈ cells := by
    unfold plotOne
    rw [if_neg (by simp [hu]), hs]
    dsimp only
    rw [hfl, hc]
    refine ⟨_, rfl, fun m hm => ?_⟩
    obtain ⟨vk, -, rfl⟩ := List.mem_map.mp hm
    exact ⟨rfl, fun b hb => (mem_threshold.mp hb).1⟩
  obtain ⟨ms, m1, m2⟩ := hone
  refine ⟨ms, ?_, ?_⟩
  · unfold plotStructure
    have e1 : [L].mapM thicknessValue = .ok [t] := by
      rw [except_mapM_ok (g := fun _ => t) fun L' hL => by
        obtain rfl := List.mem_singleton.mp hL
        unfold thicknessValue; rw [ht]]
      rfl
    have e2 : plotLayers basis 0 0 t dz ([L].zip [t]) 0 0 = .ok ms := by
      simp only [List.zip_cons_cons, List.zip_nil_left]
      unfold plotLayers
      dsimp only
      rw [if_neg h0.ne', m1]
      simp only [bind, Except.bind]
      unfold plotLayers
      simp [pure, Except.pure]
    rw [e1]
    simp only [bind, Except.bind]
    rw [show chooseNull none [t] = .ok t from rfl]
    dsimp only
    rw [except_mapM_ok (g := fun _ => ms) fun j hj => by
      have : j = (0, 0) := by simpa using hj
      rw [this]; exact e2]
    simp [pure, Except.pure]
  · intro x y z w hxx hp
    rw [painted_iff hb (fun m hm => (m2 m hm).1)] at hp
    obtain ⟨m, hm, b, hb', -, hX⟩ := hp
    obtain ⟨k, v, -, rfl⟩ := (hmem b).mp ((m2 m hm).2 b hb')
    have h1 := (hX 0).2
    simp only [cons_val_zero] at h1
    have h2 : ((k % Ny : ℕ) : ℝ) + 1 ≤ Ny := by exact_mod_cast Nat.mod_lt k hy
    have h3 : ((k % Ny : ℕ) : ℝ) * (1 / Nx) + 1 / Nx ≤ Ny / Nx := by
      rw [show ((k % Ny : ℕ) : ℝ) * (1 / Nx) + 1 / Nx = (((k % Ny : ℕ) : ℝ) + 1) / Nx by ring]
      exact (div_le_div_iff_of_pos_right hx).mpr h2
    simp only [Nat.cast_zero, zero_add] at h1
    linarith

namespace Examples

/-- A layer with an array of permittivities, and a homogeneous one. -/
noncomputable def plotMats (shape : List ℕ) : LayerSpec :=
  { name := "Pattern", thickness := some 1, epsilon := ⟨shape, fun idx => if idx = [1, 0] then 3 else 2⟩, mu := 1, lattice := 0,
    tangentField := none, tangentFieldType := "fft", iscopy := false, original := 0 }

/-- C91: a pattern of two by two pixels on a homogeneous layer; the corner `x > 1 / 2`, `y < 1 / 2` is drawn with its
permittivity, three. -/
example : ∃ p nt, plotStructure ![![1, 0], ![1 / 2, 1]] [plotMats [2, 2], plotMats []] (2, 1) 0 none = .ok p ∧
    nt = (1 : ℝ) ∧ Painted p (latticePoint ![![1, 0], ![1 / 2, 1]] (7 / 4) (1 / 4) (0 + 1 / 2)) 3 := by
  obtain ⟨p, nt, h1, h2, h3⟩ := C91_structure_picture_partial ![![1, 0], ![1 / 2, 1]] (by norm_num) [plotMats [2, 2], plotMats []]
    (by simp) (by
      intro L hL
      rcases List.mem_cons.mp hL with rfl | hL
      · exact ⟨⟨1, rfl, by norm_num⟩, .inr ⟨by simp [plotMats, LayerSpec.isUniform, isUniform, isAnisotropic], 2, 2, rfl,
          by norm_num, by norm_num⟩⟩
      · obtain rfl := List.mem_singleton.mp hL
        exact ⟨⟨1, rfl, by norm_num⟩, .inl ⟨by simp [plotMats, LayerSpec.isUniform, isUniform, isAnisotropic],
          by simp [plotMats, LayerSpec.isAnisotropic, isAnisotropic]⟩⟩) (by
      intro L hL Nx Ny hu hs
      rcases List.mem_cons.mp hL with rfl | hL
      · simp [plotMats] at hs; omega
      · obtain rfl := List.mem_singleton.mp hL
        simp [plotMats] at hs) (2, 1) 0 le_rfl none (by simp)
  have hnt : nt = 1 := by
    rw [h2]; simp [plotMats, nullThick]
  refine ⟨p, nt, h1, hnt, ?_⟩
  subst hnt
  have hperm : permittivityAt (plotMats [2, 2]) (7 / 4) (1 / 4) = 3 := by
    have e1 : Int.fract (7 / 4 : ℝ) = 3 / 4 := by
      rw [Int.fract_eq_iff]; exact ⟨by norm_num, by norm_num, 1, by norm_num⟩
    have e2 : Int.fract (1 / 4 : ℝ) = 1 / 4 := by
      rw [Int.fract_eq_iff]; exact ⟨by norm_num, by norm_num, 0, by norm_num⟩
    have f1 : ⌊(2 : ℝ) * (3 / 4)⌋₊ = 1 := by rw [Nat.floor_eq_iff (by norm_num)]; norm_num
    have f2 : ⌊(2 : ℝ) * (1 / 4)⌋₊ = 0 := by rw [Nat.floor_eq_iff (by norm_num)]; norm_num
    unfold permittivityAt
    simp only [plotMats]
    rw [e1, e2]
    norm_num at f1 f2 ⊢
    simp [f1, f2]
  have := (h3 0 (plotMats [2, 2]) rfl (7 / 4) (1 / 4) (1 / 2) (by norm_num) (by norm_num) (by norm_num) (by norm_num)
    (by norm_num) (by unfold drawnThickness; simp [plotMats]; norm_num)).2 (by rw [hperm]; norm_num)
  rw [drawnHeight_zero, hperm] at this
  exact this

/-- The counterexample applies to a grating of two pixels, of permittivities two and three: the half of permittivity three
is not drawn. -/
example : permittivityAt (plotMats [2, 1]) (3 / 4) (1 / 2) = 3 ∧ ∃ p, plotStructure ![![1, 0], ![0, 1]] [plotMats [2, 1]] (1, 1) 0 none = .ok p ∧
    ∀ w, ¬ Painted p (latticePoint ![![1, 0], ![0, 1]] (3 / 4) (1 / 2) (1 / 2)) w := by
  constructor
  · have e1 : Int.fract (3 / 4 : ℝ) = 3 / 4 := by
      rw [Int.fract_eq_iff]; exact ⟨by norm_num, by norm_num, 0, by norm_num⟩
    have e2 : Int.fract (1 / 2 : ℝ) = 1 / 2 := by
      rw [Int.fract_eq_iff]; exact ⟨by norm_num, by norm_num, 0, by norm_num⟩
    have f1 : ⌊(2 : ℝ) * (3 / 4)⌋₊ = 1 := by rw [Nat.floor_eq_iff (by norm_num)]; norm_num
    have f2 : ⌊(1 : ℝ) * (1 / 2)⌋₊ = 0 := by rw [Nat.floor_eq_iff (by norm_num)]; norm_num
    unfold permittivityAt
    simp only [plotMats]
    rw [e1, e2]
    norm_num at f1 f2 ⊢
    simp [f1, f2]
  · obtain ⟨p, h1, h2⟩ := C91_rectangular_pattern_cut ![![1, 0], ![0, 1]] (by norm_num) (plotMats [2, 1]) 1 rfl one_pos
      (by simp [plotMats, LayerSpec.isUniform, isUniform, isAnisotropic]) 2 1 rfl (by norm_num) (by norm_num) 0
    exact ⟨p, h1, fun w => h2 _ _ _ w (by norm_num)⟩

end Examples

/-! ### C92: the picture of a layer -/

/-- **C92** (partial: basis vectors with components which are not negative). `Layer.plot` draws one copy of the unit cell for
each period, displaced by the vectors of the lattice, and the axes contain all of them, with a margin. An argument `nper`
which is neither an integer nor a pair is rejected. Missing: lattices with a negative component, see below. -/
theorem C92_layer_picture_partial (basis : Fin 2 → Fin 2 → ℝ) (nx ny : ℕ) :
    (∀ p, plotLayer basis .other ≠ .ok p) ∧ plotLayer basis (.int nx) = plotLayer basis (.pair nx nx) ∧
    ∃ p, plotLayer basis (.pair nx ny) = .ok p ∧ p.offsets.length = nx * ny ∧
      (∀ v, v ∈ p.offsets ↔ ∃ i j : ℕ, i < nx ∧ j < ny ∧
        v = (i * basis 0 0 + j * basis 1 0, i * basis 0 1 + j * basis 1 1)) ∧
      ((∀ k a, 0 ≤ basis k a) → ∀ v ∈ p.offsets, ∀ x y : ℝ, 0 ≤ x → x ≤ 1 → 0 ≤ y → y ≤ 1 →
        (p.xlim.1 ≤ v.1 + (x * basis 0 0 + y * basis 1 0) ∧ v.1 + (x * basis 0 0 + y * basis 1 0) ≤ p.xlim.2) ∧
        (p.ylim.1 ≤ v.2 + (x * basis 0 1 + y * basis 1 1) ∧ v.2 + (x * basis 0 1 + y * basis 1 1) ≤ p.ylim.2)) := by
  refine ⟨(fun p h => nomatch h), rfl, _, rfl, ?_, ?_, ?_⟩
  · simp
  · intro v
    simp only [List.mem_flatMap, List.mem_map, List.mem_range]
    constructor
    · rintro ⟨i, hi, j, hj, rfl⟩; exact ⟨i, j, hi, hj, rfl⟩
    · rintro ⟨i, j, hi, hj, rfl⟩; exact ⟨i, hi, j, hj, rfl⟩
  · intro h v hv x y hx0 hx1 hy0 hy1
    simp only [List.mem_flatMap, List.mem_map, List.mem_range] at hv
    obtain ⟨i, hi, j, hj, rfl⟩ := hv
    dsimp only
    have hi' : (i : ℝ) + x ≤ nx := by
      have : (i : ℝ) + 1 ≤ nx := by exact_mod_cast hi
      linarith
    have hj' : (j : ℝ) + y ≤ ny := by
      have : (j : ℝ) + 1 ≤ ny := by exact_mod_cast hj
      linarith
    have hd : 0 ≤ 0.1 * max (Real.sqrt (basis 0 0 ^ 2 + basis 0 1 ^ 2)) (Real.sqrt (basis 1 0 ^ 2 + basis 1 1 ^ 2)) :=
      mul_nonneg (by norm_num) (le_max_of_le_left (Real.sqrt_nonneg _))
    have hi0 : (0 : ℝ) ≤ i := Nat.cast_nonneg i
    have hj0 : (0 : ℝ) ≤ j := Nat.cast_nonneg j
    have key : ∀ a, 0 ≤ (i : ℝ) * basis 0 a + j * basis 1 a + (x * basis 0 a + y * basis 1 a) ∧
        (i : ℝ) * basis 0 a + j * basis 1 a + (x * basis 0 a + y * basis 1 a) ≤ nx * basis 0 a + ny * basis 1 a := by
      intro a
      have b0 := h 0 a
      have b1 := h 1 a
      have u0 := mul_nonneg (add_nonneg hi0 hx0) b0
      have u1 := mul_nonneg (add_nonneg hj0 hy0) b1
      have u2 := mul_le_mul_of_nonneg_right hi' b0
      have u3 := mul_le_mul_of_nonneg_right hj' b1
      constructor <;> nlinarith
    have k0 := key 0
    have k1 := key 1
    exact ⟨⟨by linarith [k0.1], by linarith [k0.2]⟩, ⟨by linarith [k1.1], by linarith [k1.2]⟩⟩

/-- C92 fails for a lattice with a negative component, such as a hexagonal one given by vectors at 120 degrees: part of the
unit cell lies to the left of the axes. -/
theorem C92_cell_outside_axes (b : ℝ) (h0 : 0 < b) (h1 : b ≤ 1) :
    ∃ p, plotLayer ![![1, 0], ![-1 / 2, b]] (.int 1) = .ok p ∧ (0, 0) ∈ p.offsets ∧
      (0 : ℝ) + (0 * 1 + 1 * (-1 / 2)) < p.xlim.1 := by
  refine ⟨_, rfl, by simp, ?_⟩
  have h2 : Real.sqrt ((-1 / 2) ^ 2 + b ^ 2) ≤ 2 := by
    rw [Real.sqrt_le_left (by norm_num)]
    nlinarith
  have h3 : max (Real.sqrt ((1 : ℝ) ^ 2 + 0 ^ 2)) (Real.sqrt ((-1 / 2) ^ 2 + b ^ 2)) ≤ 2 := by
    refine max_le ?_ h2
    norm_num
  simp only [cons_val_zero, cons_val_one]
  linarith

/-- **C92**: the outline of the unit cell is the parallelogram of the basis vectors: its sides are the segments between the
points of lattice coordinates zero or one which differ by one coordinate. -/
theorem C92_unit_cell_outline (bv : Fin 2 → Fin 2 → ℝ) (s : (ℝ × ℝ) × (ℝ × ℝ)) :
    s ∈ plotUnitCell bv ↔ ∃ x y x' y' : ℝ, ((x = 0 ∧ x' = 1 ∧ y = y' ∧ (y = 0 ∨ y = 1)) ∨
        (y = 0 ∧ y' = 1 ∧ x = x' ∧ (x = 0 ∨ x = 1))) ∧
      s = ((x * bv 0 0 + y * bv 1 0, x * bv 0 1 + y * bv 1 1), (x' * bv 0 0 + y' * bv 1 0, x' * bv 0 1 + y' * bv 1 1)) := by
  unfold plotUnitCell
  simp only [List.mem_cons, List.not_mem_nil, or_false]
  constructor
  · rintro (rfl | rfl | rfl | rfl)
    · exact ⟨0, 0, 1, 0, .inl ⟨rfl, rfl, rfl, .inl rfl⟩, by simp⟩
    · exact ⟨1, 0, 1, 1, .inr ⟨rfl, rfl, rfl, .inr rfl⟩, by simp⟩
    · exact ⟨0, 0, 0, 1, .inr ⟨rfl, rfl, rfl, .inl rfl⟩, by simp⟩
    · exact ⟨0, 1, 1, 1, .inl ⟨rfl, rfl, rfl, .inr rfl⟩, by simp⟩
  · rintro ⟨x, y, x', y', ⟨rfl, rfl, rfl, rfl | rfl⟩ | ⟨rfl, rfl, rfl, rfl | rfl⟩, rfl⟩ <;> simp

/-- The hypotheses of C92 are met by the square lattice, two periods by one. -/
example : ∃ p, plotLayer ![![1, 0], ![0, 1]] (.pair 2 1) = .ok p ∧ ((1 : ℝ), (0 : ℝ)) ∈ p.offsets ∧ p.xlim.2 = 2.1 := by
  obtain ⟨-, -, p, h1, -, h3, -⟩ := C92_layer_picture_partial ![![1, 0], ![0, 1]] 2 1
  refine ⟨p, h1, (h3 _).mpr ⟨1, 0, by norm_num, by norm_num, by simp⟩, ?_⟩
  obtain rfl := Except.ok.inj h1
  norm_num

end Nannos
