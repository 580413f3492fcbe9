import Verif.Proofs.GeneratorsMoved
import Verif.Props.Symmetry2
import Verif.Props.Generators

/-! C70 and C64: displaced patterns with generated tangent vectors. -/

namespace Nannos

open Spec

variable {Nx Ny : ℕ}

/-- **C70**, displacement, partial. For two patterns which differ by a displacement by whole pixels and do not reach the
border of the cell, the generator `'fft'` returns vectors which differ by the same displacement.  False for patterns which
reach the border, where the code takes one-sided differences: `C70_displacement_fails_at_border`. -/
theorem C70_displacement_partial (hx : 0 < Nx) (hy : 0 < Ny) {a a' : Grid Nx Ny} (hc : ClearOfBorder a)
    (hc' : ClearOfBorder a') {u v : ℝ} (h : GridMoved 1 1 u v ⟨Nx, Ny, a⟩ ⟨Nx, Ny, a'⟩) (normalize : Bool) :
    ∃ t t', tangentFft ⟨Nx, Ny, a⟩ normalize = .ok t ∧ tangentFft ⟨Nx, Ny, a'⟩ normalize = .ok t' ∧
      VectorsMoved 1 1 u v t t' := by
  obtain ⟨Mx, My, b, b', sx, sy, e, e', hs, hb⟩ := h
  cases e
  cases e'
  obtain ⟨t0, t1, t0', t1', q1, q2, q3⟩ := tangentFft_moved hx hy hc hc' (sx := sx) (sy := sy)
    (fun x y x' y' ex ey => hb x y x' y' (by simpa using ex) (by simpa using ey)) normalize
  refine ⟨_, _, q1, q2, Nx, Ny, t0, t1, t0', t1', sx, sy, rfl, rfl, hs, fun x y x' y' ex ey => ?_⟩
  obtain ⟨k1, k2⟩ := q3 x y x' y' (by simpa using ex) (by simpa using ey)
  rw [k1, k2]
  simp

/-- Layers which ask for tangent vectors ask the generator `'fft'`, and their patterns do not reach the border. -/
def Spec.AskFftInside (mats : ℕ → LayerSpec) (stack : List ℕ) : Prop :=
  ∀ r ∈ stack, (mats r).tangentField = none → (mats r).tangentFieldType = "fft" ∧
    ∀ w, patternOf (mats r) = .ok w → ClearOfBorder w.g

/-- The generator `'fft'` moves its vectors along with such patterns. -/
theorem fft_generatorMoves {E : Ext} (fit : PGrid → List (ℤ × ℤ) → Bool → Except PyErr Field2) {u v : ℝ}
    {mats mats' : ℕ → LayerSpec} {stack : List ℕ} (hm : ∀ r ∈ stack, PatternMoved 1 1 u v (mats r) (mats' r))
    (ha : AskFftInside mats stack) (ha' : AskFftInside mats' stack) :
    GeneratorMoves 1 1 u v (E.withGenerators fit) mats mats' stack := by
  intro r hr ht w w' H nrm t t' hw hw' hg h1 h2
  have ht' : (mats' r).tangentField = none := by
    rcases (hm r hr).vectors with ⟨-, k⟩ | ⟨s, s', k, -⟩
    · exact k
    · rw [ht] at k; simp at k
  obtain ⟨e, hc⟩ := ha r hr ht
  obtain ⟨e', hc'⟩ := ha' r hr ht'
  have hc := hc w hw
  have hc' := hc' w' hw'
  rw [e] at h1 h2
  change tangentFft w nrm = .ok t at h1
  change tangentFft w' nrm = .ok t' at h2
  obtain ⟨Mx, My, b, b', sx, sy, rfl, rfl, hs, hb⟩ := id hg
  by_cases h0 : Mx = 0 ∨ My = 0
  · rw [tangentFft_empty b h0] at h1
    simp at h1
  obtain ⟨s, s', q1, q2, q3⟩ := C70_displacement_partial (Nx := Mx) (Ny := My) (by omega) (by omega) hc hc' hg nrm
  rw [q1] at h1
  rw [q2] at h2
  obtain rfl := Except.ok.inj h1
  obtain rfl := Except.ok.inj h2
  exact q3

/-- **C64**, with the generator of the code. As `C64_lateral_displacement`, for layers which ask the generator `'fft'` and
patterns which, before and after the displacement, do not reach the border of the cell; nothing is assumed of the
generator. -/
theorem C64_lateral_displacement_fft {E : Ext} (hE : EigContract E)
    (fit : PGrid → List (ℤ × ℤ) → Bool → Except PyErr Field2) {u v : ℝ}
    {lats : ℕ → Lattice} {mats mats' : ℕ → LayerSpec} {stack : List ℕ} {wl : ℝ} {angles : ℝ × ℝ × ℝ} {exc : PlaneWave}
    {nh : ℤ} {form : String} {c c' : Static} (hexc : planeWave wl angles = .ok exc)
    (hinit : simInit (E.withGenerators fit) lats mats stack exc nh form = .ok c)
    (hinit' : simInit (E.withGenerators fit) lats mats' stack exc nh form = .ok c')
    (hm : ∀ r ∈ stack, PatternMoved 1 1 u v (mats r) (mats' r)) (hsq : SquareTensors form mats stack)
    (ha : AskFftInside mats stack) (ha' : AskFftInside mats' stack)
    (hw : WellPlaced mats stack) (hw' : WellPlaced mats' stack) (hmu : ∀ r ∈ stack, (mats r).mu = 1)
    (hnd : c.harmonics.Nodup) (hzero : ((0 : ℤ), (0 : ℤ)) ∈ c.harmonics)
    (hist : List (Call c.nh)) (hist' : List (Call c'.nh)) :
    (∀ orders X X',
      (diffractionEfficiencies (E.withGenerators fit) c orders
        (afterCalls (E.withGenerators fit) c hist (Dyn.fresh mats (unsolved c.nh)))).1 = .ok X →
      (diffractionEfficiencies (E.withGenerators fit) c' orders
        (afterCalls (E.withGenerators fit) c' hist' (Dyn.fresh mats' (unsolved c'.nh)))).1 = .ok X' →
      EfficienciesAlong id c c' X X') ∧
    ∀ layer zs Fs Fs',
      (getFieldFourier (E.withGenerators fit) c layer zs
        (afterCalls (E.withGenerators fit) c hist (Dyn.fresh mats (unsolved c.nh)))).1 = .ok Fs →
      (getFieldFourier (E.withGenerators fit) c' layer zs
        (afterCalls (E.withGenerators fit) c' hist' (Dyn.fresh mats' (unsolved c'.nh)))).1 = .ok Fs' →
      List.Forall₂ (FieldsAlong id (displacementPhase u v) 1 c c') Fs Fs' :=
  C64_lateral_displacement (E := E.withGenerators fit) hE hexc hinit hinit' hm hsq hw hw' hmu hnd hzero
    (fun _ => fft_generatorMoves fit hm ha ha') hist hist'

namespace Examples

open Matrix

/-- Vacuum, a patterned layer, vacuum. -/
noncomputable def gridMats (ty : String) (g : Grid Nx Ny) : ℕ → LayerSpec := fun r =>
  if r = 1 then { exLayer "Slab" (1 / 8) (NdArr.ofGrid g) with tangentFieldType := ty }
  else { exLayer (if r = 0 then "Superstrate" else "Substrate") 1 (NdArr.scalar 1) with tangentFieldType := ty }

theorem gridMats_cases (ty : String) (g : Grid Nx Ny) (r : ℕ) : (gridMats ty g r).iscopy = false ∧ (gridMats ty g r).mu = 1 ∧
    (gridMats ty g r).lattice = 0 ∧ (gridMats ty g r).tangentField = none := by
  unfold gridMats
  split_ifs <;> exact ⟨rfl, rfl, rfl, rfl⟩

theorem gridMats_placed (ty : String) (g : Grid Nx Ny) : WellPlaced (gridMats ty g) [0, 1, 2] := by
  intro k r hk hc
  rw [(gridMats_cases ty g r).1] at hc
  cases hc

/-- Unit square cell. -/
noncomputable def cell : Lattice := ⟨![![1, 0], ![0, 1]], false, .parallelogrammic, (64, 64), none⟩

/-- Nine orders on a square lattice. -/
theorem grid_init {E : Ext} (hA : ArgsortContract E.argsort) (ty : String) (g : Grid Nx Ny) (hg : [Nx, Ny] ≠ [3, 3])
    (exc : PlaneWave) : ∃ c, simInit E (fun _ => cell) (gridMats ty g) [0, 1, 2] exc 9 "jones" = .ok c ∧
      c.harmonics.Nodup ∧ (∀ g, g ∈ c.harmonics ↔ |g.1| ≤ 1 ∧ |g.2| ≤ 1) ∧ c.lattice = cell := by
  have hi : LinearIndependent ℝ cell.basis := (det_ne_zero_iff cell).mp (by simp [cell, Lattice.matrix, det_fin_two])
  obtain ⟨H, n, M, c1, c2, c3, c4, c5, c6, -⟩ := C06_parallelogrammic_truncation E.argsort hA cell rfl rfl hi 9 (by norm_num) true
  obtain rfl : M = 1 := by nlinarith
  have hu : ((0 :: [1, 2]).all fun r => (gridMats ty g r).isUniform) = false := by
    have : isAnisotropic [Nx, Ny] = false := by simpa [isAnisotropic] using hg
    simp [gridMats, exLayer, LayerSpec.isUniform, NdArr.ofGrid, isUniform, this]
  have hny : checkNyquist cell H = .ok () := by
    refine checkNyquist_of ⟨(0, 0), (c5 _).mpr (by simp)⟩ (M := 1) (fun g hg => ?_) (by simp [cell]) (.inr (by simp [cell]))
    obtain ⟨q1, q2⟩ := (c5 g).mp hg
    rw [abs_le] at q1 q2
    exact ⟨q1.2, q2.2⟩
  obtain ⟨c, hc⟩ := simInit_exists (E := E) (lats := fun _ => cell) (mats := gridMats ty g)
    (r0 := 0) (tl := [1, 2]) (exc := exc) (nh := 9) (form := "jones") (H := H) (n := n)
    (r := (2 * Real.pi) • cell.matrix⁻¹ᵀ)
    (by simp [gridMats, exLayer]) (fun r _ => by rw [(gridMats_cases ty g r).2.2.1, (gridMats_cases ty g 0).2.2.1])
    (by tauto) (fun h => by cases h) (by rw [hu]; exact c1) hny ⟨rfl, rfl⟩
    (by simp [gridMats, exLayer, NdArr.scalar, NdArr.value]) (reciprocal_ok.mpr ⟨(det_ne_zero_iff cell).mpr hi, rfl⟩)
  have hi := simInit_ok hc
  have hl := hi.lat_eq 0 rfl
  have hH : c.harmonics = H := by
    obtain ⟨k, hk⟩ := hi.harm
    rw [hl, hu] at hk
    have : effectiveNh 9 false = 9 := rfl
    rw [this, c1] at hk
    simp only [Except.ok.injEq, Prod.mk.injEq] at hk
    exact hk.1.symm
  exact ⟨c, hc, hH ▸ c6, hH ▸ c5, hl⟩

/-- A dot of permittivity 4 in a cell of eight by six pixels. -/
noncomputable def dot (x0 : ℕ) : Grid 8 6 := fun x y => if (x : ℕ) = x0 ∧ (y : ℕ) = 3 then 4 else 1

theorem dot_clear (x0 : ℕ) (h : 2 ≤ x0) (h' : x0 < 6) : ClearOfBorder (dot x0) := by
  unfold ClearOfBorder NearEnd dot
  refine ⟨fun x x' y h1 h2 => ?_, fun x y y' h1 h2 => ?_⟩
  · rw [if_neg (by omega), if_neg (by omega)]
  · rw [if_neg (by omega), if_neg (by omega)]

theorem dot_pixel (x y : ℕ) (hx : x < 8) (hy : y < 6) : ∀ h1 h2,
    dot 3 ⟨x, hx⟩ ⟨y, hy⟩ = dot 2 ⟨pixel 8 (1 * (x : ℤ) - 1), h1⟩ ⟨pixel 6 (1 * (y : ℤ) - 0), h2⟩ := by
  intro h1 h2
  unfold dot
  dsimp only
  have e1 : (pixel 8 (1 * (x : ℤ) - 1) = 2) ↔ x = 3 := by
    unfold pixel
    push_cast
    omega
  have e2 : pixel 6 (1 * (y : ℤ) - 0) = y := by
    unfold pixel
    push_cast
    omega
  simp only [e1, e2]

/-- C70: a dot displaced by one pixel. -/
example : ClearOfBorder (dot 2) ∧ ClearOfBorder (dot 3) ∧ GridMoved 1 1 (1 / 8) 0 ⟨8, 6, dot 2⟩ ⟨8, 6, dot 3⟩ ∧
    dot 2 ≠ dot 3 := by
  refine ⟨dot_clear 2 (by norm_num) (by norm_num), dot_clear 3 (by norm_num) (by norm_num),
    ⟨8, 6, dot 2, dot 3, 1, 0, rfl, rfl, ⟨by norm_num, by norm_num⟩, fun x y x' y' ex ey => ?_⟩, fun h => ?_⟩
  · obtain ⟨x', hx'⟩ := x'
    obtain ⟨y', hy'⟩ := y'
    simp only at ex ey
    subst ex ey
    exact dot_pixel _ _ _ _ _ _
  · have := congrFun (congrFun h 2) 3
    simp [dot] at this

theorem gridMats_moved (ty : String) (r : ℕ) : PatternMoved 1 1 (1 / 8) 0 (gridMats ty (dot 2) r) (gridMats ty (dot 3) r) := by
  unfold gridMats
  by_cases h1 : r = 1
  · subst h1
    refine ⟨rfl, rfl, fun h => (by cases h), fun Nx Ny _ h => ?_,
      fun Nx Ny h => by simp [exLayer, NdArr.ofGrid] at h, .inl ⟨rfl, rfl⟩⟩
    simp only [if_true, exLayer, NdArr.ofGrid, List.cons.injEq, and_true] at h
    obtain ⟨rfl, rfl⟩ := h
    refine ⟨1, 0, ⟨by norm_num, by norm_num⟩, fun x hx y hy => ?_⟩
    have p1 : pixel 8 (1 * (x : ℤ) - 1) < 8 := by unfold pixel; omega
    have p2 : pixel 6 (1 * (y : ℤ) - 0) < 6 := by unfold pixel; omega
    simp only [if_true, exLayer, NdArr.ofGrid]
    rw [dif_pos ⟨hx, hy⟩, dif_pos ⟨p1, p2⟩]
    exact dot_pixel x y hx hy p1 p2
  · simp only [h1, if_false]
    exact ⟨rfl, rfl, fun _ => rfl, fun Nx Ny h => (by cases h),
      fun Nx Ny h => by simp [exLayer, NdArr.scalar] at h, .inl ⟨rfl, rfl⟩⟩

theorem patternOf_grid (ty : String) (g : Grid Nx Ny) (hg : [Nx, Ny] ≠ [3, 3]) : patternOf (gridMats ty g 1) = .ok ⟨Nx, Ny, g⟩ := by
  unfold patternOf
  have : (gridMats ty g 1).isAnisotropic = false := by
    change decide (List.take 2 [Nx, Ny] = [3, 3]) = false
    simpa using hg
  rw [this]
  simp only [Bool.false_eq_true, if_false]
  change Except.ok (⟨Nx, Ny, fun x y => (NdArr.ofGrid g).data [x, y]⟩ : PGrid) = _
  simp [NdArr.ofGrid]

theorem gridMats_ask (g : Grid Nx Ny) (hg : [Nx, Ny] ≠ [3, 3]) (hc : ClearOfBorder g) : AskFftInside (gridMats "fft" g) [0, 1, 2] := by
  intro r _ _
  refine ⟨by unfold gridMats; split_ifs <;> rfl, fun w hw => ?_⟩
  by_cases h1 : r = 1
  · subst h1
    rw [patternOf_grid _ _ hg] at hw
    obtain rfl := Except.ok.inj hw
    exact hc
  · exfalso
    simp [patternOf, gridMats, h1, exLayer, NdArr.scalar, NdArr.toGrid, LayerSpec.isAnisotropic, isAnisotropic] at hw

/-- C64 with generated tangent vectors: nine orders, oblique incidence, a displaced dot. -/
example (fit : PGrid → List (ℤ × ℤ) → Bool → Except PyErr Field2) : ∃ exc c c', planeWave 1 (60, 30, 45) = .ok exc ∧
    simInit (exE.withGenerators fit) (fun _ => cell) (gridMats "fft" (dot 2)) [0, 1, 2] exc 9 "jones" = .ok c ∧
    simInit (exE.withGenerators fit) (fun _ => cell) (gridMats "fft" (dot 3)) [0, 1, 2] exc 9 "jones" = .ok c' ∧
    (∀ r ∈ [0, 1, 2], PatternMoved 1 1 (1 / 8) 0 (gridMats "fft" (dot 2) r) (gridMats "fft" (dot 3) r)) ∧
    AskFftInside (gridMats "fft" (dot 2)) [0, 1, 2] ∧ AskFftInside (gridMats "fft" (dot 3)) [0, 1, 2] ∧
    WellPlaced (gridMats "fft" (dot 2)) [0, 1, 2] ∧ WellPlaced (gridMats "fft" (dot 3)) [0, 1, 2] ∧
    (∀ r ∈ [0, 1, 2], (gridMats "fft" (dot 2) r).mu = 1) ∧ c.harmonics.Nodup ∧ ((0 : ℤ), (0 : ℤ)) ∈ c.harmonics ∧
    UsesGenerator "jones" c.lattice.is1D (gridMats "fft" (dot 2)) [0, 1, 2] := by
  obtain ⟨exc, h1⟩ := oblique 1 30 45 one_pos
  obtain ⟨c, h3, h4, h5, h6⟩ := grid_init (E := exE.withGenerators fit) exSort_spec "fft" (dot 2) (by decide) exc
  obtain ⟨c', h3', -⟩ := grid_init (E := exE.withGenerators fit) exSort_spec "fft" (dot 3) (by decide) exc
  exact ⟨exc, c, c', h1, h3, h3', fun r _ => gridMats_moved "fft" r,
    gridMats_ask _ (by decide) (dot_clear 2 (by norm_num) (by norm_num)),
    gridMats_ask _ (by decide) (dot_clear 3 (by norm_num) (by norm_num)), gridMats_placed _ _, gridMats_placed _ _,
    fun r _ => (gridMats_cases _ _ r).2.1, h4, (h5 _).mpr (by simp), by decide, by simp, 1, by simp, rfl⟩

end Examples

end Nannos
