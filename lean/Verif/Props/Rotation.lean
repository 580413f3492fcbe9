import Verif.Props.Symmetry2
import Verif.Examples.TurnedRows

/-! Property C65, continued: the formulation `tangent` depends on the orientation. Concrete cases: a layer of tensors turned by 45
degrees, a patterned layer with tangent vectors turned by 90 degrees. -/

namespace Nannos

open Matrix Spec Examples

/-- Air, a patterned layer, air. -/
noncomputable def sandwich (L : LayerSpec) : ℕ → LayerSpec := fun r =>
  if r = 0 then exLayer "Superstrate" 1 (NdArr.scalar 1) else if r = 1 then L else exLayer "Substrate" 1 (NdArr.scalar 1)

/-- Nine orders on a bi-periodic lattice, any formulation, any patterned layer between two half-spaces. -/
theorem sandwich_init9 {E : Ext} (hA : ArgsortContract E.argsort) (exc : PlaneWave) {l : Lattice} {form : String}
    (hf : form = "original" ∨ form = "tangent" ∨ form = "jones" ∨ form = "pol") {L : LayerSpec} (hL : L.isUniform = false)
    (hn : L.name = "Slab") (hl : L.lattice = 0)
    (ht : l.truncation = .parallelogrammic) (hu : l.harmonicsArray = none) (hd : l.discretization = (64, 64)) (h2 : l.is1D = false)
    (hi : LinearIndependent ℝ l.basis) :
    ∃ c, simInit E (fun _ => l) (sandwich L) [0, 1, 2] exc 9 form = .ok c ∧ c.harmonics.Nodup ∧
      (∀ g, g ∈ c.harmonics ↔ |g.1| ≤ 1 ∧ |g.2| ≤ 1) ∧ c.lattice = l := by
  obtain ⟨H, n, M, c1, c2, c3, c4, c5, c6, -⟩ := C06_parallelogrammic_truncation E.argsort hA l ht hu hi 9 (by norm_num) true
  obtain rfl : M = 1 := by nlinarith
  have hu : ((0 :: [1, 2]).all fun r => (sandwich L r).isUniform) = false := by simp [sandwich, hL]
  have hny : checkNyquist l H = .ok () := by
    refine checkNyquist_of ⟨(0, 0), (c5 _).mpr (by simp)⟩ (M := 1) (fun g hg => ?_) (by rw [hd]; norm_num) (.inr (by rw [hd]; norm_num))
    obtain ⟨q1, q2⟩ := (c5 g).mp hg
    rw [abs_le] at q1 q2
    exact ⟨q1.2, q2.2⟩
  obtain ⟨c, hc⟩ := simInit_exists (E := E) (lats := fun _ => l) (mats := sandwich L)
    (r0 := 0) (tl := [1, 2]) (exc := exc) (nh := 9) (form := form) (H := H) (n := n)
    (r := (2 * Real.pi) • l.matrix⁻¹ᵀ)
    (by simp [sandwich, exLayer, hn]) (fun r hr => by
      simp only [List.mem_cons, List.not_mem_nil, or_false] at hr
      rcases hr with rfl | rfl | rfl <;> simp [sandwich, exLayer, hl])
    hf (fun h => by rw [h2] at h; simp at h) (by rw [hu]; exact c1) hny ⟨rfl, rfl⟩
    (by simp [sandwich, exLayer, NdArr.scalar, NdArr.value]) (reciprocal_ok.mpr ⟨(det_ne_zero_iff l).mpr hi, rfl⟩)
  have hi := simInit_ok hc
  have hl := hi.lat_eq 0 rfl
  have hH : c.harmonics = H := by
    obtain ⟨k, hk⟩ := hi.harm
    rw [hl, hu] at hk
    have : effectiveNh 9 false = 9 := rfl
    rw [this, c1] at hk
    simp only [Except.ok.injEq, Prod.mk.injEq] at hk
    exact hk.1.symm
  exact ⟨c, hc, hH ▸ c6, hH ▸ c5, hl⟩

theorem sandwich_placed {L : LayerSpec} (hL : L.iscopy = false) : WellPlaced (sandwich L) [0, 1, 2] := by
  intro k r _ hc
  have : (sandwich L r).iscopy = false := by
    unfold sandwich
    split_ifs <;> [rfl; exact hL; rfl]
  rw [this] at hc
  simp at hc

theorem sandwich_mu {L : LayerSpec} (hL : L.mu = 1) : ∀ r ∈ [0, 1, 2], (sandwich L r).mu = 1 := by
  intro r _
  unfold sandwich
  split_ifs <;> [rfl; exact hL; rfl]

theorem sandwich_turned {al : ℝ} {L L' : LayerSpec} (h : LayerTurned al L L') : ∀ r ∈ [0, 1, 2], LayerTurned al (sandwich L r) (sandwich L' r) := by
  have key : ∀ name, LayerTurned al (exLayer name 1 (NdArr.scalar 1)) (exLayer name 1 (NdArr.scalar 1)) := fun name =>
    ⟨rfl, rfl, fun _ => rfl, fun _ _ h => by simp [exLayer, NdArr.scalar] at h, fun _ _ h => by simp [exLayer, NdArr.scalar] at h,
      .inl ⟨rfl, rfl⟩⟩
  intro r _
  unfold sandwich
  split_ifs
  exacts [key _, h, key _]

/-- A square lattice turned. -/
def turnedLat (p q : ℝ) : Lattice := ⟨![![p, q], ![-q, p]], false, .parallelogrammic, (64, 64), none⟩

theorem turnedLat_ind {p q : ℝ} (h : p ^ 2 + q ^ 2 = 1) : LinearIndependent ℝ (turnedLat p q).basis :=
  (det_ne_zero_iff _).mp (by
    have e : (turnedLat p q).matrix.det = p ^ 2 + q ^ 2 := by simp [Lattice.matrix, turnedLat, det_fin_two]; ring
    rw [e, h]
    exact one_ne_zero)

/-- A pattern of four pixels with tangent vectors along `(p, q)`. -/
noncomputable def vectorLayer (p q : ℝ) : LayerSpec :=
  { exLayer "Slab" (1 / 8) (NdArr.ofGrid exGrid) with tangentField := some ⟨4, 1, fun x _ => p * x, fun x _ => q * x⟩ }

/-- **C65**, a case with tangent vectors: nine orders, oblique incidence, formulation `tangent`, quarter turn. All the hypotheses
hold, so whatever both simulations return, they agree. -/
example : ∃ exc exc' c c', planeWave 1 (60, 30, 45) = .ok exc ∧ planeWave 1 (60, 30 + 90, 45) = .ok exc' ∧
    simInit exE (fun _ => turnedLat 1 0) (sandwich (vectorLayer 0 1)) [0, 1, 2] exc 9 "tangent" = .ok c ∧
    simInit exE (fun _ => turnedLat 0 1) (sandwich (vectorLayer (-1) 0)) [0, 1, 2] exc' 9 "tangent" = .ok c' ∧
    ((1 : ℤ), (1 : ℤ)) ∈ c.harmonics ∧
    ∀ (hist : List (Call c.nh)) (hist' : List (Call c'.nh)) orders X X',
      (diffractionEfficiencies exE c orders (afterCalls exE c hist (Dyn.fresh (sandwich (vectorLayer 0 1)) (unsolved c.nh)))).1 = .ok X →
      (diffractionEfficiencies exE c' orders (afterCalls exE c' hist' (Dyn.fresh (sandwich (vectorLayer (-1) 0)) (unsolved c'.nh)))).1 =
        .ok X' → EfficienciesAlong id c c' X X' := by
  obtain ⟨exc, h1⟩ := oblique 1 30 45 one_pos
  obtain ⟨exc', h1'⟩ := oblique 1 (30 + 90) 45 one_pos
  have hun : ∀ p q, (vectorLayer p q).isUniform = false := fun p q => by
    simp [vectorLayer, exLayer, LayerSpec.isUniform, NdArr.ofGrid, isUniform]
  obtain ⟨c, h3, h4, h5, h6⟩ := sandwich_init9 (E := exE) exSort_spec exc (form := "tangent") (by tauto) (hun 0 1) rfl rfl
    (l := turnedLat 1 0) rfl rfl rfl rfl (turnedLat_ind (by norm_num))
  obtain ⟨c', h3', h4', h5', h6'⟩ := sandwich_init9 (E := exE) exSort_spec exc' (form := "tangent") (by tauto) (hun (-1) 0) rfl rfl
    (l := turnedLat 0 1) rfl rfl rfl rfl (turnedLat_ind (by norm_num))
  have hs : Real.sin (90 * (Real.pi / 180)) = 1 := by rw [← Real.sin_pi_div_two]; congr 1; ring
  have hc : Real.cos (90 * (Real.pi / 180)) = 0 := by rw [← Real.cos_pi_div_two]; congr 1; ring
  refine ⟨exc, exc', c, c', h1, h1', h3, h3', (h5 _).mpr (by simp), fun hist hist' => ?_⟩
  refine (C65_rotation_partial exE_eig exE_eig h1 h1' h3 h3' ?_ (by rw [h6]; rfl) (by rw [h6']; rfl)
    (sandwich_turned ⟨rfl, rfl, fun h => by rw [hun] at h; simp at h, fun _ _ _ _ _ _ _ => rfl,
      fun _ _ h => by simp [vectorLayer, exLayer, NdArr.ofGrid] at h, .inr ⟨_, _, rfl, rfl, 4, 1, _, _, _, _, rfl, rfl, ?_⟩⟩)
    (.inr ?_) (.inr ⟨⟨1, by norm_num⟩, ?_⟩) (sandwich_placed rfl) (sandwich_placed rfl) (sandwich_mu rfl) ?_ h4 h4'
    ((h5 _).mpr (by simp)) hist hist').1
  · rw [hs, hc, h6, h6']
    intro k
    fin_cases k <;> simp [turnedLat]
  · intro x y
    rw [hs, hc]
    simp
  · intro r hr Nx Ny h
    simp only [List.mem_cons, List.not_mem_nil, or_false] at hr
    rcases hr with rfl | rfl | rfl <;> simp [sandwich, vectorLayer, exLayer, NdArr.ofGrid, NdArr.scalar] at h
  · intro r hr h
    simp only [List.mem_cons, List.not_mem_nil, or_false] at hr
    rcases hr with rfl | rfl | rfl
    · exact absurd h (by decide)
    · simp [sandwich, vectorLayer]
    · exact absurd h (by decide)
  · intro g
    rw [h5']
    simp [h5]

/-- A crystal pattern of two pixels with the optical axis in the plane: `diag(2, 3, 4)` in the first pixel, air in the second. -/
noncomputable def crystalLayer (a b d : ℂ) : LayerSpec :=
  exLayer "Slab" (1 / 8) ⟨[3, 3, 2, 1], fun k => match k with
    | [0, 0, 0, 0] => a
    | [0, 1, 0, 0] => b
    | [1, 0, 0, 0] => b
    | [1, 1, 0, 0] => d
    | [2, 2, 0, 0] => 4
    | [0, 0, 1, 0] => 1
    | [1, 1, 1, 0] => 1
    | [2, 2, 1, 0] => 1
    | _ => 0⟩

/-- **C65**, a case with tensors: nine orders, oblique incidence, formulation `original`, a turn by 45 degrees. -/
example : ∃ exc exc' c c', planeWave 1 (60, 30, 45) = .ok exc ∧ planeWave 1 (60, 30 + 45, 45) = .ok exc' ∧
    simInit exE (fun _ => turnedLat 1 0) (sandwich (crystalLayer 2 0 3)) [0, 1, 2] exc 9 "original" = .ok c ∧
    simInit exE (fun _ => turnedLat (√2 / 2) (√2 / 2)) (sandwich (crystalLayer (5 / 2) (-1 / 2) (5 / 2))) [0, 1, 2] exc' 9 "original" = .ok c' ∧
    ((1 : ℤ), (1 : ℤ)) ∈ c.harmonics ∧
    ∀ (hist : List (Call c.nh)) (hist' : List (Call c'.nh)) orders X X',
      (diffractionEfficiencies exE c orders (afterCalls exE c hist (Dyn.fresh (sandwich (crystalLayer 2 0 3)) (unsolved c.nh)))).1 = .ok X →
      (diffractionEfficiencies exE c' orders (afterCalls exE c' hist'
        (Dyn.fresh (sandwich (crystalLayer (5 / 2) (-1 / 2) (5 / 2))) (unsolved c'.nh)))).1 = .ok X' → EfficienciesAlong id c c' X X' := by
  obtain ⟨exc, h1⟩ := oblique 1 30 45 one_pos
  obtain ⟨exc', h1'⟩ := oblique 1 (30 + 45) 45 one_pos
  have hun : ∀ a b d, (crystalLayer a b d).isUniform = false := fun a b d => by
    simp [crystalLayer, exLayer, LayerSpec.isUniform, isUniform]
  have h22 : (√2 : ℝ) ^ 2 = 2 := Real.sq_sqrt (by norm_num)
  have h2c : ((√2 : ℝ) : ℂ) ^ 2 = 2 := by exact_mod_cast h22
  obtain ⟨c, h3, h4, h5, h6⟩ := sandwich_init9 (E := exE) exSort_spec exc (form := "original") (by tauto) (hun 2 0 3) rfl rfl
    (l := turnedLat 1 0) rfl rfl rfl rfl (turnedLat_ind (by norm_num))
  obtain ⟨c', h3', h4', h5', h6'⟩ := sandwich_init9 (E := exE) exSort_spec exc' (form := "original") (by tauto)
    (hun (5 / 2) (-1 / 2) (5 / 2)) rfl rfl
    (l := turnedLat (√2 / 2) (√2 / 2)) rfl rfl rfl rfl (turnedLat_ind (by linear_combination h22 / 2))
  have hs : Real.sin (45 * (Real.pi / 180)) = √2 / 2 := by rw [← Real.sin_pi_div_four]; congr 1; ring
  have hc : Real.cos (45 * (Real.pi / 180)) = √2 / 2 := by rw [← Real.cos_pi_div_four]; congr 1; ring
  refine ⟨exc, exc', c, c', h1, h1', h3, h3', (h5 _).mpr (by simp), fun hist hist' => ?_⟩
  refine (C65_rotation_partial exE_eig exE_eig h1 h1' h3 h3' ?_ (by rw [h6]; rfl) (by rw [h6']; rfl)
    (sandwich_turned ⟨rfl, rfl, fun h => by rw [hun] at h; simp at h, fun _ _ h => by simp [crystalLayer, exLayer] at h, ?_,
      .inl ⟨rfl, rfl⟩⟩)
    (.inl rfl) (.inl rfl) (sandwich_placed rfl) (sandwich_placed rfl) (sandwich_mu rfl) ?_ h4 h4'
    ((h5 _).mpr (by simp)) hist hist').1
  · rw [hs, hc, h6, h6']
    intro k
    fin_cases k <;> simp [turnedLat]
  · intro Nx Ny h x hx y hy
    simp only [crystalLayer, exLayer, List.cons.injEq, and_true, true_and] at h
    obtain ⟨rfl, rfl⟩ := h
    obtain rfl : y = 0 := by omega
    have hx : x = 0 ∨ x = 1 := by omega
    rcases hx with rfl | rfl
    · refine ⟨rfl, fun i j => ?_⟩
      fin_cases i <;> fin_cases j <;>
        simp only [crystalLayer, exLayer, turnMatrix, Fin.sum_univ_two, hs, hc] <;> simp <;> ring_nf <;> rw [h2c] <;> norm_num
    · refine ⟨rfl, fun i j => ?_⟩
      fin_cases i <;> fin_cases j <;>
        simp only [crystalLayer, exLayer, turnMatrix, Fin.sum_univ_two, hs, hc] <;> simp <;> ring_nf <;> rw [h2c] <;> norm_num
  · intro g
    rw [h5']
    simp [h5]

/-- The wave at normal incidence with the magnetic field along `(-sin phi, cos phi)`. -/
theorem normal_wave_zero (ph : ℝ) : ∃ exc, planeWave 1 (0, ph, 0) = .ok exc ∧ exc.wavelength = 1 ∧ exc.theta = 0 ∧
    exc.wavevector 0 = 0 ∧ exc.wavevector 1 = 0 ∧ exc.a0 0 = -Real.sin (ph * (Real.pi / 180)) ∧
    exc.a0 1 = Real.cos (ph * (Real.pi / 180)) := by
  obtain ⟨exc, he⟩ := (C02_modal_amplitude_is_magnetic_amplitude 1 one_pos (0, ph, 0)).1.mpr (by simp)
  obtain ⟨-, h1, h2, h3, h4, h5, h6, h7, -⟩ := planeWave_ok he
  have ht : exc.theta = 0 := by rw [h2]; simp
  have hp : exc.psi = 0 := by rw [h4]; simp
  obtain ⟨a, -⟩ := (C02_modal_amplitude_is_magnetic_amplitude 1 one_pos (0, ph, 0)).2 exc he (by rw [ht]; simp)
  have hk : exc.wavenumber ≠ 0 := by rw [h5]; positivity
  have ha : exc.a0 0 = -Real.sin exc.phi ∧ exc.a0 1 = Real.cos exc.phi := by
    rw [a, h6, h7, ht, hp]
    simp only [cross_apply, cons_val_zero, cons_val_one, Real.sin_zero, Real.cos_zero, cons_val]
    constructor <;> field_simp <;> ring
  rw [h3] at ha
  exact ⟨exc, he, h1, ht, by rw [h6, ht]; simp, by rw [h6, ht]; simp, ha⟩

/-- **C65**, why the theorem needs multiples of 90 degrees in the formulations with tangent vectors: rows along the first basis
vector of a square lattice, one order, normal incidence, formulation `tangent`, tangent vectors along the rows. With the magnetic
field across the rows all the light is transmitted. Turning the lattice, the tangent vectors and the wave by 45 degrees makes the
program reflect 144/169 of the light: the projector exchanges the components of the tangent vectors, so the turned rows act as rows
turned the other way. -/
theorem C65_tangent_depends_on_orientation : ∃ (E E' : Ext) (lats lats' : ℕ → Lattice) (mats mats' : ℕ → LayerSpec)
    (exc exc' : PlaneWave) (c c' : Static),
    EigContract E ∧ ArgsortContract E.argsort ∧ EigContract E' ∧ ArgsortContract E'.argsort ∧
    planeWave 1 (0, 0, 0) = .ok exc ∧ planeWave 1 (0, 0 + 45, 0) = .ok exc' ∧
    simInit E lats mats [0, 1, 2] exc 1 "tangent" = .ok c ∧ simInit E' lats' mats' [0, 1, 2] exc' 1 "tangent" = .ok c' ∧
    (∀ k : Fin 2, c'.lattice.basis k 0 =
        Real.cos (45 * (Real.pi / 180)) * c.lattice.basis k 0 - Real.sin (45 * (Real.pi / 180)) * c.lattice.basis k 1 ∧
      c'.lattice.basis k 1 =
        Real.sin (45 * (Real.pi / 180)) * c.lattice.basis k 0 + Real.cos (45 * (Real.pi / 180)) * c.lattice.basis k 1) ∧
    c.lattice.is1D = false ∧ c'.lattice.is1D = false ∧
    (∀ r ∈ [0, 1, 2], LayerTurned (45 * (Real.pi / 180)) (mats r) (mats' r)) ∧ SquareTensors "tangent" mats [0, 1, 2] ∧
    (∀ r ∈ [0, 1, 2], (mats r).isUniform = false → (mats r).tangentField ≠ none) ∧
    WellPlaced mats [0, 1, 2] ∧ WellPlaced mats' [0, 1, 2] ∧ (∀ r ∈ [0, 1, 2], (mats r).mu = 1) ∧
    c.harmonics = [(0, 0)] ∧ c'.harmonics = [(0, 0)] ∧
    (diffractionEfficiencies E c false (Dyn.fresh mats (unsolved c.nh))).1 = .ok (.total 0 1) ∧
    (diffractionEfficiencies E' c' false (Dyn.fresh mats' (unsolved c'.nh))).1 = .ok (.total (144 / 169) (25 / 169)) := by
  have hs : Real.sin (45 * (Real.pi / 180)) = √2 / 2 := by rw [← Real.sin_pi_div_four]; congr 1; ring
  have hc : Real.cos (45 * (Real.pi / 180)) = √2 / 2 := by rw [← Real.cos_pi_div_four]; congr 1; ring
  have h22 : (√2 : ℝ) ^ 2 = 2 := Real.sq_sqrt (by norm_num)
  have u0 : (1 : ℝ) ^ 2 + 0 ^ 2 = 1 := by norm_num
  have u1 : (√2 / 2 : ℝ) ^ 2 + (√2 / 2) ^ 2 = 1 := by linear_combination h22 / 2
  obtain ⟨exc, a1, a2, a3, a4, a5, a6, a7⟩ := normal_wave_zero 0
  obtain ⟨exc', b1, b2, b3, b4, b5, b6, b7⟩ := normal_wave_zero (0 + 45)
  rw [zero_add, hs] at b6
  rw [zero_add, hc] at b7
  obtain ⟨c, c1, c2, c3⟩ := turned_init u0 (turnedE 1 1 0) rfl a2 a3 a4 a5
  obtain ⟨c', d1, d2, d3⟩ := turned_init u1 (turnedE 1 (√2 / 2) (√2 / 2)) rfl b2 b3 b4 b5
  have hm : ∀ p q, ∀ r ∈ [0, 1, 2], (turnedMats p q r).iscopy = false ∧ (turnedMats p q r).mu = 1 ∧
      ((turnedMats p q r).isUniform = false → (turnedMats p q r).tangentField ≠ none) ∧
      ∀ Nx Ny, (turnedMats p q r).epsilon.shape ≠ [3, 3, Nx, Ny] := by
    intro p q r hr
    simp only [List.mem_cons, List.not_mem_nil, or_false] at hr
    rcases hr with rfl | rfl | rfl
    · exact ⟨rfl, rfl, fun h => absurd h (by show ¬ (true = false); decide), fun _ _ => by simp [turnedMats, exLayer, NdArr.scalar]⟩
    · exact ⟨rfl, rfl, fun _ => by simp [turnedMats, turnedLayer], fun _ _ => by simp [turnedMats, turnedLayer, exLayer, NdArr.ofGrid]⟩
    · exact ⟨rfl, rfl, fun h => absurd h (by show ¬ (true = false); decide), fun _ _ => by simp [turnedMats, exLayer, NdArr.scalar]⟩
  have hplaced : ∀ p q, WellPlaced (turnedMats p q) [0, 1, 2] := by
    intro p q k r hk hcp
    rw [(hm p q r (List.mem_of_getElem? hk)).1] at hcp
    simp at hcp
  refine ⟨turnedE 1 1 0, turnedE 1 (√2 / 2) (√2 / 2), _, _, _, _, exc, exc', c, c', turnedE_contract u0, turnedE_sort,
    turnedE_contract u1, turnedE_sort, a1, b1, c1, d1, ?_, by rw [c2.lat]; rfl, by rw [d2.lat]; rfl, ?_,
    .inr fun r hr Nx Ny h => absurd h ((hm _ _ r hr).2.2.2 Nx Ny), fun r hr => (hm _ _ r hr).2.2.1, hplaced _ _, hplaced _ _,
    fun r hr => (hm _ _ r hr).2.1, c2.harm, d2.harm, ?_, ?_⟩
  · rw [hs, hc, c2.lat, d2.lat]
    intro k
    fin_cases k <;> simp [oneTurned]
  · intro r hr
    have key : ∀ name, LayerTurned (45 * (Real.pi / 180)) (exLayer name 0 (NdArr.scalar 1)) (exLayer name 0 (NdArr.scalar 1)) := fun name =>
      ⟨rfl, rfl, fun _ => rfl, fun _ _ h => by simp [exLayer, NdArr.scalar] at h, fun _ _ h => by simp [exLayer, NdArr.scalar] at h,
        .inl ⟨rfl, rfl⟩⟩
    simp only [List.mem_cons, List.not_mem_nil, or_false] at hr
    rcases hr with rfl | rfl | rfl
    · exact key _
    · refine ⟨rfl, rfl, fun _ => rfl, fun _ _ _ _ _ _ _ => rfl, fun Nx Ny h => absurd h ((hm _ _ 1 (by simp)).2.2.2 Nx Ny),
        .inr ⟨_, _, rfl, rfl, 4, 4, _, _, _, _, rfl, rfl, fun x y => ?_⟩⟩
      rw [hs, hc]
      push_cast
      constructor <;> ring
    · exact key _
  · have h := c2.turnedEff u0 (u := 1) (v := 0) (fun i => by
      rw [(c3 i).1, (c3 i).2, a6, a7]
      simp)
    rw [show turnedE c.nh 1 0 = turnedE 1 1 0 by rw [c2.nh]] at h
    rw [h]
    norm_num
  · have h := d2.turnedEff u1 (u := 0) (v := -1) (fun i => by
      rw [(d3 i).1, (d3 i).2, b6, b7]
      push_cast
      constructor <;> ring)
    rw [show turnedE c'.nh (√2 / 2) (√2 / 2) = turnedE 1 (√2 / 2) (√2 / 2) by rw [d2.nh]] at h
    rw [h]
    norm_num

end Nannos
