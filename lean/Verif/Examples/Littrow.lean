import Verif.Examples.TwoOrders
import Verif.Examples.Planar
import Verif.Proofs.SimilarRun
import Verif.Proofs.EnergyStack

/-! A lossless grating in air, mounted so that the orders `0` and `-1` leave at the same angle, with tangent vectors given on one
of its four columns only. -/

namespace Nannos.Examples

open Matrix Nannos Spec

/-! ### Numbers -/

/-- A sixteenth of `1 / norm(t)^2` for a vector of length 1. -/
noncomputable def lb : ℝ := 1 / (1 / 2 ^ 52 + 1) ^ 2 / 16

theorem lb_lower : 1 / 17 < lb := by unfold lb; norm_num
theorem lb_upper : lb < 1 / 16 := by unfold lb; norm_num

/-- Cosine and sine of the angle of incidence. -/
noncomputable def lC : ℝ := Real.sqrt ((1 - 2 * lb) / 3)
noncomputable def lS : ℝ := Real.sqrt ((2 + 2 * lb) / 3)

theorem lC_sq : lC ^ 2 = (1 - 2 * lb) / 3 := Real.sq_sqrt (by have := lb_upper; linarith)
theorem lS_sq : lS ^ 2 = (2 + 2 * lb) / 3 := Real.sq_sqrt (by have := lb_lower; linarith)
theorem lC_pos : 0 < lC := Real.sqrt_pos.mpr (by have := lb_upper; linarith)
theorem lS_pos : 0 < lS := Real.sqrt_pos.mpr (by have := lb_lower; linarith)
theorem lCS : lC ^ 2 + lS ^ 2 = 1 := by rw [lC_sq, lS_sq]; ring

/-- The angle in degrees. -/
noncomputable def lAngle : ℝ := Real.arccos lC * (180 / Real.pi)

theorem lAngle_rad : lAngle * (Real.pi / 180) = Real.arccos lC := by
  unfold lAngle
  have := Real.pi_pos
  field_simp

theorem lAngle_cos : Real.cos (lAngle * (Real.pi / 180)) = lC := by
  have h := lCS
  have hp := lC_pos
  rw [lAngle_rad, Real.cos_arccos (by linarith) (by nlinarith [sq_nonneg lS])]

theorem lAngle_sin : Real.sin (lAngle * (Real.pi / 180)) = lS := by
  have h := lCS
  rw [lAngle_rad, Real.sin_arccos, show 1 - lC ^ 2 = lS ^ 2 by linarith, Real.sqrt_sq lS_pos.le]

/-! ### The simulation -/

/-- The lattice, with the orders `0` and `-1`. -/
noncomputable def littrowLat : Lattice := ⟨![![1 / (2 * lS), 0], ![0, 1]], false, .circular, (4, 4), some [(0, 0), (-1, 0)]⟩

theorem littrowLat_mk : mkLattice (.vectors ![![1 / (2 * lS), 0], ![0, 1]]) (.int 4) "circular" (some [(0, 0), (-1, 0)]) =
    .ok littrowLat := rfl

/-- The grating. -/
noncomputable def littrowGrid : Grid 4 4 := fun x _ => if x = 0 then 3 else 1

/-- The tangent vectors. -/
noncomputable def littrowField : Field2 := ⟨4, 4, fun _ _ => 0, fun x _ => if x = 1 then 1 else 0⟩

/-- Air, grating, air. -/
noncomputable def littrowMats : ℕ → LayerSpec := fun r =>
  if r = 0 then exLayer "Superstrate" 0 (NdArr.scalar 1)
  else if r = 1 then { exLayer "Grating" (1 / (4 * lC)) (NdArr.ofGrid littrowGrid) with tangentField := some littrowField }
  else exLayer "Substrate" 0 (NdArr.scalar 1)

theorem littrow_wave : ∃ p, planeWave 1 (lAngle, 0, 90) = .ok p ∧ Real.cos p.theta = lC ∧ Real.sin p.theta = lS ∧ p.wavelength = 1 ∧
    p.wavevector 0 = 2 * Real.pi * lS ∧ p.wavevector 1 = 0 ∧ p.a0 0 = -lC ∧ p.a0 1 = 0 := by
  have hC := lAngle_cos
  have hS := lAngle_sin
  obtain ⟨p, hp⟩ := ((C02_modal_amplitude_is_magnetic_amplitude 1 one_pos (lAngle, 0, 90)).1).mpr (by
    show Real.cos (lAngle * (Real.pi / 180)) ≠ 0
    rw [hC]; exact lC_pos.ne')
  obtain ⟨-, hl, ht, hf, hs, hk, hkv, ha, -⟩ := planeWave_ok hp
  have ht : p.theta = lAngle * (Real.pi / 180) := ht
  have hf : p.phi = 0 := by rw [hf]; simp
  have hs : p.psi = Real.pi / 2 := by rw [hs]; show 90 * (Real.pi / 180) = _; ring
  rw [← ht] at hC hS
  have h2 := ((C02_modal_amplitude_is_magnetic_amplitude 1 one_pos (lAngle, 0, 90)).2 p hp (by rw [hC]; exact lC_pos)).1
  have hk : p.wavenumber = 2 * Real.pi := by rw [hk]; norm_num
  have hpi : (2 * Real.pi) ≠ 0 := by positivity
  have ha0 : p.amplitude 0 = 0 := by rw [ha, hs, hf]; simp
  have ha1 : p.amplitude 1 = 1 := by rw [ha, hs, hf]; simp
  have ha2 : p.amplitude 2 = 0 := by rw [ha, hs, hf]; simp
  have w0 : p.wavevector 0 = 2 * Real.pi * lS := by rw [hkv, hk, hf, hS]; simp
  have w1 : p.wavevector 1 = 0 := by rw [hkv, hk, hf, hS]; simp
  have w2 : p.wavevector 2 = 2 * Real.pi * lC := by rw [hkv, hk, hf, hC]; simp
  refine ⟨p, hp, hC, hS, hl, w0, w1, ?_, ?_⟩
  · rw [h2]
    simp only [crossProduct, LinearMap.mk₂_apply, Matrix.cons_val_zero, hk, ha0, ha1, ha2, w1, w2]
    field_simp
    ring
  · rw [h2]
    simp only [crossProduct, LinearMap.mk₂_apply, Matrix.cons_val_zero, Matrix.cons_val_one, hk, ha0, ha1, ha2, w0, w2]
    simp

/-- What is known of the constructed object. -/
structure Littrow (c : Static) (i0 i1 : Fin c.nh) : Prop where
  two : TwoIdx i0 i1
  get0 : c.harmonics.get i0 = (0, 0)
  get1 : c.harmonics.get i1 = (-1, 0)
  om : c.omega = 2 * Real.pi
  kx0 : c.kx i0 = ((2 * Real.pi * lS : ℝ) : ℂ)
  kx1 : c.kx i1 = -((2 * Real.pi * lS : ℝ) : ℂ)
  ky : ∀ i, c.ky i = 0
  form : c.formulation = "tangent"
  lat : c.lattice = littrowLat
  a00 : c.a0 (.inl i0) = -(lC : ℂ)
  a01 : c.a0 (.inl i1) = 0
  a0r : ∀ i, c.a0 (.inr i) = 0
  flux : c.incidentFlux = lC
  stack : c.stack = [0, 1, 2]

theorem littrow_harm {E : Ext} (hA : ArgsortContract E.argsort) : ∃ H, H.Perm [((0 : ℤ), (0 : ℤ)), (-1, 0)] ∧
    ∀ n, littrowLat.getHarmonics E.argsort n true = .ok (H, 2) := by
  refine ⟨gather [(0, 0), (-1, 0)] (E.argsort ([((0 : ℤ), (0 : ℤ)), (-1, 0)].map fun g => (g.1 : ℝ))), argsort_gather_perm _ _ (hA _),
    fun n => rfl⟩

theorem littrow_init {E : Ext} (hA : ArgsortContract E.argsort) : ∃ exc c, planeWave 1 (lAngle, 0, 90) = .ok exc ∧
    Real.cos exc.theta = lC ∧
    simInit E (fun _ => littrowLat) littrowMats [0, 1, 2] exc 2 "tangent" = .ok c ∧ ∃ i0 i1, Littrow c i0 i1 := by
  obtain ⟨exc, hp, hC, hS, hl, w0, w1, a0, a1⟩ := littrow_wave
  obtain ⟨H, hH, hG⟩ := littrow_harm hA
  have hdet : littrowLat.matrix.det ≠ 0 := by
    have := lS_pos
    simp [littrowLat, Lattice.matrix, det_fin_two, this.ne']
  have hny : checkNyquist littrowLat H = .ok () := by
    refine checkNyquist_of ⟨(0, 0), hH.mem_iff.mpr (by simp)⟩ (M := 0) (fun g hg => ?_) (by norm_num [littrowLat])
      (.inr (by norm_num [littrowLat]))
    have := hH.mem_iff.mp hg
    simp only [List.mem_cons, List.not_mem_nil, or_false] at this
    rcases this with rfl | rfl <;> norm_num
  obtain ⟨c, hc⟩ := simInit_exists (E := E) (lats := fun _ => littrowLat) (mats := littrowMats)
    (r0 := 0) (tl := [1, 2]) (exc := exc) (nh := 2) (form := "tangent")
    (by simp [littrowMats, exLayer]) (fun r hr => by
      simp only [List.mem_cons, List.not_mem_nil, or_false] at hr
      rcases hr with rfl | rfl | rfl <;> rfl)
    (by tauto) (fun h => by tauto) (hG _) hny ⟨rfl, rfl⟩
    (by simp [littrowMats, exLayer, NdArr.scalar, NdArr.value]) (reciprocal_ok.mpr ⟨hdet, rfl⟩)
  have hi := simInit_ok hc
  have hl' : c.lattice = littrowLat := hi.lat_eq 0 rfl
  have hperm : c.harmonics.Perm [(0, 0), (-1, 0)] := by
    obtain ⟨k, hk⟩ := hi.harm
    rw [hl', hG] at hk
    simp only [Except.ok.injEq, Prod.mk.injEq] at hk
    rw [← hk.1]; exact hH
  have hnd : c.harmonics.Nodup := hperm.nodup_iff.mpr (by simp)
  obtain ⟨i0, h0⟩ := List.get_of_mem (hperm.mem_iff.mpr (by simp : ((0 : ℤ), (0 : ℤ)) ∈ _))
  obtain ⟨i1, h1⟩ := List.get_of_mem (hperm.mem_iff.mpr (by simp : ((-1 : ℤ), (0 : ℤ)) ∈ [((0 : ℤ), (0 : ℤ)), (-1, 0)]))
  have hinj := List.nodup_iff_injective_get.mp hnd
  have hall : ∀ i, i = i0 ∨ i = i1 := by
    intro i
    have := hperm.mem_iff.mp (List.get_mem c.harmonics i)
    simp only [List.mem_cons, List.not_mem_nil, or_false] at this
    rcases this with h | h
    · exact .inl (hinj (by rw [h, h0]))
    · exact .inr (hinj (by rw [h, h1]))
  have hne : i0 ≠ i1 := by
    rintro rfl
    rw [h0] at h1
    simp at h1
  obtain ⟨-, -, -, hfl, hk0⟩ := hi.sup 0 rfl
  have hsq : csqrt ((littrowMats 0).epsilon.value * (littrowMats 0).mu) = 1 := by
    have : (littrowMats 0).epsilon.value * (littrowMats 0).mu = ((1 : ℝ) : ℂ) := by
      simp [littrowMats, exLayer, NdArr.scalar, NdArr.value]
    rw [this, csqrt_ofReal zero_le_one]
    simp
  rw [hsq] at hfl hk0
  obtain ⟨r, hr, hkx, hky⟩ := hi.recip
  rw [hl', reciprocal_ok] at hr
  have hinv : littrowLat.matrix⁻¹ = !![2 * lS, 0; 0, 1] := by
    refine inv_eq_right_inv ?_
    have := lS_pos
    ext i j
    fin_cases i <;> fin_cases j <;> simp [littrowLat, Lattice.matrix, mul_apply, Fin.sum_univ_two, this.ne']
    field_simp
  have hr' : r = (2 * Real.pi) • (!![2 * lS, 0; 0, 1] : Matrix (Fin 2) (Fin 2) ℝ)ᵀ := by rw [hr.2, hinv]
  have r00 : r 0 0 = 2 * Real.pi * (2 * lS) := by rw [hr']; simp
  have r01 : r 0 1 = 0 := by rw [hr']; simp
  have r10 : r 1 0 = 0 := by rw [hr']; simp
  have r11 : r 1 1 = 2 * Real.pi := by rw [hr']; simp
  have hk1 : c.k0para.1 = ((2 * Real.pi * lS : ℝ) : ℂ) := by rw [hk0]; unfold k0para; rw [w0]; simp
  have hk2 : c.k0para.2 = 0 := by rw [hk0]; unfold k0para; rw [w1]; simp
  have hz : ∀ i : Fin c.nh, (i : ℕ) = c.indexZerothOrder ↔ i = i0 := by
    intro i
    rw [hi.idx, zerothIndex_eq hnd (hperm.mem_iff.mpr (by simp)) i]
    constructor
    · intro h; exact hinj (by rw [h, h0])
    · rintro rfl; exact h0
  refine ⟨exc, c, hp, hC, hc, i0, i1, ⟨hne, hall⟩, h0, h1, ?_, ?_, ?_, ?_, hi.form_eq, hl', ?_, ?_, ?_, ?_, hi.stack_eq⟩
  · rw [hi.omega_eq, hl]; norm_num
  · rw [hkx, h0]; unfold kxOf; rw [hk1]; simp
  · rw [hkx, h1]; unfold kxOf; rw [hk1, r00, r01]; push_cast; ring
  · intro i
    rw [hky]
    unfold kyOf
    rw [hk2, r10, r11]
    rcases hall i with rfl | rfl
    · rw [h0]; simp
    · rw [h1]; simp
  · rw [(hi.a0 i0).1, if_pos ((hz i0).mpr rfl), a0]; push_cast; rfl
  · rw [(hi.a0 i1).1, if_neg (fun h => hne ((hz i1).mp h).symm)]
  · intro i
    rw [(hi.a0 i).2, a1]; simp
  · rw [hfl, hC, div_one, Complex.ofReal_re]

end Nannos.Examples
