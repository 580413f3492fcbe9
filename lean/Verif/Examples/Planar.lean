import Verif.Props.Symmetry2
import Verif.Proofs.PlanarField

/-! Stacks of homogeneous layers at any incidence. -/

namespace Nannos.Examples

open Matrix Spec

theorem planar_init (mats : ℕ → LayerSpec) (r0 : ℕ) (tl : List ℕ) (exc : PlaneWave)
    (hnames : ((r0 :: tl).map fun r => (mats r).name).Nodup) (hlat : ∀ r ∈ r0 :: tl, (mats r).lattice = 0)
    (hh : Homogeneous (mats r0)) (h0 : (mats r0).epsilon.value * (mats r0).mu ≠ 0) :
    ∃ c, simInit exE (fun _ => exLat) mats (r0 :: tl) exc 1 "original" = .ok c ∧ c.harmonics = [(0, 0)] ∧
      c.lattice = exLat := by
  have heff : ∀ b, effectiveNh 1 b = ((2 : ℕ) : ℤ) := by intro b; cases b <;> rfl
  have hny : checkNyquist exLat [(0, 0)] = .ok () := by
    unfold checkNyquist maxHarmonic
    simp [exLat]
  obtain ⟨c, hc⟩ := simInit_exists (E := exE) (lats := fun _ => exLat) (mats := mats) (r0 := r0) (tl := tl) (exc := exc) (nh := 1)
    (form := "original") (H := [(0, 0)]) (n := 1) hnames
    (fun r hr => by rw [hlat r hr, hlat r0 (by simp)]) (by tauto) (fun _ => by tauto)
    (by rw [heff]; exact exHarm 2 le_rfl) hny ⟨hh.2.1, hh.2.2⟩ h0 exRecip
  have hi := simInit_ok hc
  have hl : c.lattice = exLat := hi.lat_eq r0 rfl
  refine ⟨c, hc, ?_, hl⟩
  obtain ⟨k, hk⟩ := hi.harm
  rw [hl, heff, show exE.argsort = exSort from rfl, exHarm 2 le_rfl] at hk
  simp only [Except.ok.injEq, Prod.mk.injEq] at hk
  exact hk.1.symm

/-- Homogeneous layers numbered from 0 with given permittivities, permeabilities and thicknesses. -/
noncomputable def filmMats (eps mu : ℕ → ℂ) (d : ℕ → ℝ) (r : ℕ) : LayerSpec :=
  { exLayer (if r = 0 then "Superstrate" else if r = 1 then "Film" else "Substrate") (d r) (NdArr.scalar (eps r)) with mu := mu r }

theorem filmMats_hom (eps mu d r) : Homogeneous (filmMats eps mu d r) := ⟨rfl, rfl, rfl⟩

theorem filmMats_eps (eps mu d r) : (filmMats eps mu d r).epsilon.value = eps r := rfl

theorem filmMats_mu (eps mu d r) : (filmMats eps mu d r).mu = mu r := rfl

theorem filmMats_d (eps mu d r) : (filmMats eps mu d r).thickness = some (d r) := rfl

theorem normal_incidence (wl ps : ℝ) (h : 0 < wl) : ∃ p, planeWave wl (0, 0, ps) = .ok p ∧ Real.sin p.theta = 0 ∧ Real.cos p.theta = 1 ∧
    p.psi = ps * (Real.pi / 180) := by
  obtain ⟨p, hp⟩ := ((C02_modal_amplitude_is_magnetic_amplitude wl h (0, 0, ps)).1).mpr (by norm_num)
  obtain ⟨-, -, ht, -, hs, -⟩ := planeWave_ok hp
  have : p.theta = 0 := by rw [ht]; simp
  exact ⟨p, hp, by rw [this]; simp, by rw [this]; simp, hs⟩

theorem oblique_wave (wl ph ps : ℝ) (h : 0 < wl) : ∃ p, planeWave wl (60, ph, ps) = .ok p ∧ Real.sin p.theta ^ 2 = 3 / 4 ∧
    Real.cos p.theta = 1 / 2 ∧ p.psi = ps * (Real.pi / 180) := by
  obtain ⟨p, hp⟩ := oblique wl ph ps h
  obtain ⟨-, -, ht, -, hs, -⟩ := planeWave_ok hp
  have h3 : p.theta = Real.pi / 3 := by rw [ht]; simp only; ring
  have hc : Real.cos p.theta = 1 / 2 := by rw [h3, Real.cos_pi_div_three]
  have := Real.sin_sq_add_cos_sq p.theta
  exact ⟨p, hp, by rw [hc] at this; linarith, hc, hs⟩

end Nannos.Examples
