import Verif.Spec.RealSpace
import Verif.Props.FieldGrid
import Verif.Props.SilentOrders

/-! **C112**: fields in real space at oblique incidence.  The property is false: the grids hold the periodic part. -/

namespace Nannos

open Spec

theorem norm_incidentPhase (wl n theta phi : ℝ) (P : ℝ × ℝ) : ‖incidentPhase wl n theta phi P‖ = 1 := by
  unfold incidentPhase
  rw [mul_comm, Complex.norm_exp_ofReal_mul_I]

theorem series_waveSum {nh : ℕ} {H : Fin nh → ℤ × ℤ} {basis : Fin 2 → Fin 2 → ℝ} {wl n theta phi : ℝ} {k : Fin nh → ℝ × ℝ}
    (hk : ∀ i, GratingEquation basis wl n theta phi (H i) (k i)) (u : Fin nh → ℂ) (Nx Ny : ℕ) (x : Fin Nx) (y : Fin Ny) :
    series H u Nx Ny x y = waveSum k u (pixelPosition basis Nx Ny x y) /
      incidentPhase wl n theta phi (pixelPosition basis Nx Ny x y) := by
  unfold series waveSum
  rw [Finset.sum_div]
  refine Finset.sum_congr rfl fun i _ => ?_
  unfold incidentPhase
  rw [mul_div_assoc (u i), ← Complex.exp_sub]
  congr 2
  obtain ⟨h1, h2⟩ := hk i
  have h : (k i).1 * (pixelPosition basis Nx Ny x y).1 + (k i).2 * (pixelPosition basis Nx Ny x y).2 -
      n * (2 * Real.pi / wl) * Real.sin theta * (Real.cos phi * (pixelPosition basis Nx Ny x y).1 +
        Real.sin phi * (pixelPosition basis Nx Ny x y).2) = 2 * Real.pi * ((H i).1 * x / Nx + (H i).2 * y / Ny) := by
    unfold pixelPosition
    dsimp only
    linear_combination (x : ℝ) / Nx * h1 + (y : ℝ) / Ny * h2
  rw [← mul_sub, ← Complex.ofReal_sub, h]
  push_cast
  ring

section
variable {E : Ext} {lats : ℕ → Lattice} {mats : ℕ → LayerSpec} {stack : List ℕ} {wl : ℝ} {ang : ℝ × ℝ × ℝ}
  {exc : PlaneWave} {nh : ℤ} {form : String} {c : Static}

/-- **C112** (partial).  Whenever the Fourier components of the fields are returned, and the harmonics fit in the shape asked
for, `get_field_grid` returns, for every valid pair of names, what these names select from the six real-space components,
each of them the sum of the waves of all orders *divided by the phase of the incident wave*, at every pixel and depth.  The
wave vectors are those of the grating equation; the phase has modulus one, so intensities are right.

Missing: the fields themselves, without the division; see `C112_phase_missing`. -/
theorem C112_periodic_part_partial (hinit : simInit E lats mats stack exc nh form = .ok c) (hp : planeWave wl ang = .ok exc)
    {n : ℝ} (hn : 0 < n)
    (hsup : ∀ r, stack.head? = some r → (mats r).epsilon.value = ((n ^ 2 : ℝ) : ℂ) ∧ (mats r).mu = 1)
    (id : LayerId) (zs : List ℝ) (Nx Ny : ℕ) (field component : String)
    (hf : field ∈ ["all", "E", "H"]) (hc : component ∈ ["all", "x", "y", "z"])
    (hfit : ∀ g ∈ c.harmonics, -(Nx : ℤ) ≤ g.1 ∧ g.1 < Nx ∧ -(Ny : ℤ) ≤ g.2 ∧ g.2 < Ny) (hnh : c.harmonics ≠ [])
    (d d' : Dyn c.nh) (ff : List (FieldF c.nh)) (h : getFieldFourier E c id zs d = (.ok ff, d')) :
    ∃ k : Fin c.nh → ℝ × ℝ,
      (∀ i p, GratingEquation c.lattice.basis wl n exc.theta exc.phi (c.harmonics.get i) p ↔ p = k i) ∧
      (∃ s, getFieldGrid E c id zs (some (Nx, Ny)) field component d = (.ok ⟨Nx, Ny, s⟩, d') ∧
        pick field component
          (fun i => ff.map fun f x y => waveSum k (eComp f i) (pixelPosition c.lattice.basis Nx Ny x y) /
            incidentPhase wl n exc.theta exc.phi (pixelPosition c.lattice.basis Nx Ny x y))
          (fun i => ff.map fun f x y => waveSum k (hComp f i) (pixelPosition c.lattice.basis Nx Ny x y) /
            incidentPhase wl n exc.theta exc.phi (pixelPosition c.lattice.basis Nx Ny x y)) = some s) ∧
      ∀ P, ‖incidentPhase wl n exc.theta exc.phi P‖ = 1 := by
  have hk := fun i p => grating_vector hinit hp hn hsup i p
  refine ⟨fun i => ((c.kx i).re, (c.ky i).re), hk, ?_, norm_incidentPhase _ _ _ _⟩
  obtain ⟨s, hs, hpick⟩ := C54_selection id zs Nx Ny field component hf hc hfit hnh d d' ff h
  refine ⟨s, hs, ?_⟩
  rw [← hpick]
  congr 1 <;> funext i <;> refine List.map_congr_left fun f _ => ?_ <;> funext x y <;>
    exact (series_waveSum (fun i => (hk i _).2 rfl) _ _ _ _ _).symm

/-- **C112** at normal incidence: the fields themselves. -/
theorem C112_normal_incidence (hinit : simInit E lats mats stack exc nh form = .ok c) (hp : planeWave wl ang = .ok exc)
    {n : ℝ} (hn : 0 < n)
    (hsup : ∀ r, stack.head? = some r → (mats r).epsilon.value = ((n ^ 2 : ℝ) : ℂ) ∧ (mats r).mu = 1)
    (hnormal : Real.sin exc.theta = 0)
    (id : LayerId) (zs : List ℝ) (Nx Ny : ℕ) (field component : String)
    (hf : field ∈ ["all", "E", "H"]) (hc : component ∈ ["all", "x", "y", "z"])
    (hfit : ∀ g ∈ c.harmonics, -(Nx : ℤ) ≤ g.1 ∧ g.1 < Nx ∧ -(Ny : ℤ) ≤ g.2 ∧ g.2 < Ny) (hnh : c.harmonics ≠ [])
    (d d' : Dyn c.nh) (ff : List (FieldF c.nh)) (h : getFieldFourier E c id zs d = (.ok ff, d')) :
    ∃ k : Fin c.nh → ℝ × ℝ,
      (∀ i p, GratingEquation c.lattice.basis wl n exc.theta exc.phi (c.harmonics.get i) p ↔ p = k i) ∧
      ∃ s, getFieldGrid E c id zs (some (Nx, Ny)) field component d = (.ok ⟨Nx, Ny, s⟩, d') ∧
        pick field component
          (fun i => ff.map fun f x y => waveSum k (eComp f i) (pixelPosition c.lattice.basis Nx Ny x y))
          (fun i => ff.map fun f x y => waveSum k (hComp f i) (pixelPosition c.lattice.basis Nx Ny x y)) = some s := by
  obtain ⟨k, hk, ⟨s, hs, hpick⟩, -⟩ := C112_periodic_part_partial hinit hp hn hsup id zs Nx Ny field component hf hc hfit hnh d d' ff h
  refine ⟨k, hk, s, hs, ?_⟩
  rw [← hpick]
  have h1 : ∀ P, incidentPhase wl n exc.theta exc.phi P = 1 := by
    intro P
    unfold incidentPhase
    rw [hnormal]
    simp
  simp only [h1, div_one]

end

section Examples
open Nannos.Examples

/-- **C112 is false at oblique incidence.**  Air above a substrate of permittivity 4, 60 degrees, one order: on two pixels of
the unit cell the magnetic field returned below the interface is not the field at these points, and no constant factor makes
it so. -/
theorem C112_phase_missing : ∃ (exc : PlaneWave) (c : Static), planeWave 1 (60, 0, 0) = .ok exc ∧
    simInit exE (fun _ => exLat) (filmMats (fun r => 4 ^ r) 1 0) [0, 1] exc 1 "original" = .ok c ∧
    ∃ (k : Fin c.nh → ℝ × ℝ) (f : FieldF c.nh) (u : Grid 2 1),
      (∀ i, GratingEquation c.lattice.basis 1 1 exc.theta exc.phi (c.harmonics.get i) (k i)) ∧
      (getFieldFourier exE c (.idx (1 : ℕ)) [0] (Dyn.fresh (filmMats (fun r => 4 ^ r) 1 0) (unsolved c.nh))).1 = .ok [f] ∧
      (getFieldGrid exE c (.idx (1 : ℕ)) [0] (some (2, 1)) "H" "y"
        (Dyn.fresh (filmMats (fun r => 4 ^ r) 1 0) (unsolved c.nh))).1 = .ok ⟨2, 1, .single (.one [u])⟩ ∧
      ∀ s : ℂ, ∃ x y, s * u x y ≠ waveSum k f.hy (pixelPosition c.lattice.basis 2 1 x y) := by
  obtain ⟨exc, hp, hs, hc, hpsi⟩ := oblique_wave 1 0 0 one_pos
  obtain ⟨-, -, htheta, hphi, -⟩ := planeWave_ok hp
  obtain ⟨c, hi, hH, hl⟩ := planar_init (filmMats (fun r => 4 ^ r) 1 0) 0 [1] exc (by simp [filmMats, exLayer])
    (by simp [filmMats, exLayer]) (filmMats_hom _ _ _ _) (by rw [filmMats_eps, filmMats_mu]; simp)
  have hcos : 0 < Real.cos exc.theta := by rw [hc]; norm_num
  have h00 : ((0 : ℤ), (0 : ℤ)) ∈ c.harmonics := by rw [hH]; simp
  have he0 : (filmMats (fun r => 4 ^ r) 1 0 0).epsilon.value = ((1 : ℝ) : ℂ) := by rw [filmMats_eps]; simp
  obtain ⟨RT, h⟩ := C80_planar_defined hi (fun r _ => filmMats_hom _ _ _ r) hp one_pos hcos h00 one_pos rfl he0 rfl exSort_spec
    (by rw [hl]; rfl) (by simp) (fun r _ => rfl) (fun r _ => by rw [filmMats_eps]; exact pow_ne_zero _ (by norm_num))
    (fun r hr => by
      rw [filmMats_eps, hs]
      simp only [List.mem_cons, List.not_mem_nil, or_false] at hr
      rcases hr with rfl | rfl
      · norm_num [Complex.ext_iff]
      · norm_num [Complex.ext_iff])
    (fun k r h1 h2 => by simp at h2; omega) []
  have hom : c.omega ≠ 0 := by
    rw [planar_omega hi hp one_pos h00 one_pos rfl he0 rfl]; positivity
  obtain ⟨Fs, hF⟩ := planar_retrieves hi (fun r _ => filmMats_hom _ _ _ r) hom [] h (k := 1) (.inr rfl) rfl
    (filmMats_d _ _ _ _) [] [0]
  obtain ⟨w, kk, hw, hkk, as, bs, ap, bp, hS, hS0, hP, hP0, -, -, r, nn, F, hg, j, hj, hjr, hFz, hval⟩ :=
    C80_fields hi (fun r _ => filmMats_hom _ _ _ r) hp one_pos hcos h00 one_pos rfl he0 rfl [] (.idx (1 : ℕ)) [0] (by simp) Fs hF
  have hn1 : c.nh = 1 := by
    show c.harmonics.length = 1
    rw [hH]; rfl
  have hst : c.stack = [0, 1] := (simInit_ok hi).stack_eq
  obtain ⟨rfl, rfl⟩ : r = 1 ∧ j = 1 := by
    unfold getLayer at hg
    dsimp only at hg
    rw [hst] at hg
    cases hg
    cases hj
    exact ⟨rfl, rfl⟩
  have hF0 := hFz [0]
  rcases hd : getFieldFourier exE c (.idx (1 : ℕ)) [0] (afterCalls exE c [] (Dyn.fresh (filmMats (fun r => 4 ^ r) 1 0) (unsolved c.nh)))
    with ⟨o, d'⟩
  rw [hd] at hF0
  dsimp only at hF0
  subst hF0
  obtain ⟨k, hk, ⟨s, hs1, hs2⟩, -⟩ := C112_periodic_part_partial hi hp (n := 1) one_pos
    (fun r hr => by
      obtain rfl : 0 = r := Option.some.inj hr
      exact ⟨by rw [he0]; norm_num, rfl⟩) (.idx (1 : ℕ)) [0] 2 1 "H" "y" (by simp) (by simp) (by rw [hH]; simp) (by rw [hH]; simp) _ _ _ hd
  simp only [pick, pickComponent, String.reduceEq, if_false, if_true, Option.some.injEq, List.map_cons, List.map_nil] at hs2
  refine ⟨exc, c, hp, hi, k, F 0, fun x y => waveSum k (F 0).hy (pixelPosition c.lattice.basis 2 1 x y) /
    incidentPhase 1 1 exc.theta exc.phi (pixelPosition c.lattice.basis 2 1 x y), fun i => (hk i _).2 rfl, ?_, ?_, ?_⟩
  rotate_left
  · rw [show Dyn.fresh (filmMats (fun r => 4 ^ r) 1 0) (unsolved c.nh) =
      afterCalls exE c [] (Dyn.fresh (filmMats (fun r => 4 ^ r) 1 0) (unsolved c.nh)) from rfl, hs1, ← hs2]
    rfl
  · intro t
    by_contra hcon
    push Not at hcon
    obtain ⟨i0⟩ : Nonempty (Fin c.nh) := ⟨⟨0, by omega⟩⟩
    have hi0 : (i0 : ℕ) = c.harmonics.idxOf (0, 0) := by
      rw [hH]
      have := i0.isLt
      simp
      omega
    have hsub : ∀ i : Fin c.nh, i = i0 := fun i => Fin.ext (by omega)
    have hphi0 : exc.phi = 0 := by rw [hphi]; simp
    have hw0 : (w : ℂ) ≠ 0 := by rw [hw]; norm_num [Real.pi_ne_zero]
    have hZ : normalK w kk (filmMats (fun r => 4 ^ r) 1 0 0) ≠ 0 := by
      unfold normalK
      rw [he0, filmMats_mu, hkk, show (((1 : ℝ) : ℂ) * (1 : ℕ → ℂ) 0 * (w : ℂ) ^ 2 - ((w * Real.sqrt 1 * Real.sin exc.theta : ℝ) : ℂ) ^ 2) =
        ((w ^ 2 * (1 - Real.sin exc.theta ^ 2) : ℝ) : ℂ) from by rw [Real.sqrt_one]; push_cast; simp; ring, hs]
      have : 0 < w ^ 2 * (1 - 3 / 4) := by
        have : w ≠ 0 := by exact_mod_cast hw0
        positivity
      rw [csqrt_ofReal this.le]
      exact_mod_cast (Real.sqrt_pos.2 this).ne'
    have ha1 : ap 1 ≠ 0 := by
      intro ha
      have e1 := hP.electric 0 _ _ rfl rfl
      have e2 := hP.magnetic 0 _ _ rfl rfl
      have e3 : bp 1 = 0 := hP.below
      have ez : (filmP w kk (filmMats (fun r => 4 ^ r) 1 0 0)).Z ≠ 0 := by
        show normalK w kk (filmMats (fun r => 4 ^ r) 1 0 0) / (filmMats (fun r => 4 ^ r) 1 0 0).epsilon.value ≠ 0
        rw [he0]; simpa using hZ
      have ed : (filmP w kk (filmMats (fun r => 4 ^ r) 1 0 0)).d = 0 := rfl
      rw [zero_add, ha, e3, ed, hP0, hpsi] at e1 e2
      simp only [zero_mul, Real.cos_zero, Complex.ofReal_zero, mul_zero, Complex.exp_zero] at e1 e2
      have e4 := (mul_eq_zero.1 (e1.trans (by ring))).resolve_left ez
      norm_num at e2 e4
      have : (2 : ℂ) = 0 := by linear_combination -e2 - e4
      norm_num at this
    have hy : (F 0).hy i0 ≠ 0 := by
      obtain ⟨-, h2, -⟩ := (hval 0 i0).2 hi0
      have e3 : bp 1 = 0 := hP.below
      rw [h2, hphi0]
      simp only [Film.mag, e3]
      simpa using ha1
    have hsum : ∀ P, waveSum k (F 0).hy P ≠ 0 := by
      intro P
      unfold waveSum
      rw [Fintype.sum_eq_single i0 fun i hne => (hne (hsub i)).elim]
      exact mul_ne_zero hy (Complex.exp_ne_zero _)
    have hph : ∀ x y, t = incidentPhase 1 1 exc.theta exc.phi (pixelPosition c.lattice.basis 2 1 x y) := by
      intro x y
      have e := hcon x y
      have e0 : incidentPhase 1 1 exc.theta exc.phi (pixelPosition c.lattice.basis 2 1 x y) ≠ 0 := Complex.exp_ne_zero _
      have e1 := hsum (pixelPosition c.lattice.basis 2 1 x y)
      change t * (waveSum k (F 0).hy _ / _) = _ at e
      field_simp at e
      exact e
    have hb := (hph 0 0).symm.trans (hph 1 0)
    rw [hl, hphi0] at hb
    simp only [incidentPhase, pixelPosition, exLat] at hb
    norm_num at hb
    have hb' := hb.symm
    rw [Complex.exp_eq_one_iff] at hb'
    obtain ⟨m, hm⟩ := hb'
    have hpi : (Real.pi : ℂ) ≠ 0 := by exact_mod_cast Real.pi_ne_zero
    have h1 : Real.sin exc.theta = 2 * m := by
      have : Complex.I * Real.pi * ((Real.sin exc.theta : ℝ) : ℂ) = Complex.I * Real.pi * ((2 * m : ℝ) : ℂ) := by
        push_cast
        linear_combination hm
      exact_mod_cast mul_left_cancel₀ (mul_ne_zero Complex.I_ne_zero hpi) this
    rw [h1] at hs
    have h2 : (16 * m ^ 2 : ℤ) = 3 := by
      have : (16 * (m : ℝ) ^ 2) = 3 := by linear_combination 4 * hs
      exact_mod_cast this
    omega
  · exact congrArg Prod.fst hd

/-- C112 at normal incidence on the grating, sixteen pixels: all components are returned and are the fields. -/
example : ∃ (c : Static) (F : ℝ → FieldF c.nh) (k : Fin c.nh → ℝ × ℝ),
    (∀ i p, GratingEquation c.lattice.basis 1 1 exExc.theta exExc.phi (c.harmonics.get i) p ↔ p = k i) ∧
    ∃ s, (getFieldGrid exE c (.idx (1 : ℕ)) [0, 1 / 16] (some (16, 1)) "all" "all"
        (afterCalls exE c [] (Dyn.fresh slabMats (unsolved c.nh)))).1 = .ok ⟨16, 1, s⟩ ∧
      pick "all" "all"
        (fun i => ([0, 1 / 16] : List ℝ).map fun z x y => waveSum k (eComp (F z) i) (pixelPosition c.lattice.basis 16 1 x y))
        (fun i => ([0, 1 / 16] : List ℝ).map fun z x y => waveSum k (hComp (F z) i) (pixelPosition c.lattice.basis 16 1 x y)) = some s := by
  obtain ⟨c, h1, h2, h3, h4, h5⟩ := slab_init
  obtain ⟨c', F, h1', -, -, -, hF⟩ := slab_retrieval (fun _ => []) 1 (by norm_num)
  obtain rfl : c = c' := Except.ok.inj (h1.symm.trans h1')
  have hFs := hF [0, 1 / 16]
  rcases hd : getFieldFourier exE c (.idx (1 : ℕ)) [0, 1 / 16]
    (afterCalls exE c [] (Dyn.fresh slabMats (unsolved c.nh))) with ⟨o, d'⟩
  rw [hd] at hFs
  dsimp only at hFs
  subst hFs
  have hH : c.harmonics = [(0, 0)] := h2.harm
  obtain ⟨k, hk, s, hs, hpick⟩ := C112_normal_incidence h1 exExc_mk (n := 1) one_pos
    (fun r hr => by
      obtain rfl : 0 = r := Option.some.inj hr
      exact ⟨rfl, rfl⟩) (by simp [exExc]) (.idx (1 : ℕ)) [0, 1 / 16] 16 1 "all" "all" (by simp) (by simp) (by rw [hH]; simp) (by rw [hH]; simp)
    _ _ _ hd
  refine ⟨c, F, k, hk, s, by rw [hs], ?_⟩
  rw [← hpick]
  simp only [List.map_map]
  rfl

end Examples

end Nannos
