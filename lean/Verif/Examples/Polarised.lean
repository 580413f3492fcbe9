import Verif.Examples.Run
import Verif.Examples.Slab
import Verif.Props.Energy
import Verif.Proofs.FieldEqs
import Verif.Spec.Reciprocity

/-! The grating of `Slab.lean` under normally incident waves of any polarisation. -/

namespace Nannos.Examples

open Matrix Spec

theorem normal_wave (ph ps : ℝ) : ∃ exc, planeWave 1 (0, ph, ps) = .ok exc ∧ exc.wavelength = 1 ∧ exc.theta = 0 ∧
    exc.wavevector 0 = 0 ∧ exc.wavevector 1 = 0 ∧ exc.a0 0 ^ 2 + exc.a0 1 ^ 2 = 1 := by
  obtain ⟨exc, he⟩ := (C02_modal_amplitude_is_magnetic_amplitude 1 one_pos (0, ph, ps)).1.mpr (by simp)
  obtain ⟨-, h1, h2, h3, h4, h5, h6, h7, -⟩ := planeWave_ok he
  have ht : exc.theta = 0 := by rw [h2]; simp
  obtain ⟨a, -⟩ := (C02_modal_amplitude_is_magnetic_amplitude 1 one_pos (0, ph, ps)).2 exc he (by rw [ht]; simp)
  have hk : exc.wavenumber ≠ 0 := by rw [h5]; positivity
  refine ⟨exc, he, h1, ht, by rw [h6, ht]; simp, by rw [h6, ht]; simp, ?_⟩
  rw [a, h6, h7, ht]
  simp only [cross_apply, cons_val_zero, cons_val_one, Real.sin_zero, Real.cos_zero, cons_val]
  have f := Real.sin_sq_add_cos_sq exc.phi
  have p := Real.sin_sq_add_cos_sq exc.psi
  field_simp
  ring_nf
  linear_combination (Real.cos exc.psi ^ 2 + Real.sin exc.psi ^ 2) * f + p

theorem slab_sim (stack : List ℕ) (hst : stack = [0, 1, 2] ∨ stack = [2, 1, 0]) {exc : PlaneWave} (h1 : exc.wavelength = 1)
    (h2 : exc.theta = 0) (h3 : exc.wavevector 0 = 0) (h4 : exc.wavevector 1 = 0) (h5 : exc.a0 0 ^ 2 + exc.a0 1 ^ 2 = 1) :
    ∃ c, simInit exE (fun _ => exLat) slabMats stack exc 1 "original" = .ok c ∧ NormalSim c ∧ c.stack = stack ∧
      c.incidentFlux = 1 ∧ freshS (c.stack.map fun r => (scal c.omega (slabN r) (slabMats r).thickness : Modes (Idx c.nh))) 0
        ((c.stack.length : ℤ) - 1) = .ok (sscal (4 * Complex.I / 5) (3 / 5) (3 / 5) (4 * Complex.I / 5)) := by
  have key : ∃ c, simInit exE (fun _ => exLat) slabMats stack exc 1 "original" = .ok c ∧ NormalSim c ∧ c.stack = stack ∧
      c.incidentFlux = 1 := by
    rcases hst with rfl | rfl
    · obtain ⟨c, a1, a2, a3, -, a5⟩ := exInitW one_pos exc h1 h2 h3 h4 h5 slabMats 0 [1, 2] 1 one_pos (by decide) (by decide) rfl rfl
      exact ⟨c, a1, a2, a3, by rw [a5]; norm_num⟩
    · obtain ⟨c, a1, a2, a3, -, a5⟩ := exInitW one_pos exc h1 h2 h3 h4 h5 slabMats 2 [1, 0] 1 one_pos (by decide) (by decide) rfl rfl
      exact ⟨c, a1, a2, a3, by rw [a5]; norm_num⟩
  obtain ⟨c, hc, hn, hs, hfl⟩ := key
  refine ⟨c, hc, hn, hs, hfl, ?_⟩
  rw [hs, hn.omega]
  have h2 := slab_02 (m := Idx c.nh)
  simp only [slabModes] at h2
  rcases hst with rfl | rfl <;>
  · simp [slabN, slabMats, exLayer]
    norm_num at h2 ⊢
    rw [h2]

theorem slab_normal (stack : List ℕ) (hst : stack = [0, 1, 2] ∨ stack = [2, 1, 0]) (ph ps : ℝ) :
    SpecularEfficiencies exE (fun _ => exLat) slabMats stack 1 (0, ph, ps) 1 "original" (9 / 25) (16 / 25) := by
  obtain ⟨exc, he, h1, h2, h3, h4, h5⟩ := normal_wave ph ps
  obtain ⟨c, hc, hn, hs, hfl, hS⟩ := slab_sim stack hst h1 h2 h3 h4 h5
  have hnd : c.stack.Nodup := by rw [hs]; rcases hst with rfl | rfl <;> decide
  have htot : (diffractionEfficiencies exE c false (Dyn.fresh slabMats (unsolved c.nh))).1 = .ok (.total (9 / 25) (16 / 25)) := by
    obtain ⟨r0, rN, q1, q2, q3, q4⟩ : ∃ r0 rN, pyGet c.stack 0 = .ok r0 ∧ pyGet c.stack (-1) = .ok rN ∧ slabN r0 = 1 ∧ slabN rN = 1 := by
      rw [hs]
      rcases hst with rfl | rfl
      · exact ⟨0, 2, rfl, rfl, by norm_num [slabN], by norm_num [slabN]⟩
      · exact ⟨2, 0, rfl, rfl, by norm_num [slabN], by norm_num [slabN]⟩
    rw [ex_efficiencies hn (mats := slabMats) slabN hnd (fun r _ => slab_index r) hS q1 q2 (by rw [hfl]; norm_num), hfl, q3, q4]
    norm_num
  obtain ⟨R, T, e1, e2, e3⟩ := efficiencies_total htot
  have hpos : 0 < c.nh := by rw [hn.nh]; norm_num
  refine ⟨exc, c, he, hc, [], R, T, ⟨0, hpos⟩, ?_, hn.get _, by rw [e2, hn.fin R ⟨0, hpos⟩], by rw [e3, hn.fin T ⟨0, hpos⟩]⟩
  unfold diffractionEfficiencies
  rw [PyM.bind_def]
  rcases hx : efficienciesByOrder exE c (Dyn.fresh slabMats (unsolved c.nh)) with ⟨e | ⟨R', T'⟩, d'⟩
  · rw [hx] at e1; simp at e1
  · rw [hx] at e1
    simp only [Except.ok.injEq, Prod.mk.injEq] at e1
    have : afterCalls exE c [] (Dyn.fresh slabMats (unsolved c.nh)) = Dyn.fresh slabMats (unsolved c.nh) := rfl
    rw [this, hx]
    simp [PyM.pure_def, e1.1, e1.2]

/-- The fields of the first and of the last layer can be retrieved. -/
theorem slab_field (stack : List ℕ) (hst : stack = [0, 1, 2] ∨ stack = [2, 1, 0]) (ph ps : ℝ) (id : ℤ) (hid : id = 0 ∨ id = -1)
    (z : ℝ) : ∃ f, SpecularField exE (fun _ => exLat) slabMats stack 1 (0, ph, ps) 1 "original" id z f := by
  obtain ⟨exc, he, h1, h2, h3, h4, h5⟩ := normal_wave ph ps
  obtain ⟨c, hc, hn, hs, hfl, hS⟩ := slab_sim stack hst h1 h2 h3 h4 h5
  have hnd : c.stack.Nodup := by rw [hs]; rcases hst with rfl | rfl <;> decide
  obtain ⟨A1, hsol, -, v, hm⟩ := ex_solve hn (mats := slabMats) slabN hnd (fun r _ => slab_index r)
  have hS' : valS c slabMats A1 (.ok ()) none = .ok (sscal (4 * Complex.I / 5) (3 / 5) (3 / 5) (4 * Complex.I / 5)) := by
    rw [valS_none, v, hS]
  have hpos : 0 < c.nh := by rw [hn.nh]; norm_num
  obtain ⟨r, hr, q⟩ : ∃ r, pyGet c.stack id = .ok r ∧ (slabMats r).isUniform = true ∧ (slabMats r).thickness = some 1 ∧
      (slabMats r).epsilon.value ≠ 0 ∧ slabN r = 1 := by
    rw [hs]
    have f0 : (slabMats 0).isUniform = true ∧ (slabMats 0).thickness = some 1 ∧ (slabMats 0).epsilon.value ≠ 0 ∧ slabN 0 = 1 :=
      ⟨rfl, rfl, by simp [slabMats, exLayer, NdArr.scalar, NdArr.value], by norm_num [slabN]⟩
    have f2 : (slabMats 2).isUniform = true ∧ (slabMats 2).thickness = some 1 ∧ (slabMats 2).epsilon.value ≠ 0 ∧ slabN 2 = 1 :=
      ⟨rfl, rfl, by simp [slabMats, exLayer, NdArr.scalar, NdArr.value], by norm_num [slabN]⟩
    rcases hst with rfl | rfl <;> rcases hid with rfl | rfl
    · exact ⟨0, rfl, f0⟩
    · exact ⟨2, rfl, f2⟩
    · exact ⟨2, rfl, f2⟩
    · exact ⟨0, rfl, f0⟩
  obtain ⟨q1, q2, q3, q4⟩ := q
  have hg : getLayer c (.idx id) = .ok (r, id) := by
    unfold getLayer
    simp only [hr]
    rfl
  have hamp : AmpOk c slabMats A1 (.ok ()) id := by
    refine ⟨⟨r, hr⟩, fun _ => ⟨_, hS'⟩, fun a _ b => ?_⟩
    rcases hid with rfl | rfl
    · exact absurd rfl a
    · exact absurd rfl b
  have hnormal : ∀ dz, ∃ x, normalE (slabMats r) (A1 r) dz = .ok x := by
    intro dz
    unfold normalE
    simp only [q1, if_true, q3, if_false]
    exact ⟨_, rfl⟩
  have hq : ∀ k : Idx c.nh, (c.omega : ℂ) * (scal c.omega (slabN r) (slabMats r).thickness : Modes (Idx c.nh)).q k ≠ 0 := by
    intro k
    have := hn.omega_ne
    simp [scal, this, q4]
  obtain ⟨Fs, d', e1, -⟩ := succeeds_getFieldFourier hsol hg rfl hamp
    (fieldAt_ok (hm r (pyGet_mem hr)) q2 hq hnormal) [z] (Dyn.fresh slabMats (unsolved c.nh)) (inv_fresh _ (.inl rfl))
  obtain ⟨F, hF⟩ : ∃ F, Fs = [F] := by
    obtain ⟨A, hA⟩ := fields_of_history hc exE_eig (by
      intro k r _ hc
      have : (slabMats r).iscopy = false := (slab_index r).2.1
      rw [this] at hc
      simp at hc) (fun r _ => slab_mu r)
    obtain ⟨-, _, _, _, -, -, -, _, _, F, -, -, -, -, -, h⟩ := hA [] (.idx id) [z] Fs (by simp) (congrArg Prod.fst e1)
    exact ⟨_, h⟩
  subst hF
  exact ⟨_, exc, c, he, hc, [], F, ⟨0, hpos⟩, congrArg Prod.fst e1, hn.get _, rfl⟩

end Nannos.Examples
