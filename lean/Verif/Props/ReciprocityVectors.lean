import Verif.Examples.Handed
import Verif.Examples.Polarised
import Verif.Props.Reciprocity

/-! Reciprocity in the formulations with vectors. -/

namespace Nannos

open Spec Matrix

/-- **C73**, what fails. In the formulation `jones` a structure of reciprocal materials does not transmit reciprocally. The
structure: air, a grating of a real permittivity with constant tangent vectors, air. All hypotheses of
`C73_field_reciprocity` but the one on the formulation hold, for a wave with azimuth 0 and polarisation angle 0 and a wave with
azimuth 180 and polarisation angle 90 on the stack turned upside down. The two sides of the equation stated there are opposite
numbers of squared modulus 1/2: half of the power is transmitted into the other polarisation, with a sign which depends on the
direction, as in a magnetised medium. -/
theorem C73_jones_is_not_reciprocal : ∃ (E : Ext) (lat : Lattice) (mats : ℕ → LayerSpec) (w w' : PlaneWave) (f f' : Fin 3 → ℂ),
    EigContract E ∧ ArgsortContract E.argsort ∧
    mkLattice (.vectors ![![1, 0], ![0, 1]]) (.int 4) "circular" (some [(0, 0)]) = .ok lat ∧ OppositeOrders (fun _ => lat) ∧
    WellPlaced mats [0, 1, 2] ∧ WellPlaced mats [2, 1, 0] ∧
    (∀ r, (mats r).mu = 1 ∧ (mats r).isAnisotropic = false ∧ Reciprocal (mats r)) ∧
    (mats 0).epsilon = NdArr.scalar 1 ∧ (mats 2).epsilon = NdArr.scalar 1 ∧
    (mats 0).thickness = some 0 ∧ (mats 2).thickness = some 0 ∧
    (∃ t : ℝ, (mats 1).tangentField = some ⟨4, 4, fun _ _ => (t : ℂ), fun _ _ => 0⟩) ∧
    planeWave 1 (0, 0, 0) = .ok w ∧ planeWave 1 (0, 0 + 180, 90) = .ok w' ∧
    SpecularField E (fun _ => lat) mats [0, 1, 2] 1 (0, 0, 0) 1 "jones" (-1) 0 f ∧
    SpecularField E (fun _ => lat) mats [2, 1, 0] 1 (0, 0 + 180, 90) 1 "jones" (-1) 0 f' ∧
    w'.amplitude 0 * f 0 + w'.amplitude 1 * f 1 - w'.amplitude 2 * f 2 =
      -(w.amplitude 0 * f' 0 + w.amplitude 1 * f' 1 - w.amplitude 2 * f' 2) ∧
    Complex.normSq (w.amplitude 0 * f' 0 + w.amplitude 1 * f' 1 - w.amplitude 2 * f' 2) = 1 / 2 := by
  obtain ⟨w', hw', q1, q2, q3, q4, -⟩ := Examples.normal_wave (0 + 180) 90
  obtain ⟨-, -, p2, p3, p4, p5, p6, p7, -⟩ := planeWave_ok hw'
  have hphi : w'.phi = Real.pi := by rw [p3]; ring
  have hpsi : w'.psi = Real.pi / 2 := by rw [p4]; ring
  have hamp : w'.amplitude = ![0, -1, 0] := by
    rw [p7, hphi, hpsi, q2]
    simp
  have ha0 : w'.a0 = ![1, 0] := by
    have hk : w'.wavenumber ≠ 0 := by rw [p5]; positivity
    rw [((C02_modal_amplitude_is_magnetic_amplitude 1 one_pos (0, 0 + 180, 90)).2 w' hw' (by rw [q2]; simp)).1, p6, hamp, q2]
    simp [cross_apply, hk]
  have hnh : ∀ {c : Static} {st}, Examples.OneSim c "jones" st → Examples.rowE c.nh = Examples.rowE 1 := fun h => by rw [h.nh]
  have hidx : ∀ {c : Static} {st}, Examples.OneSim c "jones" st → ∃ i : Fin c.nh, c.harmonics.get i = (0, 0) := fun {c} {st} h => by
    have hpos : 0 < c.nh := by rw [h.nh]; norm_num
    have h0 := List.get_mem c.harmonics ⟨0, hpos⟩
    have h1 : ∀ x ∈ c.harmonics, x = (0, 0) := by rw [h.harm]; simp
    exact ⟨⟨0, hpos⟩, h1 _ h0⟩
  obtain ⟨c, hc, hsim, ha⟩ := Examples.row_init (Examples.rowE 1) rfl (exc := Examples.exExc) rfl rfl rfl rfl (.inl ⟨rfl, rfl⟩)
  obtain ⟨F, hF, hval⟩ := hsim.rowField ha (.inl ⟨rfl, rfl⟩) rfl
  rw [hnh hsim] at hF
  obtain ⟨i, hi⟩ := hidx hsim
  obtain ⟨c', hc', hsim', ha'⟩ := Examples.row_init (Examples.rowE 1) rfl q1 q2 q3 q4 (.inr ⟨rfl, rfl⟩)
  obtain ⟨F', hF', hval'⟩ := hsim'.rowField ha' (.inr ⟨rfl, rfl⟩) rfl
  rw [hnh hsim'] at hF'
  obtain ⟨i', hi'⟩ := hidx hsim'
  have hcopy : ∀ r, (Examples.rowMats r).iscopy = false := fun r => by
    unfold Examples.rowMats
    split
    · rfl
    · split <;> rfl
  have hplace : ∀ st, WellPlaced Examples.rowMats st := by
    intro st k r _ h
    rw [hcopy] at h
    simp at h
  refine ⟨Examples.rowE 1, Examples.oneLat, Examples.rowMats, Examples.exExc, w', ![F.ex i, F.ey i, F.ez i], ![F'.ex i', F'.ey i', F'.ez i'],
    Examples.rowE_contract, Examples.rowE_sort, rfl, ?_, hplace _, hplace _, ?_, rfl, rfl, rfl, rfl, ⟨_, rfl⟩, Examples.exExc_mk, hw',
    ⟨_, c, Examples.exExc_mk, hc, [], F, i, hF, hi, rfl⟩, ⟨_, c', hw', hc', [], F', i', hF', hi', rfl⟩, ?_, ?_⟩
  · rintro k H hH
    obtain rfl : [(0, 0)] = H := Option.some.inj hH
    simp
  · intro r
    have hn : (Examples.rowMats r).isAnisotropic = false := by
      unfold Examples.rowMats
      split
      · rfl
      · split <;> rfl
    refine ⟨?_, hn, fun h => ?_⟩
    · unfold Examples.rowMats
      split
      · rfl
      · split <;> rfl
    · rw [hn] at h
      simp at h
  · obtain ⟨a1, a2, a3, a4⟩ := hval i
    obtain ⟨b1, b2, b3, b4⟩ := hval' i'
    simp only [cons_val_zero, cons_val_one, cons_val, hamp]
    rw [a4, a1, b3, b2, ha0]
    simp [Examples.exExc]
  · obtain ⟨b1, b2, b3, b4⟩ := hval' i'
    have hg := Examples.g_half
    simp only [cons_val_zero, cons_val_one, cons_val]
    rw [b3, b2, ha0]
    simp only [Examples.exExc, cons_val_zero, cons_val_one, cons_val, Complex.ofReal_one, Complex.ofReal_zero, one_mul, zero_mul, mul_zero,
      add_zero, sub_zero, mul_one]
    rw [Complex.normSq_mul Complex.I, Complex.normSq_I, one_mul,
      show (2 * Examples.gs * Examples.gc : ℂ) = ((2 * Examples.gs * Examples.gc : ℝ) : ℂ) by push_cast; rfl, Complex.normSq_ofReal, ← sq, hg]

namespace Examples

theorem one_specular (ph ps : ℝ) : ∃ R T, SpecularEfficiencies exE (fun _ => oneLat) oneMats [0, 1, 2] 1 (0, ph, ps) 1 "tangent" R T := by
  obtain ⟨exc, he, h1, h2, h3, h4, -⟩ := normal_wave ph ps
  obtain ⟨c, hc, h⟩ := one_initW h1 h2 h3 h4
  obtain ⟨⟨R, T⟩, d', e1⟩ := h.byOrder
  have hpos : 0 < c.nh := by rw [h.nh]; norm_num
  refine ⟨R ⟨0, hpos⟩, T ⟨0, hpos⟩, exc, c, he, hc, [], R, T, ⟨0, hpos⟩, ?_, ?_, rfl, rfl⟩
  · show (diffractionEfficiencies exE c true (Dyn.fresh oneMats (unsolved c.nh))).1 = _
    unfold diffractionEfficiencies
    rw [PyM.bind_ok e1]
    rfl
  · have h0 := List.get_mem c.harmonics ⟨0, hpos⟩
    have h1 : ∀ x ∈ c.harmonics, x = (0, 0) := by rw [h.harm]; simp
    exact h1 _ h0

/-- C72 applies to a grating on a lattice with two periods, in the formulation `tangent`, with one tangent vector. -/
example (ph ps ps' : ℝ) : ∃ R R' S S' T T' U U',
    SpecularEfficiencies exE (fun _ => oneLat) oneMats [0, 1, 2] 1 (0, ph, ps) 1 "tangent" R T ∧
    SpecularEfficiencies exE (fun _ => oneLat) oneMats [0, 1, 2] 1 (0, ph, ps + 90) 1 "tangent" R' T' ∧
    SpecularEfficiencies exE (fun _ => oneLat) oneMats [0, 1, 2] 1 (0, ph + 180, ps') 1 "tangent" S U ∧
    SpecularEfficiencies exE (fun _ => oneLat) oneMats [0, 1, 2] 1 (0, ph + 180, ps' + 90) 1 "tangent" S' U' ∧
    R + R' = S + S' := by
  obtain ⟨R, T, h1⟩ := one_specular ph ps
  obtain ⟨R', T', h2⟩ := one_specular ph (ps + 90)
  obtain ⟨S, U, h3⟩ := one_specular (ph + 180) ps'
  obtain ⟨S', U', h4⟩ := one_specular (ph + 180) (ps' + 90)
  have hm : ∀ r, (oneMats r).iscopy = false ∧ (oneMats r).mu = 1 ∧ (oneMats r).isAnisotropic = false := fun r => by
    unfold oneMats
    split
    · exact ⟨rfl, rfl, rfl⟩
    · split <;> exact ⟨rfl, rfl, rfl⟩
  refine ⟨R, R', S, S', T, T', U, U', h1, h2, h3, h4, C72_reflection_reciprocity exE_eig exSort_spec le_rfl ?_ ?_ (fun r _ => (hm r).2.1) ?_
    (fun _ r hr => ?_) ?_ one_pos ?_ one_pos cos_zero_pos h1 h2 h3 h4⟩
  · rintro k H hH
    obtain rfl : [(0, 0)] = H := Option.some.inj hH
    simp
  · intro k r _ h
    rw [(hm r).1] at h
    simp at h
  · intro r _ h
    rw [(hm r).2.2] at h
    simp at h
  · simp only [List.mem_cons, List.not_mem_nil, or_false] at hr
    rcases hr with rfl | rfl | rfl
    · exact .inr (.inr (.inl rfl))
    · refine .inr (.inr (.inr ⟨by decide, (hm 1).2.2, 4, 4, 0, 1, ?_⟩))
      simp [oneMats]
    · exact .inr (.inr (.inl rfl))
  · intro r h
    obtain rfl : 2 = r := Option.some.inj h
    rfl
  · intro r h
    obtain rfl : 0 = r := Option.some.inj h
    simp [oneMats, exLayer, NdArr.scalar, NdArr.value]

end Examples

end Nannos
