import Verif.Examples.Handed
import Verif.Props.Mirror

/-! The formulation `jones` and mirror symmetry. -/

namespace Nannos

open Spec Matrix

/-- **C78**, what fails. In the formulation `jones` the two polarisations mix on a structure with a mirror plane. The structure:
air, a lossless grating whose permittivity and tangent vectors are unchanged by the reflection of the axis `y`, air. All
hypotheses of `C78_polarisations_do_not_mix` but the one on the formulation hold. The magnetic field of a wave with azimuth 0
and polarisation angle 0 should be along `y` everywhere; below the grating the squares of its components along `x` and `y` are
equal, each half of that of the incident wave. -/
theorem C78_jones_mixes_polarisations : ∃ (E : Ext) (lat : Lattice) (mats : ℕ → LayerSpec),
    EigContract E ∧ ArgsortContract E.argsort ∧
    mkLattice (.vectors ![![1, 0], ![0, 1]]) (.int 4) "circular" (some [(0, 0)]) = .ok lat ∧
    DistinctOrders (fun _ => lat) ∧ Symmetric 1 (-1) 0 0 E (fun _ => lat) mats [0, 1, 2] 1 "jones" ∧
    SquareTensors "jones" mats [0, 1, 2] ∧ WellPlaced mats [0, 1, 2] ∧ (∀ r, (mats r).mu = 1) ∧
    Mirror 1 1 (-1) 0 0 ∧ AzimuthInPlane 1 0 ∧ (∀ r, (mats r).isAnisotropic = false ∧ Lossless (mats r)) ∧
    (mats 0).epsilon = NdArr.scalar 1 ∧ (mats 2).epsilon = NdArr.scalar 1 ∧
    (∃ t : ℝ, (mats 1).tangentField = some ⟨4, 4, fun _ _ => (t : ℂ), fun _ _ => 0⟩) ∧
    ∃ e h, OrderField E (fun _ => lat) mats [0, 1, 2] 1 (0, 0, 0) 1 "jones" (.idx (-1)) 0 (0, 0) e h ∧
      Complex.normSq (h 0) = 1 / 2 ∧ Complex.normSq (h 1) = 1 / 2 := by
  obtain ⟨c, hc, hsim, ha⟩ := Examples.row_init (Examples.rowE 1) rfl (exc := Examples.exExc) rfl rfl rfl rfl (.inl ⟨rfl, rfl⟩)
  obtain ⟨F, hF, hval⟩ := hsim.rowField ha (.inl ⟨rfl, rfl⟩) rfl
  rw [show Examples.rowE c.nh = Examples.rowE 1 by rw [hsim.nh]] at hF
  have hval : ∀ i, F.hx i = -(Complex.I * (2 * Examples.gs * Examples.gc)) ∧ F.hy i = Examples.gc ^ 2 - Examples.gs ^ 2 := fun i => by
    obtain ⟨h1, h2, -⟩ := hval i
    rw [h1, h2]
    simp [Examples.exExc]
  have hpos : 0 < c.nh := by rw [hsim.nh]; norm_num
  have hmats : ∀ r, Examples.rowMats r = Examples.exLayer "Superstrate" 0 (NdArr.scalar 1) ∨
      Examples.rowMats r = { Examples.exLayer "Grating" (1 / 2) (NdArr.ofGrid Examples.rowGrid) with tangentField := some Examples.rowField } ∨
      Examples.rowMats r = Examples.exLayer "Substrate" 0 (NdArr.scalar 1) := by
    intro r
    unfold Examples.rowMats
    split
    · exact .inl rfl
    · split
      · exact .inr (.inl rfl)
      · exact .inr (.inr rfl)
  have hsc : ∀ name, (Examples.exLayer name 0 (NdArr.scalar 1)).isAnisotropic = false ∧ Lossless (Examples.exLayer name 0 (NdArr.scalar 1)) ∧
      PatternMoved 1 (-1) 0 0 (Examples.exLayer name 0 (NdArr.scalar 1)) (Examples.exLayer name 0 (NdArr.scalar 1)) ∧
      ∀ w, patternOf (Examples.exLayer name 0 (NdArr.scalar 1)) ≠ .ok w := by
    intro name
    have hn : (Examples.exLayer name 0 (NdArr.scalar 1)).isAnisotropic = false := rfl
    refine ⟨hn, ?_, ⟨rfl, rfl, fun _ => rfl, fun _ _ h => ?_, fun _ _ h => ?_, .inl ⟨rfl, rfl⟩⟩, fun w h => ?_⟩
    · unfold Lossless LossIn
      rw [hn]
      simp only [Bool.false_eq_true, if_false]
      intro idx _
      simp [Examples.exLayer, NdArr.scalar]
    · have hu : (Examples.exLayer name 0 (NdArr.scalar 1)).isUniform = true := rfl
      rw [hu] at h
      simp at h
    · simp [Examples.exLayer, NdArr.scalar] at h
    · unfold patternOf at h
      rw [hn] at h
      simp [Examples.exLayer, NdArr.scalar, NdArr.toGrid] at h
  have hgr : PatternMoved 1 (-1) 0 0 (Examples.rowMats 1) (Examples.rowMats 1) := by
    have hW : WholePixels 0 0 4 4 0 0 := by unfold WholePixels; simp
    refine ⟨rfl, rfl, fun _ => rfl, fun Nx Ny _ h => ?_, fun _ _ h => ?_, .inr ⟨_, _, rfl, rfl, ?_⟩⟩
    · have h' : [4, 4] = [Nx, Ny] := h
      simp only [List.cons.injEq, and_true] at h'
      obtain ⟨rfl, rfl⟩ := h'
      refine ⟨0, 0, hW, fun x hx y hy => ?_⟩
      have e : ∀ x y, x < 4 → y < 4 → (Examples.rowMats 1).epsilon.data [x, y] =
          if y % 2 = 0 then ((25 + 15 * Examples.gth : ℝ) : ℂ) else ((25 - 15 * Examples.gth : ℝ) : ℂ) := by
        intro x y hx hy
        show (NdArr.ofGrid Examples.rowGrid).data [x, y] = _
        simp [NdArr.ofGrid, hx, hy, Examples.rowGrid]
      have p : pixel 4 (1 * (x : ℤ) - 0) < 4 ∧ pixel 4 (-1 * (y : ℤ) - 0) < 4 ∧ pixel 4 (-1 * (y : ℤ) - 0) % 2 = y % 2 := by
        unfold pixel
        omega
      rw [e _ _ hx hy, e _ _ p.1 p.2.1, p.2.2]
    · exact absurd (congrArg List.length h) (by show (2 : ℕ) ≠ 4; norm_num)
    · refine ⟨4, 4, _, _, _, _, 0, 0, rfl, rfl, hW, fun x y x' y' _ _ => ⟨?_, ?_⟩⟩ <;> simp
  have hcopy : ∀ r, (Examples.rowMats r).iscopy = false := fun r => by rcases hmats r with h | h | h <;> rw [h] <;> rfl
  have hmu : ∀ r, (Examples.rowMats r).mu = 1 := fun r => by rcases hmats r with h | h | h <;> rw [h] <;> rfl
  refine ⟨Examples.rowE 1, Examples.oneLat, Examples.rowMats, Examples.rowE_contract, Examples.rowE_sort, rfl, ?_, ?_, ?_, ?_, hmu, ?_, ?_, ?_,
    rfl, rfl, ⟨_, rfl⟩, ?_⟩
  · rintro k H hH
    obtain rfl : [(0, 0)] = H := Option.some.inj hH
    simp
  · refine ⟨by simp, fun _ _ => .inl ⟨rfl, rfl⟩, fun r hr => ?_, fun exc c' h' => ?_, fun r _ H hH g hg => ?_, fun r hr _ => ?_⟩
    · rcases hmats r with h | h | h
      · rw [h]; exact (hsc _).2.2.1
      · rw [h]; exact hgr
      · rw [h]; exact (hsc _).2.2.1
    · have hi := simInit_ok h'
      obtain ⟨k, hk⟩ := hi.harm
      rw [hi.lat_eq 0 rfl, show (Examples.rowE 1).argsort = Examples.exSort from rfl, Examples.one_harm] at hk
      simp only [Except.ok.injEq, Prod.mk.injEq] at hk
      rw [← hk.1]
      simp
    · obtain rfl : [(0, 0)] = H := Option.some.inj hH
      simp only [List.mem_singleton] at hg ⊢
      rw [hg]
      rfl
    · intro r _ hn w w' H nrm t t' hw
      rcases hmats r with h | h | h
      · rw [h] at hw; exact absurd hw ((hsc _).2.2.2 w)
      · rw [h] at hn; simp at hn
      · rw [h] at hw; exact absurd hw ((hsc _).2.2.2 w)
  · refine .inr fun r _ Nx Ny h => ?_
    exfalso
    rcases hmats r with h0 | h0 | h0 <;> rw [h0] at h <;> simp [Examples.exLayer, NdArr.scalar, NdArr.ofGrid] at h
  · intro k r _ h
    rw [hcopy] at h
    simp at h
  · exact .inr ⟨rfl, rfl, rfl, rfl⟩
  · exact .inr ⟨rfl, by simp⟩
  · intro r
    rcases hmats r with h | h | h
    · rw [h]; exact ⟨(hsc _).1, (hsc _).2.1⟩
    · rw [h]
      have hn : ({ Examples.exLayer "Grating" (1 / 2) (NdArr.ofGrid Examples.rowGrid) with
          tangentField := some Examples.rowField } : LayerSpec).isAnisotropic = false := by
        simp [Examples.exLayer, LayerSpec.isAnisotropic, NdArr.ofGrid, isAnisotropic]
      refine ⟨hn, ?_⟩
      unfold Lossless LossIn
      rw [hn]
      simp only [Bool.false_eq_true, if_false]
      intro idx _
      show ((NdArr.ofGrid Examples.rowGrid).data idx).im = 0
      unfold NdArr.ofGrid
      dsimp only
      split
      · split
        · unfold Examples.rowGrid; split <;> exact Complex.ofReal_im _
        · rfl
      · rfl
    · rw [h]; exact ⟨(hsc _).1, (hsc _).2.1⟩
  · have hg := Examples.g_half
    have h1 := Examples.g_one
    refine ⟨_, _, ⟨Examples.exExc, c, Examples.exExc_mk, hc, [], F, ⟨0, hpos⟩, hF, ?_, rfl, rfl⟩, ?_, ?_⟩
    · have h0 := List.get_mem c.harmonics ⟨0, hpos⟩
      have h1 : ∀ x ∈ c.harmonics, x = (0, 0) := by rw [hsim.harm]; simp
      exact h1 _ h0
    · simp only [cons_val_zero]
      rw [(hval _).1, Complex.normSq_neg, Complex.normSq_mul Complex.I, Complex.normSq_I, one_mul,
        show (2 * Examples.gs * Examples.gc : ℂ) = ((2 * Examples.gs * Examples.gc : ℝ) : ℂ) by push_cast; rfl, Complex.normSq_ofReal, ← sq, hg]
    · simp only [cons_val_one, cons_val_zero]
      rw [(hval _).2, show ((Examples.gc : ℂ) ^ 2 - Examples.gs ^ 2) = ((Examples.gc ^ 2 - Examples.gs ^ 2 : ℝ) : ℂ) by push_cast; rfl,
        Complex.normSq_ofReal]
      linear_combination (Examples.gs ^ 2 + Examples.gc ^ 2 + 1) * h1 - hg

end Nannos
