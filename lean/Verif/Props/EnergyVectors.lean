import Verif.Proofs.EnergyVectors
import Verif.Props.Energy
import Verif.Examples.OneOrder

/-! **C95**: energy in the formulations with vector fields. -/

namespace Nannos

open Matrix Spec

variable {E : Ext} {lats : ℕ → Lattice} {mats : ℕ → LayerSpec} {stack : List ℕ} {exc : PlaneWave} {nh : ℤ}
  {form : String} {c : Static}

/-- **C95**, proved part: in all formulations, on lattices with one or two periods, lossless inner layers conserve energy, and
passive ones do not create any, if the tangent vectors used for each patterned layer, given or generated, do not vary over the
unit cell.  (`C95_energy_created` shows that this is false for vectors which vary.) -/
theorem C95_constant_vectors_used_partial (hinit : simInit E lats mats stack exc nh form = .ok c)
    (hE : EigContract E) (hw : WellPlaced mats stack) (hmu : ∀ r ∈ stack, (mats r).mu = 1)
    (wl : ℝ) (ang : ℝ × ℝ × ℝ) (hp : planeWave wl ang = .ok exc) (hwl : 0 < wl)
    (hcos : 0 < Real.cos exc.theta) (h00 : ((0 : ℤ), (0 : ℤ)) ∈ c.harmonics) (hnd : c.harmonics.Nodup) (e : ℝ) (hpos : 0 < e)
    (hsup : ∀ r0, stack.head? = some r0 → (mats r0).epsilon.value = (e : ℂ))
    (hvec : ∀ r ∈ stack, (mats r).isUniform = false → (mats r).isAnisotropic = false ∧ ConstantVectorsUsed E c (mats r))
    (hist : List (Call c.nh)) (R T : ℝ)
    (h : (diffractionEfficiencies E c false
      (afterCalls E c hist (Dyn.fresh mats (unsolved c.nh)))).1 = .ok (.total R T)) :
    ((∀ k r, 0 < k → k + 1 < stack.length → stack[k]? = some r → Lossless (mats r)) → R + T = 1) ∧
    ((∀ k r, 0 < k → k + 1 < stack.length → stack[k]? = some r →
      Passive (mats r) ∧ ∀ t, (mats r).thickness = some t → 0 ≤ t) → 0 ≤ R ∧ R + T ≤ 1) := by
  have hi := simInit_ok hinit
  have hf1 : c.lattice.is1D = true → c.formulation = "original" ∨ c.formulation = "tangent" := by
    intro h1d
    obtain ⟨r0, tl, e0⟩ := List.exists_cons_of_ne_nil hi.ne
    have hhead : stack.head? = some r0 := by rw [e0]; rfl
    rw [hi.form_eq]
    refine hi.form1 r0 hhead ?_
    rw [← hi.lat_eq r0 hhead]; exact h1d
  have hf := hi.form
  rw [← hi.form_eq] at hf
  obtain ⟨R', T', h1, rfl, rfl⟩ := efficiencies_total h
  constructor
  · intro hin
    obtain ⟨⟨κ, hκ, h2⟩, -⟩ := energy_balance_of lossCone_zero hinit hE hw hmu hp hwl hcos h00 hpos hsup
      (fun k r a b d => ⟨fun P ee hm => medium_form_used lossCone_zero hnd hf hf1 hw hvec hm (List.mem_of_getElem? d) (hin k r a b d),
        fun _ _ => trivial⟩) hist _ h1
    rw [Set.mem_singleton_iff, mul_eq_zero] at h2
    rcases h2 with h2 | h2
    · exact absurd h2 hκ.ne'
    · dsimp only at h2
      linarith
  · intro hin
    obtain ⟨⟨κ, hκ, h2⟩, h3, -⟩ := energy_balance_of lossCone_nonneg hinit hE hw hmu hp hwl hcos h00 hpos hsup
      (fun k r a b d => ⟨fun P ee hm => medium_form_used lossCone_nonneg hnd hf hf1 hw hvec hm (List.mem_of_getElem? d) (hin k r a b d).1,
        (hin k r a b d).2⟩) hist _ h1
    refine ⟨Finset.sum_nonneg fun i _ => h3 i, ?_⟩
    have := nonneg_of_mul_nonneg_right (Set.mem_Ici.mp h2) hκ
    dsimp only at this
    linarith

/-- **C95**, proved part: in all formulations, on lattices with one or two periods, lossless inner layers conserve energy, and
passive ones do not create any, if the tangent vectors given to each patterned layer do not vary over the unit cell.
(`C95_energy_created` shows that this is false for vectors which vary.) -/
theorem C95_constant_vectors_partial (hinit : simInit E lats mats stack exc nh form = .ok c)
    (hE : EigContract E) (hw : WellPlaced mats stack) (hmu : ∀ r ∈ stack, (mats r).mu = 1)
    (wl : ℝ) (ang : ℝ × ℝ × ℝ) (hp : planeWave wl ang = .ok exc) (hwl : 0 < wl)
    (hcos : 0 < Real.cos exc.theta) (h00 : ((0 : ℤ), (0 : ℤ)) ∈ c.harmonics) (hnd : c.harmonics.Nodup) (e : ℝ) (hpos : 0 < e)
    (hsup : ∀ r0, stack.head? = some r0 → (mats r0).epsilon.value = (e : ℂ))
    (hvec : ∀ r ∈ stack, (mats r).isUniform = false → (mats r).isAnisotropic = false ∧ ConstantVectors (mats r))
    (hist : List (Call c.nh)) (R T : ℝ)
    (h : (diffractionEfficiencies E c false
      (afterCalls E c hist (Dyn.fresh mats (unsolved c.nh)))).1 = .ok (.total R T)) :
    ((∀ k r, 0 < k → k + 1 < stack.length → stack[k]? = some r → Lossless (mats r)) → R + T = 1) ∧
    ((∀ k r, 0 < k → k + 1 < stack.length → stack[k]? = some r →
      Passive (mats r) ∧ ∀ t, (mats r).thickness = some t → 0 ≤ t) → 0 ≤ R ∧ R + T ≤ 1) :=
  C95_constant_vectors_used_partial hinit hE hw hmu wl ang hp hwl hcos h00 hnd e hpos hsup
    (fun r hr hu => ⟨(hvec r hr hu).1, (hvec r hr hu).2.used⟩) hist R T h

namespace Examples

/-- C95: a grating on a square lattice, with the same tangent vector at all pixels, formulation `tangent`. -/
example : ∃ c R T, simInit exE (fun _ => oneLat) oneMats [0, 1, 2] exExc 1 "tangent" = .ok c ∧
    EigContract exE ∧ WellPlaced oneMats [0, 1, 2] ∧ (∀ r ∈ [0, 1, 2], (oneMats r).mu = 1) ∧ planeWave 1 (0, 0, 0) = .ok exExc ∧
    0 < Real.cos exExc.theta ∧ ((0 : ℤ), (0 : ℤ)) ∈ c.harmonics ∧ c.harmonics.Nodup ∧ c.lattice.is1D = false ∧
    (oneMats 0).epsilon.value = ((1 : ℝ) : ℂ) ∧ (oneMats 1).isUniform = false ∧ (∀ r ∈ [0, 1, 2], (oneMats r).isUniform = false →
      (oneMats r).isAnisotropic = false ∧ ConstantVectors (oneMats r)) ∧ Lossless (oneMats 1) ∧
    (diffractionEfficiencies exE c false (afterCalls exE c [] (Dyn.fresh oneMats (unsolved c.nh)))).1 = .ok (.total R T) ∧
    R + T = 1 := by
  obtain ⟨c, hc, h⟩ := one_init
  obtain ⟨R, T, hRT⟩ := h.efficiencies
  have hw : WellPlaced oneMats [0, 1, 2] := by
    intro k r _ hcp
    exfalso
    unfold oneMats at hcp
    split at hcp
    · simp [exLayer] at hcp
    · split at hcp <;> simp [exLayer] at hcp
  have hmu : ∀ r ∈ [0, 1, 2], (oneMats r).mu = 1 := by
    intro r hr
    simp only [List.mem_cons, List.not_mem_nil, or_false] at hr
    rcases hr with rfl | rfl | rfl <;> rfl
  have hcos : 0 < Real.cos exExc.theta := by simp [exExc]
  have h00 : ((0 : ℤ), (0 : ℤ)) ∈ c.harmonics := by rw [h.harm]; simp
  have hnd : c.harmonics.Nodup := by rw [h.harm]; simp
  have hsup : (oneMats 0).epsilon.value = ((1 : ℝ) : ℂ) := by simp [oneMats, exLayer, NdArr.scalar, NdArr.value]
  have hu : (oneMats 1).isUniform = false ∧ (oneMats 1).isAnisotropic = false := by
    constructor <;> simp [oneMats, exLayer, LayerSpec.isUniform, LayerSpec.isAnisotropic, NdArr.ofGrid, isUniform, isAnisotropic]
  have hvec : ∀ r ∈ [0, 1, 2], (oneMats r).isUniform = false → (oneMats r).isAnisotropic = false ∧ ConstantVectors (oneMats r) := by
    intro r hr hru
    simp only [List.mem_cons, List.not_mem_nil, or_false] at hr
    rcases hr with rfl | rfl | rfl
    · simp [oneMats, exLayer, LayerSpec.isUniform, NdArr.scalar, isUniform, isAnisotropic] at hru
    · exact ⟨hu.2, 4, 4, 0, 1, rfl⟩
    · simp [oneMats, exLayer, LayerSpec.isUniform, NdArr.scalar, isUniform, isAnisotropic] at hru
  have hl : Lossless (oneMats 1) := by
    unfold Lossless LossIn
    rw [hu.2]
    simp only [Bool.false_eq_true, if_false]
    intro idx _
    show ((NdArr.ofGrid oneGrid).data idx).im = 0
    unfold NdArr.ofGrid
    dsimp only
    split
    · split
      · unfold oneGrid; split <;> simp
      · rfl
    · rfl
  refine ⟨c, R, T, hc, exE_eig, hw, hmu, exExc_mk, hcos, h00, hnd, by rw [h.lat]; rfl, hsup, hu.1, hvec, hl, hRT, ?_⟩
  refine (C95_constant_vectors_partial hc exE_eig hw hmu 1 (0, 0, 0) exExc_mk one_pos hcos h00 hnd 1 one_pos (fun r0 h0 => ?_) hvec [] R T
    hRT).1 fun k r h1 h2 h3 => ?_
  · simp only [List.head?_cons, Option.some.injEq] at h0
    subst h0; exact hsup
  · simp only [List.length_cons, List.length_nil] at h2
    obtain rfl : k = 1 := by omega
    simp only [List.getElem?_cons_succ, List.getElem?_cons_zero, Option.some.injEq] at h3
    subst h3; exact hl

end Examples

/-- **C95**, a defect: for tangent vectors which vary, a lossless grating in air can send out more than 115 % of the power it
receives. The formulation is `tangent`; the lattice has two periods; the orders `0` and `-1` are kept and both leave at the angle
of incidence; the grating has one column in four of permittivity 3, and real tangent vectors, `(0, 1)` on the next column and zero
elsewhere. -/
theorem C95_energy_created : ∃ (E : Ext) (lat : Lattice) (mats : ℕ → LayerSpec) (angle : ℝ) (exc : PlaneWave) (c : Static) (T : ℝ),
    EigContract E ∧ ArgsortContract E.argsort ∧
    (∃ a, 0 < a ∧ mkLattice (.vectors ![![a, 0], ![0, 1]]) (.int 4) "circular" (some [(0, 0), (-1, 0)]) = .ok lat) ∧
    planeWave 1 (angle, 0, 90) = .ok exc ∧ 0 < Real.cos exc.theta ∧
    simInit E (fun _ => lat) mats [0, 1, 2] exc 2 "tangent" = .ok c ∧ c.harmonics.Perm [(0, 0), (-1, 0)] ∧
    (∀ r, (mats r).mu = 1 ∧ (mats r).iscopy = false ∧ (mats r).isAnisotropic = false ∧ Lossless (mats r)) ∧
    (mats 0).epsilon = NdArr.scalar 1 ∧ (mats 2).epsilon = NdArr.scalar 1 ∧
    (mats 1).epsilon = NdArr.ofGrid (fun (x : Fin 4) (_ : Fin 4) => if x = 0 then 3 else 1) ∧
    (∃ t, 0 < t ∧ (mats 1).thickness = some t) ∧
    (mats 1).tangentField = some ⟨4, 4, fun _ _ => 0, fun x _ => if x = 1 then 1 else 0⟩ ∧
    (diffractionEfficiencies E c false (Dyn.fresh mats (unsolved c.nh))).1 = .ok (.total 0 T) ∧ 23 / 20 < T := by
  obtain ⟨exc, c, hp, hcos, hc, i0, i1, h⟩ := Examples.littrow_init Examples.exSort_spec (E := Examples.exE)
  have hS := Examples.lS_pos
  have hC := Examples.lC_pos
  refine ⟨Examples.littrowE c i0, Examples.littrowLat, Examples.littrowMats, Examples.lAngle, exc, c, _, h.contract,
    Examples.littrowE_sort c i0, ⟨1 / (2 * Examples.lS), by positivity, rfl⟩, hp, by rw [hcos]; exact hC, hc, ?_, ?_, rfl, rfl, rfl,
    ⟨1 / (4 * Examples.lC), by positivity, rfl⟩, rfl, h.efficiencies, Examples.littrow_more⟩
  · have hi := simInit_ok hc
    obtain ⟨H, hH, hG⟩ := Examples.littrow_harm (E := Examples.exE) Examples.exSort_spec
    obtain ⟨k, hk⟩ := hi.harm
    rw [h.lat, hG] at hk
    simp only [Except.ok.injEq, Prod.mk.injEq] at hk
    rw [← hk.1]; exact hH
  · have hsc : ∀ name d, (Examples.exLayer name d (NdArr.scalar 1)).isAnisotropic = false ∧ Lossless (Examples.exLayer name d (NdArr.scalar 1)) := by
      intro name d
      have : (Examples.exLayer name d (NdArr.scalar 1)).isAnisotropic = false := rfl
      refine ⟨this, ?_⟩
      unfold Lossless LossIn
      rw [this]
      simp only [Bool.false_eq_true, if_false]
      intro idx _
      simp [Examples.exLayer, NdArr.scalar]
    intro r
    by_cases h0 : r = 0
    · subst h0; exact ⟨rfl, rfl, hsc _ _⟩
    by_cases h1 : r = 1
    · subst h1
      have ha : (Examples.littrowMats 1).isAnisotropic = false := by
        simp [Examples.littrowMats, Examples.exLayer, LayerSpec.isAnisotropic, NdArr.ofGrid, isAnisotropic]
      refine ⟨rfl, rfl, ha, ?_⟩
      unfold Lossless LossIn
      rw [ha]
      simp only [Bool.false_eq_true, if_false]
      intro idx _
      show ((NdArr.ofGrid Examples.littrowGrid).data idx).im = 0
      unfold NdArr.ofGrid
      dsimp only
      split
      · split
        · unfold Examples.littrowGrid; split <;> simp
        · rfl
      · rfl
    · have : Examples.littrowMats r = Examples.exLayer "Substrate" 0 (NdArr.scalar 1) := by
        unfold Examples.littrowMats; rw [if_neg h0, if_neg h1]
      rw [this]
      exact ⟨rfl, rfl, hsc _ _⟩

end Nannos
