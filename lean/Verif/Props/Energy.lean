import Verif.Proofs.EnergyStack
import Verif.Examples.Run

/-!
Properties C32, C33: conservation of energy and passivity.

Hypotheses on the structure, on top of those of C29-C31: the wave comes from above (`0 < cos theta`) in a
superstrate of real positive permittivity; the specular order is among the retained harmonics (see C08);
the formulation is `"original"`, or the grating is one-dimensional (see C55 for the others).  The layers
strictly between the first and the last one are lossless, or passive with a non-negative thickness.  The
last layer is arbitrary.
-/

namespace Nannos

open Matrix Spec

variable {E : Ext} {lats : ℕ → Lattice} {mats : ℕ → LayerSpec} {stack : List ℕ} {exc : PlaneWave} {nh : ℤ}
  {form : String} {c : Static}

theorem efficiencies_by_order {E : Ext} {c : Static} {d : Dyn c.nh} {R T}
    (h : (diffractionEfficiencies E c true d).1 = .ok (.byOrder R T)) :
    (efficienciesByOrder E c d).1 = .ok (R, T) := by
  unfold diffractionEfficiencies at h
  rw [PyM.bind_def] at h
  rcases he : efficienciesByOrder E c d with ⟨e | ⟨R', T'⟩, d'⟩
  · rw [he] at h; simp at h
  · rw [he] at h
    simp only [if_true, PyM.pure_def, Except.ok.injEq, Efficiencies.byOrder.injEq] at h
    rw [h.1, h.2]

theorem efficiencies_total {E : Ext} {c : Static} {d : Dyn c.nh} {R T : ℝ}
    (h : (diffractionEfficiencies E c false d).1 = .ok (.total R T)) :
    ∃ R' T' : Fin c.nh → ℝ, (efficienciesByOrder E c d).1 = .ok (R', T') ∧ R = ∑ i, R' i ∧ T = ∑ i, T' i := by
  unfold diffractionEfficiencies at h
  rw [PyM.bind_def] at h
  rcases he : efficienciesByOrder E c d with ⟨e | ⟨R', T'⟩, d'⟩
  · rw [he] at h; simp at h
  · rw [he] at h
    simp only [Bool.false_eq_true, if_false, PyM.pure_def, Except.ok.injEq, Efficiencies.total.injEq] at h
    exact ⟨R', T', rfl, h.1.symm, h.2.symm⟩

/-- **C32**. If all the layers between the first and the last one are lossless, `diffraction_efficiencies()`
(after any history) returns `R`, `T` with `R + T = 1` whenever it returns, for any thicknesses. -/
theorem C32_energy_conservation (hinit : simInit E lats mats stack exc nh form = .ok c)
    (hE : EigContract E) (hw : WellPlaced mats stack) (hmu : ∀ r ∈ stack, (mats r).mu = 1)
    (wl : ℝ) (ang : ℝ × ℝ × ℝ) (hp : planeWave wl ang = .ok exc) (hwl : 0 < wl)
    (hcos : 0 < Real.cos exc.theta) (h00 : ((0 : ℤ), (0 : ℤ)) ∈ c.harmonics)
    (hform : form = "original" ∨ c.lattice.is1D = true) (e : ℝ) (hpos : 0 < e)
    (hsup : ∀ r0, stack.head? = some r0 → (mats r0).epsilon.value = (e : ℂ))
    (hin : ∀ k r, 0 < k → k + 1 < stack.length → stack[k]? = some r → Lossless (mats r))
    (hist : List (Call c.nh)) (R T : ℝ)
    (h : (diffractionEfficiencies E c false
      (afterCalls E c hist (Dyn.fresh mats (unsolved c.nh)))).1 = .ok (.total R T)) :
    R + T = 1 := by
  obtain ⟨R', T', h1, rfl, rfl⟩ := efficiencies_total h
  obtain ⟨⟨κ, hκ, h2⟩, -⟩ := energy_balance lossCone_zero hinit hE hw hmu hp hwl hcos h00 hform hpos hsup
    (fun k r a b d => ⟨hin k r a b d, fun _ _ => trivial⟩) hist _ h1
  rw [Set.mem_singleton_iff, mul_eq_zero] at h2
  rcases h2 with h2 | h2
  · exact absurd h2 hκ.ne'
  · dsimp only at h2
    linarith

/-- **C33**. If all the layers between the first and the last one are passive and have a non-negative
thickness, `R + T ≤ 1`; no reflected order has a negative efficiency, and neither has any transmitted order
when the last layer is uniform. -/
theorem C33_passivity (hinit : simInit E lats mats stack exc nh form = .ok c)
    (hE : EigContract E) (hw : WellPlaced mats stack) (hmu : ∀ r ∈ stack, (mats r).mu = 1)
    (wl : ℝ) (ang : ℝ × ℝ × ℝ) (hp : planeWave wl ang = .ok exc) (hwl : 0 < wl)
    (hcos : 0 < Real.cos exc.theta) (h00 : ((0 : ℤ), (0 : ℤ)) ∈ c.harmonics)
    (hform : form = "original" ∨ c.lattice.is1D = true) (e : ℝ) (hpos : 0 < e)
    (hsup : ∀ r0, stack.head? = some r0 → (mats r0).epsilon.value = (e : ℂ))
    (hin : ∀ k r, 0 < k → k + 1 < stack.length → stack[k]? = some r →
      Passive (mats r) ∧ ∀ t, (mats r).thickness = some t → 0 ≤ t)
    (hist : List (Call c.nh)) :
    (∀ R T : ℝ, (diffractionEfficiencies E c false
      (afterCalls E c hist (Dyn.fresh mats (unsolved c.nh)))).1 = .ok (.total R T) → 0 ≤ R ∧ R + T ≤ 1) ∧
    ∀ R T : Fin c.nh → ℝ, (diffractionEfficiencies E c true
      (afterCalls E c hist (Dyn.fresh mats (unsolved c.nh)))).1 = .ok (.byOrder R T) →
      (∀ i, 0 ≤ R i) ∧
      ∀ rN, stack.getLast? = some rN → (mats rN).isUniform = true → ∀ i, 0 ≤ T i := by
  have key := energy_balance lossCone_nonneg hinit hE hw hmu hp hwl hcos h00 hform hpos hsup hin hist
  constructor
  · intro R T h
    obtain ⟨R', T', h1, rfl, rfl⟩ := efficiencies_total h
    obtain ⟨⟨κ, hκ, h2⟩, h3, -⟩ := key _ h1
    refine ⟨Finset.sum_nonneg fun i _ => h3 i, ?_⟩
    have := nonneg_of_mul_nonneg_right (Set.mem_Ici.mp h2) hκ
    dsimp only at this
    linarith
  · intro R T h
    obtain ⟨-, h3, h4⟩ := key _ (efficiencies_by_order h)
    exact ⟨h3, h4⟩

/-! ### The hypotheses are met: air, a lossless grating, air, at normal incidence: `R = 9/25`, `T = 16/25` -/

open Examples in
theorem slab_lossless (S : Set ℝ) (hS : (0 : ℝ) ∈ S) (k r : ℕ) (h0 : 0 < k)
    (hk : k + 1 < ([0, 1, 2] : List ℕ).length) (hr : ([0, 1, 2] : List ℕ)[k]? = some r) :
    LossIn S (slabMats r) ∧ ∀ t, (slabMats r).thickness = some t → 0 ≤ t := by
  obtain rfl : k = 1 := by simp at hk; omega
  obtain rfl : 1 = r := by simpa using hr
  have e : slabMats 1 = exLayer "Slab" (1 / 8) (NdArr.ofGrid exGrid) := by simp [slabMats]
  rw [e]
  constructor
  · unfold LossIn
    rw [if_neg (by simp [exLayer, LayerSpec.isAnisotropic, NdArr.ofGrid, isAnisotropic])]
    intro idx _
    have : ((exLayer "Slab" (1 / 8) (NdArr.ofGrid exGrid)).epsilon.data idx).im = 0 := by
      simp only [exLayer, NdArr.ofGrid]
      split
      · split
        · unfold exGrid; split <;> simp
        · rfl
      · rfl
    rw [this]
    exact hS
  · intro t ht
    simp only [exLayer, Option.some.injEq] at ht
    rw [← ht]; norm_num

open Examples in
/-- Efficiencies of the grating. -/
theorem slab_total {c : Static} (hn : NormalSim c) (hst : c.stack = [0, 1, 2]) (hfl : c.incidentFlux = 1) :
    (diffractionEfficiencies exE c false (Dyn.fresh slabMats (unsolved c.nh))).1 =
      .ok (.total (9 / 25) (16 / 25)) := by
  have hnd : c.stack.Nodup := by rw [hst]; decide
  have h1 := ex_efficiencies hn (mats := slabMats) slabN hnd (fun r _ => slab_index r)
    (t := 4 * Complex.I / 5) (x := 3 / 5) (r := 3 / 5) (y := 4 * Complex.I / 5) (r0 := 0) (rN := 2) (by
      rw [hst, hn.omega]
      have h2 := slab_02 (m := Idx c.nh)
      simp only [slabModes] at h2
      simp [slabN, slabMats, exLayer]
      norm_num at h2 ⊢
      rw [h2]) (by rw [hst]; rfl) (by rw [hst]; rfl) (by rw [hfl]; norm_num)
  rw [h1, hfl]
  norm_num [slabN]

open Examples in
/-- C32 and C33 apply to the grating, after any history, and the efficiencies are those expected. -/
example : ∃ c, simInit exE (fun _ => exLat) slabMats [0, 1, 2] exExc 1 "original" = .ok c ∧
    (diffractionEfficiencies exE c false (Dyn.fresh slabMats (unsolved c.nh))).1 =
      .ok (.total (9 / 25) (16 / 25)) ∧
    ∀ hist R T, (diffractionEfficiencies exE c false
      (afterCalls exE c hist (Dyn.fresh slabMats (unsolved c.nh)))).1 = .ok (.total R T) →
      R + T = 1 ∧ 0 ≤ R := by
  obtain ⟨c, hc, hn, hst, -, hfl⟩ := slab_init
  have hcos : 0 < Real.cos exExc.theta := by simp [exExc]
  have h00 : ((0 : ℤ), (0 : ℤ)) ∈ c.harmonics := by rw [hn.harm]; simp
  have hsup : ∀ r0, ([0, 1, 2] : List ℕ).head? = some r0 → (slabMats r0).epsilon.value = ((1 : ℝ) : ℂ) := by
    intro r0 h
    obtain rfl : 0 = r0 := by simpa using h
    simp [slabMats, exLayer, NdArr.scalar, NdArr.value]
  refine ⟨c, hc, ?_, fun hist R T h => ⟨?_, ?_⟩⟩
  · exact slab_total hn hst hfl
  · exact C32_energy_conservation hc exE_eig slab_placed (fun r _ => slab_mu r) 1 (0, 0, 0) exExc_mk one_pos
      hcos h00 (.inl rfl) 1 one_pos hsup (fun k r a b d => (slab_lossless {0} rfl k r a b d).1) hist R T h
  · exact ((C33_passivity hc exE_eig slab_placed (fun r _ => slab_mu r) 1 (0, 0, 0) exExc_mk one_pos
      hcos h00 (.inl rfl) 1 one_pos hsup (fun k r a b d => slab_lossless _ (Set.mem_Ici.mpr le_rfl) k r a b d)
      hist).1 R T h).1

end Nannos
