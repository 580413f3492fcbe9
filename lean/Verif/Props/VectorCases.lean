import Verif.Props.Absorbing
import Verif.Props.FluxBalance
import Verif.Examples.LossyColumns
import Verif.Examples.OneOrder

/-! Cases of C85 and C96 with two periods, the formulation `tangent` and the same vector at all pixels. -/

namespace Nannos.Examples

open Matrix Spec

variable {c : Static}

theorem col_placed (u : ℂ) : WellPlaced (colMats u) [0, 1, 2] := by
  intro k r hk hcp
  have hr : r ∈ ([0, 1, 2] : List ℕ) := List.mem_of_getElem? hk
  simp only [List.mem_cons, List.not_mem_nil, or_false] at hr
  rcases hr with rfl | rfl | rfl <;> exact absurd hcp (by show ¬ (false = true); decide)

theorem col_mu (u : ℂ) : ∀ r ∈ ([0, 1, 2] : List ℕ), (colMats u r).mu = 1 := by
  intro r hr
  simp only [List.mem_cons, List.not_mem_nil, or_false] at hr
  rcases hr with rfl | rfl | rfl <;> rfl

theorem col_iso (u : ℂ) : (colMats u 1).isAnisotropic = false := by
  simp [colMats, exLayer, LayerSpec.isAnisotropic, NdArr.ofGrid, isAnisotropic]

theorem col_vectors (u : ℂ) (E : Ext) (c : Static) : ∀ r ∈ ([0, 1, 2] : List ℕ), (colMats u r).isUniform = false →
    (colMats u r).isAnisotropic = false ∧ ConstantVectorsUsed E c (colMats u r) := by
  intro r hr hu
  simp only [List.mem_cons, List.not_mem_nil, or_false] at hr
  rcases hr with rfl | rfl | rfl
  · exact absurd hu (by show ¬ (true = false); decide)
  · exact ⟨col_iso u, Spec.ConstantVectors.used ⟨4, 4, 0, 1, rfl⟩⟩
  · exact absurd hu (by show ¬ (true = false); decide)

/-- The simulation of the columns is solved, with complete modes. -/
theorem OneSim.colSolved (h : OneSim c) {u : ℂ} (hu : u ≠ 0) :
    ∃ d1, solve exE c (Dyn.fresh (colMats u) (unsolved c.nh)) = (.ok (), d1) ∧
      ∀ r ∈ ([0, 1, 2] : List ℕ), ∀ ev, (d1.attrs r).eig = some ev → ev.2.det ≠ 0 := by
  let ev : ℕ → (Idx c.nh → ℂ) × Matrix (Idx c.nh) (Idx c.nh) ℂ := fun r =>
    if r = 1 then (fun i => modeSqrt ((lw : ℂ) ^ 2 * (u * oneP c i)), 1) else (fun _ => (lw : ℂ), 1)
  let Q : ℕ → Matrix (Idx c.nh) (Idx c.nh) ℂ := fun _ => (lw : ℂ) ^ 2 • 1
  have hnd : c.stack.Nodup := by rw [h.stack]; decide
  obtain ⟨A1, hs, h3, h4⟩ := solved_steps (E := exE) (mats := colMats u) ev Q hnd (by
    intro r hr Ao
    rw [h.stack] at hr
    simp only [List.mem_cons, List.not_mem_nil, or_false] at hr
    rcases hr with rfl | rfl | rfl
    · exact h.air _ rfl rfl rfl Ao
    · exact h.columns hu Ao
    · exact h.air _ rfl rfl rfl Ao)
  have hrun := hs.run (Dyn.fresh (colMats u) (unsolved c.nh)) rfl (.inl rfl)
  refine ⟨_, by unfold solve; rw [PyM.bind_ok hrun]; rfl, fun r hr e he => ?_⟩
  have hm := h4 r (by rw [h.stack]; exact hr)
  have he' : (A1 r).eig = some e := he
  unfold modesOf at hm
  rw [he'] at hm
  simp only [attr, except_bind_ok] at hm
  rw [bind_eq_ok] at hm
  obtain ⟨Q', -, hm⟩ := hm
  simp only [except_pure_eq_ok, Except.ok.injEq, Modes.mk.injEq] at hm
  rw [hm.2.1]
  have hone : (ev r).2 = 1 := by
    show (if r = 1 then _ else _ : (Idx c.nh → ℂ) × Matrix (Idx c.nh) (Idx c.nh) ℂ).2 = 1
    split <;> rfl
  rw [hone]
  simp

/-- Columns of permittivities `i` and `7 i` absorb. -/
theorem col_absorbing : Absorbing (colMats Complex.I 1) := by
  unfold Absorbing
  rw [if_neg (by rw [col_iso]; simp)]
  intro idx hidx
  have hsh : (colMats Complex.I 1).epsilon = NdArr.ofGrid (colGrid Complex.I) := rfl
  rw [hsh] at hidx ⊢
  have hsh2 : (NdArr.ofGrid (colGrid Complex.I)).shape = [4, 4] := rfl
  rw [hsh2] at hidx
  obtain ⟨x, l, hx, h1, rfl⟩ := List.forall₂_cons_right_iff.mp hidx
  obtain ⟨y, l', hy, h2, rfl⟩ := List.forall₂_cons_right_iff.mp h1
  obtain rfl := List.forall₂_nil_right_iff.mp h2
  unfold NdArr.ofGrid
  dsimp only
  rw [dif_pos ⟨hx, hy⟩]
  unfold colGrid
  split <;> simp

/-- **C85** with vectors: absorbing columns in air on a square lattice, formulation `tangent`; all the hypotheses hold and results
are returned. -/
example : ∃ c d1, simInit exE (fun _ => oneLat) (colMats Complex.I) [0, 1, 2] exExc 1 "tangent" = .ok c ∧
    c.lattice.is1D = false ∧ Absorbing (colMats Complex.I 1) ∧
    solve exE c (Dyn.fresh (colMats Complex.I) (unsolved c.nh)) = (.ok (), d1) ∧
    ∀ hist : List (Call c.nh), (∃ X, (diffractionEfficiencies exE c true
      (afterCalls exE c hist (Dyn.fresh (colMats Complex.I) (unsolved c.nh)))).1 = .ok X) ∧
      ∃ Fs, (getFieldFourier exE c (.idx 1) [1 / 2] (afterCalls exE c hist (Dyn.fresh (colMats Complex.I) (unsolved c.nh)))).1 = .ok Fs := by
  obtain ⟨c, hc, h⟩ := col_init Complex.I (exc := exExc) rfl rfl rfl rfl
  obtain ⟨d1, hs, hdet⟩ := h.colSolved Complex.I_ne_zero
  have hgr : ∀ i : Fin c.nh, (1 : ℂ) * (c.omega : ℂ) ^ 2 ≠ c.kx i ^ 2 + c.ky i ^ 2 := by
    intro i
    rw [h.kx, h.ky, h.om]
    have : (lw : ℂ) ≠ 0 := by exact_mod_cast lw_pos.ne'
    simpa using this
  have hv : ∀ r, r ≠ 1 → (colMats Complex.I r).epsilon.value = 1 := by
    intro r hr
    unfold colMats
    rw [if_neg hr]
    split <;> rfl
  refine ⟨c, d1, hc, by rw [h.lat]; rfl, col_absorbing, hs, fun hist => ?_⟩
  have := C85_absorbing_results_defined hc exE_eig (col_placed _) (col_mu _) exExc_mk one_pos (by simp [exExc]) (by rw [h.harm]; simp)
    (.inr (.inr (col_vectors _ _ _))) one_pos (by simp) (by
      intro r0 h0
      obtain rfl : 0 = r0 := by simpa using h0
      rw [hv 0 (by decide)]; simp) (by simpa using hgr) (by
      intro k r hk hk' hr
      obtain rfl : k = 1 := by simp at hk'; omega
      obtain rfl : 1 = r := by simpa using hr
      refine ⟨col_absorbing, fun t ht => ?_⟩
      have : (1 : ℝ) = t := Option.some.inj ht
      rw [← this]; norm_num) (by
      intro r h0
      obtain rfl : 2 = r := by simpa using h0
      exact .inr ⟨⟨rfl, rfl, rfl⟩, by rw [hv 2 (by decide)]; exact hgr, 1, 1, 1, by norm_num, by simp, rfl, rfl, by norm_num⟩) hs hdet hist
  exact ⟨this.1 true, this.2 (.idx 1) 1 1 (by unfold getLayer; rw [h.stack]; rfl) (.inl (by norm_num)) 1 rfl [1 / 2]⟩

theorem one_lossless : Lossless (oneMats 1) := by
  have hu : (oneMats 1).isAnisotropic = false := by
    simp [oneMats, exLayer, LayerSpec.isAnisotropic, NdArr.ofGrid, isAnisotropic]
  unfold Lossless LossIn
  rw [hu]
  simp only [Bool.false_eq_true, if_false]
  intro idx _
  show ((NdArr.ofGrid oneGrid).data idx).im = 0
  unfold NdArr.ofGrid
  dsimp only
  split
  · split
    · unfold oneGrid; split <;> simp
    · rfl
  · rfl

/-- **C96** with vectors: lossless columns in air on a square lattice, formulation `tangent`, lit from both sides. -/
example : ∃ c S, simInit exE (fun _ => oneLat) oneMats [0, 1, 2] exExc 1 "tangent" = .ok c ∧ c.lattice.is1D = false ∧
    (getS exE c none (Dyn.fresh oneMats (unsolved c.nh))).1 = .ok S ∧
    ∀ a b : Idx c.nh → ℂ, ∃ F0 FN : (Fin c.nh → ℝ) × (Fin c.nh → ℝ),
      (getZPoyntingFlux exE c 0 a (S.s21 *ᵥ a + S.s22 *ᵥ b) (Dyn.fresh oneMats (unsolved c.nh))).1 = .ok F0 ∧
      (getZPoyntingFlux exE c (-1) (S.s11 *ᵥ a + S.s12 *ᵥ b) b (Dyn.fresh oneMats (unsolved c.nh))).1 = .ok FN ∧
      ∑ i, (F0.1 i + F0.2 i) = ∑ i, (FN.1 i + FN.2 i) := by
  obtain ⟨c, hc, h⟩ := one_init
  obtain ⟨RT, d', hRT⟩ := h.byOrder
  have hnd : c.stack.Nodup := (simInit_ok hc).nodup
  obtain ⟨A, res, hs, -⟩ := solveSpec_of_noStale (E := exE) hnd (noStale_unsolved oneMats c.stack)
  have hinv := inv_fresh (E := exE) (c := c) (mats := oneMats) (A0 := unsolved c.nh) (A1 := A) (res := res) _ (.inl rfl)
  obtain ⟨-, S, -, -, -, -, -, -, hS, -⟩ := yields_efficiencies hs _ RT _ hinv hRT
  have hS' := ((det_getS' hs none) _ hinv).1.trans hS
  have hmu : ∀ r ∈ [0, 1, 2], (oneMats r).mu = 1 := by
    intro r hr
    simp only [List.mem_cons, List.not_mem_nil, or_false] at hr
    rcases hr with rfl | rfl | rfl <;> rfl
  have hw : WellPlaced oneMats [0, 1, 2] := by
    intro k r hk hcp
    have hr : r ∈ ([0, 1, 2] : List ℕ) := List.mem_of_getElem? hk
    simp only [List.mem_cons, List.not_mem_nil, or_false] at hr
    rcases hr with rfl | rfl | rfl <;> exact absurd hcp (by show ¬ (false = true); decide)
  refine ⟨c, S, hc, by rw [h.lat]; rfl, hS', fun a b => ?_⟩
  exact C96_flux_conservation hc exE_eig hw hmu 1 (0, 0, 0) exExc_mk one_pos (by rw [h.harm]; simp)
    (.inr (.inr ⟨by rw [h.harm]; simp, fun r hr hru => by
      simp only [List.mem_cons, List.not_mem_nil, or_false] at hr
      rcases hr with rfl | rfl | rfl
      · exact absurd hru (by show ¬ (true = false); decide)
      · exact ⟨by simp [oneMats, exLayer, LayerSpec.isAnisotropic, NdArr.ofGrid, isAnisotropic],
          Spec.ConstantVectors.used ⟨4, 4, 0, 1, rfl⟩⟩
      · exact absurd hru (by show ¬ (true = false); decide)⟩)) 1 one_pos (fun r0 h0 => by
      obtain rfl : 0 = r0 := by simpa using h0
      simp [oneMats, exLayer, NdArr.scalar, NdArr.value]) (fun k r h1 h2 h3 => by
      simp only [List.length_cons, List.length_nil] at h2
      obtain rfl : k = 1 := by omega
      obtain rfl : 1 = r := by simpa using h3
      exact one_lossless) (fun r hr => by
      simp only [List.head?_cons, Option.some.injEq, List.getLast?_cons_cons, List.getLast?_singleton] at hr
      rcases hr with rfl | rfl <;> simp [oneMats, exLayer]) [] _ hS' a b [] []

end Nannos.Examples
