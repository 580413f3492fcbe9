import Verif.Proofs.FluxBalance
import Verif.Proofs.EnergyVectors
import Verif.Props.Energy
import Verif.Props.Sim

/-! **C96**: power balance of the scattering matrix for arbitrary waves coming from both sides. -/

namespace Nannos

open Matrix Spec

variable {E : Ext} {lats : ℕ → Lattice} {mats : ℕ → LayerSpec} {stack : List ℕ} {exc : PlaneWave} {nh : ℤ}
  {form : String} {c : Static}

/-- The signs of the permittivity operators, in the formulation `original`, for one period, or with constant vectors. -/
theorem inner_forms {S : Set ℝ} {D : ℝ → Prop} (hS : LossCone S D) (hinit : simInit E lats mats stack exc nh form = .ok c)
    (hw : WellPlaced mats stack)
    (hform : form = "original" ∨ c.lattice.is1D = true ∨ (c.harmonics.Nodup ∧ ∀ r ∈ stack, (mats r).isUniform = false →
      (mats r).isAnisotropic = false ∧ ConstantVectorsUsed E c (mats r)))
    (hin : ∀ k r, 0 < k → k + 1 < stack.length → stack[k]? = some r →
      LossIn S (mats r) ∧ ∀ t, (mats r).thickness = some t → D t) (k r : ℕ) (h1 : 0 < k) (h2 : k + 1 < stack.length)
    (h3 : stack[k]? = some r) :
    (∀ P ee, Medium E c mats r P ee → Form S P ∧ Form S ee) ∧ ∀ t, (mats r).thickness = some t → D t := by
  have hi := simInit_ok hinit
  obtain ⟨i1, i2⟩ := hin k r h1 h2 h3
  have hf1 : c.lattice.is1D = true → c.formulation = "original" ∨ c.formulation = "tangent" := by
    intro h1d
    obtain ⟨r0, tl, e0⟩ := List.exists_cons_of_ne_nil hi.ne
    have hhead : stack.head? = some r0 := by rw [e0]; rfl
    rw [hi.form_eq]
    refine hi.form1 r0 hhead ?_
    rw [← hi.lat_eq r0 hhead]; exact h1d
  refine ⟨fun P ee hm => ?_, i2⟩
  rcases hform with hform | hform | ⟨hnd, hvec⟩
  · exact medium_form hS (by rw [hi.form_eq]; exact .inl hform) hf1 hw hm (List.mem_of_getElem? h3) i1
  · exact medium_form hS (.inr hform) hf1 hw hm (List.mem_of_getElem? h3) i1
  · have hf := hi.form
    rw [← hi.form_eq] at hf
    exact medium_form_used hS hnd hf hf1 hw hvec hm (List.mem_of_getElem? h3) i1

/-- **C96**. Let `get_S_matrix` have returned `S`. Whatever waves `a` and `b` come from the first and from the last layer, in any
orders, propagating or evanescent, `get_z_poynting_flux` returns for the waves in the first layer and for those in the last one,
and the total fluxes are equal if the layers in between are lossless. -/
theorem C96_flux_conservation (hinit : simInit E lats mats stack exc nh form = .ok c)
    (hE : EigContract E) (hw : WellPlaced mats stack) (hmu : ∀ r ∈ stack, (mats r).mu = 1)
    (wl : ℝ) (ang : ℝ × ℝ × ℝ) (hp : planeWave wl ang = .ok exc) (hwl : 0 < wl) (h00 : ((0 : ℤ), (0 : ℤ)) ∈ c.harmonics)
    (hform : form = "original" ∨ c.lattice.is1D = true ∨ (c.harmonics.Nodup ∧ ∀ r ∈ stack, (mats r).isUniform = false →
      (mats r).isAnisotropic = false ∧ ConstantVectorsUsed E c (mats r))) (e : ℝ) (hpos : 0 < e)
    (hsup : ∀ r0, stack.head? = some r0 → (mats r0).epsilon.value = (e : ℂ))
    (hin : ∀ k r, 0 < k → k + 1 < stack.length → stack[k]? = some r → Lossless (mats r))
    (hends : ∀ r, stack.head? = some r ∨ stack.getLast? = some r → (mats r).thickness.getD 0 = 0)
    (hist : List (Call c.nh)) (S : SMat (Idx c.nh))
    (h : (getS E c none (afterCalls E c hist (Dyn.fresh mats (unsolved c.nh)))).1 = .ok S) (a b : Idx c.nh → ℂ)
    (hist0 histN : List (Call c.nh)) :
    ∃ F0 FN : (Fin c.nh → ℝ) × (Fin c.nh → ℝ),
      (getZPoyntingFlux E c 0 a (S.s21 *ᵥ a + S.s22 *ᵥ b)
        (afterCalls E c hist0 (Dyn.fresh mats (unsolved c.nh)))).1 = .ok F0 ∧
      (getZPoyntingFlux E c (-1) (S.s11 *ᵥ a + S.s12 *ᵥ b) b
        (afterCalls E c histN (Dyn.fresh mats (unsolved c.nh)))).1 = .ok FN ∧
      ∑ i, (F0.1 i + F0.2 i) = ∑ i, (FN.1 i + FN.2 i) := by
  have hi := simInit_ok hinit
  obtain ⟨F0, FN, h1, h2, h3⟩ := flux_balance_of lossCone_zero hinit hE hw hmu hp hwl h00 hpos hsup
    (inner_forms lossCone_zero hinit hw hform fun k r a b d => ⟨hin k r a b d, fun _ _ => trivial⟩) hends hist S h a b hist0 histN
  obtain ⟨r0, tl, e0⟩ := List.exists_cons_of_ne_nil hi.ne
  have hhead : stack.head? = some r0 := by rw [e0]; rfl
  have hg := good_sup hi (by rw [(planeWave_ok hp).2.1]; exact hwl) hhead (hmu r0 (List.mem_of_head? hhead)) (hsup r0 hhead) hpos h00
  refine ⟨F0, FN, h1, h2, ?_⟩
  rw [Set.mem_singleton_iff, mul_eq_zero] at h3
  rcases h3 with h3 | h3
  · exact absurd h3 hg.omega.ne'
  · linarith

/-- **C96**, passive layers in between: they receive power, and never give any. -/
theorem C96_flux_passive (hinit : simInit E lats mats stack exc nh form = .ok c)
    (hE : EigContract E) (hw : WellPlaced mats stack) (hmu : ∀ r ∈ stack, (mats r).mu = 1)
    (wl : ℝ) (ang : ℝ × ℝ × ℝ) (hp : planeWave wl ang = .ok exc) (hwl : 0 < wl) (h00 : ((0 : ℤ), (0 : ℤ)) ∈ c.harmonics)
    (hform : form = "original" ∨ c.lattice.is1D = true ∨ (c.harmonics.Nodup ∧ ∀ r ∈ stack, (mats r).isUniform = false →
      (mats r).isAnisotropic = false ∧ ConstantVectorsUsed E c (mats r))) (e : ℝ) (hpos : 0 < e)
    (hsup : ∀ r0, stack.head? = some r0 → (mats r0).epsilon.value = (e : ℂ))
    (hin : ∀ k r, 0 < k → k + 1 < stack.length → stack[k]? = some r →
      Passive (mats r) ∧ ∀ t, (mats r).thickness = some t → 0 ≤ t)
    (hends : ∀ r, stack.head? = some r ∨ stack.getLast? = some r → (mats r).thickness.getD 0 = 0)
    (hist : List (Call c.nh)) (S : SMat (Idx c.nh))
    (h : (getS E c none (afterCalls E c hist (Dyn.fresh mats (unsolved c.nh)))).1 = .ok S) (a b : Idx c.nh → ℂ)
    (hist0 histN : List (Call c.nh)) :
    ∃ F0 FN : (Fin c.nh → ℝ) × (Fin c.nh → ℝ),
      (getZPoyntingFlux E c 0 a (S.s21 *ᵥ a + S.s22 *ᵥ b)
        (afterCalls E c hist0 (Dyn.fresh mats (unsolved c.nh)))).1 = .ok F0 ∧
      (getZPoyntingFlux E c (-1) (S.s11 *ᵥ a + S.s12 *ᵥ b) b
        (afterCalls E c histN (Dyn.fresh mats (unsolved c.nh)))).1 = .ok FN ∧
      ∑ i, (FN.1 i + FN.2 i) ≤ ∑ i, (F0.1 i + F0.2 i) := by
  have hi := simInit_ok hinit
  obtain ⟨F0, FN, h1, h2, h3⟩ := flux_balance_of lossCone_nonneg hinit hE hw hmu hp hwl h00 hpos hsup
    (inner_forms lossCone_nonneg hinit hw hform hin) hends hist S h a b hist0 histN
  obtain ⟨r0, tl, e0⟩ := List.exists_cons_of_ne_nil hi.ne
  have hhead : stack.head? = some r0 := by rw [e0]; rfl
  have hg := good_sup hi (by rw [(planeWave_ok hp).2.1]; exact hwl) hhead (hmu r0 (List.mem_of_head? hhead)) (hsup r0 hhead) hpos h00
  refine ⟨F0, FN, h1, h2, ?_⟩
  have := nonneg_of_mul_nonneg_right (Set.mem_Ici.mp h3) hg.omega
  linarith

namespace Examples

/-- The layers of `slabMats`, where those at the ends have no thickness. -/
noncomputable def bareMats : ℕ → LayerSpec := fun r =>
  if r = 0 then exLayer "Superstrate" 0 (NdArr.scalar (((1 : ℝ) ^ 2 : ℝ) : ℂ))
  else if r = 1 then exLayer "Slab" (1 / 8) (NdArr.ofGrid exGrid)
  else exLayer "Substrate" 0 (NdArr.scalar (((1 : ℝ) ^ 2 : ℝ) : ℂ))

theorem bare_index (r : ℕ) : 0 < slabN r ∧ HasIndex (bareMats r) (slabN r) := by
  unfold slabN bareMats
  by_cases h0 : r = 0
  · subst h0; exact ⟨by norm_num, rfl, rfl, .inl (by simp [exLayer])⟩
  by_cases h1 : r = 1
  · subst h1
    refine ⟨by norm_num, rfl, rfl, .inr ⟨4, 1, exGrid, rfl, by norm_num, by norm_num, by decide, ?_⟩⟩
    simp [Fin.sum_univ_succ, exGrid]
    norm_num
  · simp only [h0, h1, if_false]
    exact ⟨by norm_num, rfl, rfl, .inl rfl⟩

section
variable {m : Type} [Fintype m] [DecidableEq m]

theorem exp_bare : Complex.exp (Complex.I * (1 * ((2 * Real.pi : ℝ) : ℂ)) * ((0 : ℝ) : ℂ)) = 1 := by simp

theorem bare_step1 : stepS (sscal 1 0 0 1) (scal ((2 * Real.pi : ℝ) : ℂ) 1 (some 0) : Modes m)
    (scal ((2 * Real.pi : ℝ) : ℂ) 2 (some (1 / 8))) =
      .ok (sscal (4 / 3) (-(Complex.I / 3)) (1 / 3) (2 * Complex.I / 3)) := by
  rw [scal_step (f := 1) (f' := Complex.I) two_pi_ne one_ne_zero two_ne_zero (some 0) (some (1 / 8)) 1 0 0 1 exp_bare exp_quarter
    (3 / 4) (by norm_num) (by norm_num) (4 / 3) (-(Complex.I / 3)) (by norm_num) (by ring)]
  congr 1
  unfold sscal
  congr 2 <;> ring

theorem bare_step2 : stepS (sscal (4 / 3) (-(Complex.I / 3)) (1 / 3) (2 * Complex.I / 3))
    (scal ((2 * Real.pi : ℝ) : ℂ) 2 (some (1 / 8)) : Modes m)
    (scal ((2 * Real.pi : ℝ) : ℂ) 1 (some 0)) =
      .ok (sscal (4 * Complex.I / 5) (3 / 5) (3 / 5) (4 * Complex.I / 5)) := by
  have hI : Complex.I * Complex.I = -1 := Complex.I_mul_I
  rw [scal_step (f := Complex.I) (f' := 1) two_pi_ne two_ne_zero one_ne_zero (some (1 / 8)) (some 0) _ _ _ _ exp_quarter exp_bare
    (5 / 3) (by linear_combination (1 / 6 : ℂ) * hI) (by norm_num) (4 * Complex.I / 5) (3 / 5) (by ring)
    (by linear_combination (1 / 2 : ℂ) * hI)]
  congr 1
  unfold sscal
  congr 2
  · linear_combination (-4 / 15 : ℂ) * hI
  · ring

theorem bare_02 : freshS [scal ((2 * Real.pi : ℝ) : ℂ) 1 (some 0), scal ((2 * Real.pi : ℝ) : ℂ) 2 (some (1 / 8)),
    (scal ((2 * Real.pi : ℝ) : ℂ) 1 (some 0) : Modes m)] (0 : ℕ) (2 : ℕ) =
    .ok (sscal (4 * Complex.I / 5) (3 / 5) (3 / 5) (4 * Complex.I / 5)) := by
  refine freshS_ok.mpr ⟨by omega, ?_⟩
  have : ((2 : ℕ) : ℤ) = ((1 : ℕ) : ℤ) + 1 := rfl
  rw [this, loopS_succ _ 0 1 (by omega), loop_one rfl rfl bare_step1, except_bind_ok, stepAt_ok]
  exact ⟨_, _, rfl, rfl, bare_step2⟩

end

/-- C96: the grating in air, which reflects 9/25 of the power from both sides, lit from both sides. -/
example : ∃ c S, simInit exE (fun _ => exLat) bareMats [0, 1, 2] exExc 1 "original" = .ok c ∧
    (getS exE c none (Dyn.fresh bareMats (unsolved c.nh))).1 = .ok S ∧ S = sscal (4 * Complex.I / 5) (3 / 5) (3 / 5) (4 * Complex.I / 5) ∧
    ∀ a b : Idx c.nh → ℂ, ∃ F0 FN : (Fin c.nh → ℝ) × (Fin c.nh → ℝ),
      (getZPoyntingFlux exE c 0 a (S.s21 *ᵥ a + S.s22 *ᵥ b) (Dyn.fresh bareMats (unsolved c.nh))).1 = .ok F0 ∧
      (getZPoyntingFlux exE c (-1) (S.s11 *ᵥ a + S.s12 *ᵥ b) b (Dyn.fresh bareMats (unsolved c.nh))).1 = .ok FN ∧
      ∑ i, (F0.1 i + F0.2 i) = ∑ i, (FN.1 i + FN.2 i) := by
  obtain ⟨c, hc, hn, hst, -, -⟩ := exInit bareMats 0 [1, 2] 1 one_pos (by decide) (by decide) rfl rfl
  have h00 : ((0 : ℤ), (0 : ℤ)) ∈ c.harmonics := by rw [hn.harm]; simp
  have hsup : ∀ r0, ([0, 1, 2] : List ℕ).head? = some r0 → (bareMats r0).epsilon.value = ((1 : ℝ) : ℂ) := by
    intro r0 h
    obtain rfl : 0 = r0 := by simpa using h
    simp [bareMats, exLayer, NdArr.scalar, NdArr.value]
  have hS : (getS exE c none (Dyn.fresh bareMats (unsolved c.nh))).1 =
      .ok (sscal (4 * Complex.I / 5) (3 / 5) (3 / 5) (4 * Complex.I / 5)) := by
    rw [ex_getS hn slabN (by rw [hst]; decide) (fun r _ => bare_index r), hst, hn.omega]
    have h2 := bare_02 (m := Idx c.nh)
    simp [slabN, bareMats, exLayer]
    norm_num at h2 ⊢
    rw [h2]
  have hpl : WellPlaced bareMats [0, 1, 2] := by
    intro k r _ hcp
    rw [(bare_index r).2.1] at hcp
    simp at hcp
  refine ⟨c, _, hc, hS, rfl, fun a b => ?_⟩
  exact C96_flux_conservation hc exE_eig hpl (fun r _ => (bare_index r).2.2.1) 1 (0, 0, 0) exExc_mk one_pos
    h00 (.inl rfl) 1 one_pos hsup (fun k r h1 h2 h3 => (slab_lossless {0} rfl k r h1 h2 h3).1 |> fun h => by
      simp only [List.length_cons, List.length_nil] at h2
      obtain rfl : k = 1 := by omega
      simp only [List.getElem?_cons_succ, List.getElem?_cons_zero, Option.some.injEq] at h3
      subst h3
      exact h) (fun r hr => by
      simp only [List.head?_cons, Option.some.injEq, List.getLast?_cons_cons, List.getLast?_singleton] at hr
      rcases hr with rfl | rfl <;> simp [bareMats, exLayer]) [] _ hS a b [] []

end Examples

end Nannos
