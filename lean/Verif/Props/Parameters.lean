import Verif.Proofs.ParametersRun
import Verif.Props.Absorbing

/-! **C89**: results as functions of the wavelength, the angles, the thicknesses and the permittivities. -/

namespace Nannos

open Matrix Spec Topology

section smooth
variable {V : Type} [NormedAddCommGroup V] [NormedSpace ℝ V] {n : WithTop ℕ∞} {x0 : V}
variable {E : Ext} {lats : ℕ → Lattice} {mats : ℕ → LayerSpec} {stack : List ℕ} {wl : V → ℝ} {ang : V → ℝ × ℝ × ℝ}
  {th : V → ℕ → ℝ} {eps : V → ℕ → List ℕ → ℂ} {nh : ℤ} {form : String}

/-- **C89**: let the wavelength, the angles, the thicknesses and every entry of the permittivity arrays be `n` times
continuously differentiable functions of parameters `x` at `x0` (`n` finite, infinite, or `ω` for analytic). If the
efficiencies of an order are returned for `x0`, then for `x` near `x0` the efficiencies that are returned for this order
(whatever was called before, and whichever eigenvectors `eig` returns for `x`) are the values of two functions which are
`n` times continuously differentiable at `x0`. -/
theorem C89_order_efficiencies (hE : EigContract E) (hA : ArgsortContract E.argsort) (hn : 1 ≤ nh) (hd : DistinctOrders lats)
    (h : SmoothStructure n x0 lats mats stack form wl ang th eps) {g : ℤ × ℤ} {R0 T0 : ℝ}
    (h0 : OrderEfficiencies E lats (withMaterials mats (th x0) (eps x0)) stack (wl x0) (ang x0) nh form g R0 T0) :
    ∃ R T : V → ℝ, ContDiffAt ℝ n R x0 ∧ ContDiffAt ℝ n T x0 ∧ R x0 = R0 ∧ T x0 = T0 ∧
      ∀ᶠ x in 𝓝 x0, ∀ R' T',
        OrderEfficiencies E lats (withMaterials mats (th x) (eps x)) stack (wl x) (ang x) nh form g R' T' →
          R' = R x ∧ T' = T x := by
  obtain ⟨exc0, c, hp, hi, -⟩ := id h0
  obtain ⟨W, e, a⟩ := around h hA hn hd hp hi
  obtain ⟨A0, RT0, a1, a2, i, a3, -⟩ := eff_of_order a.ev.self_of_nhds.1 a.ev.self_of_nhds.2.1 h0
  obtain ⟨R, T, s1, s2⟩ := a.efficiencies h hE a1 a2
  have hall : ∀ᶠ x in 𝓝 x0, ∀ R' T',
      OrderEfficiencies E lats (withMaterials mats (th x) (eps x)) stack (wl x) (ang x) nh form g R' T' →
        R' = R i x ∧ T' = T i x := by
    filter_upwards [s2, a.ev] with x x1 x2 R' T' hx
    obtain ⟨A, RT, b1, b2, i', b3, rfl, rfl⟩ := eff_of_order x2.1 x2.2.1 hx
    have : i' = i := a.nodup.get_inj_iff.mp (b3.trans a3.symm)
    subst this
    rw [x1 A RT b1 b2]
    exact ⟨rfl, rfl⟩
  exact ⟨R i, T i, (s1 i).1, (s1 i).2, ((hall.self_of_nhds R0 T0 h0).1).symm, ((hall.self_of_nhds R0 T0 h0).2).symm, hall⟩

/-- **C89**, for the total efficiencies. -/
theorem C89_total_efficiencies (hE : EigContract E) (hA : ArgsortContract E.argsort) (hn : 1 ≤ nh) (hd : DistinctOrders lats)
    (h : SmoothStructure n x0 lats mats stack form wl ang th eps) {R0 T0 : ℝ}
    (h0 : TotalEfficiencies E lats (withMaterials mats (th x0) (eps x0)) stack (wl x0) (ang x0) nh form R0 T0) :
    ∃ R T : V → ℝ, ContDiffAt ℝ n R x0 ∧ ContDiffAt ℝ n T x0 ∧ R x0 = R0 ∧ T x0 = T0 ∧
      ∀ᶠ x in 𝓝 x0, ∀ R' T',
        TotalEfficiencies E lats (withMaterials mats (th x) (eps x)) stack (wl x) (ang x) nh form R' T' →
          R' = R x ∧ T' = T x := by
  obtain ⟨exc0, c, hp, hi, -⟩ := id h0
  obtain ⟨W, e, a⟩ := around h hA hn hd hp hi
  obtain ⟨A0, RT0, a1, a2, -⟩ := eff_of_total a.ev.self_of_nhds.1 a.ev.self_of_nhds.2.1 h0
  obtain ⟨R, T, s1, s2⟩ := a.efficiencies h hE a1 a2
  have hall : ∀ᶠ x in 𝓝 x0, ∀ R' T',
      TotalEfficiencies E lats (withMaterials mats (th x) (eps x)) stack (wl x) (ang x) nh form R' T' →
        R' = ∑ i, R i x ∧ T' = ∑ i, T i x := by
    filter_upwards [s2, a.ev] with x x1 x2 R' T' hx
    obtain ⟨A, RT, b1, b2, rfl, rfl⟩ := eff_of_total x2.1 x2.2.1 hx
    rw [x1 A RT b1 b2]
    exact ⟨rfl, rfl⟩
  exact ⟨fun x => ∑ i, R i x, fun x => ∑ i, T i x, ContDiffAt.sum fun i _ => (s1 i).1, ContDiffAt.sum fun i _ => (s1 i).2,
    ((hall.self_of_nhds R0 T0 h0).1).symm, ((hall.self_of_nhds R0 T0 h0).2).symm, hall⟩

/-- **C89**, for the fields at a depth that may depend on the parameters too. -/
theorem C89_fields (hE : EigContract E) (hA : ArgsortContract E.argsort) (hn : 1 ≤ nh) (hd : DistinctOrders lats)
    (h : SmoothStructure n x0 lats mats stack form wl ang th eps) {id : LayerId} {z : V → ℝ} (hz : ContDiffAt ℝ n z x0)
    {g : ℤ × ℤ} {e0 h0 : Fin 3 → ℂ}
    (hF : OrderField E lats (withMaterials mats (th x0) (eps x0)) stack (wl x0) (ang x0) nh form id (z x0) g e0 h0) :
    ∃ ef hf : V → Fin 3 → ℂ, (∀ i, ContDiffAt ℝ n (fun x => ef x i) x0) ∧ (∀ i, ContDiffAt ℝ n (fun x => hf x i) x0) ∧
      ef x0 = e0 ∧ hf x0 = h0 ∧
      ∀ᶠ x in 𝓝 x0, ∀ e' h',
        OrderField E lats (withMaterials mats (th x) (eps x)) stack (wl x) (ang x) nh form id (z x) g e' h' →
          e' = ef x ∧ h' = hf x := by
  obtain ⟨exc0, c, hp, hi, -⟩ := _root_.id hF
  obtain ⟨W, e, a⟩ := around h hA hn hd hp hi
  obtain ⟨A0, r, j, ab, F, a1, a2, a3, a4, i, a5, -⟩ := amp_of_order a.ev.self_of_nhds.1 a.ev.self_of_nhds.2.1 hF
  obtain ⟨G, s1, s2⟩ := a.fields h hE a1 (getLayer_pyGet a2) a3 hz a4
  have hall : ∀ᶠ x in 𝓝 x0, ∀ e' h',
      OrderField E lats (withMaterials mats (th x) (eps x)) stack (wl x) (ang x) nh form id (z x) g e' h' →
        e' = ![(G x).ex i, (G x).ey i, (G x).ez i] ∧ h' = ![(G x).hx i, (G x).hy i, (G x).hz i] := by
    filter_upwards [s2, a.ev] with x x1 x2 e' h' hx
    obtain ⟨A, r', j', ab', F', b1, b2, b3, b4, i', b5, rfl, rfl⟩ := amp_of_order x2.1 x2.2.1 hx
    have hi' : i' = i := a.nodup.get_inj_iff.mp (b5.trans a5.symm)
    subst hi'
    obtain ⟨rfl, rfl⟩ : r' = r ∧ j' = j := by
      have : getLayer c id = .ok (r', j') := b2
      exact Prod.mk.inj (Except.ok.inj (this.symm.trans a2))
    rw [x1 A ab' F' b1 b3 b4]
    exact ⟨rfl, rfl⟩
  obtain ⟨q1, q2, q3, q4, q5, q6⟩ := s1 i
  refine ⟨fun x => ![(G x).ex i, (G x).ey i, (G x).ez i], fun x => ![(G x).hx i, (G x).hy i, (G x).hz i], ?_, ?_,
    ((hall.self_of_nhds e0 h0 hF).1).symm, ((hall.self_of_nhds e0 h0 hF).2).symm, hall⟩
  · intro i
    fin_cases i
    · exact q1
    · exact q2
    · exact q3
  · intro i
    fin_cases i
    · exact q4
    · exact q5
    · exact q6

end smooth

namespace Examples

/-- Wavelength, thickness of the grating and a factor of its permittivity. -/
noncomputable def lossyTh : ℝ × ℝ × ℝ → ℕ → ℝ := fun x r => if r = 1 then x.2.1 else 1
noncomputable def lossyEps : ℝ × ℝ × ℝ → ℕ → List ℕ → ℂ := fun x r idx =>
  if r = 1 then x.2.2 * (lossyMats 1).epsilon.data idx else (lossyMats r).epsilon.data idx

theorem lossy_materials : withMaterials lossyMats (lossyTh (1, 1 / 8, 1)) (lossyEps (1, 1 / 8, 1)) = lossyMats := by
  funext r
  unfold withMaterials lossyTh lossyEps
  by_cases h0 : r = 0
  · subst h0; simp [lossyMats, exLayer]
  by_cases h1 : r = 1
  · subst h1; simp [lossyMats, exLayer]
  · simp [lossyMats, h0, h1, exLayer]

theorem lossy_smooth : SmoothStructure ⊤ ((1, 1 / 8, 1) : ℝ × ℝ × ℝ) (fun _ => exLat) lossyMats [0, 1, 2] "original"
    (fun x => x.1) (fun _ => (0, 0, 0)) lossyTh lossyEps := by
  have hv : ∀ (x : ℝ × ℝ × ℝ) r, r ≠ 1 → (withMaterials lossyMats (lossyTh x) (lossyEps x) r).epsilon.value = 1 := by
    intro x r hr
    unfold withMaterials lossyEps
    by_cases h0 : r = 0
    · subst h0; simp [lossyMats, exLayer, NdArr.scalar, NdArr.value]
    · simp [lossyMats, h0, hr, exLayer, NdArr.scalar, NdArr.value]
  refine ⟨contDiffAt_fst, contDiffAt_const, ?_, ?_, fun r _ => (lossy_index 1 one_pos r).2.1, ?_, ?_, ?_, .inl rfl⟩
  · intro r _
    unfold lossyTh
    by_cases h : r = 1
    · simp only [h, if_true]; exact contDiffAt_snd.fst
    · simp only [h, if_false]; exact contDiffAt_const
  · intro r _ idx
    unfold lossyEps
    by_cases h : r = 1
    · simp only [h, if_true]
      exact (contDiffAt_ofReal contDiffAt_snd.snd).mul contDiffAt_const
    · simp only [h, if_false]; exact contDiffAt_const
  · refine Filter.Eventually.of_forall fun x k r _ hc => ?_
    have : (lossyMats r).iscopy = false := (lossy_index 1 one_pos r).1
    rw [show (withMaterials lossyMats (lossyTh x) (lossyEps x) r).iscopy = (lossyMats r).iscopy from rfl, this] at hc
    simp at hc
  · intro r hr
    obtain rfl : 0 = r := by simpa using hr
    refine ⟨rfl, Filter.Eventually.of_forall fun x => ?_⟩
    rw [hv x 0 (by decide)]
    simp
  · intro r hr
    obtain rfl : 2 = r := by simpa using hr
    refine ⟨rfl, Filter.Eventually.of_forall fun x => ?_⟩
    rw [hv x 2 (by decide)]
    simp

/-- C89: the absorbing grating of C85. The parameters are the wavelength, the thickness of the grating, and a factor of its
permittivity; the efficiencies are analytic functions of the three. -/
example : EigContract exE ∧ DistinctOrders (fun _ => exLat) ∧
    SmoothStructure ⊤ ((1, 1 / 8, 1) : ℝ × ℝ × ℝ) (fun _ => exLat) lossyMats [0, 1, 2] "original"
      (fun x => x.1) (fun _ => (0, 0, 0)) lossyTh lossyEps ∧
    ∃ R0 T0, OrderEfficiencies exE (fun _ => exLat) (withMaterials lossyMats (lossyTh (1, 1 / 8, 1)) (lossyEps (1, 1 / 8, 1)))
      [0, 1, 2] 1 (0, 0, 0) 1 "original" (0, 0) R0 T0 ∧
    ∃ R T : ℝ × ℝ × ℝ → ℝ, ContDiffAt ℝ ⊤ R (1, 1 / 8, 1) ∧ ContDiffAt ℝ ⊤ T (1, 1 / 8, 1) ∧ R (1, 1 / 8, 1) = R0 := by
  have hd : DistinctOrders (fun _ => exLat) := by
    intro k H hH
    simp [exLat] at hH
  obtain ⟨c, d1, hc, -, -, -, -, -, hz, -, -, -, -, -, -, -, -, hX⟩ := lossy_run
  obtain ⟨X, hX⟩ := hX []
  obtain ⟨i, hi⟩ := List.mem_iff_get.mp hz
  have h0 : ∃ R0 T0, OrderEfficiencies exE (fun _ => exLat)
      (withMaterials lossyMats (lossyTh (1, 1 / 8, 1)) (lossyEps (1, 1 / 8, 1))) [0, 1, 2] 1 (0, 0, 0) 1 "original" (0, 0) R0 T0 := by
    rw [lossy_materials]
    have hX' := hX
    unfold diffractionEfficiencies at hX'
    rw [PyM.bind_def] at hX'
    rcases he : efficienciesByOrder exE c (afterCalls exE c [] (Dyn.fresh lossyMats (unsolved c.nh))) with ⟨e | RT, d⟩
    · rw [he] at hX'; cases hX'
    rw [he] at hX'
    simp only [if_true] at hX'
    refine ⟨RT.1 i, RT.2 i, exExc, c, exExc_mk, hc, [], RT.1, RT.2, i, ?_, hi, rfl, rfl⟩
    rw [hX]
    exact hX'.symm
  obtain ⟨R0, T0, h0⟩ := h0
  obtain ⟨R, T, r1, r2, r3, -⟩ := C89_order_efficiencies exE_eig exSort_spec (by norm_num) hd lossy_smooth h0
  exact ⟨exE_eig, hd, lossy_smooth, R0, T0, h0, R, T, r1, r2, r3⟩

end Examples

end Nannos
