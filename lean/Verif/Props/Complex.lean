import Verif.Proofs.ComplexOrders
import Verif.Props.Energy
import Verif.Props.Sim

/-!
Property C34: the complex amplitudes returned by `diffraction_efficiencies(orders=True, complex=True)`.

The code looks the outer layers up by the names `"Superstrate"` and `"Substrate"` and needs their thickness.
-/

namespace Nannos

open Matrix Spec

variable {E : Ext} {lats : ℕ → Lattice} {mats : ℕ → LayerSpec} {stack : List ℕ} {exc : PlaneWave} {nh : ℤ}
  {form : String} {c : Static}

/-- **C34**. For a wave incident from above on any stack whose first layer, called `"Superstrate"`, has a real
positive permittivity and whose last layer, called `"Substrate"`, has a real permittivity: whenever
`diffraction_efficiencies(orders=True)` returns, so does `diffraction_efficiencies(orders=True, complex=True)`
(each after any history), and the squared moduli of the three components of each order add up to its
efficiency. -/
theorem C34_complex_amplitudes_match_efficiencies (hinit : simInit E lats mats stack exc nh form = .ok c)
    (hw : WellPlaced mats stack) (hmu : ∀ r ∈ stack, (mats r).mu = 1)
    (wl : ℝ) (ang : ℝ × ℝ × ℝ) (hp : planeWave wl ang = .ok exc) (hwl : 0 < wl)
    (hcos : 0 < Real.cos exc.theta) (h00 : ((0 : ℤ), (0 : ℤ)) ∈ c.harmonics)
    (e : ℝ) (hpos : 0 < e) (hsup : ∀ r0, stack.head? = some r0 → (mats r0).epsilon.value = (e : ℂ) ∧
      (mats r0).isAnisotropic = false ∧ (mats r0).name = "Superstrate" ∧ (mats r0).thickness ≠ none)
    (eN : ℝ) (hsub : ∀ rN, stack.getLast? = some rN → (mats rN).epsilon.value = (eN : ℂ) ∧
      (mats rN).isUniform = true ∧ (mats rN).isAnisotropic = false ∧ (mats rN).name = "Substrate" ∧
      (mats rN).thickness ≠ none)
    (hist hist' : List (Call c.nh)) (R T : Fin c.nh → ℝ)
    (h : (diffractionEfficiencies E c true
      (afterCalls E c hist (Dyn.fresh mats (unsolved c.nh)))).1 = .ok (.byOrder R T)) :
    ∃ A : ComplexOrders c.nh,
      (complexEfficiencies E c (afterCalls E c hist' (Dyn.fresh mats (unsolved c.nh)))).1 = .ok A ∧
      ∀ i, ‖A.r 0 i‖ ^ 2 + ‖A.r 1 i‖ ^ 2 + ‖A.r 2 i‖ ^ 2 = R i ∧
        ‖A.t 0 i‖ ^ 2 + ‖A.t 1 i‖ ^ 2 + ‖A.t 2 i‖ ^ 2 = T i := by
  obtain ⟨A, h1, h2⟩ := complex_match hinit hw hmu hp hwl hcos h00 hpos hsup hsub
    (fun k r hr => ((C37_layer_lookup hinit).1 k r hr).1) hist hist' _ (efficiencies_by_order h)
  refine ⟨A, h1, fun i => ?_⟩
  have := h2 i
  simpa only [Fin.sum_univ_three, Complex.normSq_eq_norm_sq] using this

/-- **C34**. Without layers of these names the complex amplitudes are never returned, from any state. -/
theorem C34_other_names_raise (hinit : simInit E lats mats stack exc nh form = .ok c)
    (h : (∀ r ∈ stack, (mats r).name ≠ "Superstrate") ∨ ∀ r ∈ stack, (mats r).name ≠ "Substrate")
    (d : Dyn c.nh) (A : ComplexOrders c.nh) : (complexEfficiencies E c d).1 ≠ .ok A := by
  have key : ∀ s, (∀ r ∈ stack, (mats r).name ≠ s) → ∀ d zs F, (getFieldFourier E c (.name s) zs d).1 ≠ .ok F := by
    intro s hs d zs F hF
    obtain ⟨r, i, -, -, h1, -⟩ := getFieldFourier_run hF
    rw [((C37_layer_lookup hinit).2.1 s hs).1] at h1
    simp at h1
  have split : ∀ {σ α β : Type} {x : PyM σ α} {f : α → PyM σ β} {s : σ} {b : β}, ((x >>= f) s).1 = .ok b →
      ∃ a s', (x s).1 = .ok a ∧ (f a s').1 = .ok b := by
    intro σ α β x f s b hb
    rw [PyM.bind_def] at hb
    rcases hx : x s with ⟨e | a, s'⟩
    · rw [hx] at hb; simp at hb
    · rw [hx] at hb
      exact ⟨a, s', rfl, hb⟩
  intro hA
  unfold complexEfficiencies complexOrders at hA
  obtain ⟨_, _, -, hA⟩ := split hA
  obtain ⟨_, _, -, hA⟩ := split hA
  obtain ⟨_, _, -, hA⟩ := split hA
  obtain ⟨_, _, -, hA⟩ := split hA
  obtain ⟨_, _, -, hA⟩ := split hA
  obtain ⟨_, _, -, hA⟩ := split hA
  obtain ⟨_, _, -, hA⟩ := split hA
  obtain ⟨_, _, -, hA⟩ := split hA
  obtain ⟨_, _, h1, hA⟩ := split hA
  obtain ⟨_, _, h2, hA⟩ := split hA
  rcases h with h | h
  · exact key _ h _ _ _ h2
  · exact key _ h _ _ _ h1

open Examples in
/-- The hypotheses of C34 hold for the grating, whose specular amplitudes are returned after any history. -/
example : ∃ c, simInit exE (fun _ => exLat) slabMats [0, 1, 2] exExc 1 "original" = .ok c ∧
    ∀ hist, ∃ A, (complexEfficiencies exE c (afterCalls exE c hist (Dyn.fresh slabMats (unsolved c.nh)))).1 = .ok A ∧
      ∃ R T : Fin c.nh → ℝ, (diffractionEfficiencies exE c true (Dyn.fresh slabMats (unsolved c.nh))).1 =
        .ok (.byOrder R T) ∧ ∀ i, ‖A.r 0 i‖ ^ 2 + ‖A.r 1 i‖ ^ 2 + ‖A.r 2 i‖ ^ 2 = R i := by
  obtain ⟨c, hc, hn, hst, -, hfl⟩ := slab_init
  refine ⟨c, hc, fun hist => ?_⟩
  obtain ⟨-, -, RT, hRT⟩ := slab_runs hc hn hst hfl []
  obtain ⟨R, T⟩ := RT
  have hb : (diffractionEfficiencies exE c true (Dyn.fresh slabMats (unsolved c.nh))).1 = .ok (.byOrder R T) := by
    change (efficienciesByOrder exE c (Dyn.fresh slabMats (unsolved c.nh))).1 = _ at hRT
    unfold diffractionEfficiencies
    rcases he : efficienciesByOrder exE c (Dyn.fresh slabMats (unsolved c.nh)) with ⟨x, d'⟩
    rw [he] at hRT
    dsimp only at hRT
    subst hRT
    rw [PyM.bind_ok he]
    rfl
  obtain ⟨A, h1, h2⟩ := C34_complex_amplitudes_match_efficiencies hc slab_placed (fun r _ => slab_mu r) 1 (0, 0, 0)
    exExc_mk one_pos (by simp [exExc]) (by rw [hn.harm]; simp) 1 one_pos (by
      intro r0 h
      obtain rfl : 0 = r0 := by simpa using h
      exact ⟨by simp [slabMats, exLayer, NdArr.scalar, NdArr.value], rfl, rfl, by simp [slabMats, exLayer]⟩) 1 (by
      intro r0 h
      obtain rfl : 2 = r0 := by simpa using h
      exact ⟨by simp [slabMats, exLayer, NdArr.scalar, NdArr.value], rfl, rfl, rfl, by simp [slabMats, exLayer]⟩) [] hist R T hb
  exact ⟨A, h1, R, T, hb, fun i => (h2 i).1⟩

end Nannos
