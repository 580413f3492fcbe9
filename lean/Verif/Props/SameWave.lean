import Verif.Proofs.Rewave
import Verif.Spec.Wave
import Verif.Props.Symmetry2

/-! **C109**: angles which describe one wave; waves which travel away from the structure. -/

namespace Nannos

open Matrix Spec

/-- `simInit` with a wave which has the attributes that are read during construction. -/
theorem simInit_rewave {E : Ext} {lats : ℕ → Lattice} {mats : ℕ → LayerSpec} {stack : List ℕ} {e e' : PlaneWave} {nh : ℤ}
    {form : String} (s : ℝ) (h1 : e'.wavevector 0 = e.wavevector 0) (h2 : e'.wavevector 1 = e.wavevector 1)
    (h3 : e'.wavelength = e.wavelength) (h4 : e'.a0 = e.a0) (h5 : Real.cos e'.theta = s * Real.cos e.theta) :
    simInit E lats mats stack e' nh form =
      (simInit E lats mats stack e nh form).map fun c => c.rewave e' (s * c.incidentFlux) := by
  have hk : ∀ n, k0para e'.wavevector n = k0para e.wavevector n := fun n => by unfold k0para; rw [h1, h2]
  have hf : ∀ n : ℂ, (((s * Real.cos e.theta : ℝ) : ℂ) / n).re = s * ((Real.cos e.theta : ℂ) / n).re := by
    intro n
    rw [Complex.ofReal_mul, mul_div_assoc, Complex.re_ofReal_mul]
  unfold simInit
  dsimp only
  rw [h3, h4, h5]
  simp only [hk, hf]
  split
  · rfl
  cases stack with
  | nil => rfl
  | cons r0 tl =>
    dsimp only
    split
    · rfl
    split
    · rfl
    split
    · rfl
    rcases ((lats (mats r0).lattice).getHarmonics E.argsort
      (effectiveNh nh ((r0 :: tl).all fun r => (mats r).isUniform)) true) with _ | ⟨H, n⟩
    · rfl
    simp only [except_bind_ok]
    rcases checkNyquist (lats (mats r0).lattice) H with _ | _
    · rfl
    simp only [except_bind_ok]
    rcases raiseIf (¬((mats r0).isUniform = true ∧ (mats r0).isAnisotropic = false)) .unmodelled with _ | _
    · rfl
    simp only [except_bind_ok]
    rcases raiseIf ((mats r0).epsilon.value * (mats r0).mu = 0) .nonfinite with _ | _
    · rfl
    simp only [except_bind_ok]
    rcases (lats (mats r0).lattice).reciprocal with _ | _
    · rfl
    · rfl

/-- **C109**. Angles which describe the same direction and the same polarisation give the same wave, or the same error... -/
theorem C109_same_wave (wl : ℝ) {a b : ℝ × ℝ × ℝ} (h : SamePlaneWave a b) :
    planeWave wl b = (planeWave wl a).map fun w => { w with theta := rad b.1, phi := rad b.2.1, psi := rad b.2.2 } := by
  obtain ⟨h1, h2⟩ := h
  have k0 := congrFun h1 0
  have k1 := congrFun h1 1
  have k2 := congrFun h1 2
  have p0 := congrFun h2 0
  have p1 := congrFun h2 1
  have p2 := congrFun h2 2
  simp only [travel, polarisation, rad, Matrix.cons_val_zero, Matrix.cons_val_one, Matrix.cons_val, Pi.add_apply,
    Pi.smul_apply, smul_eq_mul] at k0 k1 k2 p0 p1 p2
  have q0 : Real.cos (b.2.2 * (Real.pi / 180)) * Real.cos (b.1 * (Real.pi / 180)) * Real.cos (b.2.1 * (Real.pi / 180)) -
      Real.sin (b.2.2 * (Real.pi / 180)) * Real.sin (b.2.1 * (Real.pi / 180)) =
      Real.cos (a.2.2 * (Real.pi / 180)) * Real.cos (a.1 * (Real.pi / 180)) * Real.cos (a.2.1 * (Real.pi / 180)) -
      Real.sin (a.2.2 * (Real.pi / 180)) * Real.sin (a.2.1 * (Real.pi / 180)) := by linear_combination -p0
  have q1 : Real.cos (b.2.2 * (Real.pi / 180)) * Real.cos (b.1 * (Real.pi / 180)) * Real.sin (b.2.1 * (Real.pi / 180)) +
      Real.sin (b.2.2 * (Real.pi / 180)) * Real.cos (b.2.1 * (Real.pi / 180)) =
      Real.cos (a.2.2 * (Real.pi / 180)) * Real.cos (a.1 * (Real.pi / 180)) * Real.sin (a.2.1 * (Real.pi / 180)) +
      Real.sin (a.2.2 * (Real.pi / 180)) * Real.cos (a.2.1 * (Real.pi / 180)) := by linear_combination -p1
  have q2 : -Real.cos (b.2.2 * (Real.pi / 180)) * Real.sin (b.1 * (Real.pi / 180)) =
      -Real.cos (a.2.2 * (Real.pi / 180)) * Real.sin (a.1 * (Real.pi / 180)) := by linear_combination -p2
  unfold planeWave
  dsimp only
  rw [q0, q1, q2, ← k0, ← k1, ← k2]
  by_cases hl : wl = 0
  · simp only [hl, if_true]
    rfl
  simp only [hl, if_false]
  generalize powHalf _ = x
  rcases x with _ | q
  · rfl
  simp only [except_bind_ok]
  generalize inv2 _ = x
  rcases x with _ | Q
  · rfl
  · rfl

/-- **C109**. ... and the same results: whatever the structure, the constructor raises the same error or builds the same
object, and every call returns or raises the same after every history of calls. -/
theorem C109_same_results {wl : ℝ} {a b : ℝ × ℝ × ℝ} (h : SamePlaneWave a b) {w : PlaneWave} (hw : planeWave wl a = .ok w) :
    ∃ w', planeWave wl b = .ok w' ∧ ∀ (E : Ext) (lats : ℕ → Lattice) (mats : ℕ → LayerSpec) (stack : List ℕ) (nh : ℤ)
      (form : String),
      simInit E lats mats stack w' nh form = (simInit E lats mats stack w nh form).map (fun c => { c with excitation := w' }) ∧
      ∀ c, simInit E lats mats stack w nh form = .ok c → ∀ (hist : List (Call c.nh)) (call : Call c.nh),
        Call.result E { c with excitation := w' } call
            (afterCalls E { c with excitation := w' } hist (Dyn.fresh mats (unsolved c.nh))) =
          call.result E c (afterCalls E c hist (Dyn.fresh mats (unsolved c.nh))) := by
  have hb := C109_same_wave wl h
  rw [hw] at hb
  refine ⟨_, hb, fun E lats mats stack nh form => ?_⟩
  have hc : Real.cos (rad b.1) = 1 * Real.cos w.theta := by
    have := congrFun h.1 2
    simp only [travel, Matrix.cons_val] at this
    rw [one_mul, (planeWave_ok hw).2.2.1]
    exact this.symm
  have hi := simInit_rewave (E := E) (lats := lats) (mats := mats) (stack := stack) (e := w) (nh := nh) (form := form)
    (e' := { w with theta := rad b.1, phi := rad b.2.1, psi := rad b.2.2 }) 1 rfl rfl rfl rfl hc
  simp only [one_mul] at hi
  refine ⟨hi, fun c hc hist call => ?_⟩
  have hex : c.excitation = w := (simInit_ok hc).exc_eq
  have := afterCalls_rewave (E := E) (c := c) { w with theta := rad b.1, phi := rad b.2.1, psi := rad b.2.2 } c.incidentFlux hist
    one_ne_zero (one_mul _).symm (Dyn.fresh mats (unsolved c.nh))
  refine Eq.trans (congrArg _ this) ?_
  exact Call.result_rewave _ call (by rw [hex]) _

/-- **C109**, which angles describe one wave: full turns may be added; a negative angle of incidence is a half turn of the
azimuth and of the polarisation; at normal incidence only the sum of the azimuth and the polarisation angle counts. -/
theorem C109_angles (θ φ ψ : ℝ) :
    SamePlaneWave (θ, φ, ψ) (θ + 360, φ, ψ) ∧ SamePlaneWave (θ, φ, ψ) (θ, φ + 360, ψ) ∧
    SamePlaneWave (θ, φ, ψ) (θ, φ, ψ + 360) ∧ SamePlaneWave (θ, φ, ψ) (-θ, φ + 180, ψ + 180) ∧
    SamePlaneWave (0, φ, ψ) (0, 0, φ + ψ) := by
  have e1 : ∀ x, rad (x + 360) = rad x + 2 * Real.pi := fun x => by unfold rad; ring
  have e2 : ∀ x, rad (x + 180) = rad x + Real.pi := fun x => by unfold rad; ring
  have e3 : ∀ x, rad (-x) = -rad x := fun x => by unfold rad; ring
  have e4 : ∀ x y, rad (x + y) = rad x + rad y := fun x y => by unfold rad; ring
  have e5 : rad 0 = 0 := by unfold rad; ring
  unfold SamePlaneWave travel polarisation
  refine ⟨?_, ?_, ?_, ?_, ?_⟩
  · simp [e1]
  · simp [e1]
  · simp [e1]
  · simp only [e2, e3, Real.sin_neg, Real.cos_neg, Real.sin_add_pi, Real.cos_add_pi]
    constructor
    · funext i
      fin_cases i <;> simp
    · funext i
      fin_cases i <;> simp
  · simp only [e4, e5, Real.sin_zero, Real.cos_zero, Real.sin_add, Real.cos_add]
    constructor
    · funext i
      fin_cases i <;> simp
    · funext i
      fin_cases i <;> simp <;> ring

/-- The attributes of the wave which is the mirror image of `w` in the plane of the layers. -/
noncomputable def receding (w : PlaneWave) : PlaneWave :=
  { w with
    theta := Real.pi - w.theta
    psi := Real.pi - w.psi
    wavevector := ![w.wavevector 0, w.wavevector 1, -w.wavevector 2]
    amplitude := ![w.amplitude 0, w.amplitude 1, -w.amplitude 2] }

/-- **C109**, waves which travel away from the structure (`cos θ < 0`) are not refused: the wave with the angles `180 - θ`
and `180 - ψ`, whose direction is the mirror image of the first, gives the same scattering matrices, fields and fluxes, and
all efficiencies with the opposite sign. -/
theorem C109_receding_wave {wl θ φ ψ : ℝ} {w : PlaneWave} (hw : planeWave wl (θ, φ, ψ) = .ok w) :
    ∃ w', planeWave wl (180 - θ, φ, 180 - ψ) = .ok w' ∧
      travel (180 - θ, φ, 180 - ψ) = ![travel (θ, φ, ψ) 0, travel (θ, φ, ψ) 1, -travel (θ, φ, ψ) 2] ∧
      ∀ (E : Ext) (lats : ℕ → Lattice) (mats : ℕ → LayerSpec) (stack : List ℕ) (nh : ℤ) (form : String) (c : Static),
      simInit E lats mats stack w nh form = .ok c →
      ∃ c', simInit E lats mats stack w' nh form = .ok c' ∧ c' = { c with excitation := w', incidentFlux := -c.incidentFlux } ∧
      ∀ (hist : List (Call c.nh)) (orders : Bool),
        (diffractionEfficiencies E { c with excitation := w', incidentFlux := -c.incidentFlux } orders
          (afterCalls E { c with excitation := w', incidentFlux := -c.incidentFlux } hist (Dyn.fresh mats (unsolved c.nh)))).1 =
        (diffractionEfficiencies E c orders (afterCalls E c hist (Dyn.fresh mats (unsolved c.nh)))).1.map (timesAll (-1)) := by
  have e1 : ∀ x, (180 - x) * (Real.pi / 180) = Real.pi - x * (Real.pi / 180) := fun x => by ring
  have hb : planeWave wl (180 - θ, φ, 180 - ψ) = (planeWave wl (θ, φ, ψ)).map receding := by
    unfold planeWave receding
    dsimp only
    simp only [e1, Real.sin_pi_sub, Real.cos_pi_sub]
    by_cases hl : wl = 0
    · simp only [hl, if_true]
      rfl
    simp only [hl, if_false]
    simp only [neg_mul_neg, neg_neg, Matrix.cons_val_zero, Matrix.cons_val_one]
    generalize powHalf _ = x
    rcases x with _ | q
    · rfl
    simp only [except_bind_ok]
    generalize inv2 _ = x
    rcases x with _ | Q
    · rfl
    simp only [except_bind_ok]
    show Except.ok _ = Except.ok _
    congr 2
    · funext i
      fin_cases i <;> simp
    · simp
  rw [hw] at hb
  refine ⟨_, hb, ?_, fun E lats mats stack nh form c hc => ?_⟩
  · unfold travel rad
    simp only [e1, Real.sin_pi_sub, Real.cos_pi_sub]
    simp
  have hi := simInit_rewave (E := E) (lats := lats) (mats := mats) (stack := stack) (e := w) (nh := nh) (form := form)
    (e' := receding w) (-1) rfl rfl rfl rfl
    (by show Real.cos (Real.pi - w.theta) = _; rw [Real.cos_pi_sub]; ring)
  rw [hc] at hi
  simp only [neg_one_mul, Except.map] at hi
  refine ⟨_, hi, rfl, fun hist o => ?_⟩
  have := afterCalls_rewave (E := E) (c := c) (receding w) (-c.incidentFlux) hist
    (t := -1) (by norm_num) (by ring) (Dyn.fresh mats (unsolved c.nh))
  refine Eq.trans (congrArg (fun d => (diffractionEfficiencies E _ o d).1) this) ?_
  rw [diffraction_rewave _ _ (t := -1) (by norm_num) (by ring)]

end Nannos

namespace Nannos.Examples

open Matrix Spec

/-- C109: efficiencies of a wave which travels away from a quarter-wave layer: neither is positive, their sum is `-1`. -/
theorem C109_negative_efficiencies : ∃ w c, planeWave 1 (180, 0, 180) = .ok w ∧
    simInit exE (fun _ => exLat) (patMats exGrid) [0, 1, 2] w 1 "original" = .ok c ∧
    (diffractionEfficiencies exE c false (Dyn.fresh (patMats exGrid) (unsolved c.nh))).1 = .ok (.total (-(9 / 25)) (-(16 / 25))) := by
  obtain ⟨c, h1, -, -, h4⟩ := pat_runs (g := exGrid) (by simp [Fin.sum_univ_succ, exGrid]; norm_num)
  obtain ⟨w, hw, -, h⟩ := C109_receding_wave exExc_mk
  obtain ⟨c', hc', rfl, h⟩ := h _ _ _ _ _ _ _ h1
  refine ⟨w, _, by simpa using hw, hc', ?_⟩
  have := h [] false
  refine this.trans ?_
  show (Except.map _ (diffractionEfficiencies exE c false (Dyn.fresh (patMats exGrid) (unsolved c.nh))).1) = _
  rw [h4]
  simp [Except.map, timesAll]

/-- C109: incidence at 60 degrees on a grating, written with two triples of angles. -/
example : ∃ w w' c, planeWave 1 (60, 30, 45) = .ok w ∧ planeWave 1 (-60, 30 + 180, 45 + 180) = .ok w' ∧
    simInit exE (fun _ => exLat) (patMats exGrid) [0, 1, 2] w 3 "tangent" = .ok c ∧
    simInit exE (fun _ => exLat) (patMats exGrid) [0, 1, 2] w' 3 "tangent" = .ok { c with excitation := w' } ∧
    ∀ (hist : List (Call c.nh)) (call : Call c.nh),
      Call.result exE { c with excitation := w' } call
          (afterCalls exE { c with excitation := w' } hist (Dyn.fresh (patMats exGrid) (unsolved c.nh))) =
        call.result exE c (afterCalls exE c hist (Dyn.fresh (patMats exGrid) (unsolved c.nh))) := by
  obtain ⟨w, h1⟩ := oblique 1 30 45 one_pos
  obtain ⟨c, h3, -⟩ := pat_init (E := exE) exSort_spec exGrid w (.inr rfl) (l := exLat) ⟨1, one_ne_zero, rfl⟩
  obtain ⟨w', h2, h⟩ := C109_same_results (C109_angles 60 30 45).2.2.2.1 h1
  obtain ⟨h4, h5⟩ := h exE (fun _ => exLat) (patMats exGrid) [0, 1, 2] 3 "tangent"
  rw [h3] at h4
  exact ⟨w, w', c, h1, h2, h3, h4, h5 c h3⟩

end Nannos.Examples
