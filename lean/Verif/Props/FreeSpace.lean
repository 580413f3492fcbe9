import Verif.Props.Planar
import Verif.Props.Guided
import Verif.Props.SMatrix
import Verif.Proofs.GratingModes

/-! **C26**, for the results: a stack of layers of one material is free space. -/

namespace Nannos

open Matrix Spec

/-- The waves in films of one material. -/
theorem filmWaves_same {F : ℂ × ℂ} {films : List Film} (hF : ∀ f ∈ films, f.q = F.1 ∧ f.Z = F.2) (a0 : ℂ) :
    FilmWaves films (fun k => a0 * Complex.exp (Complex.I * F.1 * (((films.take k).map Film.d).sum : ℝ))) 0 := by
  have key : ∀ k L L', films[k]? = some L → films[k + 1]? = some L' →
      a0 * Complex.exp (Complex.I * F.1 * (((films.take k).map Film.d).sum : ℝ)) * Complex.exp (Complex.I * L.q * L.d) =
      a0 * Complex.exp (Complex.I * F.1 * (((films.take (k + 1)).map Film.d).sum : ℝ)) := by
    intro k L L' h1 h2
    have hk := (List.getElem?_eq_some_iff.mp h1)
    obtain ⟨hk, e⟩ := hk
    rw [(hF L (List.mem_of_getElem? h1)).1, List.take_succ_eq_append_getElem hk, e, mul_assoc, ← Complex.exp_add]
    simp only [List.map_append, List.map_cons, List.map_nil, List.sum_append, List.sum_cons, List.sum_nil]
    push_cast
    ring_nf
  refine ⟨fun k L L' h1 h2 => ?_, fun k L L' h1 h2 => ?_, rfl⟩
  · have := key k L L' h1 h2
    rw [(hF L (List.mem_of_getElem? h1)).2, (hF L' (List.mem_of_getElem? h2)).2]
    simp only [Pi.zero_apply, sub_zero, zero_mul]
    rw [this]
  · simp only [Pi.zero_apply, add_zero, zero_mul]
    exact key k L L' h1 h2

section
variable {E : Ext} {lats : ℕ → Lattice} {mats : ℕ → LayerSpec} {stack : List ℕ} {exc : PlaneWave} {nh : ℤ} {form : String} {c : Static}
  (hinit : simInit E lats mats stack exc nh form = .ok c)
  (hh : ∀ r ∈ stack, Homogeneous (mats r))
  {wl : ℝ} {ang : ℝ × ℝ × ℝ} (hp : planeWave wl ang = .ok exc) (hwl : 0 < wl) (hcos : 0 < Real.cos exc.theta)
  (h00 : ((0 : ℤ), (0 : ℤ)) ∈ c.harmonics)
  {e : ℝ} (hpos : 0 < e) (he : ∀ r ∈ stack, (mats r).epsilon.value = e) (hm : ∀ r ∈ stack, (mats r).mu = 1)
include hinit hh hp hwl hcos h00 hpos he hm

theorem freeSpace_normalK {w : ℝ} (hw : 0 < w) {r : ℕ} (hr : r ∈ stack) :
    normalK w (w * Real.sqrt e * Real.sin exc.theta) (mats r) = ((w * Real.sqrt e * Real.cos exc.theta : ℝ) : ℂ) := by
  unfold normalK
  rw [he r hr, hm r hr, mul_one]
  have hs := Real.sq_sqrt hpos.le
  have hsc := Real.sin_sq_add_cos_sq exc.theta
  rw [show (e : ℂ) * (w : ℂ) ^ 2 - ((w * Real.sqrt e * Real.sin exc.theta : ℝ) : ℂ) ^ 2 =
    (((w * Real.sqrt e * Real.cos exc.theta) ^ 2 : ℝ) : ℂ) from by
      rw [← Complex.ofReal_pow, ← Complex.ofReal_pow, ← Complex.ofReal_mul, ← Complex.ofReal_sub]
      congr 1
      linear_combination (-w ^ 2) * hs - w ^ 2 * Real.sqrt e ^ 2 * hsc]
  rw [csqrt_ofReal (sq_nonneg _), Real.sqrt_sq]
  positivity

/-- **C26**, the efficiencies: layers of one material, any number of them and of any thickness, do not reflect; all the
power is transmitted in the specular order. -/
theorem C26_nothing_is_reflected (hne : stack ≠ []) (hist : List (Call c.nh)) (RT : (Fin c.nh → ℝ) × (Fin c.nh → ℝ))
    (h : (efficienciesByOrder E c (afterCalls E c hist (Dyn.fresh mats (unsolved c.nh)))).1 = .ok RT) (i : Fin c.nh) :
    RT.1 i = 0 ∧ RT.2 i = if (i : ℕ) = c.harmonics.idxOf (0, 0) then 1 else 0 := by
  obtain ⟨r0, tl, hst⟩ := List.exists_cons_of_ne_nil hne
  have hr0 : stack.head? = some r0 := by rw [hst]; rfl
  have hm0 : r0 ∈ stack := List.mem_of_head? hr0
  obtain ⟨rN, hrN⟩ : ∃ r, stack.getLast? = some r := ⟨_, List.getLast?_eq_getLast_of_ne_nil hne⟩
  have hmN : rN ∈ stack := List.mem_of_getLast? hrN
  obtain ⟨w, k, hw, hk, as, bs, ap, bp, -, -, us, up, hRT⟩ := C80_planar_stack hinit hh hp hwl hcos h00 hpos hr0
    (he r0 hm0) (hm r0 hm0) hrN hist RT h
  have hwp : 0 < w := by rw [hw]; positivity
  have hq : ∀ r ∈ stack, normalK w k (mats r) = ((w * Real.sqrt e * Real.cos exc.theta : ℝ) : ℂ) := by
    intro r hr
    rw [hk]; exact freeSpace_normalK hinit hh hp hwl hcos h00 hpos he hm hwp hr
  have hlen : 0 < stack.length := List.length_pos_iff.mpr hne
  have hqp : 0 < w * Real.sqrt e * Real.cos exc.theta := by positivity
  have hd : ∀ (f : ℝ → ℝ → LayerSpec → Film) , (∀ r, (f w k (mats r)).d = (mats r).thickness.getD 0) → ∀ j,
      (((stack.map fun r => f w k (mats r)).take j).map Film.d) = (stack.take j).map fun r => (mats r).thickness.getD 0 := by
    intro f hf j
    rw [← List.map_take, List.map_map]
    exact List.map_congr_left fun r _ => hf r
  have hun : ∀ x : ℝ, Complex.normSq (1 * Complex.exp (Complex.I * ((w * Real.sqrt e * Real.cos exc.theta : ℝ) : ℂ) * (x : ℂ))) = 1 := by
    intro x
    rw [one_mul]; exact unimodular _ x
  have S := filmWaves_same (F := (((w * Real.sqrt e * Real.cos exc.theta : ℝ) : ℂ),
      (w : ℂ) ^ 2 / ((w * Real.sqrt e * Real.cos exc.theta : ℝ) : ℂ))) (films := stack.map fun r => filmS w k (mats r))
    (by simp only [List.mem_map, forall_exists_index, and_imp]
        rintro f r hr rfl
        exact ⟨hq r hr, by unfold filmS; simp only; rw [hq r hr, hm r hr, mul_one]⟩) 1
  have P := filmWaves_same (F := (((w * Real.sqrt e * Real.cos exc.theta : ℝ) : ℂ),
      ((w * Real.sqrt e * Real.cos exc.theta : ℝ) : ℂ) / (e : ℂ))) (films := stack.map fun r => filmP w k (mats r))
    (by simp only [List.mem_map, forall_exists_index, and_imp]
        rintro f r hr rfl
        exact ⟨hq r hr, by unfold filmP; simp only; rw [hq r hr, he r hr]⟩) 1
  have uS := us _ _ { S with above := by simp }
  have uP := up _ _ { P with above := by simp }
  obtain ⟨h1, h2⟩ := hRT i
  rw [h1, h2, ← (uS 0 hlen).2, ← (uP 0 hlen).2, ← (uS _ (Nat.sub_lt hlen one_pos)).1, ← (uP _ (Nat.sub_lt hlen one_pos)).1]
  simp only [hun]
  have hne' : ((w * Real.sqrt e * Real.cos exc.theta : ℝ) : ℂ) ≠ 0 := by exact_mod_cast hqp.ne'
  have hwc : (w : ℂ) ≠ 0 := by exact_mod_cast hwp.ne'
  have hec : (e : ℂ) ≠ 0 := by exact_mod_cast hpos.ne'
  have z1 : (filmS w k (mats rN)).Z / (filmS w k (mats r0)).Z = 1 := by
    unfold filmS; simp only; rw [hq rN hmN, hq r0 hm0, hm rN hmN, hm r0 hm0]
    field_simp
  have z2 : (filmP w k (mats rN)).Z / (filmP w k (mats r0)).Z = 1 := by
    unfold filmP; simp only; rw [hq rN hmN, hq r0 hm0, he rN hmN, he r0 hm0]
    field_simp
  rw [z1, z2]
  constructor
  · simp
  · simp [Real.sin_sq_add_cos_sq]

/-- **C26**, the fields: in layer `j`, at the depth `z` of the layer, the specular order is the incident plane wave continued
over the distance `Z` travelled since the top of the first layer, with electric field `A / n`, `A` the amplitude given by the
polarisation angle, `n = sqrt e`, and magnetic field `u x A`, `u` the direction of propagation. All other orders vanish. -/
theorem C26_fields_are_the_incident_wave (hist : List (Call c.nh)) (id : LayerId) (zs : List ℝ) (hz : zs ≠ [])
    (Fs : List (FieldF c.nh))
    (h : (getFieldFourier E c id zs (afterCalls E c hist (Dyn.fresh mats (unsolved c.nh)))).1 = .ok Fs) :
    ∃ r n F, getLayer c id = .ok (r, n) ∧ ∃ j, pyIdx stack.length n = some j ∧ stack[j]? = some r ∧ Fs = zs.map F ∧
    ∀ z (i : Fin c.nh),
      let w := 2 * Real.pi / wl
      let Z := ((stack.take j).map fun r => (mats r).thickness.getD 0).sum + z
      let A := exc.amplitude
      let u := ![Real.sin exc.theta * Real.cos exc.phi, Real.sin exc.theta * Real.sin exc.phi, Real.cos exc.theta]
      let ph := if (i : ℕ) = c.harmonics.idxOf (0, 0) then
        Complex.exp (Complex.I * ((w * Real.sqrt e * Real.cos exc.theta : ℝ) : ℂ) * (Z : ℂ)) else 0
      (F z).ex i = (A 0 / Real.sqrt e : ℝ) * ph ∧ (F z).ey i = (A 1 / Real.sqrt e : ℝ) * ph ∧
      (F z).ez i = (A 2 / Real.sqrt e : ℝ) * ph ∧ (F z).hx i = (u 1 * A 2 - u 2 * A 1 : ℝ) * ph ∧
      (F z).hy i = (u 2 * A 0 - u 0 * A 2 : ℝ) * ph ∧ (F z).hz i = (u 0 * A 1 - u 1 * A 0 : ℝ) * ph := by
  have hne : stack ≠ [] := (simInit_ok hinit).ne
  obtain ⟨r0, tl, hst⟩ := List.exists_cons_of_ne_nil hne
  have hr0 : stack.head? = some r0 := by rw [hst]; rfl
  have hm0 : r0 ∈ stack := List.mem_of_head? hr0
  obtain ⟨w, k, hw, hk, as, bs, ap, bp, -, a1, -, a2, us, up, r, n, F, g1, j, g2, g3, g4, g5⟩ := C80_fields hinit hh hp hwl
    hcos h00 hpos hr0 (he r0 hm0) (hm r0 hm0) hist id zs hz Fs h
  refine ⟨r, n, F, g1, j, g2, g3, ?_, fun z i => ?_⟩
  · have := g4 zs
    rw [h] at this
    exact Except.ok.inj this
  have hj : j < stack.length := (List.getElem?_eq_some_iff.mp g3).1
  have hmr := List.mem_of_getElem? g3
  have hwp : 0 < w := by rw [hw]; positivity
  have hq : ∀ r ∈ stack, normalK w k (mats r) = ((w * Real.sqrt e * Real.cos exc.theta : ℝ) : ℂ) := by
    intro r hr
    rw [hk]; exact freeSpace_normalK hinit hh hp hwl hcos h00 hpos he hm hwp hr
  have hqp : 0 < w * Real.sqrt e * Real.cos exc.theta := by positivity
  have hd : ∀ (f : LayerSpec → Film), (∀ r, (f (mats r)).d = (mats r).thickness.getD 0) →
      (((stack.map fun r => f (mats r)).take j).map Film.d) = (stack.take j).map fun r => (mats r).thickness.getD 0 := by
    intro f hf
    rw [← List.map_take, List.map_map]
    exact List.map_congr_left fun r _ => hf r
  have S := filmWaves_same (F := (((w * Real.sqrt e * Real.cos exc.theta : ℝ) : ℂ),
      (w : ℂ) ^ 2 / ((w * Real.sqrt e * Real.cos exc.theta : ℝ) : ℂ))) (films := stack.map fun r => filmS w k (mats r))
    (by simp only [List.mem_map, forall_exists_index, and_imp]
        rintro f r hr rfl
        exact ⟨hq r hr, by unfold filmS; simp only; rw [hq r hr, hm r hr, mul_one]⟩) (as 0)
  have P := filmWaves_same (F := (((w * Real.sqrt e * Real.cos exc.theta : ℝ) : ℂ),
      ((w * Real.sqrt e * Real.cos exc.theta : ℝ) : ℂ) / (e : ℂ))) (films := stack.map fun r => filmP w k (mats r))
    (by simp only [List.mem_map, forall_exists_index, and_imp]
        rintro f r hr rfl
        exact ⟨hq r hr, by unfold filmP; simp only; rw [hq r hr, he r hr]⟩) (ap 0)
  obtain ⟨s1, s2⟩ := us _ _ S (by simp) j hj
  obtain ⟨p1, p2⟩ := up _ _ P (by simp) j hj
  rw [hd (filmS w k) fun _ => rfl] at s1
  rw [hd (filmP w k) fun _ => rfl] at p1
  simp only [Pi.zero_apply] at s2 p2
  obtain ⟨k1, k2⟩ := g5 z i
  intro w' Z A u ph
  have hww : w' = w := hw.symm
  by_cases hi0 : (i : ℕ) = c.harmonics.idxOf (0, 0)
  swap
  · have hph : ph = 0 := if_neg hi0
    rw [hph]
    simpa only [mul_zero] using k1 hi0
  have hph : ph = Complex.exp (Complex.I * ((w * Real.sqrt e * Real.cos exc.theta : ℝ) : ℂ) *
      ((((stack.take j).map fun r => (mats r).thickness.getD 0).sum : ℝ) : ℂ)) *
      Complex.exp (Complex.I * ((w * Real.sqrt e * Real.cos exc.theta : ℝ) : ℂ) * (z : ℂ)) := by
    change (if _ then _ else _) = _
    rw [if_pos hi0, hww, ← Complex.exp_add]
    congr 1
    change _ * (((_ : ℝ)) : ℂ) = _
    rw [Complex.ofReal_add]
    ring
  obtain ⟨e1, e2, e3, e4, e5, e6⟩ := k2 hi0
  have hmag : ∀ (f : Film) a, f.q = ((w * Real.sqrt e * Real.cos exc.theta : ℝ) : ℂ) →
      f.mag (a * Complex.exp (Complex.I * ((w * Real.sqrt e * Real.cos exc.theta : ℝ) : ℂ) *
        ((((stack.take j).map fun r => (mats r).thickness.getD 0).sum : ℝ) : ℂ))) 0 z = a * ph ∧
      f.ele (a * Complex.exp (Complex.I * ((w * Real.sqrt e * Real.cos exc.theta : ℝ) : ℂ) *
        ((((stack.take j).map fun r => (mats r).thickness.getD 0).sum : ℝ) : ℂ))) 0 z = f.Z * (a * ph) := by
    intro f a hf
    unfold Film.mag Film.ele
    rw [hf, hph]
    constructor <;> ring
  obtain ⟨m1, m2⟩ := hmag (filmS w k (mats r)) (as 0) (hq r hmr)
  obtain ⟨m3, m4⟩ := hmag (filmP w k (mats r)) (ap 0) (hq r hmr)
  rw [← s1, ← s2, ← p1, ← p2] at e1 e2 e3 e4
  rw [← s1, ← s2] at e5
  rw [← p1, ← p2] at e6
  simp only [m1, m2, m3, m4] at e1 e2 e3 e4 e5 e6
  have z1 : (filmS w k (mats r)).Z = (w : ℂ) ^ 2 / ((w * Real.sqrt e * Real.cos exc.theta : ℝ) : ℂ) := by
    unfold filmS; simp only; rw [hq r hmr, hm r hmr, mul_one]
  have z2 : (filmP w k (mats r)).Z = ((w * Real.sqrt e * Real.cos exc.theta : ℝ) : ℂ) / (e : ℂ) := by
    unfold filmP; simp only; rw [hq r hmr, he r hmr]
  rw [z1] at e3 e4 e5
  rw [z2] at e3 e4
  rw [he r hmr] at e6
  have hA := (planeWave_ok hp).2.2.2.2.2.2.2.1
  have A0 : A 0 = Real.cos exc.psi * Real.cos exc.theta * Real.cos exc.phi - Real.sin exc.psi * Real.sin exc.phi := by
    change exc.amplitude 0 = _; rw [hA]; rfl
  have A1 : A 1 = Real.cos exc.psi * Real.cos exc.theta * Real.sin exc.phi + Real.sin exc.psi * Real.cos exc.phi := by
    change exc.amplitude 1 = _; rw [hA]; rfl
  have A2 : A 2 = -Real.cos exc.psi * Real.sin exc.theta := by
    change exc.amplitude 2 = _; rw [hA]; rfl
  have u0 : u 0 = Real.sin exc.theta * Real.cos exc.phi := rfl
  have u1 : u 1 = Real.sin exc.theta * Real.sin exc.phi := rfl
  have u2 : u 2 = Real.cos exc.theta := rfl
  rw [A0, A1, A2, u0, u1, u2]
  rw [a1, a2] at e1 e2 e3 e4
  rw [a1] at e5
  rw [a2] at e6
  rw [hk] at e5 e6
  have hwc : (w : ℂ) ≠ 0 := by exact_mod_cast hwp.ne'
  have hn : ((Real.sqrt e : ℝ) : ℂ) ≠ 0 := by exact_mod_cast (Real.sqrt_pos.mpr hpos).ne'
  have hc0 : ((Real.cos exc.theta : ℝ) : ℂ) ≠ 0 := by exact_mod_cast hcos.ne'
  have hee : (e : ℂ) = ((Real.sqrt e : ℝ) : ℂ) ^ 2 := by
    rw [← Complex.ofReal_pow, Real.sq_sqrt hpos.le]
  have ht : ((Real.sin exc.theta : ℝ) : ℂ) ^ 2 + ((Real.cos exc.theta : ℝ) : ℂ) ^ 2 = 1 := by
    exact_mod_cast Real.sin_sq_add_cos_sq exc.theta
  have hf : ((Real.sin exc.phi : ℝ) : ℂ) ^ 2 + ((Real.cos exc.phi : ℝ) : ℂ) ^ 2 = 1 := by
    exact_mod_cast Real.sin_sq_add_cos_sq exc.phi
  rw [hee] at e3 e4 e6
  simp only [Complex.ofReal_mul, Complex.ofReal_add, Complex.ofReal_sub, Complex.ofReal_neg, Complex.ofReal_div] at e1 e2 e3 e4 e5 e6 ⊢
  generalize ((Real.sin exc.theta : ℝ) : ℂ) = st at *
  generalize ((Real.cos exc.theta : ℝ) : ℂ) = ct at *
  generalize ((Real.sin exc.phi : ℝ) : ℂ) = sf at *
  generalize ((Real.cos exc.phi : ℝ) : ℂ) = cf at *
  generalize ((Real.sin exc.psi : ℝ) : ℂ) = sp at *
  generalize ((Real.cos exc.psi : ℝ) : ℂ) = cp at *
  generalize ((Real.sqrt e : ℝ) : ℂ) = n at *
  generalize (w : ℂ) = wc at *
  clear_value ph
  refine ⟨?_, ?_, ?_, ?_, ?_, ?_⟩
  · apply mul_left_cancel₀ hwc
    rw [e3]
    field_simp
    ring
  · apply mul_left_cancel₀ hwc
    rw [e4]
    field_simp
    ring
  · apply mul_left_cancel₀ (mul_ne_zero hwc (pow_ne_zero 2 hn))
    rw [e6]
    field_simp
  · rw [e1]
    linear_combination (ph * cp * sf) * ht
  · rw [e2]
    linear_combination (-(ph * cp * cf)) * ht
  · apply mul_left_cancel₀ (pow_ne_zero 2 hwc)
    rw [e5]
    field_simp
    linear_combination (-(st * sp * ph)) * hf

/-- **C26**, and results are always returned, whatever was called before: the efficiencies, and the fields in every layer
whose thickness is a number. -/
theorem C26_results_are_returned (hE : EigContract E) (hA : ArgsortContract E.argsort) (hu : c.lattice.harmonicsArray = none)
    (htwo : 1 < stack.length) (hist : List (Call c.nh)) :
    (∃ RT, (efficienciesByOrder E c (afterCalls E c hist (Dyn.fresh mats (unsolved c.nh)))).1 = .ok RT) ∧
    ∀ (id : LayerId) (r l : ℕ), getLayer c id = .ok (r, (l : ℤ)) → (∃ t, (mats r).thickness = some t) → ∀ zs,
      ∃ Fs, (getFieldFourier E c id zs (afterCalls E c hist (Dyn.fresh mats (unsolved c.nh)))).1 = .ok Fs := by
  have hi := simInit_ok hinit
  have hne : stack ≠ [] := hi.ne
  obtain ⟨r0, tl, hst⟩ := List.exists_cons_of_ne_nil hne
  have hr0 : stack.head? = some r0 := by rw [hst]; rfl
  have hm0 : r0 ∈ stack := List.mem_of_head? hr0
  have hg := good_sup hi (by rw [(planeWave_ok hp).2.1]; exact hwl) hr0 (hm r0 hm0) (he r0 hm0) hpos h00
  have hone := planar_harmonics hinit hA hh hu h00
  have hcst : c.stack = stack := hi.stack_eq
  have hec : (e : ℂ) ≠ 0 := by exact_mod_cast hpos.ne'
  have hw : WellPlaced mats stack := fun k r hk hc => by
    rw [(hh r (List.mem_of_getElem? hk)).1] at hc; cases hc
  obtain ⟨d1, hsolve⟩ : ∃ d1, solve E c (Dyn.fresh mats (unsolved c.nh)) = (.ok (), d1) := by
    have h2 := planar_solve (E := E) (c := c) c.stack (Dyn.fresh mats (unsolved c.nh)) fun r hr =>
      ⟨hh r (hcst ▸ hr), by change (mats r).epsilon.value ≠ 0; rw [he r (hcst ▸ hr)]; exact hec⟩
    unfold solve
    rcases hr : solveAll E c c.stack (Dyn.fresh mats (unsolved c.nh)) with ⟨x, d⟩
    rw [hr] at h2
    obtain rfl : x = .ok () := h2
    exact ⟨_, by rw [PyM.bind_ok hr]; rfl⟩
  have hfix := solved_fix hinit hsolve
  have hpl : ∀ r ∈ stack, ∀ M, modesOf (mats r) (d1.attrs r) = .ok M → PlanarModes c (mats r) M := fun r hr M hM =>
    planarModes (hfix r hr) (hh r hr) hM
  have hdet : ∀ r ∈ stack, ∀ ev, (d1.attrs r).eig = some ev → ev.2.det ≠ 0 := by
    intro r hr ev hev
    have hM := (hfix r hr).form.modesD
    have := (hpl r hr _ hM).phi
    unfold modesD at this
    rw [hev] at this
    simp only [Option.getD_some] at this
    rw [this, det_one]
    exact one_ne_zero
  obtain ⟨Ls, l1, l2⟩ := C98_results_without_guided_waves_partial hinit hE hw hm hg.omega.ne'
    (by rw [hg.flux]; exact (div_pos hcos hg.pos).ne') htwo hsolve hdet
  have hlen : Ls.length = stack.length := l1.length_eq.symm
  have hmem : ∀ L ∈ Ls, ∃ r ∈ stack, PlanarModes c (mats r) L := by
    intro L hL
    obtain ⟨k, hk, rfl⟩ := List.mem_iff_getElem.mp hL
    exact ⟨stack[k], List.getElem_mem _, hpl _ (List.getElem_mem _) _ (List.forall₂_iff_get.mp l1 |>.2 k (by omega) hk)⟩
  have hq : ∀ L ∈ Ls, ∀ p, L.q p ≠ 0 := by
    intro L hL
    obtain ⟨r, hr, p⟩ := hmem L hL
    have key : ∀ i, L.q (.inl i) ≠ 0 := by
      intro i h0
      have h3 := p.q_sq i
      obtain ⟨h1, h2⟩ := hg.k2 hp hone i
      rw [h0, he r hr, hm r hr, h1, h2] at h3
      have hwp := hg.omega
      have f : ((Real.cos exc.phi : ℝ) : ℂ) ^ 2 + ((Real.sin exc.phi : ℝ) : ℂ) ^ 2 = 1 := by
        exact_mod_cast Real.cos_sq_add_sin_sq exc.phi
      have t : ((Real.sin exc.theta : ℝ) : ℂ) ^ 2 + ((Real.cos exc.theta : ℝ) : ℂ) ^ 2 = 1 := by
        exact_mod_cast Real.sin_sq_add_cos_sq exc.theta
      have hs : ((Real.sqrt e : ℝ) : ℂ) ^ 2 = (e : ℂ) := by exact_mod_cast Real.sq_sqrt hpos.le
      have : (e : ℂ) * (c.omega : ℂ) ^ 2 * ((Real.cos exc.theta : ℝ) : ℂ) ^ 2 = 0 := by
        simp only [Complex.ofReal_mul] at h3
        linear_combination -h3 + (e : ℂ) * (c.omega : ℂ) ^ 2 * t + (c.omega : ℂ) ^ 2 * ((Real.sin exc.theta : ℝ) : ℂ) ^ 2 *
          ((Real.sqrt e : ℝ) : ℂ) ^ 2 * f + (c.omega : ℂ) ^ 2 * ((Real.sin exc.theta : ℝ) : ℂ) ^ 2 * hs
      rcases mul_eq_zero.mp this with h | h
      · rcases mul_eq_zero.mp h with h | h
        · exact hec h
        · exact pow_ne_zero 2 (by exact_mod_cast hwp.ne') h
      · exact pow_ne_zero 2 (by exact_mod_cast hcos.ne') h
    rintro (i | i)
    · exact key i
    · rw [p.q_inr]; exact key i
  obtain ⟨L0, hL0⟩ : ∃ L, L ∈ Ls := ⟨Ls[0]'(by omega), List.getElem_mem _⟩
  have hsame : ∀ L ∈ Ls, SameModes L0 L := by
    intro L hL
    obtain ⟨r, hr, p⟩ := hmem L hL
    obtain ⟨s, hs, p'⟩ := hmem L0 hL0
    refine ⟨?_, by rw [p.phi, p'.phi], ?_⟩
    · rw [p.q, p'.q, he r hr, he s hs, hm r hr, hm s hs]
    · rw [p.Q, p'.Q, he r hr, he s hs, hm r hr, hm s hs]
  have hdet0 : L0.M.det ≠ 0 := by
    obtain ⟨s, hs, p'⟩ := hmem L0 hL0
    exact p'.det hg.omega.ne' (by rw [hm s hs]; exact one_ne_zero) (hq L0 hL0)
  have hng : ∀ i k, i < k → k < stack.length → ¬GuidedWave Ls i k := by
    intro i k hik hk hgw
    obtain ⟨S, hS, -⟩ := C26_homogeneous_stack_does_not_reflect Ls L0 hsame (hq L0 hL0) hdet0 i k hik (by omega)
    exact guided_not_ok hik le_rfl hgw (freshS_ok.mp hS).2
  obtain ⟨o1, o2⟩ := l2 hq (fun k a b => hng 0 k a b) hist
  exact ⟨o1, fun id r l g1 g2 zs => o2 id r l g1 g2 (.inr (.inr fun k a b => hng l k a b)) zs⟩

end

namespace Examples

/-- C26: three layers of permittivity 2, wave at 60 degrees, azimuth 30, polarisation 45. -/
example : ∃ (exc : PlaneWave) (c : Static), planeWave 1 (60, 30, 45) = .ok exc ∧
    simInit exE (fun _ => exLat) (filmMats (fun _ => 2) 1 fun r => r) [0, 1, 2] exc 1 "original" = .ok c ∧
    (∃ RT, (efficienciesByOrder exE c (afterCalls exE c [] (Dyn.fresh (filmMats (fun _ => 2) 1 fun r => r) (unsolved c.nh)))).1 = .ok RT ∧
      ∀ i, RT.1 i = 0) ∧
    ∃ F, (getFieldFourier exE c (.idx 2) [3] (afterCalls exE c [] (Dyn.fresh (filmMats (fun _ => 2) 1 fun r => r) (unsolved c.nh)))).1 =
      .ok [F] ∧ ∀ i : Fin c.nh, (i : ℕ) = c.harmonics.idxOf (0, 0) → F.ez i = (exc.amplitude 2 / Real.sqrt 2 : ℝ) *
        Complex.exp (Complex.I * ((2 * Real.pi / 1 * Real.sqrt 2 * Real.cos exc.theta : ℝ) : ℂ) * ((1 + 3 : ℝ) : ℂ)) := by
  obtain ⟨exc, hp, hs, hc, -⟩ := oblique_wave 1 30 45 one_pos
  obtain ⟨c, hi, hH, hl⟩ := planar_init (filmMats (fun _ => 2) 1 fun r => r) 0 [1, 2] exc (by simp [filmMats, exLayer])
    (by simp [filmMats, exLayer]) (filmMats_hom _ _ _ _) (by rw [filmMats_eps, filmMats_mu]; simp)
  have hh : ∀ r ∈ [0, 1, 2], Homogeneous (filmMats (fun _ => 2) 1 (fun r => r) r) := fun r _ => filmMats_hom _ _ _ r
  have hcos : 0 < Real.cos exc.theta := by rw [hc]; norm_num
  have h00 : ((0 : ℤ), (0 : ℤ)) ∈ c.harmonics := by rw [hH]; simp
  have he : ∀ r ∈ [0, 1, 2], (filmMats (fun _ => 2) 1 (fun r => r) r).epsilon.value = ((2 : ℝ) : ℂ) := fun r _ => by
    rw [filmMats_eps]; norm_num
  obtain ⟨⟨RT, h1⟩, h2⟩ := C26_results_are_returned hi hh hp one_pos hcos h00 two_pos he (fun r _ => rfl) exE_eig exSort_spec
    (by rw [hl]; rfl) (by simp) []
  have hst : c.stack = [0, 1, 2] := (simInit_ok hi).stack_eq
  have hgl : getLayer c (.idx 2) = .ok (2, ((2 : ℕ) : ℤ)) := by
    unfold getLayer
    rw [hst]; rfl
  obtain ⟨Fs, h3⟩ := h2 (.idx 2) 2 2 hgl ⟨_, rfl⟩ [3]
  obtain ⟨r, n, F, g1, j, g2, g3, g4, g5⟩ := C26_fields_are_the_incident_wave hi hh hp one_pos hcos h00 two_pos he (fun r _ => rfl)
    [] (.idx 2) [3] (by simp) Fs h3
  rw [hgl] at g1
  simp only [Except.ok.injEq, Prod.mk.injEq] at g1
  obtain ⟨rfl, rfl⟩ := g1
  have hj : j = 2 := by
    have : pyIdx [0, 1, 2].length ((2 : ℕ) : ℤ) = some 2 := rfl
    rw [this] at g2
    exact (Option.some.inj g2).symm
  subst hj
  refine ⟨exc, c, hp, hi, ⟨RT, h1, fun i => (C26_nothing_is_reflected hi hh hp one_pos hcos h00 two_pos he (fun r _ => rfl)
    (by simp) [] RT h1 i).1⟩, F 3, by rw [h3, g4]; rfl, fun i hi0 => ?_⟩
  have := (g5 3 i).2.2.1
  rw [if_pos hi0] at this
  rw [this]
  congr 3
  simp [filmMats_d]

end Examples

end Nannos
