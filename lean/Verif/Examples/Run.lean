import Verif.Examples.Slab

/-! Evaluation of the scattering matrix and the efficiencies of stacks at normal incidence. -/

namespace Nannos.Examples

open Matrix Nannos Spec

variable {c : Static} {w : ℝ}

/-- Solving and the scattering matrices of a stack of layers with complex indices. -/
theorem ex_solveC (h : NormalSim c w) {mats : ℕ → LayerSpec} (n : ℕ → ℂ) (hnd : c.stack.Nodup)
    (hr : ∀ r ∈ c.stack, HasIndexC c.omega (mats r) (n r)) :
    ∃ A1, SolveSpec exE c mats (unsolved c.nh) A1 (.ok ()) ∧
      (stackModes c mats A1 = c.stack.map fun r => scal c.omega (n r) (mats r).thickness) ∧
      (∀ i j, valS c mats A1 (.ok ()) (some (i, j)) =
        freshS (c.stack.map fun r => scal c.omega (n r) (mats r).thickness) i j) ∧
      ∀ r ∈ c.stack, modesOf (mats r) (A1 r) = .ok (scal c.omega (n r) (mats r).thickness) := by
  obtain ⟨A1, res, hs, -⟩ := solveSpec_of_noStale (E := exE) hnd (noStale_unsolved mats c.stack)
  obtain ⟨h1, h2⟩ := exModesC h hs n hnd hr
  subst h1
  have hf := hs.fix hnd rfl
  refine ⟨A1, hs, h2, fun i j => ?_, fun r hr => ?_⟩
  · rw [valS_solved hf, h2]
  · rw [(hf r hr).form.modesD]
    congr 1
    unfold stackModes at h2
    rw [List.map_inj_left] at h2
    exact h2 r hr

/-- Solving and the scattering matrices of a stack of layers with real indices. -/
theorem ex_solve (h : NormalSim c w) {mats : ℕ → LayerSpec} (n : ℕ → ℝ) (hnd : c.stack.Nodup)
    (hr : ∀ r ∈ c.stack, 0 < n r ∧ HasIndex (mats r) (n r)) :
    ∃ A1, SolveSpec exE c mats (unsolved c.nh) A1 (.ok ()) ∧
      (stackModes c mats A1 = c.stack.map fun r => scal c.omega (n r) (mats r).thickness) ∧
      (∀ i j, valS c mats A1 (.ok ()) (some (i, j)) =
        freshS (c.stack.map fun r => scal c.omega (n r) (mats r).thickness) i j) ∧
      ∀ r ∈ c.stack, modesOf (mats r) (A1 r) = .ok (scal c.omega (n r) (mats r).thickness) := 
  ex_solveC h (fun r => n r) hnd fun r h' => (hr r h').2.toC (hr r h').1 h

theorem NormalSim.fin (h : NormalSim c w) : ∀ f : Fin c.nh → ℝ, ∀ i0 : Fin c.nh, ∑ i, f i = f i0 := by
  intro f i0
  have hnh := h.nh
  have : ∀ i : Fin c.nh, i = i0 := fun i => Fin.ext (by omega)
  rw [Fintype.sum_eq_single i0 (fun i hi => absurd (this i) hi)]

theorem NormalSim.omega_ne (h : NormalSim c w) : (c.omega : ℂ) ≠ 0 := by
  exact_mod_cast h.omega_pos.ne'

/-- Flux of a wave in a layer of real index `n`. -/
theorem scal_flux (h : NormalSim c w) {n : ℝ} (hn : 0 < n) (t) (a b : ℂ) :
    ∃ f, poyntingFlux c (scal c.omega n t) (fun k => a * c.a0 k) (fun k => b * c.a0 k) = .ok f ∧
      (∀ i, f.1 i = ‖a‖ ^ 2 / n) ∧ ∀ i, f.2 i = -(‖b‖ ^ 2 / n) := by
  have hom := h.omega_ne
  have hnc : (n : ℂ) ≠ 0 := by exact_mod_cast hn.ne'
  have hq : ¬ ∃ k : Idx c.nh, (c.omega : ℂ) * (scal (c.omega : ℂ) (n : ℂ) t : Modes (Idx c.nh)).q k = 0 := by
    push Not
    intro k
    simp [scal, hom, hnc]
  have hA : (scal (c.omega : ℂ) (n : ℂ) t : Modes (Idx c.nh)).Q * (scal (c.omega : ℂ) (n : ℂ) t : Modes (Idx c.nh)).phi *
      diagonal (fun k => 1 / ((c.omega : ℂ) * (scal (c.omega : ℂ) (n : ℂ) t : Modes (Idx c.nh)).q k)) =
      (1 / (n : ℂ)) • 1 := by
    unfold scal
    dsimp only
    rw [Matrix.mul_one, smul_mul, Matrix.one_mul, ← smul_one_eq_diagonal, smul_smul]
    congr 1
    field_simp
  have hphi : (scal (c.omega : ℂ) (n : ℂ) t : Modes (Idx c.nh)).phi = 1 := rfl
  unfold poyntingFlux
  rw [if_neg hq]
  dsimp only
  rw [hA, hphi]
  obtain ⟨p, hp, ha0⟩ := h.a0
  have e2 : ∀ (a : ℂ) (t : ℝ), (starRingEnd ℂ) (1 / (n : ℂ) * (a * t)) * (a * t) = ((‖a‖ ^ 2 / n * t ^ 2 : ℝ) : ℂ) := by
    intro a t
    have := Complex.conj_mul' a
    simp only [map_mul, map_div₀, map_one, Complex.conj_ofReal]
    push_cast
    linear_combination ((t : ℂ) ^ 2 / n) * this
  have e3 : ∀ t : ℝ, (1 / 2 : ℂ) * ((starRingEnd ℂ) (b * t) * (1 / (n : ℂ) * (a * t)) -
      (starRingEnd ℂ) (1 / (n : ℂ) * (b * t)) * (a * t)) = 0 := by
    intro t
    simp only [map_mul, map_div₀, map_one, Complex.conj_ofReal]
    ring
  refine ⟨_, rfl, fun i => ?_, fun i => ?_⟩
  · simp only [ha0, Matrix.one_mulVec, smul_mulVec, Pi.smul_apply, Sum.elim_inl, Sum.elim_inr, smul_eq_mul, RCLike.star_def,
      e2, e3, Complex.ofReal_re, add_zero, ← Complex.ofReal_add]
    linear_combination (‖a‖ ^ 2 / n) * hp
  · simp only [ha0, Matrix.one_mulVec, smul_mulVec, Pi.smul_apply, Sum.elim_inl, Sum.elim_inr, smul_eq_mul, RCLike.star_def,
      e2, e3, Complex.ofReal_re, map_zero, add_zero, ← Complex.ofReal_add, ← Complex.ofReal_neg]
    linear_combination (-(‖b‖ ^ 2 / n)) * hp

/-- Efficiencies of a stack of layers with real indices, whose scattering matrix is `sscal t x r y`. -/
theorem ex_efficiencies (h : NormalSim c w) {mats : ℕ → LayerSpec} (n : ℕ → ℝ) (hnd : c.stack.Nodup)
    (hr : ∀ r ∈ c.stack, 0 < n r ∧ HasIndex (mats r) (n r)) {t x r y : ℂ}
    (hS : freshS (c.stack.map fun r => (scal c.omega (n r) (mats r).thickness : Modes (Idx c.nh))) 0 ((c.stack.length : ℤ) - 1) =
      .ok (sscal t x r y)) {r0 rN} (hr0 : pyGet c.stack 0 = .ok r0) (hrN : pyGet c.stack (-1) = .ok rN)
    (hfl : c.incidentFlux ≠ 0) :
    (diffractionEfficiencies exE c false (Dyn.fresh mats (unsolved c.nh))).1 =
      .ok (.total (‖r‖ ^ 2 / n r0 / c.incidentFlux) (‖t‖ ^ 2 / n rN / c.incidentFlux)) := by
  obtain ⟨A1, hs, -, h3, h4⟩ := ex_solve h (mats := mats) n hnd hr
  have hS' : valS c mats A1 (.ok ()) none = .ok (sscal t x r y) := by rw [valS_none, h3, hS]
  have hom := h.omega_ne
  have hm0 := pyGet_mem hr0
  have hmN := pyGet_mem hrN
  have hq : ∀ s ∈ c.stack, ∀ k, (c.omega : ℂ) * (scal c.omega (n s) (mats s).thickness : Modes (Idx c.nh)).q k ≠ 0 := by
    intro s hs k
    have : (n s : ℂ) ≠ 0 := by exact_mod_cast (hr s hs).1.ne'
    simp [scal, hom, this]
  obtain ⟨RT, d', e1, -, f0, fN, e2, e3, e4⟩ := succeeds_efficiencies hs hS' hr0 hrN (h4 r0 hm0) (h4 rN hmN)
    (hq r0 hm0) (hq rN hmN) hfl (Dyn.fresh mats (unsolved c.nh)) (inv_fresh _ (.inl rfl))
  have v1 : ∀ z : ℂ, (z • (1 : Matrix (Idx c.nh) (Idx c.nh) ℂ)) *ᵥ c.a0 = fun k => z * c.a0 k := by
    intro z; rw [smul_mulVec, Matrix.one_mulVec]; rfl
  have v0 : c.a0 = fun k => 1 * c.a0 k := by simp
  have vz : (0 : Idx c.nh → ℂ) = fun k => 0 * c.a0 k := by funext k; simp
  simp only [sscal, v1] at e2 e3
  nth_rewrite 1 [v0] at e2
  rw [vz] at e3
  obtain ⟨g, g1, -, g2⟩ := scal_flux h (hr r0 hm0).1 (mats r0).thickness 1 r
  obtain ⟨g', g1', g2', -⟩ := scal_flux h (hr rN hmN).1 (mats rN).thickness t 0
  rw [g1] at e2
  rw [g1'] at e3
  obtain rfl := Except.ok.inj e2
  obtain rfl := Except.ok.inj e3
  unfold diffractionEfficiencies
  rw [PyM.bind_ok e1]
  subst e4
  have hpos : 0 < c.nh := by rw [h.nh]; norm_num
  simp only [Bool.false_eq_true, if_false, PyM.pure_def]
  rw [h.fin _ ⟨0, hpos⟩, h.fin _ ⟨0, hpos⟩, g2, g2', neg_neg]

/-- Reflection of a stack of layers with complex indices. -/
theorem ex_reflection (h : NormalSim c w) {mats : ℕ → LayerSpec} (n : ℕ → ℂ) (hnd : c.stack.Nodup)
    (hr : ∀ r ∈ c.stack, HasIndexC c.omega (mats r) (n r)) {t x r y : ℂ}
    (hS : freshS (c.stack.map fun r => (scal c.omega (n r) (mats r).thickness : Modes (Idx c.nh))) 0 ((c.stack.length : ℤ) - 1) =
      .ok (sscal t x r y)) {r0 rN} (hr0 : pyGet c.stack 0 = .ok r0) (hrN : pyGet c.stack (-1) = .ok rN)
    (hfl : c.incidentFlux ≠ 0) {n0 : ℝ} (hn0 : 0 < n0) (hn0' : n r0 = n0) :
    ∃ T, (diffractionEfficiencies exE c false (Dyn.fresh mats (unsolved c.nh))).1 =
      .ok (.total (‖r‖ ^ 2 / n0 / c.incidentFlux) T) := by
  obtain ⟨A1, hs, -, h3, h4⟩ := ex_solveC h (mats := mats) n hnd hr
  have hS' : valS c mats A1 (.ok ()) none = .ok (sscal t x r y) := by rw [valS_none, h3, hS]
  have hom := h.omega_ne
  have hm0 := pyGet_mem hr0
  have hmN := pyGet_mem hrN
  have hq : ∀ s ∈ c.stack, ∀ k, (c.omega : ℂ) * (scal c.omega (n s) (mats s).thickness : Modes (Idx c.nh)).q k ≠ 0 := by
    intro s hs k
    have : n s ≠ 0 := (hr s hs).2.2.1
    simp [scal, hom, this]
  obtain ⟨RT, d', e1, -, f0, fN, e2, e3, e4⟩ := succeeds_efficiencies hs hS' hr0 hrN (h4 r0 hm0) (h4 rN hmN)
    (hq r0 hm0) (hq rN hmN) hfl (Dyn.fresh mats (unsolved c.nh)) (inv_fresh _ (.inl rfl))
  have v1 : ∀ z : ℂ, (z • (1 : Matrix (Idx c.nh) (Idx c.nh) ℂ)) *ᵥ c.a0 = fun k => z * c.a0 k := by
    intro z; rw [smul_mulVec, Matrix.one_mulVec]; rfl
  have v0 : c.a0 = fun k => 1 * c.a0 k := by simp
  simp only [sscal, v1] at e2
  nth_rewrite 1 [v0] at e2
  rw [hn0'] at e2
  obtain ⟨g, g1, -, g2⟩ := scal_flux h hn0 (mats r0).thickness 1 r
  rw [g1] at e2
  obtain rfl := Except.ok.inj e2
  unfold diffractionEfficiencies
  rw [PyM.bind_ok e1]
  subst e4
  have hpos : 0 < c.nh := by rw [h.nh]; norm_num
  simp only [Bool.false_eq_true, if_false, PyM.pure_def]
  exact ⟨∑ i, fN.1 i / c.incidentFlux, by rw [h.fin (fun i => -g.2 i / c.incidentFlux) ⟨0, hpos⟩, g2, neg_neg]⟩

end Nannos.Examples
