import Verif.Proofs.Propagate
import Verif.Proofs.Smooth
import Mathlib.Analysis.SpecialFunctions.Complex.LogDeriv

/-! Smoothness of the building blocks as functions of permittivities, frequency and angles (C89). -/

namespace Nannos

open Matrix Spec Topology

variable {V : Type} [NormedAddCommGroup V] [NormedSpace ℝ V] {n : WithTop ℕ∞} {x0 : V}

theorem contDiffAt_csqrt {z : V → ℂ} (hz : ContDiffAt ℝ n z x0) (h0 : z x0 ∈ Complex.slitPlane) :
    ContDiffAt ℝ n (fun x => csqrt (z x)) x0 := by
  have h1 : ContDiffAt ℝ n (fun x => Complex.exp (Complex.log (z x) / 2)) x0 := by
    have hl : ContDiffAt ℝ n Complex.log (z x0) := (Complex.contDiffAt_log h0).restrict_scalars ℝ
    exact ((hl.comp x0 hz).div_const 2).cexp
  refine h1.congr_of_eventuallyEq ?_
  have hne : z x0 ≠ 0 := Complex.slitPlane_ne_zero h0
  filter_upwards [hz.continuousAt.eventually_ne hne] with x hx
  exact csqrt_eq hx

/-- Near a point different from zero, on the side `Im z ≥ 0`, the square root is smooth. -/
theorem csqrt_branch {z : V → ℂ} (hz : ContDiffAt ℝ n z x0) (h0 : z x0 ≠ 0) (him : ∀ᶠ x in 𝓝 x0, 0 ≤ (z x).im) :
    ∃ s : V → ℂ, ContDiffAt ℝ n s x0 ∧ ∀ᶠ x in 𝓝 x0, csqrt (z x) = s x := by
  by_cases hs : z x0 ∈ Complex.slitPlane
  · exact ⟨_, contDiffAt_csqrt hz hs, Filter.Eventually.of_forall fun _ => rfl⟩
  have hre : (z x0).re < 0 := by
    rw [Complex.mem_slitPlane_iff] at hs
    push Not at hs
    rcases lt_or_eq_of_le hs.1 with h | h
    · exact h
    · exact absurd (Complex.ext h hs.2) h0
  refine ⟨fun x => Complex.I * csqrt (-z x), contDiffAt_const.mul (contDiffAt_csqrt hz.neg ?_), ?_⟩
  · rw [Complex.mem_slitPlane_iff]
    left
    simpa using hre
  have hc : ContinuousAt (fun x => (z x).re) x0 := Complex.continuous_re.continuousAt.comp hz.continuousAt
  filter_upwards [him, hc.eventually_lt continuousAt_const hre] with x h1 h2
  have h3 : csqrt (z x) ^ 2 = (Complex.I * csqrt (-z x)) ^ 2 := by
    rw [csqrt_sq, mul_pow, Complex.I_sq, csqrt_sq]; ring
  rcases sq_eq_sq_iff_eq_or_eq_neg.mp h3 with h | h
  · exact h
  exfalso
  have h4 := csqrt_im_nonneg h1
  rw [h] at h4
  have h5 : (Complex.I * csqrt (-z x)).im = (csqrt (-z x)).re := by simp
  rw [Complex.neg_im, h5] at h4
  have h6 : (csqrt (-z x)).re = 0 := le_antisymm (by linarith) (csqrt_re_nonneg _)
  have h7 : (csqrt (-z x) ^ 2).re ≤ 0 := by
    rw [sq, Complex.mul_re, h6]; nlinarith [sq_nonneg (csqrt (-z x)).im]
  rw [csqrt_sq, Complex.neg_re] at h7
  linarith

section exponential
variable {m : Type} [Fintype m] [DecidableEq m]

attribute [local instance] Matrix.linftyOpNormedRing Matrix.linftyOpNormedAlgebra

theorem SmM.exp {A : V → Matrix m m ℂ} (hA : SmM n x0 A) : SmM n x0 fun x => NormedSpace.exp (A x) := by
  have h1 : ContDiffAt ℝ n A x0 := by
    have : A = fun x => ∑ i, ∑ j, (A x i j) • Matrix.single i j (1 : ℂ) := by
      funext x
      conv_lhs => rw [Matrix.matrix_eq_sum_single (A x)]
      simp only [Matrix.smul_single, smul_eq_mul, mul_one]
    rw [this]
    exact ContDiffAt.sum fun i _ => ContDiffAt.sum fun j _ => (hA i j).smul contDiffAt_const
  have h2 : ContDiffAt ℝ n (NormedSpace.exp : Matrix m m ℂ → Matrix m m ℂ) (A x0) :=
    (NormedSpace.exp_analytic (𝕂 := ℝ) (A x0)).contDiffAt
  have h3 := h2.comp x0 h1
  intro i j
  let T : Matrix m m ℂ →ₗ[ℝ] ℂ :=
    { toFun := fun M => M i j
      map_add' := fun _ _ => rfl
      map_smul' := fun _ _ => rfl }
  exact (LinearMap.toContinuousLinearMap T).contDiff.contDiffAt.comp x0 h3

theorem SmM.smul {s : V → ℂ} (hs : ContDiffAt ℝ n s x0) {A : V → Matrix m m ℂ} (hA : SmM n x0 A) :
    SmM n x0 fun x => s x • A x := fun i j => hs.mul (hA i j)

theorem SmM.neg {A : V → Matrix m m ℂ} (hA : SmM n x0 A) : SmM n x0 fun x => -A x := fun i j => (hA i j).neg

theorem SmM.fromBlocks {A B C D : V → Matrix m m ℂ} (hA : SmM n x0 A) (hB : SmM n x0 B) (hC : SmM n x0 C)
    (hD : SmM n x0 D) : SmM n x0 fun x => Matrix.fromBlocks (A x) (B x) (C x) (D x) := by
  rintro (i | i) (j | j)
  · exact hA i j
  · exact hB i j
  · exact hC i j
  · exact hD i j

theorem contDiffAt_ofReal {f : V → ℝ} (hf : ContDiffAt ℝ n f x0) : ContDiffAt ℝ n (fun x => (f x : ℂ)) x0 :=
  Complex.ofRealCLM.contDiff.contDiffAt.comp x0 hf

theorem SmM.propag {Q B : V → Matrix m m ℂ} (hQ : SmM n x0 Q) (hB : SmM n x0 B) {z : V → ℝ}
    (hz : ContDiffAt ℝ n z x0) : SmM n x0 fun x => Nannos.propag (Q x) (B x) (z x) :=
  SmM.exp (SmM.smul (contDiffAt_const.mul (contDiffAt_ofReal hz)) (SmM.fromBlocks (SmM.const 0) hQ hB (SmM.const 0)))

theorem SmM.through {Q B : V → ℕ → Matrix m m ℂ} {z : V → ℕ → ℝ} (k : ℕ)
    (h : ∀ j < k, SmM n x0 (fun x => Q x j) ∧ SmM n x0 (fun x => B x j) ∧ ContDiffAt ℝ n (fun x => z x j) x0) :
    SmM n x0 fun x => Nannos.through (Q x) (B x) (z x) k := by
  induction k with
  | zero => exact SmM.const 1
  | succ k ih =>
    obtain ⟨h1, h2, h3⟩ := h k (by omega)
    exact (SmM.propag h1 h2 h3).mul (ih fun j hj => h j (by omega))

/-- Modes with smooth entries. -/
structure SmMd (n : WithTop ℕ∞) (x0 : V) (L : V → Modes m) : Prop where
  q : SmV n x0 fun x => (L x).q
  phi : SmM n x0 fun x => (L x).phi
  Q : SmM n x0 fun x => (L x).Q
  z : ContDiffAt ℝ n (fun x => (L x).z) x0

theorem SmMd.M {L : V → Modes m} (h : SmMd n x0 L) (hq : ∀ k, (L x0).q k ≠ 0) : SmM n x0 fun x => (L x).M := by
  have ha : SmM n x0 fun x => (L x).amat := by
    unfold Modes.amat
    refine h.Q.mul fun i k => ?_
    have hi : ContDiffAt ℝ n (fun x => ((L x).q k)⁻¹) x0 := (h.q k).inv (hq k)
    show ContDiffAt ℝ n (fun x => (L x).phi i k * (1 / (L x).q k)) x0
    simp only [one_div]
    exact (h.phi i k).mul hi
  exact SmM.fromBlocks ha ha.neg h.phi h.phi

theorem SmMd.f {L : V → Modes m} (h : SmMd n x0 L) : SmM n x0 fun x => (L x).f := by
  unfold Modes.f
  refine SmM.diagonal fun i => ?_
  exact ((contDiffAt_const.mul (h.q i)).mul (contDiffAt_ofReal h.z)).cexp

theorem SmM.sysMat {T : V → Matrix (m ⊕ m) (m ⊕ m) ℂ} (hT : SmM n x0 T) {L0 LN : V → Modes m} (h0 : SmMd n x0 L0)
    (hN : SmMd n x0 LN) (q0 : ∀ k, (L0 x0).q k ≠ 0) (qN : ∀ k, (LN x0).q k ≠ 0) :
    SmM n x0 fun x => Nannos.sysMat (T x) (L0 x) (LN x) :=
  ((hT.mul (h0.M q0)).mul (SmM.fromBlocks (SmM.const 0) (SmM.const 0) h0.f (SmM.const 0))).sub
    ((hN.M qN).mul (SmM.const _))

end exponential

end Nannos
