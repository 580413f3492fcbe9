import Verif.Proofs.PlanarTotal
import Verif.Proofs.ProfileSim

/-! Layers which absorb everywhere: their modes decay, and no field exists in them without a source (C85). -/

namespace Nannos

open Matrix Spec Filter Topology

section
variable {m : Type} [Fintype m] [DecidableEq m]

/-- The imaginary part of the quadratic form of `A` is positive. -/
def Absorbs (A : Matrix m m ℂ) : Prop := ∀ v : m → ℂ, v ≠ 0 → 0 < (star v ⬝ᵥ A *ᵥ v).im

/-- Modes of a layer in which every field dissipates. -/
structure LossyModes (M : Modes m) : Prop where
  det : M.phi.det ≠ 0
  im : ∀ k, 0 < (M.q k).im
  op : ∃ R, R * M.Q * M.phi = M.phi * diagonal (fun k => M.q k ^ 2) ∧ (∀ h, 0 ≤ (star h ⬝ᵥ M.Q *ᵥ h).im) ∧ Absorbs R

theorem tanH_vec (M : Modes m) (a b : m → ℂ) (z : ℝ) : tanH M a b z = M.phi *ᵥ fun j =>
    a j * Complex.exp (Complex.I * M.q j * z) + b j * Complex.exp (Complex.I * M.q j * ((M.z - z : ℝ) : ℂ)) := rfl

theorem tanE_vec (M : Modes m) (a b : m → ℂ) (z : ℝ) : tanE M a b z = M.Q *ᵥ (M.phi *ᵥ fun j =>
    (a j * Complex.exp (Complex.I * M.q j * z) - b j * Complex.exp (Complex.I * M.q j * ((M.z - z : ℝ) : ℂ))) / M.q j) := by
  rw [mulVec_mulVec]
  funext i
  simp only [tanE, mulVec, dotProduct, mul_apply]
  refine Finset.sum_congr rfl fun j _ => ?_
  ring

namespace LossyModes
variable {M : Modes m} (h : LossyModes M)
include h

theorem q_ne (k : m) : M.q k ≠ 0 := fun h0 => by
  have := h.im k
  rw [h0] at this
  exact lt_irrefl _ this

theorem Q_inj {x : m → ℂ} (hx : M.Q *ᵥ x = 0) : x = 0 := by
  obtain ⟨R, hR, -, -⟩ := h.op
  set y := M.phi⁻¹ *ᵥ x with hy
  have hxy : x = M.phi *ᵥ y := by rw [hy, mulVec_mulVec, mul_nonsing_inv _ (det_unit h.det), one_mulVec]
  have h1 : M.phi *ᵥ (diagonal (fun k => M.q k ^ 2) *ᵥ y) = M.phi *ᵥ 0 := by
    rw [mulVec_mulVec, ← hR, ← mulVec_mulVec, ← hxy, ← mulVec_mulVec, hx, mulVec_zero, mulVec_zero]
  have h2 := mulVec_inj h.det h1
  have h3 : y = 0 := by
    funext k
    have := congrFun h2 k
    rw [mulVec_diagonal] at this
    exact (mul_eq_zero.mp this).resolve_left (pow_ne_zero 2 (h.q_ne k))
  rw [hxy, h3, mulVec_zero]

theorem zero_of_fields {a b : m → ℂ} {z : ℝ} (hE : tanE M a b z = 0) (hH : tanH M a b z = 0) : a = 0 ∧ b = 0 := by
  rw [tanE_vec] at hE
  rw [tanH_vec] at hH
  have h1 := mulVec_inj h.det ((h.Q_inj hE).trans (mulVec_zero M.phi).symm)
  have h2 := mulVec_inj h.det (hH.trans (mulVec_zero M.phi).symm)
  have key : ∀ j, a j = 0 ∧ b j = 0 := by
    intro j
    have e1 := congrFun h1 j
    have e2 := congrFun h2 j
    simp only [Pi.zero_apply] at e1 e2
    have e1 := (div_eq_zero_iff.mp e1).resolve_right (h.q_ne j)
    have n1 := Complex.exp_ne_zero (Complex.I * M.q j * z)
    have n2 := Complex.exp_ne_zero (Complex.I * M.q j * ((M.z - z : ℝ) : ℂ))
    constructor
    · refine (mul_eq_zero.mp (?_ : a j * Complex.exp (Complex.I * M.q j * z) = 0)).resolve_right n1
      linear_combination (e1 + e2) / 2
    · refine (mul_eq_zero.mp (?_ : b j * Complex.exp (Complex.I * M.q j * ((M.z - z : ℝ) : ℂ)) = 0)).resolve_right n2
      linear_combination (e2 - e1) / 2
  exact ⟨funext fun j => (key j).1, funext fun j => (key j).2⟩

theorem power_anti (a b : m → ℂ) : Antitone (power M a b) := by
  obtain ⟨R, hR, hQ, hA⟩ := h.op
  have hd := power_deriv M hR h.q_ne a b
  refine antitone_of_deriv_nonpos (fun z => (hd z).differentiableAt) fun z => ?_
  rw [(hd z).deriv]
  refine neg_nonpos.mpr (add_nonneg (hQ _) ?_)
  by_cases h0 : tanE M a b z = 0
  · rw [h0]; simp
  · exact (hA _ h0).le

/-- No dissipation, no field. -/
theorem zero_of_const {a b : m → ℂ} {x y : ℝ} (hxy : x < y) (he : power M a b x ≤ power M a b y) : a = 0 ∧ b = 0 := by
  obtain ⟨R, hR, hQ, hA⟩ := h.op
  have hd := power_deriv M hR h.q_ne a b
  have hanti := h.power_anti a b
  have hconst : ∀ z ∈ Set.Ioo x y, power M a b z = power M a b x := fun z hz =>
    le_antisymm (hanti hz.1.le) (he.trans (hanti hz.2.le))
  have hE : ∀ z ∈ Set.Ioo x y, tanE M a b z = 0 := by
    intro z hz
    by_contra h0
    have h1 : (power M a b) =ᶠ[𝓝 z] fun _ => power M a b x := by
      filter_upwards [isOpen_Ioo.mem_nhds hz] with w hw using hconst w hw
    have h2 := (hd z).unique ((hasDerivAt_const z (power M a b x)).congr_of_eventuallyEq h1)
    have h3 := hA _ h0
    have h4 := hQ (tanH M a b z)
    linarith
  have hz : (x + y) / 2 ∈ Set.Ioo x y := ⟨by linarith, by linarith⟩
  refine h.zero_of_fields (hE _ hz) (h.Q_inj (funext fun i => ?_))
  have h1 : (fun z => tanE M a b z i) =ᶠ[𝓝 ((x + y) / 2)] fun _ => 0 := by
    filter_upwards [isOpen_Ioo.mem_nhds hz] with w hw
    rw [hE w hw]; rfl
  have h2 := (tanE_deriv M h.q_ne a b ((x + y) / 2) i).unique
    ((hasDerivAt_const _ (0 : ℂ)).congr_of_eventuallyEq h1)
  exact (mul_eq_zero.mp h2).resolve_left Complex.I_ne_zero

omit [DecidableEq m] [Fintype m] h in
theorem exp_decay {q : ℂ} (hq : 0 < q.im) : Tendsto (fun z : ℝ => Complex.exp (Complex.I * q * z)) atTop (𝓝 0) := by
  rw [tendsto_zero_iff_norm_tendsto_zero]
  have : (fun z : ℝ => ‖Complex.exp (Complex.I * q * z)‖) = fun z : ℝ => Real.exp (-(q.im * z)) := by
    funext z
    rw [Complex.norm_exp]
    congr 1
    simp
  rw [this]
  exact Real.tendsto_exp_neg_atTop_nhds_zero.comp (tendsto_id.const_mul_atTop hq)

omit [DecidableEq m] h in
theorem tendsto_power {l : Filter ℝ} {a b : m → ℂ} (hE : ∀ i, Tendsto (fun z => tanE M a b z i) l (𝓝 0))
    (hH : ∀ i, Tendsto (fun z => tanH M a b z i) l (𝓝 0)) : Tendsto (power M a b) l (𝓝 0) := by
  have h1 : Tendsto (fun z => ∑ k, star (tanE M a b z k) * tanH M a b z k) l (𝓝 0) := by
    have : (0 : ℂ) = ∑ _k : m, star (0 : ℂ) * 0 := by simp
    rw [this]
    exact tendsto_finsetSum _ fun k _ => ((continuous_star.tendsto _).comp (hE k)).mul (hH k)
  exact (Complex.continuous_re.tendsto _).comp h1

/-- Power flows into a half-space which absorbs. -/
theorem top {a : m → ℂ} : 0 ≤ power M a 0 0 ∧ (power M a 0 0 = 0 → a = 0) := by
  have hlim : Tendsto (power M a 0) atTop (𝓝 0) := by
    refine tendsto_power (fun i => ?_) fun i => ?_
    · have : (0 : ℂ) = ∑ j, (∑ k, M.Q i k * M.phi k j) / M.q j * (a j * 0) := by simp
      rw [this]
      unfold tanE
      refine tendsto_finsetSum _ fun j _ => ?_
      simp only [Pi.zero_apply, zero_mul, sub_zero]
      exact ((exp_decay (h.im j)).const_mul _).const_mul _
    · have : (0 : ℂ) = ∑ j, M.phi i j * (a j * 0) := by simp
      rw [this]
      unfold tanH
      refine tendsto_finsetSum _ fun j _ => ?_
      simp only [Pi.zero_apply, zero_mul, add_zero]
      exact ((exp_decay (h.im j)).const_mul _).const_mul _
  have hnn : ∀ z, 0 ≤ power M a 0 z := fun z => (h.power_anti a 0).le_of_tendsto hlim z
  refine ⟨hnn 0, fun h0 => (h.zero_of_const (b := 0) zero_lt_one ?_).1⟩
  rw [h0]
  exact hnn 1

/-- The same for a half-space above. -/
theorem bottom {b : m → ℂ} : power M 0 b M.z ≤ 0 ∧ (power M 0 b M.z = 0 → b = 0) := by
  have hrev : Tendsto (fun z : ℝ => M.z - z) atBot atTop := tendsto_const_nhds.add_atTop tendsto_neg_atBot_atTop
  have hlim : Tendsto (power M 0 b) atBot (𝓝 0) := by
    refine tendsto_power (fun i => ?_) fun i => ?_
    · have : (0 : ℂ) = ∑ j, (∑ k, M.Q i k * M.phi k j) / M.q j * (0 - b j * 0) := by simp
      rw [this]
      unfold tanE
      refine tendsto_finsetSum _ fun j _ => ?_
      simp only [Pi.zero_apply, zero_mul]
      exact (tendsto_const_nhds.sub (((exp_decay (h.im j)).comp hrev).const_mul _)).const_mul _
    · have : (0 : ℂ) = ∑ j, M.phi i j * (b j * 0) := by simp
      rw [this]
      unfold tanH
      refine tendsto_finsetSum _ fun j _ => ?_
      simp only [Pi.zero_apply, zero_mul, zero_add]
      exact (((exp_decay (h.im j)).comp hrev).const_mul _).const_mul _
  have hnp : ∀ z, power M 0 b z ≤ 0 := fun z => (h.power_anti 0 b).ge_of_tendsto hlim z
  refine ⟨hnp _, fun h0 => (h.zero_of_const (a := 0) (sub_one_lt M.z) ?_).2⟩
  rw [h0]
  exact hnp _

theorem M_det : M.M.det ≠ 0 := by
  obtain ⟨R, hR, -, -⟩ := h.op
  exact M_det_of h.det h.q_ne rfl hR

end LossyModes
end

end Nannos
