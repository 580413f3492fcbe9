import Verif.Proofs.AbsorbingMedium
import Verif.Proofs.PlanarField

/-! Stacks with layers which absorb everywhere: their scattering matrices exist (C85). -/

namespace Nannos

open Matrix Spec

variable {E : Ext} {c : Static} {mats : ℕ → LayerSpec}

theorem absorbs_R {nh : ℕ} {omega : ℝ} {kx ky : Fin nh → ℂ} (hkx : ∀ i, star (kx i) = kx i)
    (hky : ∀ i, star (ky i) = ky i) {P : Matrix (Idx nh) (Idx nh) ℂ} (hf : Absorbs P) :
    Absorbs (P - ((omega : ℂ) ^ 2)⁻¹ • kMu kx ky) := by
  intro h hne
  have e1 : star h ⬝ᵥ kMu kx ky *ᵥ h =
      ((∑ i, Complex.normSq (kx i * h (.inl i) + ky i * h (.inr i)) : ℝ) : ℂ) := by
    rw [kMu_mulVec]
    simp only [dotProduct, Fintype.sum_sum_type, Sum.elim_inl, Sum.elim_inr, Pi.star_apply,
      ← Finset.sum_add_distrib, Complex.ofReal_sum]
    refine Finset.sum_congr rfl fun i _ => ?_
    rw [Complex.normSq_eq_conj_mul_self, ← RCLike.star_def, star_add, star_mul', star_mul', hkx, hky]
    ring
  rw [sub_mulVec, dotProduct_sub, Complex.sub_im, smul_mulVec, dotProduct_smul, e1, smul_eq_mul]
  have : (((omega : ℂ) ^ 2)⁻¹ *
      ((∑ i, Complex.normSq (kx i * h (.inl i) + ky i * h (.inr i)) : ℝ) : ℂ)).im = 0 := by
    rw [← Complex.ofReal_pow, ← Complex.ofReal_inv, ← Complex.ofReal_mul, Complex.ofReal_im]
  rw [this, sub_zero]
  exact hf h hne

/-- The operator which gives the electric from the magnetic field is invertible. -/
theorem Q_injective {nh : ℕ} {omega : ℝ} (hom : omega ≠ 0) {kx ky : Fin nh → ℂ} (hkx : ∀ i, star (kx i) = kx i)
    (hky : ∀ i, star (ky i) = ky i) {e : Matrix (Fin nh) (Fin nh) ℂ} (he : Absorbs e) {h : Idx nh → ℂ}
    (h0 : ((omega : ℂ) ^ 2 • (1 : Matrix (Idx nh) (Idx nh) ℂ) - kEps kx ky e⁻¹) *ᵥ h = 0) : h = 0 := by
  set v : Fin nh → ℂ := fun j => ky j * h (.inl j) - kx j * h (.inr j) with hv
  have e1 : star h ⬝ᵥ kEps kx ky e⁻¹ *ᵥ h = star v ⬝ᵥ e⁻¹ *ᵥ v := by
    rw [kEps_mulVec, ← hv]
    simp only [dotProduct, Fintype.sum_sum_type, Sum.elim_inl, Sum.elim_inr, Pi.star_apply,
      ← Finset.sum_add_distrib]
    refine Finset.sum_congr rfl fun i _ => ?_
    have : star (v i) = ky i * star (h (.inl i)) - kx i * star (h (.inr i)) := by
      rw [hv, star_sub, star_mul', star_mul', hkx, hky]
    rw [this]; ring
  have e2 : (star h ⬝ᵥ ((omega : ℂ) ^ 2 • (1 : Matrix (Idx nh) (Idx nh) ℂ)) *ᵥ h).im = 0 :=
    form_smul_one lossCone_zero (by rw [← Complex.ofReal_pow, Set.mem_singleton_iff, Complex.ofReal_im]) h
  have h1 := congrArg (fun x => (star h ⬝ᵥ x).im) h0
  simp only [sub_mulVec, dotProduct_sub, Complex.sub_im, e2, e1, zero_sub, dotProduct_zero, Complex.zero_im] at h1
  set w := e⁻¹ *ᵥ v with hw
  have hvw : e *ᵥ w = v := by rw [hw, mulVec_mulVec, mul_nonsing_inv _ (det_unit he.det), one_mulVec]
  have hw0 : w = 0 := by
    by_contra hne
    have := he w hne
    rw [hvw, im_star_dot] at this
    linarith
  rw [sub_mulVec, kEps_mulVec, ← hv, ← hw, hw0, sub_eq_zero, smul_mulVec, one_mulVec] at h0
  have hom' : (omega : ℂ) ^ 2 ≠ 0 := pow_ne_zero 2 (by exact_mod_cast hom)
  funext x
  have := congrFun h0 x
  rcases x with i | i <;> simpa [hom', hom] using this

/-- The square of the propagation constant of a mode is not a non-negative number. -/
theorem lossy_q {m : Type} [Fintype m] [DecidableEq m] {M : Modes m} (hdet : M.phi.det ≠ 0) {R : Matrix m m ℂ}
    (hR : R * M.Q * M.phi = M.phi * diagonal (fun k => M.q k ^ 2)) (hQ : ∀ h, 0 ≤ (star h ⬝ᵥ M.Q *ᵥ h).im) (hA : Absorbs R)
    (hinj : ∀ x, M.Q *ᵥ x = 0 → x = 0) (k : m) (h0 : (M.q k).im = 0) : False := by
  set x : m → ℂ := fun i => M.phi i k with hx
  have hx1 : x = M.phi *ᵥ Pi.single k 1 := by
    funext i
    simp [hx]
  have hxne : x ≠ 0 := by
    intro h
    rw [hx1] at h
    have := congrFun (mulVec_inj hdet (h.trans (mulVec_zero M.phi).symm)) k
    simp at this
  set u := M.Q *ᵥ x with hu
  have hune : u ≠ 0 := fun h => hxne (hinj x h)
  have hRu : R *ᵥ u = (M.q k ^ 2) • x := by
    rw [hu, hx1, mulVec_mulVec, mulVec_mulVec, hR, ← mulVec_mulVec, ← mulVec_smul]
    congr 1
    funext i
    rw [mulVec_diagonal]
    by_cases hi : i = k
    · subst hi; simp
    · simp [hi]
  have hq : M.q k ^ 2 = (((M.q k).re ^ 2 : ℝ) : ℂ) := by
    conv_lhs => rw [← Complex.re_add_im (M.q k), h0]
    push_cast
    ring
  have h1 := hA u hune
  rw [hRu, dotProduct_smul, hq, smul_eq_mul, Complex.im_ofReal_mul, im_star_dot] at h1
  have h2 := hQ x
  rw [← hu] at h2
  nlinarith [sq_nonneg (M.q k).re]

/-- The modes of a layer which absorbs everywhere. -/
theorem lossy_modes (hom : c.omega ≠ 0) (hkx : ∀ i, star (c.kx i) = c.kx i) (hky : ∀ i, star (c.ky i) = c.ky i)
    {L : LayerSpec} {a : LayerAttr c.nh} {P e} (hm : MediumModes c L a P e) (hP : Absorbs P) (he : Absorbs e)
    {M : Modes (Idx c.nh)} (hM : modesOf L a = .ok M) (hdet : M.phi.det ≠ 0) (hq : ∀ k, 0 ≤ (M.q k).im) : LossyModes M := by
  obtain ⟨ev, hev, hw⟩ := hm.eig
  have hMe : M = ⟨ev.1, ev.2, (c.omega : ℂ) ^ 2 • 1 - kEps c.kx c.ky e⁻¹, L.thickness⟩ := by
    unfold modesOf at hM
    rw [hev, hm.Q] at hM
    simpa [attr] using hM.symm
  have hQ : M.Q = (c.omega : ℂ) ^ 2 • 1 - kEps c.kx c.ky e⁻¹ := by rw [hMe]
  have hR : (P - ((c.omega : ℂ) ^ 2)⁻¹ • kMu c.kx c.ky) * M.Q * M.phi =
      M.phi * diagonal (fun k => M.q k ^ 2) := by
    rw [hQ, ← waveMatrix_factor hom, hMe]
    exact hw
  have hQf : ∀ h, 0 ≤ (star h ⬝ᵥ M.Q *ᵥ h).im := by
    rw [hQ]
    exact form_Q hkx hky hm.det he.form
  refine ⟨hdet, fun k => lt_of_le_of_ne (hq k) fun h0 => ?_, _, hR, hQf, absorbs_R hkx hky hP⟩
  refine lossy_q hdet hR hQf (absorbs_R hkx hky hP) (fun x hx => ?_) k h0.symm
  rw [hQ] at hx
  exact Q_injective hom hkx hky he hx

/-! ### Stacks -/

/-- Nothing in the layers `i .. n` when nothing comes in. -/
def NoSourceFrom {m : Type} [Fintype m] (layers : List (Modes m)) (i n : ℕ) : Prop :=
  ∀ amp, Consistent layers i n amp → (amp i).1 = 0 → (amp n).2 = 0 → (amp n).1 = 0

/-- The loop succeeds if there is no field without a source in any of the partial stacks. -/
theorem loopS_total_from {m : Type} [Fintype m] [DecidableEq m] {layers : List (Modes m)}
    (hq : ∀ (k : ℕ) L, layers[k]? = some L → ∀ i, L.q i ≠ 0)
    (hM : ∀ (k : ℕ) L, layers[k]? = some L → L.M.det ≠ 0) (i : ℕ) : ∀ n, i ≤ n → n < layers.length →
    (∀ k, i < k → k ≤ n → NoSourceFrom layers i k) → ∃ S, loopS layers (i : ℕ) (n : ℤ) = .ok S := by
  intro n hin
  induction n, hin using Nat.le_induction with
  | base => intro _ _; exact ⟨_, loopS_self layers i⟩
  | succ n hin ih =>
    intro hn hno
    obtain ⟨S, hS⟩ := ih (by omega) fun k h0 hk => hno k h0 (by omega)
    obtain ⟨L, hL⟩ : ∃ L, layers[n]? = some L := ⟨_, List.getElem?_eq_getElem (by omega)⟩
    obtain ⟨L', hL'⟩ : ∃ L, layers[n + 1]? = some L := ⟨_, List.getElem?_eq_getElem (by omega)⟩
    obtain ⟨S', hS'⟩ := stepS_total (S := S) (hq _ L hL) (hq _ L' hL') (hM _ L hL) (by
      intro a b a' ha hm
      obtain ⟨amp, hc, h0, hb⟩ := loopS_exists layers i n hin S hS 0 b
      have hr := loopS_rel layers i n hin S hS amp hc
      have haj : (amp n).1 = a := by rw [hr.1, h0, hb, ha, mulVec_zero, zero_add]
      have hi : i ≠ n + 1 := by omega
      have := hno (n + 1) (by omega) le_rfl (fun k => if k = n + 1 then (a', 0) else amp k) ?_ (by simpa [hi] using h0) (by simp)
      · simpa using this
      · intro k M M' k1 k2 k3 k4
        rcases Nat.lt_or_ge k n with hk | hk
        · have e1 : k ≠ n + 1 := by omega
          have e2 : k + 1 ≠ n + 1 := by omega
          simp only [e1, e2, if_false]
          exact hc k M M' k1 hk k3 k4
        · obtain rfl : k = n := by omega
          rw [hL] at k3; rw [hL'] at k4
          cases k3; cases k4
          simp [haj, hb, hm])
    refine ⟨S', ?_⟩
    rw [Nat.cast_add, Nat.cast_one, loopS_succ layers i n hin, hS, except_bind_ok]
    exact stepAt_ok.mpr ⟨L, L', hL, hL', hS'⟩

/-- No field without a source: the power which would leave the stack is dissipated in it. -/
theorem lossy_noSource {nh : ℕ} {layers : List (Modes (Idx nh))} {i n : ℕ} (hin : i < n) (hn : n < layers.length)
    (hM : ∀ (k : ℕ) L, layers[k]? = some L → L.M.det ≠ 0)
    (htop : ∀ L b, layers[i]? = some L → power L 0 b L.z ≤ 0)
    (hbot : ∀ L a, layers[n]? = some L → 0 ≤ power L a 0 0)
    (hmid : ∀ (k : ℕ) L, i < k → k < n → layers[k]? = some L → LossyModes L ∧ 0 ≤ L.z)
    (hsome : (∀ L, layers[i]? = some L → LossyModes L) ∨ (∀ L, layers[n]? = some L → LossyModes L) ∨
      ∃ (k : ℕ) (L : _), i < k ∧ k < n ∧ layers[k]? = some L ∧ 0 < L.z) : NoSourceFrom layers i n := by
  intro amp hc ha hb
  have hget : ∀ k, k ≤ n → ∃ L, layers[k]? = some L := fun k hk => ⟨_, List.getElem?_eq_getElem (by omega)⟩
  have hup : ∀ k, i ≤ k → k < n → ∀ L, layers[k]? = some L → power L (amp k).1 (amp k).2 L.z ≤ 0 := by
    intro k hik
    induction k, hik using Nat.le_induction with
    | base => intro _ L hL; rw [ha]; exact htop L _ hL
    | succ k hik ih =>
      intro hk L hL
      obtain ⟨L1, hL1⟩ := hget k (by omega)
      have h1 := ih (by omega) L1 hL1
      rw [power_match (hc k L1 L hik (by omega) hL1 hL)] at h1
      obtain ⟨h2, h3⟩ := hmid (k + 1) L (by omega) hk hL
      exact (h2.power_anti _ _ h3).trans h1
  have hdown : ∀ j k, k + 1 + j = n → i ≤ k → ∀ L, layers[k]? = some L → 0 ≤ power L (amp k).1 (amp k).2 L.z := by
    intro j
    induction j with
    | zero =>
      intro k hk hik L hL
      obtain rfl : n = k + 1 := by omega
      obtain ⟨L', hL'⟩ := hget (k + 1) le_rfl
      rw [power_match (hc k L L' hik (by omega) hL hL'), hb]
      exact hbot L' _ hL'
    | succ j ih =>
      intro k hk hik L hL
      obtain ⟨L', hL'⟩ := hget (k + 1) (by omega)
      rw [power_match (hc k L L' hik (by omega) hL hL')]
      obtain ⟨h2, h3⟩ := hmid (k + 1) L' (by omega) (by omega) hL'
      exact (ih (k + 1) (by omega) (by omega) L' hL').trans (h2.power_anti _ _ h3)
  have hz : ∀ k, i ≤ k → k < n → ∀ L, layers[k]? = some L → power L (amp k).1 (amp k).2 L.z = 0 := fun k h1 h2 L hL =>
    le_antisymm (hup k h1 h2 L hL) (hdown (n - (k + 1)) k (by omega) h1 L hL)
  have hzt : ∀ k, i ≤ k → k < n → ∀ L, layers[k + 1]? = some L → power L (amp (k + 1)).1 (amp (k + 1)).2 0 = 0 := by
    intro k h1 h2 L hL
    obtain ⟨L1, hL1⟩ := hget k (by omega)
    rw [← power_match (hc k L1 L h1 h2 hL1 hL)]
    exact hz k h1 h2 L1 hL1
  have prop : ∀ k, i ≤ k → amp k = (0, 0) → k ≤ n → amp n = (0, 0) := by
    intro k hk h0 hkn
    have : ∀ j, k ≤ j → j ≤ n → amp j = (0, 0) := by
      intro j hj
      induction j, hj using Nat.le_induction with
      | base => intro _; exact h0
      | succ j hj ih =>
        intro hjn
        obtain ⟨L, hL⟩ := hget j (by omega)
        obtain ⟨L2, hL2⟩ := hget (j + 1) hjn
        have := hc j L L2 (by omega) (by omega) hL hL2
        rw [ih (by omega)] at this
        obtain ⟨e1, e2⟩ := match_zero (hM _ L2 hL2) this
        exact Prod.ext e1 e2
    exact this n hkn le_rfl
  rcases hsome with h | h | ⟨k, L, hik, hkn, hL, hpos⟩
  · obtain ⟨L, hL⟩ := hget i hin.le
    have h1 := hz i le_rfl hin L hL
    rw [ha] at h1
    have := (h L hL).bottom.2 h1
    rw [prop i le_rfl (Prod.ext ha this) hin.le]
  · obtain ⟨L, hL⟩ := hget n le_rfl
    obtain ⟨k, rfl⟩ : ∃ k, n = k + 1 := ⟨n - 1, by omega⟩
    have h1 := hzt k (by omega) (by omega) L hL
    rw [hb] at h1
    exact (h L hL).top.2 h1
  · obtain ⟨k, rfl⟩ : ∃ k', k = k' + 1 := ⟨k - 1, by omega⟩
    have h1 := hzt k (by omega) (by omega) L hL
    have h2 := hz (k + 1) hik.le hkn L hL
    obtain ⟨e1, e2⟩ := (hmid (k + 1) L hik hkn hL).1.zero_of_const hpos (by rw [h1, h2])
    rw [prop (k + 1) hik.le (Prod.ext e1 e2) hkn.le]

end Nannos
