import Verif.Proofs.Planar
import Verif.Proofs.Total

/-! When the scattering matrix of a stack exists; stacks of homogeneous layers. -/

namespace Nannos

open Matrix Spec

section
variable {m : Type} [Fintype m] [DecidableEq m]

/-- A step succeeds if nothing comes out of the interface when nothing comes in. -/
theorem stepS_total {S : SMat m} {L L' : Modes m} (hq : ∀ i, L.q i ≠ 0) (hq' : ∀ i, L'.q i ≠ 0) (hM : L.M.det ≠ 0)
    (hno : ∀ a b a', a = S.s12 *ᵥ b → Match L L' a b a' 0 → a' = 0) : ∃ S', stepS S L L' = .ok S' := by
  have hI := (buildI_ok L L' _).mpr ⟨hq, hq', hM, rfl⟩
  generalize L.M⁻¹ * L'.M = I at hI
  have hA : (I.toBlocks₁₁ - L.f * S.s12 * I.toBlocks₂₁).det ≠ 0 := by
    intro h0
    obtain ⟨v, hv, hv0⟩ := Matrix.exists_mulVec_eq_zero_iff.mpr h0
    refine hv (hno (S.s12 *ᵥ (I.toBlocks₂₁ *ᵥ v)) (I.toBlocks₂₁ *ᵥ v) v rfl ?_)
    rw [match_iff_I hI]
    simp only [mulVec_zero, add_zero, and_true]
    rw [sub_mulVec, sub_eq_zero] at hv0
    rw [hv0]
    simp only [mulVec_mulVec, Matrix.mul_assoc]
  unfold stepS
  rw [hI]
  simp only [except_bind_ok]
  rw [(linSolve_ok _ _ _).mpr ⟨hA, rfl⟩, (linSolve_ok _ _ _).mpr ⟨hA, rfl⟩]
  exact ⟨_, rfl⟩

/-- Nothing in the layers `0 .. n` when nothing comes in. -/
def NoSource (layers : List (Modes m)) (n : ℕ) : Prop :=
  ∀ amp, Consistent layers 0 n amp → (amp 0).1 = 0 → (amp n).2 = 0 → (amp n).1 = 0

/-- The loop succeeds if there is no field without a source in any of the partial stacks. -/
theorem loopS_total {layers : List (Modes m)} (hq : ∀ (k : ℕ) L, layers[k]? = some L → ∀ i, L.q i ≠ 0)
    (hM : ∀ (k : ℕ) L, layers[k]? = some L → L.M.det ≠ 0) : ∀ n, n < layers.length →
    (∀ k, 0 < k → k ≤ n → NoSource layers k) → ∃ S, loopS layers (0 : ℕ) (n : ℤ) = .ok S := by
  intro n
  induction n with
  | zero => intro _ _; exact ⟨_, loopS_self layers 0⟩
  | succ n ih =>
    intro hn hno
    obtain ⟨S, hS⟩ := ih (by omega) fun k h0 hk => hno k h0 (by omega)
    obtain ⟨L, hL⟩ : ∃ L, layers[n]? = some L := ⟨_, List.getElem?_eq_getElem (by omega)⟩
    obtain ⟨L', hL'⟩ : ∃ L, layers[n + 1]? = some L := ⟨_, List.getElem?_eq_getElem (by omega)⟩
    obtain ⟨S', hS'⟩ := stepS_total (S := S) (hq _ L hL) (hq _ L' hL') (hM _ L hL) (by
      intro a b a' ha hm
      obtain ⟨amp, hc, h0, hb⟩ := loopS_exists layers 0 n (Nat.zero_le _) S hS 0 b
      have hr := loopS_rel layers 0 n (Nat.zero_le _) S hS amp hc
      have haj : (amp n).1 = a := by rw [hr.1, h0, hb, ha, mulVec_zero, zero_add]
      have := hno (n + 1) (by omega) le_rfl (fun k => if k = n + 1 then (a', 0) else amp k) ?_ (by simpa using h0) (by simp)
      · simpa using this
      · intro k M M' k1 k2 k3 k4
        rcases Nat.lt_or_ge k n with hk | hk
        · have e1 : k ≠ n + 1 := by omega
          have e2 : k + 1 ≠ n + 1 := by omega
          simp only [e1, e2, if_false]
          exact hc k M M' k1 hk k3 k4
        · obtain rfl : k = n := by omega
          rw [hL] at k3; rw [hL'] at k4
          cases k3; cases k4
          simp [haj, hb, hm])
    refine ⟨S', ?_⟩
    rw [Nat.cast_add, Nat.cast_one, loopS_succ layers 0 n (Nat.zero_le _), hS, except_bind_ok]
    exact stepAt_ok.mpr ⟨L, L', hL, hL', hS'⟩

/-- Conversely nothing can be in the layers without a source if the loop has succeeded. -/
theorem loopS_noSource {layers : List (Modes m)} {n : ℕ} {S : SMat m} (h : loopS layers (0 : ℕ) (n : ℤ) = .ok S) :
    NoSource layers n := by
  intro amp hc h0 hn
  rw [(loopS_rel layers 0 n (Nat.zero_le _) S h amp hc).1, h0, hn, mulVec_zero, mulVec_zero, add_zero]

end

variable {E : Ext} {c : Static} {mats : ℕ → LayerSpec}

theorem PlanarModes.det {L : LayerSpec} {M : Modes (Idx c.nh)} (h : PlanarModes c L M) (hom : c.omega ≠ 0)
    (hmu : L.mu ≠ 0) (hq : ∀ i, M.q i ≠ 0) : M.M.det ≠ 0 := by
  intro h0
  obtain ⟨v, hv, hv0⟩ := Matrix.exists_mulVec_eq_zero_iff.mpr h0
  apply hv
  have hom' : (c.omega : ℂ) ≠ 0 := by exact_mod_cast hom
  have he := h.e0
  obtain ⟨x, y, rfl⟩ : ∃ x y, v = Sum.elim x y := ⟨v ∘ Sum.inl, v ∘ Sum.inr, by simp⟩
  unfold Modes.M at hv0
  rw [fromBlocks_mulVec, h.phi] at hv0
  simp only [Sum.elim_comp_inl, Sum.elim_comp_inr, one_mulVec] at hv0
  have e1 := fun i => congrFun hv0 (.inl i)
  have e2 := fun i => congrFun hv0 (.inr i)
  simp only [Sum.elim_inl, Sum.elim_inr, Pi.add_apply, neg_mulVec, Pi.zero_apply, Pi.neg_apply] at e1 e2
  have hA : M.amat *ᵥ x = 0 := by
    have : y = -x := by funext i; simp only [Pi.neg_apply]; linear_combination e2 i
    rw [this] at e1
    funext i
    have := e1 i
    rw [mulVec_neg, Pi.neg_apply] at this
    simp only [Pi.zero_apply]
    linear_combination (1 / 2) * this
  have hx : x = 0 := by
    have key : ∀ i, x (.inl i) = 0 ∧ x (.inr i) = 0 := by
      intro i
      have a1 := (h.amat_eq x i).1
      have a2 := (h.amat_eq x i).2
      have q2 := h.q_sq i
      have qi := hq (.inl i)
      rw [hA] at a1 a2
      generalize M.q (.inl i) = q at *
      generalize x (.inl i) = s at *
      generalize x (.inr i) = t at *
      simp only [Pi.zero_apply] at a1 a2
      have b1 := a1.symm
      have b2 := a2.symm
      rw [div_eq_zero_iff, or_iff_left qi] at b1 b2
      field_simp at b1 b2
      have hw : c.ky i * s - c.kx i * t = 0 := by
        have : q ^ 2 * (c.ky i * s - c.kx i * t) = 0 := by
          rw [q2]; linear_combination c.ky i * b1 - c.kx i * b2
        exact (mul_eq_zero.mp this).resolve_left (pow_ne_zero 2 qi)
      have hne : (c.omega : ℂ) ^ 2 * L.mu * L.epsilon.value ≠ 0 :=
        mul_ne_zero (mul_ne_zero (pow_ne_zero 2 hom') hmu) he
      constructor
      · refine (mul_eq_zero.mp (?_ : (c.omega : ℂ) ^ 2 * L.mu * L.epsilon.value * s = 0)).resolve_left hne
        linear_combination b1 + c.ky i * hw
      · refine (mul_eq_zero.mp (?_ : (c.omega : ℂ) ^ 2 * L.mu * L.epsilon.value * t = 0)).resolve_left hne
        linear_combination b2 - c.kx i * hw
    funext a
    rcases a with i | i
    · exact (key i).1
    · exact (key i).2
  have hy : y = 0 := by
    funext i
    have := e2 i
    rw [hx] at this
    simpa using this
  rw [hx, hy]
  simp

/-- Solving homogeneous layers never fails unless a permittivity is zero. -/
theorem planar_solve : ∀ (rs : List ℕ) (d : Dyn c.nh), (∀ r ∈ rs, Homogeneous (d.mats r) ∧ (d.mats r).epsilon.value ≠ 0) →
    (solveAll E c rs d).1 = .ok () := by
  intro rs
  induction rs with
  | nil => intro d _; rfl
  | cons r rs ih =>
    intro d hr
    obtain ⟨⟨hc, hu, ha⟩, he⟩ := hr r (by simp)
    have h1 : (stepOut E c (d.mats r) (d.attrs (d.mats r).original)).1 = .ok () := by
      unfold stepOut
      rw [hc]
      simp [buildPure, solveUniform, hu, ha, he]
    rw [solveAll_cons, solveLayer_eq, h1]
    exact ih _ fun s hs => hr s (by simp [hs])

/-- The efficiencies of a stack of homogeneous layers are returned, after any history, if there is no field without a source
in any of the partial stacks. -/
theorem planar_succeeds {lats stack exc nh form} (hinit : simInit E lats mats stack exc nh form = .ok c)
    (hh : ∀ r ∈ stack, Homogeneous (mats r)) (he : ∀ r ∈ stack, (mats r).epsilon.value ≠ 0) (hmu : ∀ r ∈ stack, (mats r).mu ≠ 0)
    (htwo : 1 < stack.length) (hom : c.omega ≠ 0) (hfl : c.incidentFlux ≠ 0)
    (hq : ∀ r ∈ stack, ∀ i : Fin c.nh, (mats r).epsilon.value * (mats r).mu * (c.omega : ℂ) ^ 2 ≠ c.kx i ^ 2 + c.ky i ^ 2)
    (hno : ∀ A1 : ℕ → LayerAttr c.nh, (∀ r ∈ stack, LayerFix E c mats A1 r) →
      (∀ (k : ℕ) L, (stackModes c mats A1)[k]? = some L → ∀ i, L.q i ≠ 0) →
      ∀ k, 0 < k → k < stack.length → NoSource (stackModes c mats A1) k)
    (hist : List (Call c.nh)) :
    ∃ RT, (efficienciesByOrder E c (afterCalls E c hist (Dyn.fresh mats (unsolved c.nh)))).1 = .ok RT := by
  have hi := simInit_ok hinit
  have hst : c.stack = stack := hi.stack_eq
  subst hst
  have hnd : c.stack.Nodup := hi.nodup
  obtain ⟨A1, res, hs, -⟩ := solveSpec_of_noStale (E := E) (mats := mats) hnd
    (noStale_unsolved (c := c) mats c.stack)
  have hres : res = .ok () := by
    have h1 := hs.run (Dyn.fresh mats (unsolved c.nh)) rfl (.inl rfl)
    have h2 := planar_solve (E := E) (c := c) c.stack (Dyn.fresh mats (unsolved c.nh)) fun r hr => ⟨hh r hr, he r hr⟩
    rw [h1] at h2
    exact h2
  have hfix := hs.fix hnd hres
  subst hres
  have hlen := stackModes_length c mats A1
  have hpl : ∀ (k : ℕ) L, (stackModes c mats A1)[k]? = some L → ∃ r, c.stack[k]? = some r ∧ PlanarModes c (mats r) L := by
    intro k L hL
    have hk := (List.getElem?_eq_some_iff.mp hL).1
    obtain ⟨r, hr⟩ : ∃ r, c.stack[k]? = some r := ⟨_, List.getElem?_eq_getElem (by omega)⟩
    exact ⟨r, hr, planar_stack hfix hh hr hL⟩
  have hqs : ∀ (k : ℕ) L, (stackModes c mats A1)[k]? = some L → ∀ i, L.q i ≠ 0 := by
    intro k L hL
    obtain ⟨r, hr, p⟩ := hpl k L hL
    have key : ∀ i, L.q (.inl i) ≠ 0 := by
      intro i h0
      have := p.q_sq i
      rw [h0] at this
      exact hq r (List.mem_of_getElem? hr) i (by linear_combination -this)
    rintro (i | i)
    · exact key i
    · rw [p.q_inr]; exact key i
  obtain ⟨S, hS⟩ := loopS_total hqs (fun k L hL => by
    obtain ⟨r, hr, p⟩ := hpl k L hL
    exact p.det hom (hmu r (List.mem_of_getElem? hr)) (hqs k L hL)) (c.stack.length - 1) (by omega)
    fun k h0 hk => hno A1 hfix hqs k h0 (by omega)
  have hv : valS c mats A1 (.ok ()) none = .ok S := by
    rw [valS_none, valS_solved hfix]
    have : ((c.stack.length : ℤ) - 1) = ((c.stack.length - 1 : ℕ) : ℤ) := by omega
    rw [this]
    exact (freshS_ok (i := 0)).mpr ⟨by omega, hS⟩
  obtain ⟨r0, hr0⟩ : ∃ r, c.stack[0]? = some r := ⟨_, List.getElem?_eq_getElem (by omega)⟩
  obtain ⟨rN, hrN⟩ : ∃ r, c.stack[c.stack.length - 1]? = some r := ⟨_, List.getElem?_eq_getElem (by omega)⟩
  have hgN : pyGet c.stack (-1) = .ok rN := by
    unfold pyGet
    have e3 : pyIdx c.stack.length (-1) = some (c.stack.length - 1) := by
      unfold pyIdx
      rw [if_neg (by omega), if_pos (by omega)]
      congr 1
      omega
    rw [e3]
    dsimp only
    rw [hrN]
  have hmd : ∀ (k r : ℕ), c.stack[k]? = some r → ∀ i, (c.omega : ℂ) * (modesD (mats r) (A1 r)).q i ≠ 0 := by
    intro k r hk i
    have : (stackModes c mats A1)[k]? = some (modesD (mats r) (A1 r)) := by
      unfold stackModes; rw [List.getElem?_map, hk]; rfl
    exact mul_ne_zero (by exact_mod_cast hom) (hqs k _ this i)
  have h0 : Inv E c mats (unsolved c.nh) A1 (.ok ()) (Dyn.fresh mats (unsolved c.nh)) := inv_fresh _ (.inl rfl)
  have h1 := h0.calls hs hist
  generalize afterCalls E c hist (Dyn.fresh mats (unsolved c.nh)) = d at h1
  obtain ⟨RT, d', e, -⟩ := succeeds_efficiencies hs hv ((pyGet_nat c.stack 0 r0).mpr hr0) hgN
    (hfix r0 (List.mem_of_getElem? hr0)).form.modesD (hfix rN (List.mem_of_getElem? hrN)).form.modesD
    (hmd 0 r0 hr0) (hmd _ rN hrN) hfl d h1
  exact ⟨RT, by rw [e]⟩

/-! ### Passive stacks: no field without a source, by conservation of energy -/

theorem PlanarModes.uniform {L : LayerSpec} {M : Modes (Idx c.nh)} (h : PlanarModes c L M) (hmu : L.mu = 1) :
    UniformFlux c L.epsilon.value M
      fun i => csqrt (L.epsilon.value * L.mu * (c.omega : ℂ) ^ 2 - c.kx i ^ 2 - c.ky i ^ 2) :=
  ⟨h.phi, h.q, by rw [h.Q, hmu, mul_one], fun i => by rw [hmu, mul_one]⟩

/-- A wave in an order which propagates carries power. -/
theorem orderFlux_zero {e : ℝ} (he : 0 < e) (hom : 0 < c.omega) {M : Modes (Idx c.nh)} {g}
    (h : UniformFlux c e M g) (hkx : ∀ i, star (c.kx i) = c.kx i) (hky : ∀ i, star (c.ky i) = c.ky i)
    (hq : ∀ k, (c.omega : ℂ) * M.q k ≠ 0) {b : Idx c.nh → ℂ} {i : Fin c.nh}
    (hcut : (c.kx i).re ^ 2 + (c.ky i).re ^ 2 < e * c.omega ^ 2) (h0 : orderFlux c M b i = 0) :
    b (.inl i) = 0 ∧ b (.inr i) = 0 := by
  obtain ⟨Ab1, Ab2⟩ := uniform_mulVec h.phi h.q h.Q b i
  unfold orderFlux at h0
  rw [Ab1, Ab2, h.phi, one_mulVec] at h0
  obtain ⟨X, Y, s, hX, hY, hs, ⟨hp, hse, hg⟩ | ⟨hp, hg⟩⟩ := h.cases hkx hky hq i
  · rw [hX, hY, hg, coefA_real, order_form] at h0
    have h1 : 0 < 1 / (c.omega * s) := by positivity
    have h2 := (mul_eq_zero.mp h0).resolve_left h1.ne'
    have h3 : Complex.normSq ((Y : ℂ) * b (.inl i) - X * b (.inr i)) ≤
        (X ^ 2 + Y ^ 2) * (Complex.normSq (b (.inl i)) + Complex.normSq (b (.inr i))) := by
      have h2 : (X ^ 2 + Y ^ 2) * (Complex.normSq (b (.inl i)) + Complex.normSq (b (.inr i))) -
          Complex.normSq ((Y : ℂ) * b (.inl i) - X * b (.inr i)) =
            Complex.normSq ((X : ℂ) * b (.inl i) + Y * b (.inr i)) := by
        simp [Complex.normSq_apply]; ring
      have := Complex.normSq_nonneg ((X : ℂ) * b (.inl i) + Y * b (.inr i))
      linarith
    have n1 := Complex.normSq_nonneg (b (.inl i))
    have n2 := Complex.normSq_nonneg (b (.inr i))
    have h4 : (e * c.omega ^ 2 - X ^ 2 - Y ^ 2) * (Complex.normSq (b (.inl i)) + Complex.normSq (b (.inr i))) ≤ 0 := by
      rw [sub_eq_zero, eq_div_iff he.ne'] at h2
      nlinarith
    have h5 : Complex.normSq (b (.inl i)) + Complex.normSq (b (.inr i)) ≤ 0 := by
      by_contra hcon
      push Not at hcon
      nlinarith [mul_pos hp hcon]
    exact ⟨Complex.normSq_eq_zero.mp (by linarith), Complex.normSq_eq_zero.mp (by linarith)⟩
  · rw [hX, hY, Complex.ofReal_re, Complex.ofReal_re] at hcut
    linarith

/-- Power lost in a homogeneous layer of a passive material. -/
theorem planar_loss {A1 : ℕ → LayerAttr c.nh} {r : ℕ} (hf : LayerFix E c mats A1 r) (hh : Homogeneous (mats r))
    (hmu : (mats r).mu = 1) (hpas : 0 ≤ (mats r).epsilon.value.im) (hth : ∀ t, (mats r).thickness = some t → 0 ≤ t)
    (hom : c.omega ≠ 0) (hkx : ∀ i, star (c.kx i) = c.kx i) (hky : ∀ i, star (c.ky i) = c.ky i)
    (hq : ∀ k, (modesD (mats r) (A1 r)).q k ≠ 0) (ai bi : Idx c.nh → ℂ) :
    power (modesD (mats r) (A1 r)) ai bi 0 - power (modesD (mats r) (A1 r)) ai bi (modesD (mats r) (A1 r)).z ∈ Set.Ici (0 : ℝ) := by
  obtain ⟨hc, hu, -⟩ := hh
  have hM := hf.form.modesD
  have hmod : MagModes c (mats r) (A1 r) (mats r).mu ((mats r).epsilon.value • 1) ((mats r).epsilon.value • 1) := by
    cases hf.form with
    | uniform Q ev _ hb he hQ ha => exact .of_uniform hb he hQ ha
    | patterned M p Q ev _ hb he ha =>
      have := (buildPure_patterned_parts hb).1
      rw [hu] at this
      simp at this
    | copyUniform M p Q ev hc' => rw [hc] at hc'; simp at hc'
    | copyPatterned M p Q ev hc' => rw [hc] at hc'; simp at hc'
  refine magnetic_loss lossCone_nonneg hom hkx hky (by rw [hmu]; exact one_ne_zero) (by rw [hmu]; simp) hmod
    (form_smul_one lossCone_nonneg hpas) (form_smul_one lossCone_nonneg hpas) hM hq ai bi ?_
  unfold Modes.z modesD
  dsimp only
  rcases ht : (mats r).thickness with _ | t
  · exact le_refl (0 : ℝ)
  · exact hth t ht

/-- No field above, no field below. -/
theorem match_zero {m : Type} [Fintype m] [DecidableEq m] {L L' : Modes m} (hM : L'.M.det ≠ 0) {a b : m → ℂ}
    (h : Match L L' 0 0 a b) : a = 0 ∧ b = 0 := by
  rw [match_iff, mulVec_zero] at h
  have h1 : L.M *ᵥ Sum.elim (0 : m → ℂ) 0 = 0 := by
    rw [show Sum.elim (0 : m → ℂ) (0 : m → ℂ) = 0 by funext x; rcases x <;> rfl, mulVec_zero]
  rw [h1] at h
  have h2 : Sum.elim a (L'.f *ᵥ b) = 0 := mulVec_inj hM (by rw [← h, mulVec_zero])
  refine ⟨funext fun i => congrFun h2 (.inl i), funext fun i => ?_⟩
  have := congrFun h2 (.inr i)
  simp only [Sum.elim_inr, Pi.zero_apply, f_mulVec] at this
  exact (mul_eq_zero.mp this).resolve_left (Complex.exp_ne_zero _)

theorem passive_noSource {A1 : ℕ → LayerAttr c.nh} (hfix : ∀ r ∈ c.stack, LayerFix E c mats A1 r)
    (hh : ∀ r ∈ c.stack, Homogeneous (mats r)) (hmu : ∀ r ∈ c.stack, (mats r).mu = 1)
    (hqs : ∀ (k : ℕ) L, (stackModes c mats A1)[k]? = some L → ∀ i, L.q i ≠ 0)
    (hom : 0 < c.omega) (hkx : ∀ i, star (c.kx i) = c.kx i) (hky : ∀ i, star (c.ky i) = c.ky i)
    {r0 : ℕ} (hr0 : c.stack[0]? = some r0) {e : ℝ} (hpos : 0 < e) (he : (mats r0).epsilon.value = e)
    (hcut : ∀ i, (c.kx i).re ^ 2 + (c.ky i).re ^ 2 < e * c.omega ^ 2)
    (hpas : ∀ k r, 0 < k → k + 1 < c.stack.length → c.stack[k]? = some r → 0 ≤ (mats r).epsilon.value.im ∧
      ∀ t, (mats r).thickness = some t → 0 ≤ t) :
    ∀ k, 0 < k → k < c.stack.length → NoSource (stackModes c mats A1) k := by
  have hlen := stackModes_length c mats A1
  have hpl : ∀ (k : ℕ) L, (stackModes c mats A1)[k]? = some L → ∃ r, c.stack[k]? = some r ∧ PlanarModes c (mats r) L ∧
      L = modesD (mats r) (A1 r) := by
    intro k L hL
    have hk := (List.getElem?_eq_some_iff.mp hL).1
    obtain ⟨r, hr⟩ : ∃ r, c.stack[k]? = some r := ⟨_, List.getElem?_eq_getElem (by omega)⟩
    refine ⟨r, hr, planar_stack hfix hh hr hL, ?_⟩
    unfold stackModes at hL
    rw [List.getElem?_map, hr] at hL
    simpa using hL.symm
  have hom' : (c.omega : ℂ) ≠ 0 := by exact_mod_cast hom.ne'
  have hdet : ∀ (k : ℕ) L, (stackModes c mats A1)[k]? = some L → L.M.det ≠ 0 := by
    intro k L hL
    obtain ⟨r, hr, p, -⟩ := hpl k L hL
    exact p.det hom.ne' (by rw [hmu r (List.mem_of_getElem? hr)]; exact one_ne_zero) (hqs k L hL)
  rintro (_ | n) h0 hk amp hc ha hb
  · omega
  obtain ⟨L0, hL0⟩ : ∃ L, (stackModes c mats A1)[0]? = some L := ⟨_, List.getElem?_eq_getElem (by omega)⟩
  obtain ⟨L', hL'⟩ : ∃ L, (stackModes c mats A1)[n + 1]? = some L := ⟨_, List.getElem?_eq_getElem (by omega)⟩
  have hloss := stack_loss lossCone_nonneg (amp := amp) hL0 n (by omega) hc (by
    intro k L hk0 hkn hL
    obtain ⟨r, hr, p, hLe⟩ := hpl k L hL
    have hrm := List.mem_of_getElem? hr
    obtain ⟨p1, p2⟩ := hpas k r hk0 (by omega) hr
    have hq := hqs k L hL
    rw [hLe] at hq ⊢
    exact planar_loss (hfix r hrm) (hh r hrm) (hmu r hrm) p1 p2 hom.ne' hkx hky hq _ _) L' hL'
  obtain ⟨s0, hs0, p0, -⟩ := hpl 0 L0 hL0
  obtain rfl : s0 = r0 := Option.some.inj (hs0.symm.trans hr0)
  obtain ⟨s, hs, p, -⟩ := hpl _ L' hL'
  have u0 := p0.uniform (hmu s0 (List.mem_of_getElem? hr0))
  rw [he] at u0
  have hq0 : ∀ k, (c.omega : ℂ) * L0.q k ≠ 0 := fun k => mul_ne_zero hom' (hqs 0 L0 hL0 k)
  have hq' : ∀ k, (c.omega : ℂ) * L'.q k ≠ 0 := fun k => mul_ne_zero hom' (hqs _ L' hL' k)
  have pB := power_bottom hom.ne' u0 hkx hky (a := 0) (b := (amp 0).2) hq0 (fun _ _ => ⟨rfl, rfl⟩)
  have pT := power_forward (c := c) hom.ne' (M := L') (a := (amp (n + 1)).1)
  have z0 : ∑ i, orderFlux c L0 0 i = 0 := Finset.sum_eq_zero fun i _ => by unfold orderFlux; simp
  rw [ha, hb, pB, pT, z0, zero_sub] at hloss
  have f0 : ∀ i, 0 ≤ orderFlux c L0 (amp 0).2 i :=
    fun i => orderFlux_nonneg (by exact_mod_cast hpos.ne') hom u0 hkx hky hq0 _ i
  have f1 : ∀ i, 0 ≤ orderFlux c L' (amp (n + 1)).1 i :=
    fun i => orderFlux_nonneg p.e0 hom (p.uniform (hmu s (List.mem_of_getElem? hs))) hkx hky hq' _ i
  have hsum : ∑ i, orderFlux c L0 (amp 0).2 i = 0 := by
    have g0 := Finset.sum_nonneg fun i (_ : i ∈ Finset.univ) => f0 i
    have g1 := Finset.sum_nonneg fun i (_ : i ∈ Finset.univ) => f1 i
    rw [Set.mem_Ici, ← mul_sub] at hloss
    have := nonneg_of_mul_nonneg_right hloss hom
    linarith
  have hz := (Finset.sum_eq_zero_iff_of_nonneg fun i _ => f0 i).mp hsum
  have hb0 : (amp 0).2 = 0 := by
    funext a
    rcases a with i | i
    · exact (orderFlux_zero hpos hom u0 hkx hky hq0 (hcut i) (hz i (Finset.mem_univ _))).1
    · exact (orderFlux_zero hpos hom u0 hkx hky hq0 (hcut i) (hz i (Finset.mem_univ _))).2
  have key : ∀ j, j ≤ n + 1 → amp j = (0, 0) := by
    intro j
    induction j with
    | zero => intro _; exact Prod.ext ha hb0
    | succ j ih =>
      intro hj
      obtain ⟨L, hL⟩ : ∃ L, (stackModes c mats A1)[j]? = some L := ⟨_, List.getElem?_eq_getElem (by omega)⟩
      obtain ⟨L2, hL2⟩ : ∃ L, (stackModes c mats A1)[j + 1]? = some L := ⟨_, List.getElem?_eq_getElem (by omega)⟩
      have := hc j L L2 (Nat.zero_le _) (by omega) hL hL2
      rw [ih (by omega)] at this
      obtain ⟨e1, e2⟩ := match_zero (hdet _ L2 hL2) this
      exact Prod.ext e1 e2
  rw [key (n + 1) le_rfl]

end Nannos
