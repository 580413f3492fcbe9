import Verif.Proofs.Reciprocity

/-! Reciprocity (C72, C73): from the first to the last layer. -/

namespace Nannos

open Matrix Spec

section
variable {m m' : Type} [Fintype m] [DecidableEq m] [Fintype m'] [DecidableEq m'] {σ : m ≃ m'}
  {layers : List (Modes m)} {layers' : List (Modes m')} {amp : ℕ → (m → ℂ) × (m → ℂ)} {amp' : ℕ → (m' → ℂ) × (m' → ℂ)}

/-- The two waves come from the same side. -/
theorem stack_react {L0 : Modes m} {L0' : Modes m'} (hL0 : layers[0]? = some L0) (hL0' : layers'[0]? = some L0') :
    ∀ n, n + 1 < layers.length → n + 1 < layers'.length → Consistent layers 0 (n + 1) amp →
      Consistent layers' 0 (n + 1) amp' →
      (∀ k L L', 0 < k → k ≤ n → layers[k]? = some L → layers'[k]? = some L' →
        react 1 σ L L' (amp k).1 (amp k).2 (amp' k).1 (amp' k).2 0 0 =
          react 1 σ L L' (amp k).1 (amp k).2 (amp' k).1 (amp' k).2 L.z L'.z) →
      ∀ L L', layers[n + 1]? = some L → layers'[n + 1]? = some L' →
        react 1 σ L0 L0' (amp 0).1 (amp 0).2 (amp' 0).1 (amp' 0).2 L0.z L0'.z =
          react 1 σ L L' (amp (n + 1)).1 (amp (n + 1)).2 (amp' (n + 1)).1 (amp' (n + 1)).2 0 0 := by
  intro n
  induction n with
  | zero =>
    intro _ _ hc hc' _ L L' hL hL'
    obtain ⟨h1, h2⟩ := hc 0 L0 L le_rfl (by omega) hL0 hL
    obtain ⟨h3, h4⟩ := hc' 0 L0' L' le_rfl (by omega) hL0' hL'
    exact react_match h1 h2 h3 h4
  | succ n ih =>
    intro hn hn' hc hc' hl L L' hL hL'
    obtain ⟨N, hN⟩ : ∃ L, layers[n + 1]? = some L := ⟨_, List.getElem?_eq_getElem (by omega)⟩
    obtain ⟨N', hN'⟩ : ∃ L, layers'[n + 1]? = some L := ⟨_, List.getElem?_eq_getElem (by omega)⟩
    rw [ih (by omega) (by omega) (consistent_mono (by omega) hc) (consistent_mono (by omega) hc')
      (fun k L L' h0 hk => hl k L L' h0 (by omega)) N N' hN hN', hl (n + 1) N N' (by omega) le_rfl hN hN']
    obtain ⟨h1, h2⟩ := hc (n + 1) N L (by omega) (by omega) hN hL
    obtain ⟨h3, h4⟩ := hc' (n + 1) N' L' (by omega) (by omega) hN' hL'
    exact react_match h1 h2 h3 h4

omit [DecidableEq m] [DecidableEq m'] in
/-- The second stack is the first turned upside down. -/
theorem stack_react_flip {N : ℕ} (hN : layers.length = N + 1) (hN' : layers'.length = N + 1) {L0 : Modes m} {L0' : Modes m'}
    (hL0 : layers[0]? = some L0) (hL0' : layers'[N]? = some L0') (hc : Consistent layers 0 N amp)
    (hc' : Consistent layers' 0 N amp')
    (hl : ∀ k L L', 0 < k → k < N → layers[k]? = some L → layers'[N - k]? = some L' →
        react (-1) σ L L' (amp k).1 (amp k).2 (amp' (N - k)).1 (amp' (N - k)).2 0 L'.z =
          react (-1) σ L L' (amp k).1 (amp k).2 (amp' (N - k)).1 (amp' (N - k)).2 L.z 0) :
    ∀ n, n + 1 ≤ N → ∀ L L', layers[n + 1]? = some L → layers'[N - (n + 1)]? = some L' →
        react (-1) σ L0 L0' (amp 0).1 (amp 0).2 (amp' N).1 (amp' N).2 L0.z 0 =
          react (-1) σ L L' (amp (n + 1)).1 (amp (n + 1)).2 (amp' (N - (n + 1))).1 (amp' (N - (n + 1))).2 0 L'.z := by
  intro n
  induction n with
  | zero =>
    intro hn L L' hL hL'
    obtain ⟨h1, h2⟩ := hc 0 L0 L le_rfl (by omega) hL0 hL
    have e : N - (0 + 1) + 1 = N := by omega
    obtain ⟨h3, h4⟩ := hc' (N - (0 + 1)) L' L0' (Nat.zero_le _) (by omega) hL' (by rw [e]; exact hL0')
    rw [e] at h3 h4
    exact react_match h1 h2 h3.symm h4.symm
  | succ n ih =>
    intro hn L L' hL hL'
    obtain ⟨T, hT⟩ : ∃ L, layers[n + 1]? = some L := ⟨_, List.getElem?_eq_getElem (by omega)⟩
    obtain ⟨T', hT'⟩ : ∃ L, layers'[N - (n + 1)]? = some L := ⟨_, List.getElem?_eq_getElem (by omega)⟩
    rw [ih (by omega) T T' hT hT', hl (n + 1) T T' (by omega) (by omega) hT hT']
    obtain ⟨h1, h2⟩ := hc (n + 1) T L (by omega) (by omega) hT hL
    have e : N - (n + 1 + 1) + 1 = N - (n + 1) := by omega
    obtain ⟨h3, h4⟩ := hc' (N - (n + 1 + 1)) L' T' (Nat.zero_le _) (by omega) hL' (by rw [e]; exact hT')
    rw [e] at h3 h4
    exact react_match h1 h2 h3.symm h4.symm

end

variable {E : Ext} {c c' : Static}

/-! ### Uniform layers at the ends -/

/-- The symmetric form of one order of a uniform layer: the flux carried by the amplitudes `x` and `y`. -/
noncomputable def crossFlux (w : ℝ) (e X Y g : ℂ) (x1 x2 y1 y2 : ℂ) : ℂ :=
  ((coefA w e X Y g).1 * x1 + (coefA w e X Y g).2.1 * x2) * y1 +
    ((coefA w e X Y g).2.1 * x1 + (coefA w e X Y g).2.2 * x2) * y2

theorem coefA_neg (w : ℝ) (e X Y g : ℂ) : coefA w e (-X) (-Y) g = coefA w e X Y g := by
  unfold coefA; simp

theorem UniformFlux.opposite {σ : Fin c.nh ≃ Fin c'.nh} (h : Opposite c c' σ) {e : ℂ} {M : Modes (Idx c.nh)}
    {M' : Modes (Idx c'.nh)} {g g'} (hu : UniformFlux c e M g) (hu' : UniformFlux c' e M' g') (i : Fin c.nh) :
    g' (σ i) = g i := by
  rw [hu.g_eq, hu'.g_eq, h.omega, h.kx, h.ky]
  simp

/-- The sum over the orders of the reaction between amplitudes. -/
theorem uniform_react {σ : Fin c.nh ≃ Fin c'.nh} (h : Opposite c c' σ) (hom : c.omega ≠ 0) {e : ℂ} {M : Modes (Idx c.nh)}
    {M' : Modes (Idx c'.nh)} {g g'} (hu : UniformFlux c e M g) (hu' : UniformFlux c' e M' g')
    (x y : Idx c.nh → ℂ) (x' y' : Idx c'.nh → ℂ) (s : ℂ) :
    ∑ k, ((M.amat *ᵥ (x - y)) k * (M'.phi *ᵥ (x' + y')) (twice σ k) -
        s * ((M'.amat *ᵥ (x' - y')) (twice σ k) * (M.phi *ᵥ (x + y)) k)) =
      c.omega * ∑ i, (crossFlux c.omega e (c.kx i) (c.ky i) (g i) (x (.inl i) - y (.inl i)) (x (.inr i) - y (.inr i))
          (x' (.inl (σ i)) + y' (.inl (σ i))) (x' (.inr (σ i)) + y' (.inr (σ i))) -
        s * crossFlux c.omega e (c.kx i) (c.ky i) (g i) (x' (.inl (σ i)) - y' (.inl (σ i)))
          (x' (.inr (σ i)) - y' (.inr (σ i))) (x (.inl i) + y (.inl i)) (x (.inr i) + y (.inr i))) := by
  have hom' : c'.omega ≠ 0 := by rw [h.omega]; exact hom
  rw [amat_omega hom, amat_omega hom', hu.phi, hu'.phi, one_mulVec, one_mulVec]
  simp only [smul_mulVec, Pi.smul_apply, smul_eq_mul]
  rw [Fintype.sum_sum_type, ← Finset.sum_add_distrib, Finset.mul_sum]
  refine Finset.sum_congr rfl fun i _ => ?_
  obtain ⟨A1, A2⟩ := uniform_mulVec hu.phi hu.q hu.Q (x - y) i
  obtain ⟨B1, B2⟩ := uniform_mulVec hu'.phi hu'.q hu'.Q (x' - y') (σ i)
  rw [hu.phi] at A1 A2
  rw [hu'.phi] at B1 B2
  rw [twice_inl, twice_inr, A1, A2, B1, B2, h.kx, h.ky, hu.opposite h hu', h.omega, coefA_neg]
  simp only [Pi.sub_apply, Pi.add_apply, crossFlux]
  ring

theorem crossFlux_comm (w : ℝ) (e X Y g x1 x2 y1 y2 : ℂ) :
    crossFlux w e X Y g x1 x2 y1 y2 = crossFlux w e X Y g y1 y2 x1 x2 := by
  unfold crossFlux; ring

/-- Only outgoing waves: no reaction. -/
theorem uniform_react_out {σ : Fin c.nh ≃ Fin c'.nh} (h : Opposite c c' σ) (hom : c.omega ≠ 0) {e : ℂ}
    {M : Modes (Idx c.nh)} {M' : Modes (Idx c'.nh)} {g g'} (hu : UniformFlux c e M g) (hu' : UniformFlux c' e M' g')
    (x : Idx c.nh → ℂ) (x' : Idx c'.nh → ℂ) : react 1 (twice σ) M M' x 0 x' 0 0 0 = 0 := by
  unfold react
  simp only [tanE_top, tanH_top]
  rw [uniform_react h hom hu hu']
  simp only [mulVec_zero, Pi.zero_apply, sub_zero, add_zero]
  rw [Finset.sum_eq_zero, mul_zero]
  intro i _
  rw [crossFlux_comm]
  ring

/-- The bottom of the first layer. -/
theorem uniform_react_first {σ : Fin c.nh ≃ Fin c'.nh} (h : Opposite c c' σ) (hom : c.omega ≠ 0) {e : ℂ}
    {M : Modes (Idx c.nh)} {M' : Modes (Idx c'.nh)} {g g'} (hu : UniformFlux c e M g) (hu' : UniformFlux c' e M' g')
    (hz : M'.z = M.z) (x y : Idx c.nh → ℂ) (x' y' : Idx c'.nh → ℂ) :
    react 1 (twice σ) M M' x y x' y' M.z M'.z = 2 * c.omega * ∑ i, Complex.exp (Complex.I * g i * (M.z : ℂ)) *
      (crossFlux c.omega e (c.kx i) (c.ky i) (g i) (x (.inl i)) (x (.inr i)) (y' (.inl (σ i))) (y' (.inr (σ i))) -
        crossFlux c.omega e (c.kx i) (c.ky i) (g i) (x' (.inl (σ i))) (x' (.inr (σ i))) (y (.inl i)) (y (.inr i))) := by
  unfold react
  simp only [tanE_bottom, tanH_bottom]
  rw [uniform_react h hom hu hu', mul_comm 2, mul_assoc]
  congr 1
  rw [Finset.mul_sum]
  refine Finset.sum_congr rfl fun i _ => ?_
  simp only [f_mulVec, hu.q, hu'.q, Sum.elim_inl, Sum.elim_inr, hu.opposite h hu', hz, crossFlux]
  ring

/-- A wave which arrives at the bottom of a layer and one which leaves from the same place. -/
theorem uniform_react_in_out {σ : Fin c.nh ≃ Fin c'.nh} (h : Opposite c c' σ) (hom : c.omega ≠ 0) {e : ℂ}
    {M : Modes (Idx c.nh)} {M' : Modes (Idx c'.nh)} {g g'} (hu : UniformFlux c e M g) (hu' : UniformFlux c' e M' g')
    (x y : Idx c.nh → ℂ) (x' : Idx c'.nh → ℂ) :
    react (-1) (twice σ) M M' x y x' 0 M.z 0 = 2 * c.omega * ∑ i, Complex.exp (Complex.I * g i * (M.z : ℂ)) *
      crossFlux c.omega e (c.kx i) (c.ky i) (g i) (x (.inl i)) (x (.inr i)) (x' (.inl (σ i))) (x' (.inr (σ i))) := by
  have e0 : ∀ k : Idx c.nh, (tanE M x y M.z k * tanH M' x' 0 0 (twice σ k) - (-1) * (tanE M' x' 0 0 (twice σ k) * tanH M x y M.z k)) =
      ((M.amat *ᵥ (M.f *ᵥ x - y)) k * (M'.phi *ᵥ (x' + 0)) (twice σ k) -
        (-1) * ((M'.amat *ᵥ (x' - 0)) (twice σ k) * (M.phi *ᵥ (M.f *ᵥ x + y)) k)) := by
    intro k
    rw [tanE_bottom, tanH_bottom, tanE_top, tanH_top, mulVec_zero]
  unfold react
  rw [Finset.sum_congr rfl fun k _ => e0 k, uniform_react h hom hu hu', mul_comm 2, mul_assoc]
  congr 1
  rw [Finset.mul_sum]
  refine Finset.sum_congr rfl fun i _ => ?_
  simp only [f_mulVec, hu.q, Sum.elim_inl, Sum.elim_inr, crossFlux, Pi.zero_apply]
  ring

/-- The same with the roles exchanged. -/
theorem uniform_react_out_in {σ : Fin c.nh ≃ Fin c'.nh} (h : Opposite c c' σ) (hom : c.omega ≠ 0) {e : ℂ}
    {M : Modes (Idx c.nh)} {M' : Modes (Idx c'.nh)} {g g'} (hu : UniformFlux c e M g) (hu' : UniformFlux c' e M' g')
    (x : Idx c.nh → ℂ) (x' y' : Idx c'.nh → ℂ) :
    react (-1) (twice σ) M M' x 0 x' y' 0 M'.z = 2 * c.omega * ∑ i, Complex.exp (Complex.I * g i * (M'.z : ℂ)) *
      crossFlux c.omega e (c.kx i) (c.ky i) (g i) (x' (.inl (σ i))) (x' (.inr (σ i))) (x (.inl i)) (x (.inr i)) := by
  have e0 : ∀ k : Idx c.nh, (tanE M x 0 0 k * tanH M' x' y' M'.z (twice σ k) - (-1) * (tanE M' x' y' M'.z (twice σ k) * tanH M x 0 0 k)) =
      ((M.amat *ᵥ (x - 0)) k * (M'.phi *ᵥ (M'.f *ᵥ x' + y')) (twice σ k) -
        (-1) * ((M'.amat *ᵥ (M'.f *ᵥ x' - y')) (twice σ k) * (M.phi *ᵥ (x + 0)) k)) := by
    intro k
    rw [tanE_bottom, tanH_bottom, tanE_top, tanH_top, mulVec_zero]
  unfold react
  rw [Finset.sum_congr rfl fun k _ => e0 k, uniform_react h hom hu hu', mul_comm 2, mul_assoc]
  congr 1
  rw [Finset.mul_sum]
  refine Finset.sum_congr rfl fun i _ => ?_
  simp only [f_mulVec, hu'.q, hu.opposite h hu', Sum.elim_inl, Sum.elim_inr, crossFlux, Pi.zero_apply]
  ring

end Nannos
