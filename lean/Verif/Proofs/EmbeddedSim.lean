import Verif.Proofs.Embedded
import Verif.Proofs.SimilarRun

/-! Simulations which retain the orders of another one and further orders not coupled to them (C81, C82). -/

namespace Nannos

open Matrix Spec

section
variable {n n' : ℕ}

/-- The orders of one simulation among those of another. -/
def embD (σ : Fin n → Fin n') : Matrix (Fin n') (Fin n) ℂ := of fun i' i => if i' = σ i then 1 else 0

/-- The same for the two tangential components. -/
def embU (σ : Fin n → Fin n') : Matrix (Idx n') (Idx n) ℂ := fromBlocks (embD σ) 0 0 (embD σ)

variable {σ : Fin n → Fin n'}

theorem embD_mulVec (hσ : Function.Injective σ) (v : Fin n → ℂ) (i : Fin n) : (embD σ *ᵥ v) (σ i) = v i := by
  simp only [mulVec, dotProduct, embD, of_apply, hσ.eq_iff]
  rw [Finset.sum_eq_single i (by intro b _ hb; simp [Ne.symm hb]) (by simp)]
  simp

theorem embD_mulVec_out (v : Fin n → ℂ) {i' : Fin n'} (h : ∀ i, i' ≠ σ i) : (embD σ *ᵥ v) i' = 0 := by
  simp [mulVec, dotProduct, embD, h]

theorem embU_inl (v : Idx n → ℂ) (i' : Fin n') : (embU σ *ᵥ v) (.inl i') = (embD σ *ᵥ fun i => v (.inl i)) i' := by
  unfold embU
  rw [fromBlocks_mulVec]
  simp
  rfl

theorem embU_inr (v : Idx n → ℂ) (i' : Fin n') : (embU σ *ᵥ v) (.inr i') = (embD σ *ᵥ fun i => v (.inr i)) i' := by
  unfold embU
  rw [fromBlocks_mulVec]
  simp
  rfl

theorem embD_comm (hσ : Function.Injective σ) {M' : Matrix (Fin n') (Fin n') ℂ} {M : Matrix (Fin n) (Fin n) ℂ} :
    M' * embD σ = embD σ * M ↔ (∀ i j, M' (σ i) (σ j) = M i j) ∧ ∀ i', (∀ i, i' ≠ σ i) → ∀ j, M' i' (σ j) = 0 := by
  have hcol : ∀ i' j, (M' * embD σ) i' j = M' i' (σ j) := by
    intro i' j
    simp only [mul_apply, embD, of_apply]
    rw [Finset.sum_eq_single (σ j) (by intro b _ hb; simp [hb]) (by simp)]
    simp
  have hrow : ∀ i j, (embD σ * M) (σ i) j = M i j := by
    intro i j
    simp only [mul_apply, embD, of_apply, hσ.eq_iff]
    rw [Finset.sum_eq_single i (by intro b _ hb; simp [Ne.symm hb]) (by simp)]
    simp
  have hout : ∀ i', (∀ i, i' ≠ σ i) → ∀ j, (embD σ * M) i' j = 0 := by
    intro i' h j
    simp [mul_apply, embD, h]
  constructor
  · intro h
    exact ⟨fun i j => by rw [← hcol, h, hrow], fun i' hi j => by rw [← hcol, h, hout i' hi]⟩
  · rintro ⟨h1, h2⟩
    ext i' j
    by_cases hi : ∃ i, i' = σ i
    · obtain ⟨i, rfl⟩ := hi
      rw [hcol, hrow, h1]
    · push Not at hi
      rw [hcol, h2 i' hi, hout i' hi]

theorem embD_inv {M' : Matrix (Fin n') (Fin n') ℂ} {M : Matrix (Fin n) (Fin n) ℂ}
    (h : M' * embD σ = embD σ * M) (hM' : M'.det ≠ 0) (hM : M.det ≠ 0) : M'⁻¹ * embD σ = embD σ * M⁻¹ := by
  have e := congrArg (fun X => M'⁻¹ * X * M⁻¹) h
  rw [← Matrix.mul_assoc, nonsing_inv_mul _ (det_unit hM'), Matrix.one_mul, Matrix.mul_assoc M'⁻¹, Matrix.mul_assoc (embD σ),
    mul_nonsing_inv _ (det_unit hM), Matrix.mul_one] at e
  exact e.symm

theorem embU_blocks {A B C D : Matrix (Fin n) (Fin n) ℂ} {A' B' C' D' : Matrix (Fin n') (Fin n') ℂ}
    (hA : A' * embD σ = embD σ * A) (hB : B' * embD σ = embD σ * B) (hC : C' * embD σ = embD σ * C)
    (hD : D' * embD σ = embD σ * D) : fromBlocks A' B' C' D' * embU σ = embU σ * fromBlocks A B C D := by
  unfold embU
  rw [fromBlocks_multiply, fromBlocks_multiply]
  simp [hA, hB, hC, hD]

theorem embU_diag2 {A : Matrix (Fin n) (Fin n) ℂ} {A' : Matrix (Fin n') (Fin n') ℂ} (hA : A' * embD σ = embD σ * A) :
    diag2 A' * embU σ = embU σ * diag2 A :=
  embU_blocks hA (by simp) (by simp) hA

theorem embU_ne {i : Idx n} {i' : Idx n'} (h : embU σ i' i ≠ 0) :
    ∃ j : Fin n, (i = .inl j ∧ i' = .inl (σ j)) ∨ (i = .inr j ∧ i' = .inr (σ j)) := by
  rcases i with i | i <;> rcases i' with i' | i' <;> simp [embU, embD] at h ⊢ <;> exact h

variable {kx ky : Fin n → ℂ} {kx' ky' : Fin n' → ℂ}

theorem kEps_fromBlocks {n : ℕ} (kx ky : Fin n → ℂ) (eta : Matrix (Fin n) (Fin n) ℂ) : Spec.kEps kx ky eta =
    fromBlocks (diagonal ky * eta * diagonal ky) (-(diagonal ky * eta * diagonal kx)) (-(diagonal kx * eta * diagonal ky))
      (diagonal kx * eta * diagonal kx) := by
  ext a b
  rcases a with i | i <;> rcases b with j | j <;> simp [Spec.kEps, diagonal_mul, mul_diagonal]

theorem kMu_fromBlocks {n : ℕ} (kx ky : Fin n → ℂ) : Spec.kMu kx ky =
    fromBlocks (diagonal kx * diagonal kx) (diagonal kx * diagonal ky) (diagonal ky * diagonal kx)
      (diagonal ky * diagonal ky) := by
  ext a b
  rcases a with i | i <;> rcases b with j | j <;> simp [Spec.kMu, diagonal_apply] <;>
    split_ifs with h <;> simp [h]

theorem embD_diagonal (hσ : Function.Injective σ) {k : Fin n → ℂ} {k' : Fin n' → ℂ} (h : ∀ i, k' (σ i) = k i) :
    diagonal k' * embD σ = embD σ * diagonal k := by
  rw [embD_comm hσ]
  refine ⟨fun i j => ?_, fun i' hi j => diagonal_apply_ne _ (hi j)⟩
  by_cases hij : i = j
  · subst hij; simp [h]
  · rw [diagonal_apply_ne _ hij, diagonal_apply_ne _ (hσ.ne hij)]

theorem embD_mul3 {a b c : Matrix (Fin n) (Fin n) ℂ} {a' b' c' : Matrix (Fin n') (Fin n') ℂ} (ha : a' * embD σ = embD σ * a)
    (hb : b' * embD σ = embD σ * b) (hc : c' * embD σ = embD σ * c) : a' * b' * c' * embD σ = embD σ * (a * b * c) := by
  rw [Matrix.mul_assoc, hc, ← Matrix.mul_assoc, Matrix.mul_assoc a', hb, ← Matrix.mul_assoc, ha]
  simp only [Matrix.mul_assoc]

theorem embU_wave (hσ : Function.Injective σ) (hx : ∀ i, kx' (σ i) = kx i) (hy : ∀ i, ky' (σ i) = ky i) {om : ℝ}
    {eta : Matrix (Fin n) (Fin n) ℂ} {eta' : Matrix (Fin n') (Fin n') ℂ} (he : eta' * embD σ = embD σ * eta)
    {P : Matrix (Idx n) (Idx n) ℂ} {P' : Matrix (Idx n') (Idx n') ℂ} (hP : P' * embU σ = embU σ * P) :
    waveMatrix om kx' ky' P' eta' * embU σ = embU σ * waveMatrix om kx ky P eta ∧
    ((om : ℂ) ^ 2 • 1 - Spec.kEps kx' ky' eta') * embU σ = embU σ * ((om : ℂ) ^ 2 • 1 - Spec.kEps kx ky eta) := by
  have dx := embD_diagonal hσ hx
  have dy := embD_diagonal hσ hy
  have h1 : Spec.kEps kx' ky' eta' * embU σ = embU σ * Spec.kEps kx ky eta := by
    rw [kEps_fromBlocks, kEps_fromBlocks]
    refine embU_blocks (embD_mul3 dy he dy) ?_ ?_ (embD_mul3 dx he dx)
    · rw [Matrix.neg_mul, Matrix.mul_neg, embD_mul3 dy he dx]
    · rw [Matrix.neg_mul, Matrix.mul_neg, embD_mul3 dx he dy]
  have h2 : Spec.kMu kx' ky' * embU σ = embU σ * Spec.kMu kx ky := by
    rw [kMu_fromBlocks, kMu_fromBlocks]
    have e : ∀ {a b : Matrix (Fin n) (Fin n) ℂ} {a' b' : Matrix (Fin n') (Fin n') ℂ}, a' * embD σ = embD σ * a →
        b' * embD σ = embD σ * b → a' * b' * embD σ = embD σ * (a * b) := by
      intro a b a' b' ha hb
      rw [Matrix.mul_assoc, hb, ← Matrix.mul_assoc, ha, Matrix.mul_assoc]
    exact embU_blocks (e dx dx) (e dx dy) (e dy dx) (e dy dy)
  constructor
  · unfold waveMatrix
    rw [Matrix.sub_mul, Matrix.sub_mul, h2, Matrix.mul_assoc, h1, Matrix.smul_mul, hP, ← Matrix.mul_assoc, hP,
      Matrix.mul_sub, Matrix.mul_sub, Matrix.mul_smul, Matrix.mul_assoc]
  · rw [Matrix.sub_mul, h1, Matrix.smul_mul, Matrix.one_mul, Matrix.mul_sub, Matrix.mul_smul, Matrix.mul_one]

end

variable {E E' : Ext} {c c' : Static} {mats mats' : ℕ → LayerSpec} {A : ℕ → LayerAttr c.nh} {A' : ℕ → LayerAttr c'.nh}

/-- What is required of the two simulations. -/
structure MediaWithin (σ : Fin c.nh → Fin c'.nh) (E E' : Ext) (mats mats' : ℕ → LayerSpec) : Prop where
  inj : Function.Injective σ
  mu : ∀ r ∈ c.stack, (mats r).mu = 1
  mu' : ∀ r ∈ c.stack, (mats' r).mu = 1
  eigc : EigContract E
  eigc' : EigContract E'
  stack : c'.stack = c.stack
  placed : WellPlaced mats c.stack
  placed' : WellPlaced mats' c.stack
  omega : c'.omega = c.omega
  hkx : ∀ i, c'.kx (σ i) = c.kx i
  hky : ∀ i, c'.ky (σ i) = c.ky i
  thick : ∀ r ∈ c.stack, (mats' r).thickness = (mats r).thickness
  med : ∀ r ∈ c.stack, ∀ P e P' e', Medium E c mats r P e → Medium E' c' mats' r P' e' →
    P' * embU σ = embU σ * P ∧ e' * embD σ = embD σ * e
  head : ∀ r, c.stack.head? = some r → (mats r).isUniform = true ∧ (mats' r).isUniform = true ∧
    (mats' r).epsilon.value = (mats r).epsilon.value
  last : ∀ r, c.stack.getLast? = some r → (mats' r).isUniform = (mats r).isUniform
  a0 : c'.a0 = embU σ *ᵥ c.a0
  flux : c'.incidentFlux = c.incidentFlux

theorem MediaWithin.within {σ : Fin c.nh → Fin c'.nh} (h : MediaWithin σ E E' mats mats')
    (hf : ∀ r ∈ c.stack, LayerFix E c mats A r) (hf' : ∀ r ∈ c'.stack, LayerFix E' c' mats' A' r)
    (hs : Steps (stackModes c mats A)) (hs' : Steps (stackModes c' mats' A')) :
    StackWithin (embU σ) (stackModes c mats A) (stackModes c' mats' A') := by
  have hlen := stackModes_length c mats A
  have hlen' := stackModes_length c' mats' A'
  have hst := h.stack
  rw [hst] at hlen' hf'
  have hm := solved_medium (stack := c.stack) h.mu h.eigc h.placed hf
  have hm' := solved_medium (stack := c.stack) h.mu' h.eigc' h.placed' hf'
  have hget : ∀ (k : ℕ) L, (stackModes c mats A)[k]? = some L → ∃ r, c.stack[k]? = some r ∧
      L = modesD (mats r) (A r) := by
    intro k L hL
    unfold stackModes at hL
    rw [List.getElem?_map] at hL
    rcases hr : c.stack[k]? with _ | r
    · rw [hr] at hL; simp at hL
    · rw [hr] at hL; exact ⟨r, rfl, by simpa using hL.symm⟩
  have hget' : ∀ (k r : ℕ) L, c.stack[k]? = some r → (stackModes c' mats' A')[k]? = some L →
      L = modesD (mats' r) (A' r) := by
    intro k r L hr hL
    unfold stackModes at hL
    rw [hst, List.getElem?_map, hr] at hL
    simpa using hL.symm
  have hz : ∀ {n : ℕ} (L : LayerSpec) (a : LayerAttr n), (modesD L a).z = L.thickness.getD 0 := by
    intro n L a
    unfold Modes.z modesD
    dsimp only
  refine ⟨by omega, hs, hs', ?_, ?_, ?_⟩
  · intro L L' hL hL'
    obtain ⟨r, hr, rfl⟩ := hget 0 L hL
    obtain rfl := hget' 0 r L' hr hL'
    have hrm := List.mem_of_getElem? hr
    obtain ⟨u1, u2, u3⟩ := h.head r (by rw [List.head?_eq_getElem?]; exact hr)
    have hc0 : (mats r).iscopy = false := by
      by_contra hcon
      obtain ⟨⟨j, hj, -⟩, -⟩ := h.placed 0 r hr (by simpa using hcon)
      omega
    have hc0' : (mats' r).iscopy = false := by
      by_contra hcon
      obtain ⟨⟨j, hj, -⟩, -⟩ := h.placed' 0 r hr (by simpa using hcon)
      omega
    obtain ⟨p1, q1⟩ := head_modes (hf r hrm) hc0 u1
    obtain ⟨p2, q2⟩ := head_modes (hf' r hrm) hc0' u2
    refine ⟨p1, p2, fun i i' hU => ?_⟩
    obtain ⟨j, hj⟩ := embU_ne hU
    rw [q1, q2]
    rcases hj with ⟨rfl, rfl⟩ | ⟨rfl, rfl⟩ <;>
      simp only [Sum.elim_inl, Sum.elim_inr] <;> rw [h.mu r hrm, h.mu' r hrm, u3, h.omega, h.hkx, h.hky]
  · intro k L L' hL hL'
    obtain ⟨r, hr, rfl⟩ := hget k L hL
    obtain rfl := hget' k r L' hr hL'
    have hrm := List.mem_of_getElem? hr
    obtain ⟨P, e, m1, m2⟩ := hm k r hr
    obtain ⟨P', e', m1', m2'⟩ := hm' k r hr
    obtain ⟨hP, he⟩ := h.med r hrm P e P' e' m1 m1'
    obtain ⟨ev, v1, v2⟩ := m2.eig
    obtain ⟨ev', v1', v2'⟩ := m2'.eig
    obtain ⟨w1, w2⟩ := embU_wave (om := c.omega) h.inj h.hkx h.hky (embD_inv he m2'.det m2.det) hP
    refine ⟨?_, ?_, waveMatrix c.omega c.kx c.ky P e⁻¹, waveMatrix c.omega c'.kx c'.ky P' e'⁻¹, w1, ?_, ?_⟩
    · unfold modesD
      rw [m2.Q, m2'.Q, h.omega]
      exact w2
    · rw [hz, hz, h.thick r hrm]
    · unfold modesD
      rw [v1]; exact v2
    · unfold modesD
      rw [v1', ← h.omega]; exact v2'
  · intro L L' hL hL'
    obtain ⟨r, hr, rfl⟩ := hget _ L hL
    obtain rfl := hget' _ r L' hr hL'
    have hrm := List.mem_of_getElem? hr
    obtain ⟨ev, v1, v2⟩ := solved_q (stack := c.stack) h.placed hf _ r hr
    obtain ⟨ev', v1', v2'⟩ := solved_q (stack := c.stack) h.placed' hf' _ r hr
    have hq : (modesD (mats r) (A r)).q = ev.1 := by unfold modesD; rw [v1]; rfl
    have hq' : (modesD (mats' r) (A' r)).q = ev'.1 := by unfold modesD; rw [v1']; rfl
    rw [hq, hq']
    refine ⟨fun i j hij => by rw [v2' i, v2' j, hij], fun i j hij => ?_⟩
    have hlast : c.stack.getLast? = some r := by
      rw [List.getLast?_eq_getElem?, ← hlen]; exact hr
    rw [v2 i, v2' j, hij, h.last r hlast]

theorem dotOrder_emb {σ : Fin c.nh → Fin c'.nh} (hσ : Function.Injective σ) (u v : Idx c.nh → ℂ) :
    (∀ i, dotOrder (embU σ *ᵥ u) (embU σ *ᵥ v) (σ i) = dotOrder u v i) ∧
    ∀ i', (∀ i, i' ≠ σ i) → dotOrder (embU σ *ᵥ u) (embU σ *ᵥ v) i' = 0 := by
  constructor
  · intro i
    unfold dotOrder
    simp only [embU_inl, embU_inr, embD_mulVec hσ]
  · intro i' hi
    unfold dotOrder
    simp only [embU_inl, embU_inr, embD_mulVec_out _ hi]
    simp

/-- Efficiencies from the waves that leave the stack. -/
theorem efficiencies_core {σ : Fin c.nh → Fin c'.nh} (hinj : Function.Injective σ) (homega : c'.omega = c.omega)
    (hom : c.omega ≠ 0) {a : Idx c.nh → ℂ} {a' : Idx c'.nh → ℂ} (ha : a' = embU σ *ᵥ a) {M0 MN : Modes (Idx c.nh)}
    {M0' MN' : Modes (Idx c'.nh)} {b t : Idx c.nh → ℂ} {b' t' : Idx c'.nh → ℂ} {f0 fN : (Fin c.nh → ℝ) × (Fin c.nh → ℝ)}
    {f0' fN' : (Fin c'.nh → ℝ) × (Fin c'.nh → ℝ)} (hf0 : poyntingFlux c M0 a b = .ok f0) (hfN : poyntingFlux c MN t 0 = .ok fN)
    (hf0' : poyntingFlux c' M0' a' b' = .ok f0') (hfN' : poyntingFlux c' MN' t' 0 = .ok fN')
    (hhead : M0.phi = 1 ∧ M0'.phi = 1 ∧ ∀ i i', embU σ i' i ≠ 0 → M0.q i = M0'.q i') (w1 : M0'.Q * embU σ = embU σ * M0.Q)
    (eb : b' = embU σ *ᵥ b) (hfwd : (tanE MN' t' 0 0 = embU σ *ᵥ tanE MN t 0 0) ∧ tanH MN' t' 0 0 = embU σ *ᵥ tanH MN t 0 0) :
    (∀ i, f0'.2 (σ i) = f0.2 i ∧ fN'.1 (σ i) = fN.1 i) ∧
    ∀ i', (∀ i, i' ≠ σ i) → f0'.2 i' = 0 ∧ fN'.1 i' = 0 := by
  have hom' : c'.omega ≠ 0 := by rw [homega]; exact hom
  obtain ⟨e1, e2, e3⟩ := hhead
  have hback : ∀ i', f0'.2 i' = -(dotOrder (embU σ *ᵥ ((M0.Q * M0.phi * diagonal fun k => 1 / ((c.omega : ℂ) * M0.q k)) *ᵥ
        b)) (embU σ *ᵥ (M0.phi *ᵥ b)) i').re +
      1 / 2 * (dotOrder (embU σ *ᵥ (M0.phi *ᵥ b))
        (embU σ *ᵥ ((M0.Q * M0.phi * diagonal fun k => 1 / ((c.omega : ℂ) * M0.q k)) *ᵥ a)) i').re -
      1 / 2 * (dotOrder (embU σ *ᵥ ((M0.Q * M0.phi * diagonal fun k => 1 / ((c.omega : ℂ) * M0.q k)) *ᵥ
        b)) (embU σ *ᵥ (M0.phi *ᵥ a)) i').re := by
    intro i'
    have eA : ∀ v, ((M0'.Q * M0'.phi * diagonal fun k => 1 / ((c'.omega : ℂ) * M0'.q k)) *ᵥ (embU σ *ᵥ v)) =
        embU σ *ᵥ ((M0.Q * M0.phi * diagonal fun k => 1 / ((c.omega : ℂ) * M0.q k)) *ᵥ v) := by
      intro v
      rw [e1, e2, Matrix.mul_one, Matrix.mul_one, mulVec_mulVec, mulVec_mulVec]
      congr 1
      have eD : (diagonal fun k => 1 / ((c'.omega : ℂ) * M0'.q k)) * embU σ =
          embU σ * diagonal fun k => 1 / ((c.omega : ℂ) * M0.q k) := by
        ext a b
        rw [diagonal_mul, mul_diagonal]
        by_cases hu : embU σ a b = 0
        · simp [hu]
        rw [e3 b a hu, homega, mul_comm]
      rw [Matrix.mul_assoc, eD, ← Matrix.mul_assoc, w1, Matrix.mul_assoc]
    rw [flux_back hf0', eb, ha, eA, eA, e1, e2, one_mulVec, one_mulVec, one_mulVec, one_mulVec]
  constructor
  · intro i
    constructor
    · rw [hback, flux_back hf0, (dotOrder_emb hinj _ _).1, (dotOrder_emb hinj _ _).1, (dotOrder_emb hinj _ _).1]
    · rw [flux_forward hfN, flux_forward hfN', orderFlux_tan hom, orderFlux_tan hom', hfwd.1, hfwd.2, homega]
      simp only [embU_inl, embU_inr, embD_mulVec hinj]
  · intro i' hi
    constructor
    · rw [hback, (dotOrder_emb hinj _ _).2 _ hi, (dotOrder_emb hinj _ _).2 _ hi, (dotOrder_emb hinj _ _).2 _ hi]
      simp
    · rw [flux_forward hfN', orderFlux_tan hom', hfwd.1, hfwd.2]
      simp only [embU_inl, embU_inr, embD_mulVec_out _ hi]
      simp

/-- The efficiencies agree; those of the further orders vanish. -/
theorem MediaWithin.efficiencies {σ : Fin c.nh → Fin c'.nh} (h : MediaWithin σ E E' mats mats') (hom : c.omega ≠ 0)
    (hf : ∀ r ∈ c.stack, LayerFix E c mats A r) (hf' : ∀ r ∈ c'.stack, LayerFix E' c' mats' A' r)
    {RT RT'} (hv : EffV c mats A (.ok ()) RT) (hv' : EffV c' mats' A' (.ok ()) RT') :
    (∀ i, RT'.1 (σ i) = RT.1 i ∧ RT'.2 (σ i) = RT.2 i) ∧
    ∀ i', (∀ i, i' ≠ σ i) → RT'.1 i' = 0 ∧ RT'.2 i' = 0 := by
  obtain ⟨-, S, r0, rN, M0, MN, f0, fN, hS, hr0, hrN, hM0, hMN, hf0, hfN, hne, rfl⟩ := hv
  obtain ⟨-, S', r0', rN', M0', MN', f0', fN', hS', hr0', hrN', hM0', hMN', hf0', hfN', hne', rfl⟩ := hv'
  have hst := h.stack
  have hom' : c'.omega ≠ 0 := by rw [h.omega]; exact hom
  rw [hst] at hr0' hrN'
  obtain rfl := Except.ok.inj (hr0.symm.trans hr0')
  obtain rfl := Except.ok.inj (hrN.symm.trans hrN')
  have st := steps_of_valS hf hS
  have st' := steps_of_valS hf' hS'
  have ss := h.within hf hf' st st'
  have hlen := stackModes_length c mats A
  have hlen' := stackModes_length c' mats' A'
  rw [hst] at hlen'
  have h2 := st.1
  have full : ∀ {b : Static} {F : Ext} {m2 : ℕ → LayerSpec} {B : ℕ → LayerAttr b.nh} {T},
      (∀ r ∈ b.stack, LayerFix F b m2 B r) → valS b m2 B (.ok ()) none = .ok T →
      loopS (stackModes b m2 B) (0 : ℕ) (((stackModes b m2 B).length - 1 : ℕ) : ℤ) = .ok T := by
    intro b F m2 B T hfx hT
    have hst2 := (steps_of_valS hfx hT).1
    rw [valS_none, valS_solved hfx] at hT
    have hl := stackModes_length b m2 B
    have : ((b.stack.length : ℤ) - 1) = (((stackModes b m2 B).length - 1 : ℕ) : ℤ) := by omega
    rw [this] at hT
    exact ((freshS_ok (i := 0)).mp hT).2
  obtain ⟨amp, a1, a2, a3, a4⟩ := solution_ext c.a0 (full hf hS)
  obtain ⟨amp', b1, b2, b3, b4⟩ := solution_ext c'.a0 (full hf' hS')
  obtain ⟨amp2, d1, d2, d3⟩ := ss.transfer a1
  have d4 := b4 amp2 (by rw [h.a0]; exact d1)
  have hmd : ∀ {b : Static} {F : Ext} {m2 : ℕ → LayerSpec} {B : ℕ → LayerAttr b.nh}
      (_ : ∀ r ∈ b.stack, LayerFix F b m2 B r) (k r : ℕ) (M), b.stack[k]? = some r → modesOf (m2 r) (B r) = .ok M →
      (stackModes b m2 B)[k]? = some M := by
    intro b F m2 B hfx k r M hk hM
    have hs := hfx r (List.mem_of_getElem? hk)
    rw [hs.form.modesD] at hM
    unfold stackModes
    rw [List.getElem?_map, hk, ← Except.ok.inj hM]
    rfl
  have k0 : c.stack[0]? = some r0 := (pyGet_nat c.stack 0 r0).mp hr0
  have kN := SameMedia.pyGet_last hrN
  have m0 := hmd hf 0 r0 M0 k0 hM0
  have m0' := hmd hf' 0 r0 M0' (by rw [hst]; exact k0) hM0'
  have mN := hmd hf _ rN MN kN hMN
  have mN' := hmd hf' _ rN MN' (by rw [hst]; exact kN) hMN'
  have eb : S'.s21 *ᵥ c'.a0 = embU σ *ᵥ (S.s21 *ᵥ c.a0) := by
    rw [← a2, ← b2, ← d4 0 (by omega), d2]
  have hfwd : (tanE MN' (S'.s11 *ᵥ c'.a0) 0 0 = embU σ *ᵥ tanE MN (S.s11 *ᵥ c.a0) 0 0) ∧
      tanH MN' (S'.s11 *ᵥ c'.a0) 0 0 = embU σ *ᵥ tanH MN (S.s11 *ᵥ c.a0) 0 0 := by
    have t := d3 _ MN MN' mN mN' 0
    rw [d4 _ (by omega)] at t
    have ea : amp (c.stack.length - 1) = (S.s11 *ᵥ c.a0, 0) := by
      refine Prod.ext ?_ ?_
      · rw [← hlen]; exact a3
      · rw [← hlen]; exact a1.2.2
    have eb : amp' (c.stack.length - 1) = (S'.s11 *ᵥ c'.a0, 0) := by
      refine Prod.ext ?_ ?_
      · rw [← hlen']; exact b3
      · rw [← hlen']; exact b1.2.2
    rw [ea, eb] at t
    exact t
  obtain ⟨k1, k2⟩ := efficiencies_core h.inj h.omega hom h.a0 hf0 hfN hf0' hfN' (ss.head M0 M0' m0 m0')
    (ss.wave 0 M0 M0' m0 m0').Q eb hfwd
  dsimp only
  rw [h.flux]
  constructor
  · intro i
    rw [(k1 i).1, (k1 i).2]
    exact ⟨rfl, rfl⟩
  · intro i' hi
    rw [(k2 i' hi).1, (k2 i' hi).2]
    simp

/-- The fields agree; those of the further orders vanish. -/
structure FieldsWithin (σ : Fin c.nh → Fin c'.nh) (F : FieldF c.nh) (F' : FieldF c'.nh) : Prop where
  hx : F'.hx = embD σ *ᵥ F.hx
  hy : F'.hy = embD σ *ᵥ F.hy
  hz : F'.hz = embD σ *ᵥ F.hz
  ex : F'.ex = embD σ *ᵥ F.ex
  ey : F'.ey = embD σ *ᵥ F.ey
  ez : F'.ez = embD σ *ᵥ F.ez

/-- All components from the tangential ones. -/
theorem fields_core {σ : Fin c.nh → Fin c'.nh} (hinj : Function.Injective σ) (homega : c'.omega = c.omega)
    (hkx : ∀ i, c'.kx (σ i) = c.kx i) (hky : ∀ i, c'.ky (σ i) = c.ky i) {L L' : LayerSpec} {A : LayerAttr c.nh}
    {A' : LayerAttr c'.nh} {M : Modes (Idx c.nh)} {M' : Modes (Idx c'.nh)} {ab : (Idx c.nh → ℂ) × (Idx c.nh → ℂ)}
    {ab' : (Idx c'.nh → ℂ) × (Idx c'.nh → ℂ)} {z z' : ℝ} {F F'} (hF : FieldSpec c L A M ab.1 ab.2 z F)
    (hF' : FieldSpec c' L' A' M' ab'.1 ab'.2 z' F') {P e P' e'} (m2 : MediumModes c L A P e) (m2' : MediumModes c' L' A' P' e')
    (he : e' * embD σ = embD σ * e) (tE : tanE M' ab'.1 ab'.2 z' = embU σ *ᵥ tanE M ab.1 ab.2 z)
    (tH : tanH M' ab'.1 ab'.2 z' = embU σ *ᵥ tanH M ab.1 ab.2 z) : FieldsWithin σ F F' := by
  have lin : ∀ (u : Fin c.nh → ℂ) (k : ℂ), (embD σ *ᵥ fun i => k * u i) = fun i' => k * (embD σ *ᵥ u) i' := by
    intro u k
    exact mulVec_smul (embD σ) k u
  have x1 : F'.hx = embD σ *ᵥ F.hx := by
    funext i'
    rw [hF'.hx, tH, embU_inl]
    congr 1
    congr 1
    funext i
    rw [hF.hx]
  have x2 : F'.hy = embD σ *ᵥ F.hy := by
    funext i'
    rw [hF'.hy, tH, embU_inr]
    congr 1
    congr 1
    funext i
    rw [hF.hy]
  have x3 : F'.ex = embD σ *ᵥ F.ex := by
    funext i'
    have e2 : F.ex = fun i => (1 / (c.omega : ℂ)) * tanE M ab.1 ab.2 z (.inr i) := by
      funext i
      rw [hF.ex]; ring
    rw [hF'.ex, tE, embU_inr, e2, lin, homega]
    ring
  have x4 : F'.ey = embD σ *ᵥ F.ey := by
    funext i'
    have e2 : F.ey = fun i => (-1 / (c.omega : ℂ)) * tanE M ab.1 ab.2 z (.inl i) := by
      funext i
      rw [hF.ey]; ring
    rw [hF'.ey, tE, embU_inl, e2, lin, homega]
    ring
  have prod : ∀ (k' : Fin c'.nh → ℂ) (k u : Fin c.nh → ℂ), (∀ i, k' (σ i) = k i) →
      (fun i' => k' i' * (embD σ *ᵥ u) i') = embD σ *ᵥ fun i => k i * u i := by
    intro k' k u hk
    funext i'
    by_cases hi : ∃ i, i' = σ i
    · obtain ⟨i, rfl⟩ := hi
      rw [embD_mulVec hinj, embD_mulVec hinj, hk]
    · push Not at hi
      rw [embD_mulVec_out _ hi, embD_mulVec_out _ hi, mul_zero]
  have sub : ∀ u v : Fin c.nh → ℂ, (embD σ *ᵥ fun i => u i - v i) = fun i' => (embD σ *ᵥ u) i' - (embD σ *ᵥ v) i' := by
    intro u v
    exact mulVec_sub (embD σ) u v
  refine ⟨x1, x2, ?_, x3, x4, ?_⟩
  · funext i'
    have e2 : F.hz = fun i => (1 / (c.omega : ℂ)) * (c.kx i * F.ey i - c.ky i * F.ex i) := by
      funext i
      rw [hF.hz]; ring
    rw [hF'.hz, e2, lin, sub (fun i => c.kx i * F.ey i) (fun i => c.ky i * F.ex i), ← prod _ _ _ hkx,
      ← prod _ _ _ hky, x3, x4, homega]
    ring
  · have n1 := m2.normal _ _ hF.ez
    have n2 := m2'.normal _ _ hF'.ez
    refine mulVec_inj m2'.det ?_
    rw [n2, mulVec_mulVec, he, ← mulVec_mulVec, n1]
    funext i'
    have e2 : (fun i => (c.ky i * F.hx i - c.kx i * F.hy i) / (c.omega : ℂ)) =
        fun i => (1 / (c.omega : ℂ)) * (c.ky i * F.hx i - c.kx i * F.hy i) := by
      funext i; ring
    rw [e2, lin, sub (fun i => c.ky i * F.hx i) (fun i => c.kx i * F.hy i), ← prod _ _ _ hkx,
      ← prod _ _ _ hky, x1, x2, homega]
    ring

theorem MediaWithin.fields {σ : Fin c.nh → Fin c'.nh} (h : MediaWithin σ E E' mats mats')
    (hf : ∀ r ∈ c.stack, LayerFix E c mats A r) (hf' : ∀ r ∈ c'.stack, LayerFix E' c' mats' A' r)
    {r : ℕ} {i : ℤ} {ab ab'} (hr : pyGet c.stack i = .ok r) (hv : AmpV c mats A (.ok ()) i ab)
    (hv' : AmpV c' mats' A' (.ok ()) i ab')
    {M M'} (hM : modesOf (mats r) (A r) = .ok M) (hM' : modesOf (mats' r) (A' r) = .ok M') {z F F'}
    (hF : FieldSpec c (mats r) (A r) M ab.1 ab.2 z F)
    (hF' : FieldSpec c' (mats' r) (A' r) M' ab'.1 ab'.2 z F') : FieldsWithin σ F F' := by
  have hst := h.stack
  have ss := h.within hf hf' (steps_of_ampV hf hv) (steps_of_ampV hf' hv')
  obtain ⟨k, u1, amp, v1, v2, v3⟩ := ampV_solution hf hv
  obtain ⟨k', u1', amp', v1', v2', v3'⟩ := ampV_solution hf' hv'
  rw [hst] at u1'
  obtain rfl := Option.some.inj (u1.symm.trans u1')
  obtain ⟨amp2, d1, d2, d3⟩ := ss.transfer v1
  have hk : c.stack[k]? = some r := by
    unfold pyGet at hr
    rw [u1] at hr
    dsimp only at hr
    rcases hc : c.stack[k]? with _ | s
    · rw [hc] at hr; simp at hr
    · rw [hc] at hr; exact congrArg some (Except.ok.inj hr)
  have hkl := (List.getElem?_eq_some_iff.mp hk).1
  have hrm := List.mem_of_getElem? hk
  have hmd : ∀ {b : Static} {F : Ext} {m2 : ℕ → LayerSpec} {B : ℕ → LayerAttr b.nh}
      (_ : ∀ r ∈ b.stack, LayerFix F b m2 B r) (M), b.stack[k]? = some r → modesOf (m2 r) (B r) = .ok M →
      (stackModes b m2 B)[k]? = some M := by
    intro b F m2 B hfx M hk hM
    rw [(hfx r (List.mem_of_getElem? hk)).form.modesD] at hM
    unfold stackModes
    rw [List.getElem?_map, hk, ← Except.ok.inj hM]
    rfl
  have t := d3 k M M' (hmd hf M hk hM) (hmd hf' M' (by rw [hst]; exact hk) hM') z
  rw [v3' amp2 (by rw [h.a0]; exact d1) k (by rw [hst]; exact hkl), v2, v2'] at t
  obtain ⟨tE, tH⟩ := t
  obtain ⟨P, e, m1, m2⟩ := solved_medium (stack := c.stack) h.mu h.eigc h.placed hf k r hk
  obtain ⟨P', e', m1', m2'⟩ := solved_medium (stack := c.stack) h.mu' h.eigc' h.placed' (hst ▸ hf') k r hk
  obtain ⟨hP, he⟩ := h.med r hrm P e P' e' m1 m1'
  exact fields_core h.inj h.omega h.hkx h.hky hF hF' m2 m2' he tE tH

end Nannos
