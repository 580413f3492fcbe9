import Verif.Props.SMatrix

/-! The scattering matrix of a film between two equal half-spaces, when the modes of the film do not mix at the interfaces:
used for the concrete cases. -/

namespace Nannos.Examples

open Matrix Nannos Spec

variable {m : Type} [Fintype m] [DecidableEq m]

theorem stepS_of {S : SMat m} {L L' : Modes m} {I : Matrix (m ⊕ m) (m ⊕ m) ℂ} (hI : buildI L L' = .ok I)
    (hd : (I.toBlocks₁₁ - L.f * S.s12 * I.toBlocks₂₁).det ≠ 0) : ∃ S', stepS S L L' = .ok S' := by
  unfold stepS
  simp only [hI, except_bind_ok]
  rw [(linSolve_ok _ _ _).mpr ⟨hd, rfl⟩, except_bind_ok, (linSolve_ok _ _ _).mpr ⟨hd, rfl⟩, except_bind_ok]
  exact ⟨_, rfl⟩

/-- Air above and below, a film whose modes are the columns of `V`. -/
structure FilmModes (L0 L1 L2 : Modes m) (V : Matrix m m ℂ) (z y : m → ℂ) : Prop where
  phi0 : L0.phi = 1
  phi2 : L2.phi = 1
  phi1 : L1.phi = V
  detV : V.det ≠ 0
  q0 : ∀ i, L0.q i ≠ 0
  q1 : ∀ i, L1.q i ≠ 0
  q2 : ∀ i, L2.q i ≠ 0
  z0 : ∀ i, z i ≠ 0
  y0 : ∀ i, y i ≠ 0
  amat0 : L0.amat = diagonal z
  amat2 : L2.amat = diagonal z
  amat1 : L1.amat = V * diagonal y
  comm : V * diagonal z = diagonal z * V

variable {L0 L1 L2 : Modes m} {V : Matrix m m ℂ} {z y : m → ℂ}

theorem FilmModes.I01 (h : FilmModes L0 L1 L2 V z y) : buildI L0 L1 = .ok (fromBlocks
    (V * diagonal fun i => (1 + y i / z i) / 2) (V * diagonal fun i => (1 - y i / z i) / 2)
    (V * diagonal fun i => (1 - y i / z i) / 2) (V * diagonal fun i => (1 + y i / z i) / 2)) := by
  have hM0 : L0.M = fromBlocks (diagonal z) (-diagonal z) 1 1 := by unfold Modes.M; rw [h.amat0, h.phi0]
  have hM1 : L1.M = fromBlocks (V * diagonal y) (-(V * diagonal y)) V V := by unfold Modes.M; rw [h.amat1, h.phi1]
  have hd : L0.M.det ≠ 0 := by
    have : L0.M * fromBlocks (diagonal fun i => 1 / (2 * z i)) (diagonal fun _ => 1 / 2) (diagonal fun i => -(1 / (2 * z i)))
        (diagonal fun _ => 1 / 2) = 1 := by
      rw [hM0, fromBlocks_multiply, ← fromBlocks_one]
      have e : ∀ i, z i * (1 / (2 * z i)) = 1 / 2 := fun i => by have := h.z0 i; field_simp
      refine fromBlocks_inj.2 ⟨?_, ?_, ?_, ?_⟩ <;>
        simp only [diagonal_mul_diagonal, Matrix.neg_mul, diagonal_neg, diagonal_add, Matrix.one_mul, ← diagonal_one,
          ← diagonal_zero, neg_mul_neg, e, mul_neg, neg_neg, neg_mul] <;>
        congr 1 <;> funext i <;> norm_num
    intro h0
    have := congrArg det this
    rw [det_mul, h0] at this
    simp at this
  refine (buildI_ok _ _ _).mpr ⟨h.q0, h.q1, hd, ?_⟩
  have : L0.M * fromBlocks
    (V * diagonal fun i => (1 + y i / z i) / 2) (V * diagonal fun i => (1 - y i / z i) / 2)
    (V * diagonal fun i => (1 - y i / z i) / 2) (V * diagonal fun i => (1 + y i / z i) / 2) = L1.M := by
    rw [hM0, hM1, fromBlocks_multiply]
    have e1 : ∀ i, z i * ((1 + y i / z i) / 2) + -(z i * ((1 - y i / z i) / 2)) = y i := fun i => by
      have := h.z0 i; field_simp; ring
    have e2 : ∀ i, z i * ((1 - y i / z i) / 2) + -(z i * ((1 + y i / z i) / 2)) = -y i := fun i => by
      have := h.z0 i; field_simp; ring
    refine fromBlocks_inj.2 ⟨?_, ?_, ?_, ?_⟩
    · rw [Matrix.neg_mul, ← Matrix.mul_assoc, ← Matrix.mul_assoc, ← h.comm, Matrix.mul_assoc, Matrix.mul_assoc, ← Matrix.mul_neg,
        ← Matrix.mul_add, diagonal_mul_diagonal, diagonal_mul_diagonal, diagonal_neg, diagonal_add]
      simp only [e1]
    · rw [Matrix.neg_mul, ← Matrix.mul_assoc, ← Matrix.mul_assoc, ← h.comm, Matrix.mul_assoc, Matrix.mul_assoc, ← Matrix.mul_neg,
        ← Matrix.mul_add, diagonal_mul_diagonal, diagonal_mul_diagonal, diagonal_neg, diagonal_add, ← Matrix.mul_neg, diagonal_neg]
      simp only [e2]
    · rw [Matrix.one_mul, Matrix.one_mul, ← Matrix.mul_add, diagonal_add]
      have : (fun i => (1 + y i / z i) / 2 + (1 - y i / z i) / 2) = fun _ => 1 := by funext i; ring
      rw [this, diagonal_one, Matrix.mul_one]
    · rw [Matrix.one_mul, Matrix.one_mul, ← Matrix.mul_add, diagonal_add]
      have : (fun i => (1 - y i / z i) / 2 + (1 + y i / z i) / 2) = fun _ => 1 := by funext i; ring
      rw [this, diagonal_one, Matrix.mul_one]
  rw [← this, ← Matrix.mul_assoc, nonsing_inv_mul _ (det_unit hd), Matrix.one_mul]

theorem FilmModes.I12 (h : FilmModes L0 L1 L2 V z y) : buildI L1 L2 = .ok (fromBlocks
    ((diagonal fun i => (1 + z i / y i) / 2) * V⁻¹) ((diagonal fun i => (1 - z i / y i) / 2) * V⁻¹)
    ((diagonal fun i => (1 - z i / y i) / 2) * V⁻¹) ((diagonal fun i => (1 + z i / y i) / 2) * V⁻¹)) := by
  have hM2 : L2.M = fromBlocks (diagonal z) (-diagonal z) 1 1 := by unfold Modes.M; rw [h.amat2, h.phi2]
  have hM1 : L1.M = fromBlocks (V * diagonal y) (-(V * diagonal y)) V V := by unfold Modes.M; rw [h.amat1, h.phi1]
  have hV : V * V⁻¹ = 1 := mul_nonsing_inv _ (det_unit h.detV)
  have hZ : V * (diagonal z * V⁻¹) = diagonal z := by
    rw [← Matrix.mul_assoc, h.comm, Matrix.mul_assoc, hV, Matrix.mul_one]
  have hd : L1.M.det ≠ 0 := by
    have : L1.M * fromBlocks ((diagonal fun i => 1 / (2 * y i)) * V⁻¹) ((diagonal fun _ => 1 / 2) * V⁻¹)
        ((diagonal fun i => -(1 / (2 * y i))) * V⁻¹) ((diagonal fun _ => 1 / 2) * V⁻¹) = 1 := by
      rw [hM1, fromBlocks_multiply, ← fromBlocks_one]
      have e : ∀ i, y i * (1 / (2 * y i)) = 1 / 2 := fun i => by have := h.y0 i; field_simp
      have k1 : ∀ f g : m → ℂ, V * diagonal f * (diagonal g * V⁻¹) = V * (diagonal (fun i => f i * g i) * V⁻¹) := by
        intro f g
        rw [Matrix.mul_assoc, ← Matrix.mul_assoc (diagonal f), diagonal_mul_diagonal]
      have k2 : ∀ f g : m → ℂ, V * (diagonal f * V⁻¹) + V * (diagonal g * V⁻¹) = V * (diagonal (fun i => f i + g i) * V⁻¹) := by
        intro f g
        rw [← Matrix.mul_add, ← Matrix.add_mul, diagonal_add]
      have k3 : ∀ f : m → ℂ, -(V * (diagonal f * V⁻¹)) = V * (diagonal (fun i => - f i) * V⁻¹) := by
        intro f
        rw [← Matrix.mul_neg, ← Matrix.neg_mul, diagonal_neg]
      refine fromBlocks_inj.2 ⟨?_, ?_, ?_, ?_⟩ <;>
        simp only [Matrix.neg_mul, k1, k2, k3, e, mul_neg, neg_neg]
      · norm_num [hV]
      · norm_num [hV]
      · norm_num [hV]
      · norm_num [hV]
    intro h0
    have := congrArg det this
    rw [det_mul, h0] at this
    simp at this
  refine (buildI_ok _ _ _).mpr ⟨h.q1, h.q2, hd, ?_⟩
  have : L1.M * fromBlocks
    ((diagonal fun i => (1 + z i / y i) / 2) * V⁻¹) ((diagonal fun i => (1 - z i / y i) / 2) * V⁻¹)
    ((diagonal fun i => (1 - z i / y i) / 2) * V⁻¹) ((diagonal fun i => (1 + z i / y i) / 2) * V⁻¹) = L2.M := by
    rw [hM2, hM1, fromBlocks_multiply]
    have e1 : ∀ i, y i * ((1 + z i / y i) / 2) + -(y i * ((1 - z i / y i) / 2)) = z i := fun i => by
      have := h.y0 i; field_simp; ring
    have e2 : ∀ i, y i * ((1 - z i / y i) / 2) + -(y i * ((1 + z i / y i) / 2)) = -z i := fun i => by
      have := h.y0 i; field_simp; ring
    have k1 : ∀ f g : m → ℂ, V * diagonal f * (diagonal g * V⁻¹) = V * (diagonal (fun i => f i * g i) * V⁻¹) := by
      intro f g
      rw [Matrix.mul_assoc, ← Matrix.mul_assoc (diagonal f), diagonal_mul_diagonal]
    have k2 : ∀ f g : m → ℂ, V * (diagonal f * V⁻¹) + V * (diagonal g * V⁻¹) = V * (diagonal (fun i => f i + g i) * V⁻¹) := by
      intro f g
      rw [← Matrix.mul_add, ← Matrix.add_mul, diagonal_add]
    have k3 : ∀ f : m → ℂ, -(V * (diagonal f * V⁻¹)) = V * (diagonal (fun i => - f i) * V⁻¹) := by
      intro f
      rw [← Matrix.mul_neg, ← Matrix.neg_mul, diagonal_neg]
    have s1 : ∀ i, (1 - z i / y i) / 2 + (1 + z i / y i) / 2 = 1 := fun i => by ring
    have s2 : ∀ i, (1 + z i / y i) / 2 + (1 - z i / y i) / 2 = 1 := fun i => by ring
    refine fromBlocks_inj.2 ⟨?_, ?_, ?_, ?_⟩ <;> simp only [Matrix.neg_mul, k1, k2, k3, e1, e2, s1, s2]
    · exact hZ
    · rw [← k3, hZ]
    · rw [diagonal_one, Matrix.one_mul, hV]
    · rw [diagonal_one, Matrix.one_mul, hV]
  rw [← this, ← Matrix.mul_assoc, nonsing_inv_mul _ (det_unit hd), Matrix.one_mul]

/-- The scattering matrix exists. -/
theorem FilmModes.S (h : FilmModes L0 L1 L2 V z y) (hA : ∀ i, 1 + y i / z i ≠ 0)
    (hg : ∀ i, (1 + y i / z i) ^ 2 ≠ (phasor L1.q L1.z i) ^ 2 * (1 - y i / z i) ^ 2) :
    ∃ S, freshS [L0, L1, L2] (0 : ℕ) (2 : ℕ) = .ok S := by
  obtain ⟨S1, h1⟩ := stepS_of (S := SMat.one) h.I01 (by
    simp only [toBlocks_fromBlocks₁₁, toBlocks_fromBlocks₂₁, SMat.one, Matrix.mul_zero, Matrix.zero_mul, sub_zero]
    rw [det_mul, det_diagonal]
    exact mul_ne_zero h.detV (Finset.prod_ne_zero_iff.mpr fun i _ => div_ne_zero (hA i) two_ne_zero))
  have hs12 : S1.s12 = diagonal fun i => -((1 - y i / z i) / (1 + y i / z i) * phasor L1.q L1.z i) := by
    obtain ⟨I, A, hI, hA', hd, -, h12, -, -⟩ := stepS_ok h1
    rw [h.I01] at hI
    obtain rfl := Except.ok.inj hI
    simp only [toBlocks_fromBlocks₁₁, toBlocks_fromBlocks₁₂, toBlocks_fromBlocks₂₁, toBlocks_fromBlocks₂₂, SMat.one,
      Matrix.mul_zero, Matrix.zero_mul, sub_zero, zero_sub] at hA' h12
    subst hA'
    have : ∀ X : Matrix m m ℂ, (V * diagonal fun i => (1 + y i / z i) / 2) * X =
        -(V * diagonal fun i => (1 - y i / z i) / 2) * L1.f → X =
        diagonal fun i => -((1 - y i / z i) / (1 + y i / z i) * phasor L1.q L1.z i) := by
      intro X hX
      have hu := det_unit hd
      have h3 : (V * diagonal fun i => (1 + y i / z i) / 2) *
          (diagonal fun i => -((1 - y i / z i) / (1 + y i / z i) * phasor L1.q L1.z i)) =
          -(V * diagonal fun i => (1 - y i / z i) / 2) * L1.f := by
        unfold Modes.f
        rw [Matrix.neg_mul, Matrix.mul_assoc, Matrix.mul_assoc, diagonal_mul_diagonal, diagonal_mul_diagonal, ← Matrix.mul_neg,
          diagonal_neg]
        congr 2
        funext i
        have := hA i
        generalize y i / z i = w at this ⊢
        field_simp
      rw [← h3] at hX
      have := congrArg (fun Y => (V * diagonal fun i => (1 + y i / z i) / 2)⁻¹ * Y) hX
      simpa only [← Matrix.mul_assoc, nonsing_inv_mul _ hu, Matrix.one_mul] using this
    exact this _ h12
  obtain ⟨S, h2⟩ := stepS_of (S := S1) h.I12 (by
    simp only [toBlocks_fromBlocks₁₁, toBlocks_fromBlocks₂₁, hs12]
    unfold Modes.f
    rw [diagonal_mul_diagonal, ← Matrix.mul_assoc, diagonal_mul_diagonal, ← Matrix.sub_mul, diagonal_sub, det_mul, det_diagonal]
    refine mul_ne_zero (Finset.prod_ne_zero_iff.mpr fun i _ => ?_) ?_
    · have h1 := hA i
      have h2 := hg i
      have h3 := h.y0 i
      have h4 := h.z0 i
      intro h0
      apply h2
      have e : z i / y i = 1 / (y i / z i) := by field_simp
      rw [e] at h0
      have hw : y i / z i ≠ 0 := div_ne_zero h3 h4
      generalize y i / z i = w at *
      field_simp at h0
      linear_combination h0
    · rw [det_nonsing_inv, Ring.inverse_eq_inv']
      exact inv_ne_zero h.detV)
  refine ⟨S, freshS_ok.mpr ⟨by omega, ?_⟩⟩
  have l1 : loopS [L0, L1, L2] (0 : ℕ) ((1 : ℕ) : ℤ) = .ok S1 := by
    have : ((1 : ℕ) : ℤ) = ((0 : ℕ) : ℤ) + 1 := rfl
    rw [this, loopS_succ _ 0 0 le_rfl, loopS_self, except_bind_ok, stepAt_ok]
    exact ⟨_, _, rfl, rfl, h1⟩
  have : ((2 : ℕ) : ℤ) = ((1 : ℕ) : ℤ) + 1 := rfl
  rw [this, loopS_succ _ 0 1 (by omega), l1, except_bind_ok, stepAt_ok]
  exact ⟨_, _, rfl, rfl, h2⟩

/-- Modes which are matched to air, or for which the thickness of the film is a number of half wavelengths, are not
reflected. -/
theorem FilmModes.through (h : FilmModes L0 L1 L2 V z y) {S : SMat m} (hS : freshS [L0, L1, L2] (0 : ℕ) (2 : ℕ) = .ok S)
    (hf0 : L0.f = 1) (al : m → ℂ) (ha : ∀ i, ((phasor L1.q L1.z i) ^ 2 = 1 ∨ y i = z i) ∨ al i = 0) :
    S.s11 *ᵥ (V *ᵥ al) = V *ᵥ (fun i => phasor L1.q L1.z i * al i) ∧ S.s21 *ᵥ (V *ᵥ al) = 0 := by
  obtain ⟨-, -, hrel, -⟩ := C22_scattering_matrix_solves_stack _ 0 2 S hS
  set f := phasor L1.q L1.z with hf
  let b1 : m → ℂ := fun i => (1 - z i / y i) / 2 * al i * f i
  let amp : ℕ → (m → ℂ) × (m → ℂ) := fun k =>
    if k = 0 then (V *ᵥ al, 0) else if k = 1 then (fun i => (1 + z i / y i) / 2 * al i, b1) else
      (V *ᵥ (fun i => f i * al i), 0)
  have hM0 : L0.M = fromBlocks (diagonal z) (-diagonal z) 1 1 := by unfold Modes.M; rw [h.amat0, h.phi0]
  have hM2 : L2.M = fromBlocks (diagonal z) (-diagonal z) 1 1 := by unfold Modes.M; rw [h.amat2, h.phi2]
  have hM1 : L1.M = fromBlocks (V * diagonal y) (-(V * diagonal y)) V V := by unfold Modes.M; rw [h.amat1, h.phi1]
  have hfv : ∀ v : m → ℂ, L1.f *ᵥ v = fun i => f i * v i := by
    intro v
    unfold Modes.f
    funext i
    rw [mulVec_diagonal]
  have hfb : ∀ i, f i * b1 i = (1 - z i / y i) / 2 * al i := by
    intro i
    have hy := h.y0 i
    rcases ha i with (h1 | h1) | h1
    · change f i * ((1 - z i / y i) / 2 * al i * f i) = _
      linear_combination ((1 - z i / y i) / 2 * al i) * h1
    · change f i * ((1 - z i / y i) / 2 * al i * f i) = _
      rw [h1, div_self (h1 ▸ hy)]; ring
    · change f i * ((1 - z i / y i) / 2 * al i * f i) = _
      rw [h1]; ring
  have hzV : ∀ v : m → ℂ, diagonal z *ᵥ (V *ᵥ v) = V *ᵥ (fun i => z i * v i) := by
    intro v
    rw [mulVec_mulVec, ← h.comm, ← mulVec_mulVec]
    congr 1
    funext i
    rw [mulVec_diagonal]
  have hyV : ∀ v : m → ℂ, (V * diagonal y) *ᵥ v = V *ᵥ (fun i => y i * v i) := by
    intro v
    rw [← mulVec_mulVec]
    congr 1
    funext i
    rw [mulVec_diagonal]
  have hc : Consistent [L0, L1, L2] 0 2 amp := by
    intro k L L' _ hk h3 h4
    interval_cases k
    · obtain rfl : L0 = L := by simpa using h3
      obtain rfl : L1 = L' := by simpa using h4
      rw [match_iff, hM0, hM1]
      simp only [amp, if_true, if_false, one_ne_zero, zero_add, hf0, Matrix.one_mulVec, hfv, hfb, fromBlocks_mulVec,
        Sum.elim_comp_inl, Sum.elim_comp_inr, mulVec_zero, add_zero, hzV, hyV, neg_mulVec, ← sub_eq_add_neg, ← mulVec_sub, ← mulVec_add]
      congr 2
      · funext i
        have := h.y0 i
        simp only [Pi.sub_apply]
        field_simp
        ring
      · funext i
        simp only [Pi.add_apply]
        ring
    · obtain rfl : L1 = L := by simpa using h3
      obtain rfl : L2 = L' := by simpa using h4
      rw [match_iff, hM1, hM2]
      have e2 : (2 : ℕ) ≠ 0 := by omega
      have e3 : (2 : ℕ) ≠ 1 := by omega
      simp only [amp, if_true, if_false, one_ne_zero, Nat.reduceAdd, e2, e3, Matrix.one_mulVec, hfv, fromBlocks_mulVec,
        Sum.elim_comp_inl, Sum.elim_comp_inr, mulVec_zero, add_zero, hzV, hyV, neg_mulVec, ← sub_eq_add_neg, ← mulVec_sub, ← mulVec_add]
      simp only [b1]
      congr 2
      · funext i
        have := h.y0 i
        simp only [Pi.sub_apply]
        field_simp
        ring
      · funext i
        simp only [Pi.add_apply]
        ring
  obtain ⟨r1, r2⟩ := hrel amp hc
  simp only [amp, if_true, if_false, mulVec_zero, add_zero, OfNat.ofNat_ne_zero, OfNat.ofNat_ne_one] at r1 r2
  exact ⟨r1.symm, r2.symm⟩

end Nannos.Examples
