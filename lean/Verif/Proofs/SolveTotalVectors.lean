import Verif.Proofs.Inverse4
import Verif.Spec.Solvable
import Verif.Proofs.SolveTotal
import Verif.Proofs.ZeroVectors

/-! When `solve` succeeds in the formulations with vectors, and for tensors (C86). -/

namespace Nannos

open Matrix Spec

variable {E : Ext} {c : Static} {Nx Ny : ℕ}

/-- Entries of the inverse of a two by two matrix whose form lies in a half plane. -/
theorem half_inverse {a b d f s : ℂ}
    (h : ∀ p q : ℂ, (p ≠ 0 ∨ q ≠ 0) → 0 < (s * (star p * a * p + star p * b * q + star q * d * p + star q * f * q)).im) :
    a * f - d * b ≠ 0 ∧ ∀ p q : ℂ, (p ≠ 0 ∨ q ≠ 0) →
      0 < (star p * (-star s * (f / (a * f - d * b))) * p + star p * (-star s * (-b / (a * f - d * b))) * q +
        star q * (-star s * (-d / (a * f - d * b))) * p + star q * (-star s * (a / (a * f - d * b))) * q).im := by
  have ha : a ≠ 0 := fun h0 => by
    have := h 1 0 (.inl one_ne_zero)
    simp [h0] at this
  have hD : a * f - d * b ≠ 0 := by
    intro h0
    have := h b (-a) (.inr (neg_ne_zero.mpr ha))
    have e : star b * a * b + star b * b * -a + star (-a) * d * b + star (-a) * f * -a = star a * (a * f - d * b) := by
      rw [star_neg]; ring
    rw [e, h0] at this
    simp at this
  refine ⟨hD, fun p q hpq => ?_⟩
  generalize hDd : a * f - d * b = D at hD
  have hv : (f * p - b * q) / D ≠ 0 ∨ (a * q - d * p) / D ≠ 0 := by
    by_contra hc
    push Not at hc
    have h1 : f * p - b * q = 0 := by simpa [hD] using hc.1
    have h2 : a * q - d * p = 0 := by simpa [hD] using hc.2
    have hp : D * p = 0 := by rw [← hDd]; linear_combination a * h1 + b * h2
    have hq : D * q = 0 := by rw [← hDd]; linear_combination f * h2 + d * h1
    rcases hpq with hn | hn
    · exact hn ((mul_eq_zero.mp hp).resolve_left hD)
    · exact hn ((mul_eq_zero.mp hq).resolve_left hD)
  have key := h _ _ hv
  generalize hu : (f * p - b * q) / D = u at key hv
  generalize hw : (a * q - d * p) / D = w at key hv
  have e1 : p = a * u + b * w := by
    rw [← hu, ← hw]; field_simp; rw [← hDd]; ring
  have e2 : q = d * u + f * w := by
    rw [← hu, ← hw]; field_simp; rw [← hDd]; ring
  have e3 : star p * (-star s * (f / D)) * p + star p * (-star s * (-b / D)) * q +
        star q * (-star s * (-d / D)) * p + star q * (-star s * (a / D)) * q = -star s * (star p * u + star q * w) := by
    rw [← hu, ← hw]; ring
  have e4 : -star s * (star p * u + star q * w) = -star (s * (star u * a * u + star u * b * w + star w * d * u + star w * f * w)) := by
    rw [e1, e2]
    simp only [star_mul', star_add, star_star]
    ring
  rw [e3, e4, Complex.neg_im, show ∀ z : ℂ, (star z).im = -z.im from Complex.conj_im, neg_neg]
  exact key

theorem toep_smul [NeZero Nx] [NeZero Ny] {nh : ℕ} (H : Fin nh → ℤ × ℤ) (s : ℂ) (u : Grid Nx Ny) :
    coeffMatrix H (fun x y => s * u x y) = s • coeffMatrix H u := by
  ext i j
  unfold coeffMatrix coeff
  simp only [of_apply, Matrix.smul_apply, smul_eq_mul, mul_assoc, ← Finset.mul_sum]
  ring

/-- `block(nuhat_inv)` of a pattern of tensors whose transverse forms lie in a half plane. -/
theorem nuHatInvAniso_half {N : ℕ} [NeZero N] (hH : Function.Injective c.harmonics.get) {a b d f z : Grid N N}
    {A : Matrix (Fin c.nh) (Fin c.nh) ℂ} (hA : c.toep ⟨N, N, z⟩ = .ok A) {s : ℂ}
    (h : ∀ x y, ∀ p q : ℂ, (p ≠ 0 ∨ q ≠ 0) →
      0 < (s * (star p * a x y * p + star p * b x y * q + star q * d x y * p + star q * f x y * q)).im) :
    ∃ B, nuHatInvAniso c ⟨⟨N, N, a⟩, ⟨N, N, b⟩, ⟨N, N, d⟩, ⟨N, N, f⟩⟩ = .ok B := by
  have hT : ∀ g : Grid N N, c.toep ⟨N, N, g⟩ = .ok (coeffMatrix c.harmonics.get g) := fun g => toeplitz_shape hA g
  have hD := fun x y => (half_inverse (h x y)).1
  unfold nuHatInvAniso
  dsimp only
  rw [pointwiseInv_square]
  unfold inv4
  dsimp only
  rw [if_neg (by push Not; exact hD)]
  simp only [except_bind_ok, Trans4.mapM, hT]
  change ∃ B, (linInv _) = _
  refine ⟨_, (linInv_ok _ _).mpr ⟨?_, rfl⟩⟩
  unfold Trans4.block
  dsimp only
  intro h0
  obtain ⟨v, hv, hv0⟩ := Matrix.exists_mulVec_eq_zero_iff.mpr h0
  have hab := absorbs_toep4 hH (toeplitz_shape hA fun x y => -star s * (f x y / (a x y * f x y - d x y * b x y)))
    (toeplitz_shape hA fun x y => -star s * (-b x y / (a x y * f x y - d x y * b x y)))
    (toeplitz_shape hA fun x y => -star s * (-d x y / (a x y * f x y - d x y * b x y)))
    (toeplitz_shape hA fun x y => -star s * (a x y / (a x y * f x y - d x y * b x y))) (fun x y => (half_inverse (h x y)).2) v hv
  rw [toep_smul, toep_smul, toep_smul, toep_smul, ← fromBlocks_smul, smul_mulVec, hv0] at hab
  simp at hab

theorem getPeps_total [NeZero Nx] [NeZero Ny] {z : Grid Nx Ny} {A : Matrix (Fin c.nh) (Fin c.nh) ℂ}
    (hA : c.toep ⟨Nx, Ny, z⟩ = .ok A) (X Y : Matrix (Idx c.nh) (Idx c.nh) ℂ) {t : Field2} (hx : t.Nx = Nx) (hy : t.Ny = Ny) :
    ∃ P, getPeps c X Y t = .ok P := by
  obtain ⟨Mx, My, t0, t1⟩ := t
  obtain rfl : Mx = Nx := hx
  obtain rfl : My = Ny := hy
  have h : ∀ f, c.toep (projField ⟨Mx, My, t0, t1⟩ f) = .ok (coeffMatrix c.harmonics.get (projField ⟨Mx, My, t0, t1⟩ f).g) :=
    fun f => toeplitz_shape hA _
  unfold getPeps
  simp only [h, except_bind_ok]
  exact ⟨_, rfl⟩

theorem made_field {L : LayerSpec} {w : PGrid} (hv : VectorsMade E c L w) {H : List (ℤ × ℤ)} {n : ℤ}
    (hH : c.lattice.getHarmonics E.argsort c.nh true = .ok (H, n)) :
    ∃ t, getTangentField E L w H (c.formulation == "tangent") = .ok t ∧ RealField t w.Nx w.Ny := by
  rcases hv with ⟨t, h1, h2⟩ | ⟨h1, h2, h3⟩
  · exact ⟨t, by unfold getTangentField; rw [h1], h2⟩
  · obtain ⟨t, h4, h5⟩ := h3 H n hH
    exact ⟨t, by unfold getTangentField; rw [h1]; simp only [if_pos h2]; exact h4, h5⟩

theorem pepsOf_total [NeZero Nx] [NeZero Ny] {L : LayerSpec} {z : Grid Nx Ny} {para : Option (Trans4 PGrid)}
    {A : Matrix (Fin c.nh) (Fin c.nh) ℂ} (hA : c.toep ⟨Nx, Ny, z⟩ = .ok A) (hv : VectorsMade E c L ⟨Nx, Ny, z⟩)
    {H : List (ℤ × ℤ)} {n : ℤ} (hH : c.lattice.getHarmonics E.argsort c.nh true = .ok (H, n))
    (hnu : (∃ B, para = none ∧ nuHatInvIso c ⟨Nx, Ny, z⟩ = .ok B) ∨
      (c.lattice.is1D = false ∧ ∃ p B, para = some p ∧ nuHatInvAniso c p = .ok B)) (X : Matrix (Idx c.nh) (Idx c.nh) ℂ) :
    ∃ P, pepsOf E c L ⟨Nx, Ny, z⟩ para A X H = .ok P := by
  obtain ⟨t, ht, hr⟩ := made_field hv hH
  obtain ⟨J, g3, g4, g5⟩ := jones_full hr
  have k1 := fun Y => getPeps_total hA X Y hr.1 hr.2.1
  have k2 := fun Y => getPeps_total hA X Y g4 g5
  unfold pepsOf
  by_cases f1 : c.formulation = "original"
  · rw [if_pos f1]; exact ⟨_, rfl⟩
  rw [if_neg f1]
  by_cases f2 : c.formulation = "tangent"
  · rw [f2] at ht
    rw [if_pos f2]
    rcases hnu with ⟨B, rfl, hB⟩ | ⟨h1D, p, B, rfl, hB⟩
    · by_cases h1D : c.lattice.is1D = true
      · rw [if_pos h1D]
        simp only [hB, except_bind_ok]
        exact ⟨_, rfl⟩
      · rw [if_neg h1D, show getTangentField E L ⟨Nx, Ny, z⟩ H true = .ok t from ht]
        simp only [hB, except_bind_ok, pure_bind]
        exact k1 _
    · rw [if_neg (by rw [h1D]; simp), show getTangentField E L ⟨Nx, Ny, z⟩ H true = .ok t from ht]
      simp only [hB, except_bind_ok]
      exact k1 _
  rw [if_neg f2]
  have hb : (c.formulation == "tangent") = false := by simpa using f2
  rw [hb] at ht
  rcases hnu with ⟨B, rfl, hB⟩ | ⟨-, p, B, rfl, hB⟩
  · simp only [ht, g3, hB, except_bind_ok, pure_bind]
    split_ifs
    · exact k2 _
    · exact k1 _
  · simp only [ht, g3, hB, except_bind_ok]
    split_ifs
    · exact k2 _
    · exact k1 _

/-- The matrices of a pattern in any formulation. -/
theorem buildPure_solvable (hnh : 0 < c.nh) (hH : Function.Injective c.harmonics.get)
    (hT : ∀ u : Grid Nx Ny, ∃ A, toeplitz c.harmonics.get u = .ok A)
    (hh : ∃ H n, c.lattice.getHarmonics E.argsort c.nh true = .ok (H, n)) {L : LayerSpec} (hmu : L.mu ≠ 0)
    (h : SolvablePattern E c L Nx Ny ∨ SolvableTensors E c L Nx Ny) : ∃ M p Q, buildPure E c L = .ok (.patterned M p Q) := by
  obtain ⟨H, n, hHn⟩ := hh
  obtain ⟨p1, p2⟩ := toep_pos (hT fun _ _ => 0).choose_spec ⟨0, hnh⟩
  have : NeZero Nx := ⟨p1⟩
  have : NeZero Ny := ⟨p2⟩
  rcases h with ⟨g, ⟨hu, ha, hg⟩, ⟨s, hs⟩, hf⟩ | ⟨e, hu, ha, hg, ⟨s, hs⟩, hf⟩
  · obtain ⟨A, hA⟩ := hT g
    have hA' : c.toep ⟨_, _, g⟩ = .ok A := hA
    have hdet := toep_det hH hA hs
    obtain ⟨B, hB⟩ := nuHatInvIso_half hH hA' hs
    have hP : ∃ P, pepsOf E c L ⟨_, _, g⟩ none A (diag2 A) H = .ok P := by
      rcases hf with h | ⟨h, h1⟩ | hv
      · unfold pepsOf
        dsimp only
        rw [if_pos h]; exact ⟨_, rfl⟩
      · unfold pepsOf
        dsimp only
        rw [if_neg (by rw [h]; decide), if_pos h, if_pos h1, hB]
        exact ⟨_, rfl⟩
      · exact pepsOf_total hA' hv hHn (.inl ⟨B, rfl, hB⟩) _
    obtain ⟨P, hP⟩ := hP
    unfold buildPure
    simp only [hu, Bool.false_eq_true, if_false, ha, hg, except_bind_ok]
    rw [hA', except_bind_ok, (linInv_ok _ _).mpr ⟨hdet, rfl⟩, except_bind_ok, raiseIf_ok (u := ()).mpr hmu, except_bind_ok]
    have hpara : paraOf L = .ok none := by unfold paraOf; rw [ha]; rfl
    rw [hpara, except_bind_ok, show epsParaHatOf c none A = .ok (diag2 A) from rfl, except_bind_ok, hHn, except_bind_ok]
    dsimp only
    rw [hP, except_bind_ok]
    exact ⟨_, _, _, rfl⟩
  · obtain ⟨A, hA⟩ := hT (e 2 2)
    have hA' : c.toep ⟨_, _, e 2 2⟩ = .ok A := hA
    have hdet := toep_det hH hA hs
    have hTc : ∀ g : Grid Nx Ny, c.toep ⟨Nx, Ny, g⟩ = .ok (coeffMatrix c.harmonics.get g) := fun g => toeplitz_shape hA g
    have hp : paraOf L = .ok (some ⟨⟨Nx, Ny, e 0 0⟩, ⟨Nx, Ny, e 0 1⟩, ⟨Nx, Ny, e 1 0⟩, ⟨Nx, Ny, e 1 1⟩⟩) := by
      have a1 := hg 0 0
      have a2 := hg 0 1
      have a3 := hg 1 0
      have a4 := hg 1 1
      simp only [Fin.val_zero, Fin.val_one] at a1 a2 a3 a4
      unfold paraOf
      simp only [ha, if_true, Trans4.mapM, NdArr.trans, a1, a2, a3, a4, except_bind_ok]
      rfl
    have hz : (L.epsilon.comp 2 2).toGrid = .ok ⟨Nx, Ny, e 2 2⟩ := hg 2 2
    have hP : ∀ X, ∃ P, pepsOf E c L ⟨_, _, e 2 2⟩ (some ⟨⟨Nx, Ny, e 0 0⟩, ⟨Nx, Ny, e 0 1⟩, ⟨Nx, Ny, e 1 0⟩, ⟨Nx, Ny, e 1 1⟩⟩) A
        X H = .ok P := by
      intro X
      rcases hf with h | ⟨h1D, rfl, hv, s', hs'⟩
      · unfold pepsOf
        dsimp only
        rw [if_pos h]; exact ⟨_, rfl⟩
      · obtain ⟨B, hB⟩ := nuHatInvAniso_half hH hA' hs'
        exact pepsOf_total hA' hv hHn (.inr ⟨h1D, _, B, rfl, hB⟩) X
    unfold buildPure
    simp only [hu, Bool.false_eq_true, if_false, ha, if_true, hz, except_bind_ok]
    rw [hA', except_bind_ok, (linInv_ok _ _).mpr ⟨hdet, rfl⟩, except_bind_ok, raiseIf_ok (u := ()).mpr hmu, except_bind_ok]
    rw [hp, except_bind_ok]
    simp only [epsParaHatOf, Trans4.mapM, hTc, except_bind_ok, pure_bind, hHn]
    obtain ⟨P, hP⟩ := hP (Trans4.block ⟨coeffMatrix c.harmonics.get (e 0 0), coeffMatrix c.harmonics.get (e 0 1),
      coeffMatrix c.harmonics.get (e 1 0), coeffMatrix c.harmonics.get (e 1 1)⟩)
    rw [hP, except_bind_ok]
    exact ⟨_, _, _, rfl⟩

end Nannos
