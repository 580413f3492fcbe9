import Verif.Proofs.Inverse4
import Verif.Spec.Full
import Verif.Proofs.Fourier
import Verif.Proofs.Alike

/-! Convolution matrices on a complete set of frequencies multiply as the patterns do (C105). -/

namespace Nannos

open Matrix Spec

variable {Nx Ny nh : ℕ} {H : Fin nh → ℤ × ℤ}

/-- The matrix of Fourier coefficients at the differences of the orders. -/
noncomputable def coeffMatrix (H : Fin nh → ℤ × ℤ) (u : Grid Nx Ny) : Matrix (Fin nh) (Fin nh) ℂ :=
  Matrix.of fun i j => coeff u ((H i).1 - (H j).1) ((H i).2 - (H j).2)

/-- Plane waves at the pixels. -/
noncomputable def waves (Nx Ny : ℕ) (H : Fin nh → ℤ × ℤ) : Matrix (Fin nh) (Fin Nx × Fin Ny) ℂ :=
  Matrix.of fun i p => chi Nx (-(H i).1) (p.1 : ℕ) * chi Ny (-(H i).2) (p.2 : ℕ)

noncomputable def wavesInv (Nx Ny : ℕ) (H : Fin nh → ℤ × ℤ) : Matrix (Fin Nx × Fin Ny) (Fin nh) ℂ :=
  Matrix.of fun p i => chi Nx (H i).1 (p.1 : ℕ) * chi Ny (H i).2 (p.2 : ℕ) / ((Nx : ℂ) * Ny)

theorem coeffMatrix_eq (u : Grid Nx Ny) :
    coeffMatrix H u = waves Nx Ny H * diagonal (fun p => u p.1 p.2) * wavesInv Nx Ny H := by
  ext i j
  rw [Matrix.mul_apply]
  simp only [Matrix.mul_diagonal, coeffMatrix, waves, wavesInv, of_apply]
  rw [coeff_eq, Fintype.sum_prod_type, Finset.sum_div]
  refine Finset.sum_congr rfl fun x _ => ?_
  rw [Finset.sum_div]
  refine Finset.sum_congr rfl fun y _ => ?_
  rw [show -((H i).1 - (H j).1) = -(H i).1 + (H j).1 by ring, show -((H i).2 - (H j).2) = -(H i).2 + (H j).2 by ring,
    chi_add_left, chi_add_left]
  ring

theorem waves_mul [NeZero Nx] [NeZero Ny]
    (hd : ∀ i j, (Nx : ℤ) ∣ (H i).1 - (H j).1 → (Ny : ℤ) ∣ (H i).2 - (H j).2 → i = j) :
    waves Nx Ny H * wavesInv Nx Ny H = 1 := by
  have h1 : (Nx : ℂ) ≠ 0 := by exact_mod_cast NeZero.ne Nx
  have h2 : (Ny : ℂ) ≠ 0 := by exact_mod_cast NeZero.ne Ny
  ext i j
  rw [Matrix.mul_apply]
  simp only [waves, wavesInv, of_apply]
  rw [Fintype.sum_prod_type]
  have e : ∀ (x : Fin Nx) (y : Fin Ny), chi Nx (-(H i).1) (x : ℕ) * chi Ny (-(H i).2) (y : ℕ) *
      (chi Nx (H j).1 (x : ℕ) * chi Ny (H j).2 (y : ℕ) / ((Nx : ℂ) * Ny)) =
      chi Nx ((H j).1 - (H i).1) (x : ℕ) * chi Ny ((H j).2 - (H i).2) (y : ℕ) / ((Nx : ℂ) * Ny) := by
    intro x y
    rw [show (H j).1 - (H i).1 = -(H i).1 + (H j).1 by ring, show (H j).2 - (H i).2 = -(H i).2 + (H j).2 by ring,
      chi_add_left, chi_add_left]
    ring
  simp only [e]
  simp only [← Finset.sum_div, ← Finset.mul_sum, chi_sum]
  rw [← Finset.sum_mul, chi_sum, Matrix.one_apply]
  by_cases h : i = j
  · subst h
    simp only [sub_self, dvd_zero, if_true]
    exact div_self (mul_ne_zero h1 h2)
  · rw [if_neg h]
    have : ¬ ((Nx : ℤ) ∣ (H j).1 - (H i).1 ∧ (Ny : ℤ) ∣ (H j).2 - (H i).2) := fun g => h (hd j i g.1 g.2).symm
    by_cases g1 : (Nx : ℤ) ∣ (H j).1 - (H i).1
    · rw [if_neg (fun g2 => this ⟨g1, g2⟩)]
      simp
    · rw [if_neg g1]
      simp

section complete

variable [NeZero Nx] [NeZero Ny] (hn : nh = Nx * Ny)
  (hd : ∀ i j, (Nx : ℤ) ∣ (H i).1 - (H j).1 → (Ny : ℤ) ∣ (H i).2 - (H j).2 → i = j)

include hd in
theorem coeffMatrix_one : coeffMatrix H (fun (_ : Fin Nx) (_ : Fin Ny) => (1 : ℂ)) = 1 := by
  rw [coeffMatrix_eq, show (diagonal fun _ : Fin Nx × Fin Ny => (1 : ℂ)) = 1 from diagonal_one, Matrix.mul_one, waves_mul hd]

include hn hd in
theorem wavesInv_mul : wavesInv Nx Ny H * waves Nx Ny H = 1 :=
  (Matrix.mul_eq_one_comm_of_card_eq _ _ _ (by simp [hn])).mp (waves_mul hd)

include hn hd in
theorem coeffMatrix_mul (u v : Grid Nx Ny) :
    coeffMatrix H u * coeffMatrix H v = coeffMatrix H (fun x y => u x y * v x y) := by
  have h := wavesInv_mul hn hd
  calc coeffMatrix H u * coeffMatrix H v
      = waves Nx Ny H * diagonal (fun p : Fin Nx × Fin Ny => u p.1 p.2) * (wavesInv Nx Ny H * waves Nx Ny H) *
          diagonal (fun p : Fin Nx × Fin Ny => v p.1 p.2) * wavesInv Nx Ny H := by
        rw [coeffMatrix_eq u, coeffMatrix_eq v]
        simp only [Matrix.mul_assoc]
    _ = _ := by
        rw [h, Matrix.mul_one, Matrix.mul_assoc (waves Nx Ny H), diagonal_mul_diagonal]
        exact (coeffMatrix_eq fun x y => u x y * v x y).symm

omit [NeZero Nx] [NeZero Ny] in
theorem coeffMatrix_add (u v : Grid Nx Ny) :
    coeffMatrix H u + coeffMatrix H v = coeffMatrix H (fun x y => u x y + v x y) := by
  rw [coeffMatrix_eq, coeffMatrix_eq, coeffMatrix_eq, ← Matrix.add_mul, ← Matrix.mul_add, diagonal_add]

omit [NeZero Nx] [NeZero Ny] in
theorem coeffMatrix_zero : coeffMatrix H (fun (_ : Fin Nx) (_ : Fin Ny) => (0 : ℂ)) = 0 := by
  rw [coeffMatrix_eq, show (diagonal fun _ : Fin Nx × Fin Ny => (0 : ℂ)) = 0 from diagonal_zero]
  simp

include hn hd in
/-- A convolution matrix can be inverted only if no pixel is zero. -/
theorem pixel_ne_zero {u : Grid Nx Ny} (h : (coeffMatrix H u).det ≠ 0) (x : Fin Nx) (y : Fin Ny) : u x y ≠ 0 := by
  intro h0
  have hu : IsUnit (coeffMatrix H u).det := isUnit_iff_ne_zero.mpr h
  let v : Grid Nx Ny := fun a b => if a = x ∧ b = y then 1 else 0
  have h1 : coeffMatrix H u * coeffMatrix H v = 0 := by
    rw [coeffMatrix_mul hn hd, ← coeffMatrix_zero (Nx := Nx) (Ny := Ny)]
    congr 1
    funext a b
    by_cases g : a = x ∧ b = y
    · simp [v, g.1, g.2, h0]
    · simp [v, g]
  have h2 : coeffMatrix H v = 0 := by
    have := congrArg ((coeffMatrix H u)⁻¹ * ·) h1
    simpa [← Matrix.mul_assoc, Matrix.nonsing_inv_mul _ hu] using this
  have h3 : wavesInv Nx Ny H * coeffMatrix H v * waves Nx Ny H = diagonal (fun p => v p.1 p.2) := by
    have g := wavesInv_mul hn hd
    rw [coeffMatrix_eq]
    calc wavesInv Nx Ny H * (waves Nx Ny H * diagonal (fun p => v p.1 p.2) * wavesInv Nx Ny H) * waves Nx Ny H
        = (wavesInv Nx Ny H * waves Nx Ny H) * diagonal (fun p => v p.1 p.2) * (wavesInv Nx Ny H * waves Nx Ny H) := by
          simp only [Matrix.mul_assoc]
      _ = _ := by rw [g, Matrix.one_mul, Matrix.mul_one]
  rw [h2, Matrix.mul_zero, Matrix.zero_mul] at h3
  have := congrFun (congrFun h3 (x, y)) (x, y)
  simp [v] at this

end complete

/-- Convolution matrices of arrays of one shape fail together. -/
theorem toeplitz_shape {A : Matrix (Fin nh) (Fin nh) ℂ} [NeZero Nx] [NeZero Ny] {u : Grid Nx Ny}
    (h : toeplitz H u = .ok A) (v : Grid Nx Ny) : toeplitz H v = .ok (coeffMatrix H v) := by
  obtain ⟨B, hB⟩ := toeplitz_exists (H := H) v (toeplitz_ok h).1
  rw [hB, (toeplitz_ok hB).2]
  rfl

theorem linInv_of_mul {m : Type} [Fintype m] [DecidableEq m] {A B : Matrix m m ℂ} (h : A * B = 1) : linInv A = .ok B := by
  have hd : A.det ≠ 0 := fun h0 => by
    have := congrArg Matrix.det h
    rw [det_mul, h0, zero_mul, det_one] at this
    exact zero_ne_one this
  exact (linInv_ok A B).mpr ⟨hd, (Matrix.inv_eq_right_inv h).symm⟩

variable {E : Ext} {c : Static} {L : LayerSpec}

theorem recip_full {u : PGrid} (hc : AsManyOrdersAsPixels c u.Nx u.Ny) {A B : Matrix (Fin c.nh) (Fin c.nh) ℂ}
    (h : c.toep u = .ok A) (hB : linInv A = .ok B) : nuHatInvIso c u = .ok A := by
  obtain ⟨h1, h2, h3, h4⟩ := hc
  have : NeZero u.Nx := ⟨h1.ne'⟩
  have : NeZero u.Ny := ⟨h2.ne'⟩
  have hA : A = coeffMatrix c.harmonics.get u.g := by
    have := toeplitz_shape h u.g
    unfold Static.toep at h
    rw [h] at this
    exact Except.ok.inj this
  have hne : ∀ x y, u.g x y ≠ 0 := fun x y => pixel_ne_zero h3 h4 (hA ▸ ((linInv_ok _ _).mp hB).1) x y
  unfold nuHatInvIso recipGrid
  rw [if_neg (by push Not; exact hne)]
  simp only [except_bind_ok]
  rw [show c.toep ⟨u.Nx, u.Ny, fun x y => 1 / u.g x y⟩ = .ok (coeffMatrix c.harmonics.get fun x y => 1 / u.g x y) from
    toeplitz_shape h _, except_bind_ok]
  apply linInv_of_mul
  rw [hA, coeffMatrix_mul h3 h4, ← coeffMatrix_one (H := c.harmonics.get) (Nx := u.Nx) (Ny := u.Ny) h4]
  congr 1
  funext x y
  exact one_div_mul_cancel (hne x y)

theorem getPeps_same {P : Matrix (Idx c.nh) (Idx c.nh) ℂ} {t : Field2} {u : PGrid} {A : Matrix (Fin c.nh) (Fin c.nh) ℂ}
    (h1 : 0 < u.Nx) (h2 : 0 < u.Ny) (hA : c.toep u = .ok A) (hx : t.Nx = u.Nx) (hy : t.Ny = u.Ny) :
    getPeps c P P t = .ok P := by
  obtain ⟨Nx, Ny, t0, t1⟩ := t
  obtain ⟨Mx, My, g⟩ := u
  obtain rfl : Nx = Mx := hx
  obtain rfl : Ny = My := hy
  have : NeZero Nx := ⟨h1.ne'⟩
  have : NeZero Ny := ⟨h2.ne'⟩
  have h : ∀ f, c.toep (projField ⟨Nx, Ny, t0, t1⟩ f) = .ok (coeffMatrix c.harmonics.get (projField ⟨Nx, Ny, t0, t1⟩ f).g) :=
    fun f => toeplitz_shape hA _
  unfold getPeps
  simp only [h, except_bind_ok, sub_self, Matrix.zero_mul, sub_zero]
  rfl

theorem field_full {u : PGrid} (hv : VectorFieldOn E L u) (Ht : List (ℤ × ℤ)) (b : Bool) :
    ∃ t, getTangentField E L u Ht b = .ok t ∧ RealField t u.Nx u.Ny := by
  rcases hv with ⟨t, h1, h2⟩ | ⟨h1, h2, h3⟩
  · exact ⟨t, by unfold getTangentField; rw [h1], h2⟩
  · obtain ⟨t, h4, h5⟩ := h3 Ht b
    exact ⟨t, by unfold getTangentField; rw [h1]; simp only [if_pos h2]; exact h4, h5⟩

theorem jones_full {t : Field2} {Nx Ny : ℕ} (h : RealField t Nx Ny) : ∃ J, jonesField t = .ok J ∧ J.Nx = Nx ∧ J.Ny = Ny := by
  obtain ⟨h1, h2, h3⟩ := h
  unfold jonesField
  rw [if_neg]
  · exact ⟨_, rfl, h1, h2⟩
  · push Not
    exact fun x y => h3 x y

/-- With a vector field on the pixels and `block(nuhat_inv) = block(eps_hat)` the formulation does not matter. -/
theorem pepsOf_two {u : PGrid} {para : Option (Trans4 PGrid)} {A : Matrix (Fin c.nh) (Fin c.nh) ℂ}
    {P : Matrix (Idx c.nh) (Idx c.nh) ℂ} {Ht : List (ℤ × ℤ)} (h1 : 0 < u.Nx) (h2 : 0 < u.Ny) (hA : c.toep u = .ok A)
    (h1D : c.lattice.is1D = false) (hv : VectorFieldOn E L u)
    (hnu : (∃ n, para = none ∧ nuHatInvIso c u = .ok n ∧ P = diag2 n) ∨ (∃ p, para = some p ∧ nuHatInvAniso c p = .ok P)) :
    pepsOf E c L u para A P Ht = .ok P := by
  obtain ⟨t, g1, g2⟩ := field_full hv Ht true
  obtain ⟨t', g1', g2'⟩ := field_full hv Ht false
  obtain ⟨J, g3, g4, g5⟩ := jones_full g2'
  have k1 := getPeps_same (P := P) h1 h2 hA g2.1 g2.2.1
  have k2 := getPeps_same (P := P) h1 h2 hA g2'.1 g2'.2.1
  have k3 := getPeps_same (P := P) h1 h2 hA g4 g5
  unfold pepsOf
  rcases hnu with ⟨n, rfl, hn, rfl⟩ | ⟨p, rfl, hp⟩
  · simp only [h1D, Bool.false_eq_true, if_false, g1, g1', g3, except_bind_ok, hn, pure_bind, k1, k2, k3]
    split_ifs <;> rfl
  · simp only [h1D, Bool.false_eq_true, if_false, g1, g1', g3, except_bind_ok, hp, k1, k2, k3]
    split_ifs <;> rfl

theorem nuHatInvAniso_full {N : ℕ} {a b d f z : Grid N N} (hc : AsManyOrdersAsPixels c N N)
    {A : Matrix (Fin c.nh) (Fin c.nh) ℂ} (hA : c.toep ⟨N, N, z⟩ = .ok A)
    (hdet : ∀ x y, a x y * f x y - d x y * b x y ≠ 0) :
    nuHatInvAniso c ⟨⟨N, N, a⟩, ⟨N, N, b⟩, ⟨N, N, d⟩, ⟨N, N, f⟩⟩ =
      .ok (fromBlocks (coeffMatrix c.harmonics.get a) (coeffMatrix c.harmonics.get b) (coeffMatrix c.harmonics.get d)
        (coeffMatrix c.harmonics.get f)) := by
  obtain ⟨h1, h2, h3, h4⟩ := hc
  have : NeZero N := ⟨h1.ne'⟩
  have hT : ∀ g : Grid N N, c.toep ⟨N, N, g⟩ = .ok (coeffMatrix c.harmonics.get g) := fun g => toeplitz_shape hA g
  unfold nuHatInvAniso
  dsimp only
  rw [pointwiseInv_square]
  unfold inv4
  dsimp only
  rw [if_neg (by push Not; exact hdet)]
  simp only [except_bind_ok, Trans4.mapM, hT]
  change (linInv _) = _
  apply linInv_of_mul
  unfold Trans4.block
  rw [fromBlocks_multiply]
  simp only [coeffMatrix_mul h3 h4, coeffMatrix_add]
  rw [← fromBlocks_one, ← coeffMatrix_one (H := c.harmonics.get) (Nx := N) (Ny := N) h4,
    ← coeffMatrix_zero (H := c.harmonics.get) (Nx := N) (Ny := N)]
  congr 2 <;> funext x y <;> have := hdet x y <;> rw [div_mul_eq_mul_div, div_mul_eq_mul_div, ← add_div]
  · rw [div_eq_one_iff_eq this]; ring
  · rw [div_eq_zero_iff]; exact .inl (by ring)
  · rw [div_eq_zero_iff]; exact .inl (by ring)
  · rw [div_eq_one_iff_eq this]; ring

/-- The formulation does not matter for a fully resolved layer. -/
theorem buildPure_full {form' : String} (hf : form' = "original" ∨ form' = "tangent" ∨ c.lattice.is1D = false)
    (hf0 : c.formulation = "original" ∨ c.formulation = "tangent" ∨ c.lattice.is1D = false)
    (h : FullyResolved E c L) : buildPure E (c.reform form') L = buildPure E c L := by
  rcases h with h | ⟨u, hu, hc, hv⟩ | ⟨N, e, ⟨g1, g2, g3⟩, hc, h1D, hv, hdet⟩
  · unfold buildPure
    simp only [h, if_true]
  · have hpn : paraOf L = .ok none := by unfold paraOf; rw [hu.2.1]; rfl
    have key : ∀ g, (g = "original" ∨ g = "tangent" ∨ c.lattice.is1D = false) → ∀ A B Ht, c.toep u = .ok A →
        linInv A = .ok B → pepsOf E (c.reform g) L u none A (diag2 A) Ht = .ok (diag2 A) := by
      intro g hg A B Ht hA hB
      have hnu : nuHatInvIso (c.reform g) u = .ok A := recip_full (c := c.reform g) hc hA hB
      by_cases h1D : c.lattice.is1D = true
      · unfold pepsOf
        rcases hg with rfl | rfl | hg
        · simp only [if_true]; rfl
        · simp only [h1D, if_true, hnu, except_bind_ok]
          rfl
        · rw [h1D] at hg; cases hg
      · exact pepsOf_two (c := c.reform g) hc.1 hc.2.1 hA (by simpa using h1D) (hv.resolve_left h1D)
          (.inl ⟨A, rfl, hnu, rfl⟩)
    unfold buildPure
    simp only [hu.1, hu.2.1, Bool.false_eq_true, if_false, hu.2.2, except_bind_ok, hpn, epsParaHatOf]
    change (c.toep u >>= _) = (c.toep u >>= _)
    rcases hA : c.toep u with er | A
    · rfl
    simp only [except_bind_ok]
    rcases hB : linInv A with er | B
    · rfl
    simp only [except_bind_ok]
    have k1 := fun Ht => key form' hf A B Ht hA hB
    have k2 := fun Ht => key c.formulation hf0 A B Ht hA hB
    have k3 : ∀ Ht, pepsOf E c L u none A (diag2 A) Ht = .ok (diag2 A) := k2
    simp only [pure_bind, k3, k1]
  · have : NeZero N := ⟨hc.1.ne'⟩
    have hp : paraOf L = .ok (some ⟨⟨N, N, e 0 0⟩, ⟨N, N, e 0 1⟩, ⟨N, N, e 1 0⟩, ⟨N, N, e 1 1⟩⟩) := by
      have a1 := g3 0 0
      have a2 := g3 0 1
      have a3 := g3 1 0
      have a4 := g3 1 1
      simp only [Fin.val_zero, Fin.val_one] at a1 a2 a3 a4
      unfold paraOf
      simp only [g2, if_true, Trans4.mapM, NdArr.trans, a1, a2, a3, a4, except_bind_ok]
      rfl
    have hz : (L.epsilon.comp 2 2).toGrid = .ok ⟨N, N, e 2 2⟩ := g3 2 2
    unfold buildPure
    simp only [g1, g2, Bool.false_eq_true, if_false, if_true, hz, except_bind_ok, hp, epsParaHatOf]
    change (c.toep ⟨N, N, e 2 2⟩ >>= _) = (c.toep ⟨N, N, e 2 2⟩ >>= _)
    rcases hA : c.toep ⟨N, N, e 2 2⟩ with er | A
    · rfl
    simp only [except_bind_ok]
    have hT : ∀ (f : String) (g : Grid N N), (c.reform f).toep ⟨N, N, g⟩ = .ok (coeffMatrix c.harmonics.get g) :=
      fun _ g => toeplitz_shape hA g
    have hT' : ∀ (g : Grid N N), c.toep ⟨N, N, g⟩ = .ok (coeffMatrix c.harmonics.get g) := fun g => toeplitz_shape hA g
    have key : ∀ f B Ht, pepsOf E (c.reform f) L ⟨N, N, e 2 2⟩
        (some ⟨⟨N, N, e 0 0⟩, ⟨N, N, e 0 1⟩, ⟨N, N, e 1 0⟩, ⟨N, N, e 1 1⟩⟩) A (Trans4.block B) Ht = .ok (Trans4.block B) ∨
        B ≠ ⟨coeffMatrix c.harmonics.get (e 0 0), coeffMatrix c.harmonics.get (e 0 1), coeffMatrix c.harmonics.get (e 1 0),
          coeffMatrix c.harmonics.get (e 1 1)⟩ := by
      intro f B Ht
      by_cases hB : B = ⟨coeffMatrix c.harmonics.get (e 0 0), coeffMatrix c.harmonics.get (e 0 1),
          coeffMatrix c.harmonics.get (e 1 0), coeffMatrix c.harmonics.get (e 1 1)⟩
      · subst hB
        exact .inl (pepsOf_two (c := c.reform f) (u := ⟨N, N, e 2 2⟩) hc.1 hc.2.1 hA h1D hv
          (.inr ⟨_, rfl, nuHatInvAniso_full (c := c.reform f) hc hA hdet⟩))
      · exact .inr hB
    have k1 := fun Ht => (key form' _ Ht).resolve_right (not_not.mpr rfl)
    have k2 : ∀ Ht, pepsOf E c L _ _ _ _ Ht = _ := fun Ht => (key c.formulation _ Ht).resolve_right (not_not.mpr rfl)
    simp only [Trans4.mapM, hT, hT', except_bind_ok, pure_bind, k1, k2]

end Nannos
