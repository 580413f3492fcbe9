import Verif.Props.GeneratorOrders
import Verif.Proofs.Full
import Verif.Proofs.SolveTotal

/-! Patterns clear of the border have slopes of mean zero; layers whose vectors vanish. -/

namespace Nannos

open Matrix Spec

variable {E : Ext} {c : Static} {Nx Ny : ℕ}

theorem ringDiff_sum {n : ℕ} [NeZero n] (f : Fin n → ℂ) : ∑ i, ringDiff f i = 0 := by
  unfold ringDiff
  have h1 : ∑ i, f (i + 1) = ∑ i, f i := Equiv.sum_comp (Equiv.addRight (1 : Fin n)) f
  have h2 : ∑ i, f (i - 1) = ∑ i, f i := Equiv.sum_comp (Equiv.subRight (1 : Fin n)) f
  rw [← Finset.sum_div, Finset.sum_sub_distrib, h1, h2, sub_self, zero_div]

theorem smooth_sum [NeZero Nx] [NeZero Ny] {u : Grid Nx Ny} (h : ∑ x, ∑ y, u x y = 0) : ∑ x, ∑ y, smooth u x y = 0 := by
  have hr : ∑ x, ∑ y, (u x y).re = 0 := by
    have := congrArg Complex.re h
    simpa only [Complex.re_sum, Complex.zero_re] using this
  unfold smooth
  simp only [← Complex.ofReal_sum]
  rw [← Complex.ofReal_zero]
  congr 1
  generalize (window Nx Ny none) = W
  have key : ∀ (a : Fin Nx) (b : Fin Ny), ∑ i : Fin Nx, ∑ j : Fin Ny, (u (i - a) (j - b)).re = 0 := by
    intro a b
    rw [← hr, ← Equiv.sum_comp (Equiv.subRight a) fun x => ∑ y, (u x y).re]
    refine Finset.sum_congr rfl fun i _ => ?_
    exact Equiv.sum_comp (Equiv.subRight b) fun y => (u (i - a) y).re
  calc ∑ i : Fin Nx, ∑ j : Fin Ny, ∑ a : Fin Nx, ∑ b : Fin Ny, weight W.1 4 Nx a * weight W.2 4 Ny b * (u (i - a) (j - b)).re
      = ∑ a : Fin Nx, ∑ b : Fin Ny, ∑ i : Fin Nx, ∑ j : Fin Ny, weight W.1 4 Nx a * weight W.2 4 Ny b * (u (i - a) (j - b)).re := by
        rw [show (∑ i : Fin Nx, ∑ j : Fin Ny, ∑ a : Fin Nx, ∑ b : Fin Ny, weight W.1 4 Nx a * weight W.2 4 Ny b * (u (i - a) (j - b)).re)
          = ∑ p : Fin Nx × Fin Ny, ∑ q : Fin Nx × Fin Ny, weight W.1 4 Nx q.1 * weight W.2 4 Ny q.2 * (u (p.1 - q.1) (p.2 - q.2)).re by
            simp only [Fintype.sum_prod_type], Finset.sum_comm]
        simp only [Fintype.sum_prod_type]
    _ = 0 := by
        refine Finset.sum_eq_zero fun a _ => Finset.sum_eq_zero fun b _ => ?_
        simp only [← Finset.mul_sum]
        rw [key, mul_zero]

/-- The smoothed slopes of a pattern clear of the border average to zero. -/
theorem slopes_mean [NeZero Nx] [NeZero Ny] (hx : 2 ≤ Nx) (hy : 2 ≤ Ny) {a : Grid Nx Ny} (hc : ClearOfBorder a)
    {d : Grid Nx Ny × Grid Nx Ny} (hd : slopes a = .ok d) : coeff d.1 0 0 = 0 ∧ coeff d.2 0 0 = 0 := by
  have hr := relativeModulus_clear hc
  have s1 : ∑ x, ∑ y, (rawSlopes a).1 x y = 0 := by
    have h : ∑ i, ∑ j, gradientAxis (fun k => relativeModulus a k j) i = 0 := by
      rw [Finset.sum_comm]
      refine Finset.sum_eq_zero fun j _ => ?_
      rw [← ringDiff_sum fun k => relativeModulus a k j]
      exact Finset.sum_congr rfl fun i _ => gradientAxis_ring hx _ (fun i i' h1 h2 => hr.1 i i' j h1 h2) i
    exact smooth_sum (u := fun i j => gradientAxis (fun k => relativeModulus a k j) i) h
  have s2 : ∑ x, ∑ y, (rawSlopes a).2 x y = 0 := by
    have h : ∑ i, ∑ j, gradientAxis (relativeModulus a i) j = 0 := by
      refine Finset.sum_eq_zero fun i _ => ?_
      rw [← ringDiff_sum (relativeModulus a i)]
      exact Finset.sum_congr rfl fun j _ => gradientAxis_ring hy _ (fun j j' h1 h2 => hr.2 i j j' h1 h2) j
    exact smooth_sum (u := fun i j => gradientAxis (relativeModulus a i) j) h
  have z : ∀ u : Grid Nx Ny, ∀ m : ℂ, ∑ x, ∑ y, u x y = 0 → coeff (fun x y => u x y / m) 0 0 = 0 := by
    intro u m hu
    unfold coeff
    simp only [Int.cast_zero, zero_mul, zero_div, add_zero, mul_zero, neg_zero, Complex.exp_zero, mul_one]
    simp only [← Finset.sum_div]
    rw [hu]
    simp
  rw [slopes_ok hx hy] at hd
  rw [← Except.ok.inj hd]
  exact ⟨z _ _ s1, z _ _ s2⟩

/-- From the order `(0, 0)` alone, for a pattern clear of the border, the default generator makes the vector `(1, 0)` at every pixel,
or zero if lengths are not normalised. -/
theorem one_order_vectors {N : ℕ} (h64 : N ≤ 64) (hs : OptShape N N) {a : Grid N N} (h0 : ∃ x y, a x y ≠ 0) (hc : ClearOfBorder a)
    (normalize : Bool) :
    tangentOpt (optFit newtonCG) ⟨N, N, a⟩ [(0, 0)] normalize =
      .ok ⟨N, N, fun _ _ => if normalize then 1 else 0, fun _ _ => 0⟩ := by
  have hR := reducedSide_small h64
  obtain ⟨s1, -, -, -⟩ := optShape_side hs
  have : NeZero N := ⟨by omega⟩
  have hH : BalancedOrders [((0 : ℤ), (0 : ℤ))] N N := ⟨by simp, by simp, by simp; omega⟩
  obtain ⟨d, t, h1, h2, -, h4⟩ := opt_newton hs h0 (balanced_fit h64 hH) (by rw [hR]; exact hH) normalize
  have hκ := carried_small h64 (by omega) [((0 : ℤ), (0 : ℤ))] d
  obtain ⟨z1, z2⟩ := slopes_mean s1 s1 hc h1
  have hz : carried [((0 : ℤ), (0 : ℤ))] d = 0 := by
    unfold carried
    simp [z1, z2]
  rw [h2, h4 (by rw [hκ, hz]; positivity)]
  cases normalize
  · unfold vectorOf finishOpt
    have zi : ∀ x : Fin N, ∀ y : Fin N, interpolate (fun (_ : Fin (reducedSide N)) (_ : Fin (reducedSide N)) => 0) N N x y = 0 := by
      intro x y
      unfold interpolate
      simp
    simp only [zi, Complex.zero_re, Complex.ofReal_zero, neg_zero, zero_div, Bool.false_eq_true, if_false]
  · rw [vectorOf_zero]
    simp

/-- `nuHatInvIso` of a pattern with values in an open half plane. -/
theorem nuHatInvIso_half [NeZero Nx] [NeZero Ny] (hH : Function.Injective c.harmonics.get) {u : Grid Nx Ny}
    {A : Matrix (Fin c.nh) (Fin c.nh) ℂ} (hA : c.toep ⟨Nx, Ny, u⟩ = .ok A) {s : ℂ} (hpos : ∀ x y, 0 < (s * u x y).im) :
    ∃ B, nuHatInvIso c ⟨Nx, Ny, u⟩ = .ok B := by
  have hne : ∀ x y, u x y ≠ 0 := fun x y h0 => by have := hpos x y; rw [h0] at this; simp at this
  have hB := toeplitz_shape hA fun x y => 1 / u x y
  unfold nuHatInvIso recipGrid
  rw [if_neg (by push Not; exact hne)]
  rw [except_bind_ok, show c.toep ⟨_, _, fun x y => 1 / u x y⟩ = .ok _ from hB, except_bind_ok]
  refine ⟨_, (linInv_ok _ _).mpr ⟨toep_det hH hB (s := -star s) fun x y => ?_, rfl⟩⟩
  have h1 : -star s * (1 / u x y) = ((Complex.normSq (u x y))⁻¹ : ℝ) * -star (s * u x y) := by
    have : (Complex.normSq (u x y) : ℂ) = star (u x y) * u x y := by
      rw [Complex.normSq_eq_conj_mul_self]; rfl
    rw [Complex.ofReal_inv, this, star_mul']
    have := hne x y
    have h3 : star (u x y) ≠ 0 := star_ne_zero.mpr this
    field_simp
  rw [h1, Complex.im_ofReal_mul]
  refine mul_pos (inv_pos.mpr (Complex.normSq_pos.mpr (hne x y))) ?_
  have := hpos x y
  rw [Complex.neg_im, show (star (s * u x y)).im = -(s * u x y).im from Complex.conj_im _, neg_neg]
  exact this

theorem getPeps_zero [NeZero Nx] [NeZero Ny] {u : Grid Nx Ny} {A : Matrix (Fin c.nh) (Fin c.nh) ℂ}
    (hA : c.toep ⟨Nx, Ny, u⟩ = .ok A) (P R : Matrix (Idx c.nh) (Idx c.nh) ℂ) :
    getPeps c P R ⟨Nx, Ny, fun _ _ => 0, fun _ _ => 0⟩ = .ok P := by
  have hz : ∀ f : ℂ → ℂ → ℂ, f 0 0 = 0 → c.toep (projField ⟨Nx, Ny, fun _ _ => 0, fun _ _ => 0⟩ f) = .ok 0 := by
    intro f hf
    have : projField ⟨Nx, Ny, fun _ _ => 0, fun _ _ => 0⟩ f = ⟨Nx, Ny, fun _ _ => 0⟩ := by
      unfold projField
      simp [hf]
    rw [this]
    refine (toeplitz_shape hA _).trans ?_
    exact congrArg _ (coeffMatrix_zero (H := c.harmonics.get) (Nx := Nx) (Ny := Ny))
  unfold getPeps
  rw [hz (fun a _ => a * star a) (by simp), hz (fun _ b => b * star b) (by simp), hz (fun a b => a * star b) (by simp),
    hz (fun a b => b * star a) (by simp)]
  simp only [except_bind_ok, fromBlocks_zero, Matrix.mul_zero, sub_zero]
  rfl

theorem jonesField_zero : jonesField ⟨Nx, Ny, fun _ _ => 0, fun _ _ => 0⟩ = .ok ⟨Nx, Ny, fun _ _ => 0, fun _ _ => 0⟩ := by
  unfold jonesField jonesPt
  simp

/-- A layer which the formulations `'jones'` and `'pol'` treat like `'original'`: its pattern does not reach the border, its permittivities
are in one open half plane, its vectors come from the default generator, asked for the order `(0, 0)` alone. -/
theorem buildPure_zero (hH : Function.Injective c.harmonics.get) (hf : c.formulation = "jones" ∨ c.formulation = "pol") {m : ℤ}
    (hh : c.lattice.getHarmonics E.argsort c.nh true = .ok ([(0, 0)], m)) {L : LayerSpec} {N : ℕ} {g : Grid N N} (h64 : N ≤ 64)
    (hs : OptShape N N) (hp : HasPixels L ⟨N, N, g⟩) (hc : ClearOfBorder g) {s : ℂ} (hpos : ∀ x y, 0 < (s * g x y).im)
    (ht : L.tangentField = none) (hty : L.tangentFieldType = "opt") :
    buildPure (E.withGenerators (optFit newtonCG)) (c.reform "original") L = buildPure (E.withGenerators (optFit newtonCG)) c L := by
  have hpn : paraOf L = .ok none := by unfold paraOf; rw [hp.2.1]; rfl
  obtain ⟨s1, -, -, -⟩ := optShape_side hs
  have : NeZero N := ⟨by omega⟩
  have hv : getTangentField (E.withGenerators (optFit newtonCG)) L ⟨N, N, g⟩ [(0, 0)] false = .ok ⟨N, N, fun _ _ => 0, fun _ _ => 0⟩ := by
    unfold getTangentField
    rw [ht, hty]
    simp only [or_true, if_true]
    have h0 : ∃ x y, g x y ≠ 0 := ⟨0, 0, fun h => by have := hpos 0 0; rw [h] at this; simp at this⟩
    refine (one_order_vectors h64 hs h0 hc false).trans ?_
    simp
  unfold buildPure
  simp only [hp.1, hp.2.1, Bool.false_eq_true, if_false, hp.2.2, except_bind_ok, hpn, epsParaHatOf]
  change (c.toep ⟨N, N, g⟩ >>= _) = (c.toep ⟨N, N, g⟩ >>= _)
  rcases hA : c.toep ⟨N, N, g⟩ with er | A
  · rfl
  simp only [except_bind_ok]
  rcases hB : linInv A with er | B
  · rfl
  simp only [except_bind_ok]
  obtain ⟨n, hn⟩ := nuHatInvIso_half hH hA hpos
  have k1 : pepsOf (E.withGenerators (optFit newtonCG)) c L ⟨N, N, g⟩ none A (diag2 A) [(0, 0)] = .ok (diag2 A) := by
    have hz := getPeps_zero hA (diag2 A) (diag2 n)
    unfold pepsOf
    rcases hf with h | h <;> simp only [h, hv, hn, except_bind_ok, jonesField_zero, pure_bind, hz] <;> rfl
  have k2 : pepsOf (E.withGenerators (optFit newtonCG)) (c.reform "original") L ⟨N, N, g⟩ none A (diag2 A) [(0, 0)] = .ok (diag2 A) := by
    unfold pepsOf
    simp only [if_true]
    rfl
  have hh' : c.lattice.getHarmonics (E.withGenerators (optFit newtonCG)).argsort c.nh true = .ok ([(0, 0)], m) := hh
  simp only [pure_bind, hh', except_bind_ok, k1, k2]

end Nannos
