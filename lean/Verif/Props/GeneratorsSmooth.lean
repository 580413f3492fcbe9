import Verif.Proofs.Generators

/-! C70: the smoothing of the generator `'fft'`. -/

namespace Nannos

open Spec

variable {Nx Ny : ℕ}

/-- The frequencies are odd, up to the Nyquist one. -/
theorem fftfreq_neg_sq {n : ℕ} [NeZero n] (p : Fin n) : fftfreq n (-p) ^ 2 = fftfreq n p ^ 2 := by
  have hn : (n : ℝ) ≠ 0 := by exact_mod_cast NeZero.ne n
  by_cases h0 : (p : ℕ) = 0
  · have : -p = p := by
      have hp : p = 0 := Fin.ext (by simpa using h0)
      rw [hp, neg_zero]
    rw [this]
  · have hv : ((-p : Fin n) : ℕ) = n - p := by
      rw [Fin.val_neg', Nat.mod_eq_of_lt (by omega)]
    have hlt := p.isLt
    unfold fftfreq
    rw [hv, Nat.cast_sub hlt.le]
    split_ifs with h1 h2 h2
    · exfalso; omega
    · field_simp; ring
    · field_simp; ring
    · have : (n : ℝ) = 2 * p := by exact_mod_cast (by omega : n = 2 * (p : ℕ))
      rw [this]; ring

theorem chi_fin_neg {n : ℕ} [NeZero n] (k : ℤ) (x : Fin n) : chi n k ((-x : Fin n) : ℕ) = chi n (-k) (x : ℕ) := by
  have h1 := chi_fin_add k x (-x)
  rw [add_neg_cancel, chi_comm k, show (((0 : Fin n) : ℕ) : ℤ) = 0 by simp, chi_zero] at h1
  have h2 : chi n k (x : ℕ) * chi n (-k) (x : ℕ) = 1 := by
    rw [← chi_add_left, add_neg_cancel, chi_zero]
  have h3 : chi n k (x : ℕ) ≠ 0 := left_ne_zero_of_mul_eq_one h2
  exact mul_left_cancel₀ h3 (h1.symm.trans h2.symm)

theorem chi_neg_fin {n : ℕ} [NeZero n] (p : Fin n) (x : ℤ) : chi n ((-p : Fin n) : ℕ) x = chi n (-((p : ℕ) : ℤ)) x := by
  rw [chi_comm, chi_fin_neg, chi_comm]
  unfold chi
  push_cast
  congr 2
  ring

theorem coeff_mirror [NeZero Nx] [NeZero Ny] (u : Grid Nx Ny) (p : Fin Nx) (q : Fin Ny) :
    coeff (fun i j => u (-i) j) (p : ℕ) (q : ℕ) = coeff u ((-p : Fin Nx) : ℕ) (q : ℕ) ∧
    coeff (fun i j => u i (-j)) (p : ℕ) (q : ℕ) = coeff u (p : ℕ) ((-q : Fin Ny) : ℕ) := by
  constructor
  · rw [coeff_eq, coeff_eq]
    congr 1
    rw [← Equiv.sum_comp (Equiv.neg (Fin Nx))]
    refine Finset.sum_congr rfl fun x _ => Finset.sum_congr rfl fun y _ => ?_
    simp only [Equiv.neg_apply, neg_neg]
    rw [chi_fin_neg, neg_neg, ← chi_conj (N := Nx) (((-p : Fin Nx) : ℕ) : ℤ), chi_neg_fin, chi_conj, neg_neg]
  · rw [coeff_eq, coeff_eq]
    congr 1
    refine Finset.sum_congr rfl fun x _ => ?_
    rw [← Equiv.sum_comp (Equiv.neg (Fin Ny))]
    refine Finset.sum_congr rfl fun y _ => ?_
    simp only [Equiv.neg_apply, neg_neg]
    rw [chi_fin_neg, neg_neg, ← chi_conj (N := Ny) (((-q : Fin Ny) : ℕ) : ℤ), chi_neg_fin, chi_conj, neg_neg]

theorem coeff_conj_fin [NeZero Nx] [NeZero Ny] (u : Grid Nx Ny) (hu : ∀ x y, (u x y).im = 0) (p : Fin Nx) (q : Fin Ny) :
    (starRingEnd ℂ) (coeff u (p : ℕ) (q : ℕ)) = coeff u ((-p : Fin Nx) : ℕ) ((-q : Fin Ny) : ℕ) := by
  have hd : ∀ {n : ℕ} [NeZero n] (r : Fin n), (n : ℤ) ∣ -((r : ℕ) : ℤ) - (((-r : Fin n) : ℕ) : ℤ) := by
    intro n _ r
    by_cases h0 : (r : ℕ) = 0
    · have hr : r = 0 := Fin.ext (by simpa using h0)
      simp [hr]
    · rw [Fin.val_neg', Nat.mod_eq_of_lt (by omega)]
      exact ⟨-1, by have := r.isLt; push_cast [Nat.cast_sub r.isLt.le]; ring⟩
  rw [coeff_conj u (fun x y => Complex.conj_eq_iff_im.mpr (hu x y))]
  exact coeff_period u (hd p) (hd q)

/-- **C70**, the smoothing. Real arrays of normals stay real, so that nothing is dropped when the real part is taken, and
the smoothing commutes with the reflections of both axes (of the torus of the tiled array): no direction is preferred. -/
theorem C70_smoothing (hx : 0 < Nx) (hy : 0 < Ny) (e : ℝ) (N : Grid (3 * Nx) (3 * Ny)) :
    haveI : NeZero (3 * Nx) := ⟨by omega⟩
    haveI : NeZero (3 * Ny) := ⟨by omega⟩
    ((∀ x y, (N x y).im = 0) → ∀ x y, (spread e N x y).im = 0) ∧
    spread e (fun i j => N (-i) j) = (fun i j => spread e N (-i) j) ∧
    spread e (fun i j => N i (-j)) = (fun i j => spread e N i (-j)) := by
  haveI : NeZero (3 * Nx) := ⟨by omega⟩
  haveI : NeZero (3 * Ny) := ⟨by omega⟩
  set G : Fin (3 * Nx) → Fin (3 * Ny) → ℝ := fun p q =>
    ftFilt (fftfreq (3 * Nx) p ^ 2 + fftfreq (3 * Ny) q ^ 2) e * Nx * Ny with hG
  have hGx : ∀ p q, G (-p) q = G p q := fun p q => by simp only [hG, fftfreq_neg_sq]
  have hGy : ∀ p q, G p (-q) = G p q := fun p q => by simp only [hG, fftfreq_neg_sq]
  have key : ∀ N : Grid (3 * Nx) (3 * Ny), ∀ x y, spread e N x y = ∑ p : Fin (3 * Nx), ∑ q : Fin (3 * Ny), coeff N (p : ℕ) (q : ℕ) * (G p q : ℂ) *
      (chi (3 * Nx) (p : ℕ) (x : ℕ) * chi (3 * Ny) (q : ℕ) (y : ℕ)) := by
    intro N x y
    unfold spread
    rw [inverse_eq]
    simp only [fourierTransform_eq, hG]
  refine ⟨fun h x y => ?_, ?_, ?_⟩
  · rw [← Complex.conj_eq_iff_im, key, map_sum, ← Equiv.sum_comp (Equiv.neg (Fin (3 * Nx)))]
    refine Finset.sum_congr rfl fun p _ => ?_
    rw [map_sum, ← Equiv.sum_comp (Equiv.neg (Fin (3 * Ny)))]
    refine Finset.sum_congr rfl fun q _ => ?_
    simp only [Equiv.neg_apply, map_mul]
    rw [coeff_conj_fin N h, neg_neg, neg_neg, hGx, hGy, Complex.conj_ofReal, chi_conj, chi_conj, ← chi_neg_fin, ← chi_neg_fin,
      neg_neg, neg_neg]
  · funext x y
    rw [key, key, ← Equiv.sum_comp (Equiv.neg (Fin (3 * Nx)))]
    refine Finset.sum_congr rfl fun p _ => Finset.sum_congr rfl fun q _ => ?_
    simp only [Equiv.neg_apply]
    rw [(coeff_mirror N (-p) q).1, neg_neg, hGx, chi_fin_neg, chi_neg_fin]
  · funext x y
    rw [key, key]
    refine Finset.sum_congr rfl fun p _ => ?_
    rw [← Equiv.sum_comp (Equiv.neg (Fin (3 * Ny)))]
    refine Finset.sum_congr rfl fun q _ => ?_
    simp only [Equiv.neg_apply]
    rw [(coeff_mirror N p (-q)).2, neg_neg, hGy, chi_fin_neg, chi_neg_fin]

/-- The theorem applies to a two by three pattern with a single normal. -/
example : ∀ x y, (spread (Nx := 2) (Ny := 3) (1 / 2) (fun x y => if x = 1 ∧ y = 2 then 1 else 0) x y).im = 0 :=
  (C70_smoothing (by norm_num) (by norm_num) _ _).1 (fun x y => by split <;> simp)

end Nannos
