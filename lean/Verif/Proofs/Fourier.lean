import Verif.Model.Fourier
import Verif.Spec.Fourier
import Verif.Proofs.SMatrix
import Mathlib.Algebra.Field.GeomSum

/-! Lemmas on the discrete Fourier transform. -/

namespace Nannos

open Matrix Spec

/-- The character `exp(2πi k x / N)`. -/
noncomputable def chi (N : ℕ) (k : ℤ) (x : ℤ) : ℂ :=
  Complex.exp (2 * Real.pi * Complex.I * (k * x / N))

variable {N : ℕ}

theorem chi_add (k x y : ℤ) : chi N k (x + y) = chi N k x * chi N k y := by
  unfold chi; rw [← Complex.exp_add]; congr 1; push_cast; ring

theorem chi_add_left (k l x : ℤ) : chi N (k + l) x = chi N k x * chi N l x := by
  unfold chi; rw [← Complex.exp_add]; congr 1; push_cast; ring

theorem chi_comm (k x : ℤ) : chi N k x = chi N x k := by
  unfold chi; congr 2; ring

theorem chi_zero (x : ℤ) : chi N 0 x = 1 := by simp [chi]

theorem chi_conj (k x : ℤ) : (starRingEnd ℂ) (chi N k x) = chi N (-k) x := by
  unfold chi
  rw [← Complex.exp_conj]
  congr 1
  simp only [map_mul, map_div₀, Complex.conj_I, map_natCast, Complex.conj_ofReal, map_ofNat]
  have h1 : (starRingEnd ℂ) (k : ℂ) = k := by simp
  have h2 : (starRingEnd ℂ) (x : ℂ) = x := by simp
  rw [h1, h2]
  push_cast
  ring

theorem chi_eq_one [NeZero N] (k x : ℤ) : chi N k x = 1 ↔ (N : ℤ) ∣ k * x := by
  have hN : (N : ℂ) ≠ 0 := by exact_mod_cast NeZero.ne N
  unfold chi
  rw [Complex.exp_eq_one_iff]
  constructor
  · rintro ⟨n, hn⟩
    refine ⟨n, ?_⟩
    have h2 : (2 * Real.pi * Complex.I : ℂ) ≠ 0 := Complex.two_pi_I_ne_zero
    have h3 : ((k : ℂ) * x / N) = n := by
      apply mul_left_cancel₀ h2
      rw [hn]; ring
    rw [div_eq_iff hN] at h3
    have : ((k * x : ℤ) : ℂ) = ((N * n : ℤ) : ℂ) := by push_cast; rw [h3]; ring
    exact_mod_cast this
  · rintro ⟨n, hn⟩
    refine ⟨n, ?_⟩
    have : (k : ℂ) * x = N * n := by exact_mod_cast hn
    rw [this]
    field_simp

theorem chi_period [NeZero N] {k l : ℤ} (h : (N : ℤ) ∣ k - l) (x : ℤ) : chi N k x = chi N l x := by
  have : k = (k - l) + l := by ring
  rw [this, chi_add_left, (chi_eq_one (k - l) x).mpr (Dvd.dvd.mul_right h x), one_mul]

/-- Orthogonality of characters. -/
theorem chi_sum [NeZero N] (k : ℤ) : ∑ x : Fin N, chi N k (x : ℕ) = if (N : ℤ) ∣ k then (N : ℂ) else 0 := by
  have hpow : ∀ x : ℕ, chi N k x = chi N k 1 ^ x := by
    intro x
    induction x with
    | zero => simp [chi]
    | succ n ih => rw [Nat.cast_succ, chi_add, ih, pow_succ]
  rw [Fin.sum_univ_eq_sum_range (fun x => chi N k (x : ℕ)), Finset.sum_congr rfl (fun x _ => hpow x)]
  split
  · rename_i h
    have : chi N k 1 = 1 := (chi_eq_one k 1).mpr (by simpa using h)
    simp [this]
  · rename_i h
    have h1 : chi N k 1 ≠ 1 := fun hc => h (by simpa using (chi_eq_one k 1).mp hc)
    rw [geom_sum_eq h1, ← hpow, (chi_eq_one k N).mpr (Dvd.intro_left k rfl)]
    simp

/-- Two positions of an axis that agree modulo its length are equal. -/
theorem fin_eq_of_dvd {x y : Fin N} (h : (N : ℤ) ∣ (x : ℤ) - (y : ℤ)) : x = y := by
  have := Int.eq_zero_of_abs_lt_dvd h (by rw [abs_lt]; omega)
  exact Fin.ext (by omega)

theorem chi_sum_delta [NeZero N] (x y : Fin N) :
    ∑ p : Fin N, chi N (p : ℕ) (x : ℕ) * chi N (-(p : ℕ)) (y : ℕ) = if x = y then (N : ℂ) else 0 := by
  have h : ∀ p : Fin N, chi N (p : ℕ) (x : ℕ) * chi N (-(p : ℕ)) (y : ℕ)
      = chi N ((x : ℤ) - (y : ℤ)) (p : ℕ) := by
    intro p
    unfold chi
    rw [← Complex.exp_add]
    congr 1
    push_cast
    ring
  rw [Finset.sum_congr rfl (fun p _ => h p), chi_sum]
  refine if_congr ⟨fun h => fin_eq_of_dvd h, fun h => by simp [h]⟩ rfl rfl

section grid

variable {Nx Ny : ℕ}

theorem coeff_eq (u : Grid Nx Ny) (a b : ℤ) : coeff u a b =
    (∑ x : Fin Nx, ∑ y : Fin Ny, u x y * (chi Nx (-a) (x : ℕ) * chi Ny (-b) (y : ℕ))) / ((Nx : ℂ) * Ny) := by
  unfold coeff chi
  congr 1
  refine Finset.sum_congr rfl fun x _ => Finset.sum_congr rfl fun y _ => ?_
  rw [← Complex.exp_add]
  congr 2
  push_cast
  ring

theorem fourierTransform_eq (u : Grid Nx Ny) (p : Fin Nx) (q : Fin Ny) :
    fourierTransform u p q = coeff u (p : ℕ) (q : ℕ) := by
  simp [fourierTransform, fft2, coeff]

theorem inverse_eq [NeZero Nx] [NeZero Ny] (U : Grid Nx Ny) (x : Fin Nx) (y : Fin Ny) :
    inverseFourierTransform U x y =
      ∑ p : Fin Nx, ∑ q : Fin Ny, U p q * (chi Nx (p : ℕ) (x : ℕ) * chi Ny (q : ℕ) (y : ℕ)) := by
  have h1 : (Nx : ℂ) ≠ 0 := by exact_mod_cast NeZero.ne Nx
  have h2 : (Ny : ℂ) ≠ 0 := by exact_mod_cast NeZero.ne Ny
  unfold inverseFourierTransform ifft2
  rw [mul_comm (1 / ((Nx : ℂ) * Ny)), mul_assoc, one_div, inv_mul_cancel₀ (mul_ne_zero h1 h2), mul_one]
  refine Finset.sum_congr rfl fun p _ => Finset.sum_congr rfl fun q _ => ?_
  unfold chi
  rw [← Complex.exp_add]
  congr 2
  push_cast
  ring

theorem coeff_period [NeZero Nx] [NeZero Ny] (u : Grid Nx Ny) {a a' b b' : ℤ}
    (ha : (Nx : ℤ) ∣ a - a') (hb : (Ny : ℤ) ∣ b - b') : coeff u a b = coeff u a' b' := by
  rw [coeff_eq, coeff_eq]
  congr 1
  refine Finset.sum_congr rfl fun x _ => Finset.sum_congr rfl fun y _ => ?_
  have ea : -a - -a' = -(a - a') := by ring
  have eb : -b - -b' = -(b - b') := by ring
  rw [chi_period (k := -a) (l := -a') (ea ▸ dvd_neg.mpr ha),
    chi_period (k := -b) (l := -b') (eb ▸ dvd_neg.mpr hb)]

theorem sum_swap4 {α β γ δ : Type} [Fintype α] [Fintype β] [Fintype γ] [Fintype δ]
    (f : α → β → γ → δ → ℂ) : ∑ p, ∑ q, ∑ x, ∑ y, f p q x y = ∑ x, ∑ y, ∑ p, ∑ q, f p q x y := by
  have h1 : ∑ p, ∑ q, ∑ x, ∑ y, f p q x y = ∑ pq : α × β, ∑ xy : γ × δ, f pq.1 pq.2 xy.1 xy.2 := by
    rw [Fintype.sum_prod_type]
    refine Finset.sum_congr rfl fun p _ => Finset.sum_congr rfl fun q _ => ?_
    rw [Fintype.sum_prod_type]
  have h2 : ∑ x, ∑ y, ∑ p, ∑ q, f p q x y = ∑ xy : γ × δ, ∑ pq : α × β, f pq.1 pq.2 xy.1 xy.2 := by
    rw [Fintype.sum_prod_type]
    refine Finset.sum_congr rfl fun p _ => Finset.sum_congr rfl fun q _ => ?_
    rw [Fintype.sum_prod_type]
  rw [h1, h2, Finset.sum_comm]

/-- Fourier inversion on the grid. -/
theorem inversion [NeZero Nx] [NeZero Ny] (u : Grid Nx Ny) (x : Fin Nx) (y : Fin Ny) :
    ∑ p : Fin Nx, ∑ q : Fin Ny, coeff u (p : ℕ) (q : ℕ) * (chi Nx (p : ℕ) (x : ℕ) * chi Ny (q : ℕ) (y : ℕ))
      = u x y := by
  have h1 : (Nx : ℂ) ≠ 0 := by exact_mod_cast NeZero.ne Nx
  have h2 : (Ny : ℂ) ≠ 0 := by exact_mod_cast NeZero.ne Ny
  have key : ∑ p : Fin Nx, ∑ q : Fin Ny, (∑ x' : Fin Nx, ∑ y' : Fin Ny, u x' y' *
      (chi Nx (-(p : ℕ)) (x' : ℕ) * chi Ny (-(q : ℕ)) (y' : ℕ))) *
      (chi Nx (p : ℕ) (x : ℕ) * chi Ny (q : ℕ) (y : ℕ)) =
      ∑ x' : Fin Nx, ∑ y' : Fin Ny, u x' y' *
        ((∑ p : Fin Nx, chi Nx (p : ℕ) (x : ℕ) * chi Nx (-(p : ℕ)) (x' : ℕ)) *
         (∑ q : Fin Ny, chi Ny (q : ℕ) (y : ℕ) * chi Ny (-(q : ℕ)) (y' : ℕ))) := by
    simp only [Finset.sum_mul]
    rw [sum_swap4]
    refine Finset.sum_congr rfl fun x' _ => Finset.sum_congr rfl fun y' _ => ?_
    rw [← Finset.sum_mul, Finset.sum_mul_sum, Finset.mul_sum]
    refine Finset.sum_congr rfl fun p _ => ?_
    rw [Finset.mul_sum]
    refine Finset.sum_congr rfl fun q _ => ?_
    ring
  have : ∀ p : Fin Nx, ∀ q : Fin Ny, coeff u (p : ℕ) (q : ℕ) *
      (chi Nx (p : ℕ) (x : ℕ) * chi Ny (q : ℕ) (y : ℕ)) =
      1 / ((Nx : ℂ) * Ny) * ((∑ x' : Fin Nx, ∑ y' : Fin Ny, u x' y' *
      (chi Nx (-(p : ℕ)) (x' : ℕ) * chi Ny (-(q : ℕ)) (y' : ℕ))) *
      (chi Nx (p : ℕ) (x : ℕ) * chi Ny (q : ℕ) (y : ℕ))) := by
    intro p q; rw [coeff_eq]; push_cast; ring
  rw [Finset.sum_congr rfl (fun p _ => Finset.sum_congr rfl (fun q _ => this p q))]
  simp only [← Finset.mul_sum]
  rw [key]
  simp only [chi_sum_delta]
  simp only [mul_ite, mul_zero, ite_mul, zero_mul, Finset.sum_ite_eq, Finset.mem_univ, if_true]
  field_simp

/-- Transform of a Fourier series on the whole table. -/
theorem inversion' [NeZero Nx] [NeZero Ny] (U : Grid Nx Ny) (p : Fin Nx) (q : Fin Ny) :
    coeff (fun (x : Fin Nx) (y : Fin Ny) => ∑ p : Fin Nx, ∑ q : Fin Ny, U p q *
      (chi Nx (p : ℕ) (x : ℕ) * chi Ny (q : ℕ) (y : ℕ))) (p : ℕ) (q : ℕ) = U p q := by
  have h1 : (Nx : ℂ) ≠ 0 := by exact_mod_cast NeZero.ne Nx
  have h2 : (Ny : ℂ) ≠ 0 := by exact_mod_cast NeZero.ne Ny
  rw [coeff_eq]
  have key : ∑ x : Fin Nx, ∑ y : Fin Ny, (∑ p' : Fin Nx, ∑ q' : Fin Ny, U p' q' *
      (chi Nx (p' : ℕ) (x : ℕ) * chi Ny (q' : ℕ) (y : ℕ))) *
      (chi Nx (-(p : ℕ)) (x : ℕ) * chi Ny (-(q : ℕ)) (y : ℕ)) =
      ∑ p' : Fin Nx, ∑ q' : Fin Ny, U p' q' *
        ((∑ x : Fin Nx, chi Nx (x : ℕ) (p' : ℕ) * chi Nx (-(x : ℕ)) (p : ℕ)) *
         (∑ y : Fin Ny, chi Ny (y : ℕ) (q' : ℕ) * chi Ny (-(y : ℕ)) (q : ℕ))) := by
    simp only [Finset.sum_mul]
    rw [sum_swap4]
    refine Finset.sum_congr rfl fun p' _ => Finset.sum_congr rfl fun q' _ => ?_
    rw [← Finset.sum_mul, Finset.sum_mul_sum, Finset.mul_sum]
    refine Finset.sum_congr rfl fun x _ => ?_
    rw [Finset.mul_sum]
    refine Finset.sum_congr rfl fun y _ => ?_
    have c1 : chi Nx (x : ℕ) (p' : ℕ) = chi Nx (p' : ℕ) (x : ℕ) := chi_comm _ _
    have c2 : chi Ny (y : ℕ) (q' : ℕ) = chi Ny (q' : ℕ) (y : ℕ) := chi_comm _ _
    have c3 : chi Nx (-(x : ℕ)) (p : ℕ) = chi Nx (-(p : ℕ)) (x : ℕ) := by
      unfold chi; congr 2; push_cast; ring
    have c4 : chi Ny (-(y : ℕ)) (q : ℕ) = chi Ny (-(q : ℕ)) (y : ℕ) := by
      unfold chi; congr 2; push_cast; ring
    rw [c1, c2, c3, c4]
    ring
  rw [key]
  simp only [chi_sum_delta]
  simp only [mul_ite, mul_zero, ite_mul, zero_mul, Finset.sum_ite_eq', Finset.mem_univ, if_true]
  field_simp

theorem coeff_const [NeZero Nx] [NeZero Ny] (c : ℂ) (a b : ℤ) :
    coeff (fun (_ : Fin Nx) (_ : Fin Ny) => c) a b = if (Nx : ℤ) ∣ a ∧ (Ny : ℤ) ∣ b then c else 0 := by
  have h1 : (Nx : ℂ) ≠ 0 := by exact_mod_cast NeZero.ne Nx
  have h2 : (Ny : ℂ) ≠ 0 := by exact_mod_cast NeZero.ne Ny
  rw [coeff_eq]
  simp only [← Finset.mul_sum, ← Finset.sum_mul, chi_sum, dvd_neg]
  by_cases ha : (Nx : ℤ) ∣ a <;> by_cases hb : (Ny : ℤ) ∣ b <;> simp [ha, hb]
  field_simp

theorem coeff_zero_zero (u : Grid Nx Ny) : coeff u 0 0 = mean u := by
  simp [coeff, mean]

theorem coeff_conj (u : Grid Nx Ny) (hu : ∀ x y, (starRingEnd ℂ) (u x y) = u x y) (a b : ℤ) :
    (starRingEnd ℂ) (coeff u a b) = coeff u (-a) (-b) := by
  rw [coeff_eq, coeff_eq, map_div₀, map_mul, Complex.conj_natCast, Complex.conj_natCast, map_sum]
  congr 1
  refine Finset.sum_congr rfl fun x _ => ?_
  rw [map_sum]
  refine Finset.sum_congr rfl fun y _ => ?_
  rw [map_mul, hu, map_mul, chi_conj, chi_conj]

theorem coeff_linear (u v : Grid Nx Ny) (s t : ℂ) (a b : ℤ) :
    coeff (fun x y => s * u x y + t * v x y) a b = s * coeff u a b + t * coeff v a b := by
  rw [coeff_eq, coeff_eq, coeff_eq]
  rw [mul_div_assoc', mul_div_assoc', ← add_div, Finset.mul_sum, Finset.mul_sum, ← Finset.sum_add_distrib]
  congr 1
  refine Finset.sum_congr rfl fun x _ => ?_
  rw [Finset.mul_sum, Finset.mul_sum, ← Finset.sum_add_distrib]
  refine Finset.sum_congr rfl fun y _ => ?_
  ring

end grid

/-! ### Python indexing -/

theorem pyFin_none {n : ℕ} {i : ℤ} : pyFin n i = none ↔ ¬ (-(n : ℤ) ≤ i ∧ i < n) := by
  unfold pyFin
  split
  · simp; omega
  · split
    · simp; omega
    · simp; omega

theorem pyFin_some {n : ℕ} {i : ℤ} {p : Fin n} (h : pyFin n i = some p) :
    -(n : ℤ) ≤ i ∧ i < n ∧ (n : ℤ) ∣ i - (p : ℕ) := by
  unfold pyFin at h
  split at h
  · rename_i h1
    simp only [Option.some.injEq] at h
    subst h
    refine ⟨by omega, by omega, ?_⟩
    simp [Int.toNat_of_nonneg h1.1]
  · split at h
    · rename_i h1
      simp only [Option.some.injEq] at h
      subst h
      refine ⟨by omega, by omega, ?_⟩
      simp only [Int.toNat_of_nonneg h1.2]
      exact ⟨-1, by ring⟩
    · simp at h

theorem pyFin_isSome {n : ℕ} {i : ℤ} (h1 : -(n : ℤ) ≤ i) (h2 : i < n) : ∃ p, pyFin n i = some p := by
  cases h : pyFin n i with
  | none => rw [pyFin_none] at h; exact absurd ⟨h1, h2⟩ h
  | some p => exact ⟨p, rfl⟩

/-- Without `IndexError` the Toeplitz matrix holds the Fourier coefficients of the pattern. -/
theorem toeplitz_ok {Nx Ny nh : ℕ} [NeZero Nx] [NeZero Ny] {H : Fin nh → ℤ × ℤ} {u : Grid Nx Ny}
    {A : Matrix (Fin nh) (Fin nh) ℂ} (h : toeplitz H u = .ok A) :
    (∀ i j, -(Nx : ℤ) ≤ (H i).1 - (H j).1 ∧ (H i).1 - (H j).1 < Nx ∧ -(Ny : ℤ) ≤ (H i).2 - (H j).2 ∧
      (H i).2 - (H j).2 < Ny) ∧
    A = Matrix.of fun i j => coeff u ((H i).1 - (H j).1) ((H i).2 - (H j).2) := by
  unfold toeplitz at h
  dsimp only at h
  split at h
  · simp at h
  rename_i hne
  push Not at hne
  simp only [Except.ok.injEq] at h
  constructor
  · intro i j
    obtain ⟨h1, h2⟩ := hne i j
    have h1' := (not_congr (pyFin_none (n := Nx) (i := (H i).1 - (H j).1))).mp h1
    have h2' := (not_congr (pyFin_none (n := Ny) (i := (H i).2 - (H j).2))).mp h2
    push Not at h1' h2'
    exact ⟨h1'.1, h1'.2, h2'.1, h2'.2⟩
  · rw [← h]
    ext i j
    simp only [of_apply]
    obtain ⟨h1, h2⟩ := hne i j
    cases hp : pyFin Nx ((H i).1 - (H j).1) with
    | none => exact absurd hp h1
    | some p =>
      cases hq : pyFin Ny ((H i).2 - (H j).2) with
      | none => exact absurd hq h2
      | some q =>
        simp only
        rw [fourierTransform_eq]
        exact (coeff_period u (pyFin_some hp).2.2 (pyFin_some hq).2.2).symm

theorem toeplitz_exists {Nx Ny nh : ℕ} {H : Fin nh → ℤ × ℤ} (u : Grid Nx Ny)
    (h : ∀ i j, -(Nx : ℤ) ≤ (H i).1 - (H j).1 ∧ (H i).1 - (H j).1 < Nx ∧ -(Ny : ℤ) ≤ (H i).2 - (H j).2 ∧
      (H i).2 - (H j).2 < Ny) : ∃ A, toeplitz H u = .ok A := by
  unfold toeplitz
  dsimp only
  rw [if_neg]
  · exact ⟨_, rfl⟩
  · push Not
    intro i j
    obtain ⟨h1, h2, h3, h4⟩ := h i j
    exact ⟨fun hc => pyFin_none.mp hc ⟨h1, h2⟩, fun hc => pyFin_none.mp hc ⟨h3, h4⟩⟩

theorem getIfft_ok {Nx Ny nh : ℕ} [NeZero Nx] [NeZero Ny] {H : Fin nh → ℤ × ℤ} {u : Fin nh → ℂ}
    {g : Grid Nx Ny} (h : getIfft H u Nx Ny = .ok g) :
    (∀ i, -(Nx : ℤ) ≤ (H i).1 ∧ (H i).1 < Nx ∧ -(Ny : ℤ) ≤ (H i).2 ∧ (H i).2 < Ny) ∧ nh ≠ 0 ∧
    g = series H u Nx Ny := by
  unfold getIfft at h
  split at h
  · simp at h
  rename_i hne
  push Not at hne
  split at h
  · simp at h
  rename_i hn
  simp only [Except.ok.injEq] at h
  refine ⟨?_, hn, ?_⟩
  · intro i
    obtain ⟨h1, h2⟩ := hne i
    have h1' := (not_congr (pyFin_none (n := Nx) (i := (H i).1))).mp h1
    have h2' := (not_congr (pyFin_none (n := Ny) (i := (H i).2))).mp h2
    push Not at h1' h2'
    exact ⟨h1'.1, h1'.2, h2'.1, h2'.2⟩
  · rw [← h]
    funext x y
    rw [inverse_eq]
    simp only [Finset.sum_mul]
    have e1 : ∀ p : Fin Nx, ∑ q : Fin Ny, ∑ i, u i *
        (if pyFin Nx (H i).1 = some p ∧ pyFin Ny (H i).2 = some q then (1 : ℂ) else 0) *
        (chi Nx (p : ℕ) (x : ℕ) * chi Ny (q : ℕ) (y : ℕ)) =
        ∑ i, ∑ q : Fin Ny, u i *
        (if pyFin Nx (H i).1 = some p ∧ pyFin Ny (H i).2 = some q then (1 : ℂ) else 0) *
        (chi Nx (p : ℕ) (x : ℕ) * chi Ny (q : ℕ) (y : ℕ)) := fun p => Finset.sum_comm
    rw [Finset.sum_congr rfl (fun p _ => e1 p), Finset.sum_comm]
    unfold series
    refine Finset.sum_congr rfl fun i _ => ?_
    obtain ⟨h1, h2⟩ := hne i
    obtain ⟨p, hp⟩ := Option.ne_none_iff_exists'.mp h1
    obtain ⟨q, hq⟩ := Option.ne_none_iff_exists'.mp h2
    rw [Finset.sum_eq_single p, Finset.sum_eq_single q]
    · rw [hp, hq]
      simp only [and_self, if_true, mul_one]
      rw [← chi_period (pyFin_some hp).2.2 (x : ℕ), ← chi_period (pyFin_some hq).2.2 (y : ℕ)]
      unfold chi
      rw [← Complex.exp_add]
      congr 2
      push_cast
      ring
    · intro q' _ hq'
      rw [if_neg, mul_zero, zero_mul]
      rintro ⟨-, h4⟩
      rw [hq] at h4
      exact hq' (Option.some.inj h4).symm
    · intro hc; exact absurd (Finset.mem_univ _) hc
    · intro p' _ hp'
      refine Finset.sum_eq_zero fun q' _ => ?_
      rw [if_neg, mul_zero, zero_mul]
      rintro ⟨h4, -⟩
      rw [hp] at h4
      exact hp' (Option.some.inj h4).symm
    · intro hc; exact absurd (Finset.mem_univ _) hc

theorem getIfft_exists {Nx Ny nh : ℕ} {H : Fin nh → ℤ × ℤ} (u : Fin nh → ℂ) (hn : nh ≠ 0)
    (h : ∀ i, -(Nx : ℤ) ≤ (H i).1 ∧ (H i).1 < Nx ∧ -(Ny : ℤ) ≤ (H i).2 ∧ (H i).2 < Ny) :
    ∃ g, getIfft H u Nx Ny = .ok g := by
  unfold getIfft
  rw [if_neg, if_neg hn]
  · exact ⟨_, rfl⟩
  · push Not
    intro i
    obtain ⟨h1, h2, h3, h4⟩ := h i
    exact ⟨fun hc => pyFin_none.mp hc ⟨h1, h2⟩, fun hc => pyFin_none.mp hc ⟨h3, h4⟩⟩

/-! ### The Nyquist check -/

theorem foldl_max_le {l : List ℤ} {x b : ℤ} : l.foldl max x ≤ b ↔ x ≤ b ∧ ∀ y ∈ l, y ≤ b := by
  induction l generalizing x with
  | nil => simp
  | cons a l ih => simp only [List.foldl_cons, ih, List.mem_cons, forall_eq_or_imp, max_le_iff]; tauto

theorem maxHarmonic_ok {H : List (ℤ × ℤ)} {M : ℤ} (h : maxHarmonic H = .ok M) :
    ∀ g ∈ H, g.1 ≤ M ∧ g.2 ≤ M := by
  unfold maxHarmonic at h
  split at h
  · simp at h
  · rename_i x xs heq
    simp only [Except.ok.injEq] at h
    have hall : ∀ y ∈ H.flatMap (fun g => [g.1, g.2]), y ≤ M := by
      rw [heq]
      have := foldl_max_le.mp h.le
      intro y hy
      rcases List.mem_cons.mp hy with rfl | hy
      · exact this.1
      · exact this.2 y hy
    intro g hg
    exact ⟨hall _ (List.mem_flatMap.mpr ⟨g, hg, by simp⟩), hall _ (List.mem_flatMap.mpr ⟨g, hg, by simp⟩)⟩

theorem maxHarmonic_mem {H : List (ℤ × ℤ)} {M : ℤ} (h : maxHarmonic H = .ok M) :
    ∃ g ∈ H, g.1 = M ∨ g.2 = M := by
  have aux : ∀ (l : List ℤ) (x : ℤ), l.foldl max x = x ∨ l.foldl max x ∈ l := by
    intro l
    induction l with
    | nil => simp
    | cons a l ih =>
      intro x
      simp only [List.foldl_cons]
      rcases ih (max x a) with h1 | h1
      · rw [h1]
        rcases max_choice x a with h2 | h2 <;> rw [h2] <;> simp
      · right; exact List.mem_cons_of_mem _ h1
  unfold maxHarmonic at h
  split at h
  · simp at h
  · rename_i x xs heq
    simp only [Except.ok.injEq] at h
    have hm : M ∈ H.flatMap (fun g => [g.1, g.2]) := by
      rw [heq]
      rcases aux xs x with h1 | h1
      · rw [← h, h1]; simp
      · rw [← h]; exact List.mem_cons_of_mem _ h1
    obtain ⟨g, hg, hgm⟩ := List.mem_flatMap.mp hm
    refine ⟨g, hg, ?_⟩
    simp at hgm
    tauto

theorem checkNyquist_ok {l : Lattice} {H : List (ℤ × ℤ)} (h : checkNyquist l H = .ok ()) :
    ∃ M, maxHarmonic H = .ok M ∧ 2 * M < l.discretization.1 ∧ (l.is1D = false → 2 * M < l.discretization.2) := by
  unfold checkNyquist at h
  rw [bind_eq_ok] at h
  obtain ⟨M, h1, h2⟩ := h
  refine ⟨M, h1, ?_⟩
  split at h2
  · simp at h2
  · rename_i hne
    push Not at hne
    refine ⟨hne.1, fun hd => ?_⟩
    by_contra hc
    have := hne.2 (by omega)
    simp [hd] at this

end Nannos
