import Verif.Proofs.Fourier
import Mathlib.LinearAlgebra.Matrix.Hermitian

/-! Properties C12-C15: convolution matrices and Fourier transforms. -/

namespace Nannos

open Matrix Spec

/-! ### C12 -/

/-- What C12 asks of a set of harmonics: closed under inversion, each order once, and for a
mono-periodic lattice only orders along `x` on a grid of height one (`mkLattice`, `C05`). -/
structure Spec.GoodHarmonics (l : Lattice) (H : List (ℤ × ℤ)) : Prop where
  nodup : H.Nodup
  symm : ∀ g ∈ H, (-g.1, -g.2) ∈ H
  mono : l.is1D = true → l.discretization.2 = 1 ∧ ∀ g ∈ H, g.2 = 0

theorem nyquist_bounds {l : Lattice} {H : List (ℤ × ℤ)} (hg : GoodHarmonics l H)
    (h : checkNyquist l H = .ok ()) :
    ∃ M, 0 ≤ M ∧ (∀ g ∈ H, |g.1| ≤ M ∧ |g.2| ≤ M) ∧ 2 * M < l.discretization.1 ∧
      (∀ g ∈ H, ∀ g' ∈ H, |g.2 - g'.2| < l.discretization.2) := by
  obtain ⟨M, h1, h2, h3⟩ := checkNyquist_ok h
  have hb : ∀ g ∈ H, |g.1| ≤ M ∧ |g.2| ≤ M := by
    intro g hgm
    have a := maxHarmonic_ok h1 g hgm
    have b := maxHarmonic_ok h1 _ (hg.symm g hgm)
    simp only at b
    constructor <;> rw [abs_le] <;> constructor <;> omega
  obtain ⟨g, hgm, -⟩ := maxHarmonic_mem h1
  refine ⟨M, (abs_nonneg _).trans (hb g hgm).1, hb, h2, ?_⟩
  intro g hgm g' hgm'
  cases hd : l.is1D with
  | true =>
    obtain ⟨e1, e2⟩ := hg.mono hd
    rw [e2 g hgm, e2 g' hgm', e1]; simp
  | false =>
    have := h3 hd
    have k1 := abs_le.mp (hb g hgm).2
    have k2 := abs_le.mp (hb g' hgm').2
    rw [abs_lt]
    constructor <;> omega

/-- **C12** (partial).  When the constructor accepts the discretisation for a good set of harmonics, the
convolution matrix of every pattern on the lattice grid exists (no `IndexError`), and a constant pattern
`c` gives `c` times the identity.  The claim that distinct frequency differences are read from distinct
FFT bins is proved for discretisations above four times the largest harmonic only; it is false between
twice and four times (`C12_differences_alias`). -/
theorem C12_convolution_matrices_defined_partial (l : Lattice) (H : List (ℤ × ℤ))
    (hg : GoodHarmonics l H) (h : checkNyquist l H = .ok ()) :
    (∀ u : Grid l.discretization.1 l.discretization.2, ∃ A, toeplitz H.get u = .ok A) ∧
    (∀ (c : ℂ), toeplitz H.get (fun (_ : Fin l.discretization.1) (_ : Fin l.discretization.2) => c)
      = .ok (c • 1)) ∧
    (∀ M, (∀ g ∈ H, |g.1| ≤ M ∧ |g.2| ≤ M) → 4 * M < l.discretization.1 →
      (l.is1D = true ∨ 4 * M < l.discretization.2) →
      ∀ g₁ ∈ H, ∀ g₂ ∈ H, ∀ g₃ ∈ H, ∀ g₄ ∈ H,
        pyFin l.discretization.1 (g₁.1 - g₂.1) = pyFin l.discretization.1 (g₃.1 - g₄.1) →
        pyFin l.discretization.2 (g₁.2 - g₂.2) = pyFin l.discretization.2 (g₃.2 - g₄.2) →
        (g₁.1 - g₂.1, g₁.2 - g₂.2) = (g₃.1 - g₄.1, g₃.2 - g₄.2)) := by
  obtain ⟨M, hM0, hM, hN, hy⟩ := nyquist_bounds hg h
  have hxd : ∀ g ∈ H, ∀ g' ∈ H, |g.1 - g'.1| < l.discretization.1 := by
    intro g hgm g' hgm'
    have k1 := abs_le.mp (hM g hgm).1
    have k2 := abs_le.mp (hM g' hgm').1
    rw [abs_lt]
    constructor <;> omega
  have hrange : ∀ i j : Fin H.length,
      -(l.discretization.1 : ℤ) ≤ (H.get i).1 - (H.get j).1 ∧
      (H.get i).1 - (H.get j).1 < l.discretization.1 ∧
      -(l.discretization.2 : ℤ) ≤ (H.get i).2 - (H.get j).2 ∧
      (H.get i).2 - (H.get j).2 < l.discretization.2 := by
    intro i j
    have k1 := abs_lt.mp (hxd _ (List.get_mem H i) _ (List.get_mem H j))
    have k2 := abs_lt.mp (hy _ (List.get_mem H i) _ (List.get_mem H j))
    exact ⟨by omega, by omega, by omega, by omega⟩
  refine ⟨fun u => toeplitz_exists u hrange, ?_, ?_⟩
  · intro c
    obtain ⟨A, hA⟩ := toeplitz_exists
      (fun (_ : Fin l.discretization.1) (_ : Fin l.discretization.2) => c) hrange
    rw [hA]
    congr 1
    ext i j
    have pos1 : 0 < l.discretization.1 := by omega
    have pos2 : 0 < l.discretization.2 := by
      have := (abs_nonneg _).trans_lt (hy _ (List.get_mem H i) _ (List.get_mem H i))
      omega
    have : NeZero l.discretization.1 := ⟨pos1.ne'⟩
    have : NeZero l.discretization.2 := ⟨pos2.ne'⟩
    rw [(toeplitz_ok hA).2]
    simp only [of_apply, coeff_const, Matrix.smul_apply, one_apply, smul_eq_mul]
    by_cases hij : i = j
    · subst hij; simp
    · rw [if_neg, if_neg hij, mul_zero]
      rintro ⟨d1, d2⟩
      have e1 := Int.eq_zero_of_abs_lt_dvd d1 (hxd _ (List.get_mem H i) _ (List.get_mem H j))
      have e2 := Int.eq_zero_of_abs_lt_dvd d2 (hy _ (List.get_mem H i) _ (List.get_mem H j))
      exact hij ((List.nodup_iff_injective_get.mp hg.nodup) (Prod.ext (by omega) (by omega)))
  · intro M' hM' h1 h2 g₁ m₁ g₂ m₂ g₃ m₃ g₄ m₄ ex ey
    have inj : ∀ (n : ℕ) (a b : ℤ), |a| < n → |b| < n → |a - b| < n → pyFin n a = pyFin n b → a = b := by
      intro n a b ha hb hab e
      have ha' := abs_lt.mp ha
      obtain ⟨p, hp⟩ := pyFin_isSome (n := n) (i := a) (by omega) (by omega)
      have d1 := (pyFin_some hp).2.2
      have d2 := (pyFin_some (e ▸ hp)).2.2
      have := Int.eq_zero_of_abs_lt_dvd (m := n) (by simpa using dvd_sub d1 d2) hab
      omega
    have bnd : ∀ a b c d N : ℤ, |a| ≤ M' → |b| ≤ M' → |c| ≤ M' → |d| ≤ M' → 4 * M' < N →
        |a - b - (c - d)| < N := by
      intro a b c d N ha hb hc hd hn
      rw [abs_le] at ha hb hc hd
      rw [abs_lt]
      constructor <;> omega
    refine Prod.ext ?_ ?_
    · exact inj _ _ _ (hxd _ m₁ _ m₂) (hxd _ m₃ _ m₄) (bnd _ _ _ _ _ (hM' _ m₁).1 (hM' _ m₂).1
        (hM' _ m₃).1 (hM' _ m₄).1 h1) ex
    · cases hd : l.is1D with
      | true =>
        have e := (hg.mono hd).2
        simp [e _ m₁, e _ m₂, e _ m₃, e _ m₄]
      | false =>
        rw [hd] at h2
        simp only [Bool.false_eq_true, false_or] at h2
        exact inj _ _ _ (hy _ m₁ _ m₂) (hy _ m₃ _ m₄) (bnd _ _ _ _ _ (hM' _ m₁).2 (hM' _ m₂).2
          (hM' _ m₃).2 (hM' _ m₄).2 h2) ey

/-- The lattice of period 1 with three pixels, and its three harmonics. -/
noncomputable def Examples.threePixels : Lattice := ⟨![![1, 0], ![0, 1]], true, .oneD, (3, 1), none⟩

def Examples.threeOrders : List (ℤ × ℤ) := [(-1, 0), (0, 0), (1, 0)]

theorem Examples.threeOrders_good : GoodHarmonics Examples.threePixels Examples.threeOrders := by
  refine ⟨by decide, by decide, fun _ => ⟨rfl, by decide⟩⟩

theorem Examples.threeOrders_accepted :
    checkNyquist Examples.threePixels Examples.threeOrders = .ok () := by
  simp [checkNyquist, Examples.threePixels, Examples.threeOrders, maxHarmonic]

/-- C12 applies to a concrete lattice: `C12` hypotheses are met. -/
example : ∀ c : ℂ, toeplitz Examples.threeOrders.get (fun (_ : Fin 3) (_ : Fin 1) => c) = .ok (c • 1) :=
  (C12_convolution_matrices_defined_partial _ _ Examples.threeOrders_good
    Examples.threeOrders_accepted).2.1

/-- **C12**, refutation of its last claim.  The constructor accepts three pixels for the orders -1, 0, 1
(its bound is twice the largest harmonic, differences reach four times it): the frequency differences 2
and -1 are then read from the same FFT bin, so for every pattern the coupling from order -1 to 1 is
computed as that from 0 to -1. -/
theorem C12_differences_alias :
    checkNyquist Examples.threePixels Examples.threeOrders = .ok () ∧
    ∀ (u : Grid 3 1) A, toeplitz Examples.threeOrders.get u = .ok A →
      A (2 : Fin 3) (0 : Fin 3) = A (0 : Fin 3) (1 : Fin 3) := by
  refine ⟨Examples.threeOrders_accepted, fun u A hA => ?_⟩
  have e := (toeplitz_ok hA).2
  have e1 := congrFun (congrFun e (2 : Fin 3)) (0 : Fin 3)
  have e2 := congrFun (congrFun e (0 : Fin 3)) (1 : Fin 3)
  refine e1.trans (Eq.trans ?_ e2.symm)
  exact coeff_period u (by decide) (by decide)

/-- The check compares the largest, not the largest absolute, harmonic: a user-supplied set that is not
closed under inversion can be accepted although its convolution matrices raise `IndexError`. -/
theorem C12_asymmetric_harmonics_raise :
    ∃ (l : Lattice) (H : List (ℤ × ℤ)), H.Nodup ∧ checkNyquist l H = .ok () ∧
      ∀ u : Grid l.discretization.1 l.discretization.2, toeplitz H.get u = .error .indexError := by
  refine ⟨⟨![![1, 0], ![0, 1]], true, .oneD, (3, 1), none⟩, [(0, 0), (-5, 0)], by decide, ?_, ?_⟩
  · simp [checkNyquist, maxHarmonic]
  · intro u
    unfold toeplitz
    dsimp only
    rw [if_pos]
    refine ⟨(0 : Fin 2), (1 : Fin 2), Or.inl ?_⟩
    rw [pyFin_none]
    decide

/-! ### C13 -/

/-- **C13**. `fourier_transform` and `inverse_fourier_transform` are inverse of each other on every
non-empty grid, and coefficient `(0,0)` is the mean. -/
theorem C13_fourier_pair {Nx Ny : ℕ} (hx : 0 < Nx) (hy : 0 < Ny) :
    (∀ u : Grid Nx Ny, inverseFourierTransform (fourierTransform u) = u) ∧
    (∀ U : Grid Nx Ny, fourierTransform (inverseFourierTransform U) = U) ∧
    (∀ u : Grid Nx Ny, fourierTransform u ⟨0, hx⟩ ⟨0, hy⟩ = (∑ x, ∑ y, u x y) / ((Nx : ℂ) * Ny)) := by
  have : NeZero Nx := ⟨hx.ne'⟩
  have : NeZero Ny := ⟨hy.ne'⟩
  refine ⟨?_, ?_, ?_⟩
  · intro u
    funext x y
    rw [inverse_eq]
    simp only [fourierTransform_eq]
    exact inversion u x y
  · intro U
    funext p q
    rw [fourierTransform_eq]
    have : inverseFourierTransform U = fun (x : Fin Nx) (y : Fin Ny) => ∑ p : Fin Nx, ∑ q : Fin Ny, U p q *
      (chi Nx (p : ℕ) (x : ℕ) * chi Ny (q : ℕ) (y : ℕ)) := by funext x y; exact inverse_eq U x y
    rw [this]
    exact inversion' U p q
  · intro u
    rw [fourierTransform_eq]
    exact coeff_zero_zero u

/-! ### C14 -/

/-- **C14**. The convolution matrix of a real pattern is Hermitian and has the mean of the pattern on its
diagonal; the convolution matrix is linear in the pattern. -/
theorem C14_convolution_matrix_of_real_pattern {Nx Ny nh : ℕ} (hx : 0 < Nx) (hy : 0 < Ny)
    (H : Fin nh → ℤ × ℤ) :
    (∀ (u : Fin Nx → Fin Ny → ℝ) A, toeplitz H (fun x y => (u x y : ℂ)) = .ok A →
      Matrix.IsHermitian A ∧ ∀ i, A i i = ((∑ x, ∑ y, u x y) / (Nx * Ny) : ℝ)) ∧
    (∀ (u v : Grid Nx Ny) A B (s t : ℂ), toeplitz H u = .ok A → toeplitz H v = .ok B →
      toeplitz H (fun x y => s * u x y + t * v x y) = .ok (s • A + t • B)) := by
  have : NeZero Nx := ⟨hx.ne'⟩
  have : NeZero Ny := ⟨hy.ne'⟩
  refine ⟨?_, ?_⟩
  · intro u A hA
    rw [(toeplitz_ok hA).2]
    constructor
    · ext i j
      simp only [conjTranspose_apply, of_apply]
      rw [Complex.star_def, coeff_conj _ (fun x y => Complex.conj_ofReal _)]
      congr 1 <;> ring
    · intro i
      simp only [of_apply, sub_self, coeff_zero_zero, mean]
      push_cast
      rfl
  · intro u v A B s t hA hB
    obtain ⟨C, hC⟩ := toeplitz_exists (H := H) (fun x y => s * u x y + t * v x y) (toeplitz_ok hA).1
    rw [hC, (toeplitz_ok hC).2, (toeplitz_ok hA).2, (toeplitz_ok hB).2]
    congr 1
    ext i j
    simp only [of_apply, Matrix.add_apply, Matrix.smul_apply, smul_eq_mul]
    exact coeff_linear u v s t _ _

/-- C14 on a concrete pattern. -/
example : ∃ A, toeplitz Examples.threeOrders.get (fun (x : Fin 3) (_ : Fin 1) => ((x : ℕ) : ℝ) |> Complex.ofReal)
    = .ok A ∧ Matrix.IsHermitian A := by
  obtain ⟨A, hA⟩ := (C12_convolution_matrices_defined_partial _ _ Examples.threeOrders_good
    Examples.threeOrders_accepted).1 (fun (x : Fin 3) (_ : Fin 1) => (((x : ℕ) : ℝ) : ℂ))
  exact ⟨A, hA, ((C14_convolution_matrix_of_real_pattern (Nx := 3) (Ny := 1) (by norm_num) (by norm_num) _).1
    (fun x _ => ((x : ℕ) : ℝ)) A hA).1⟩

/-! ### C15 -/

/-- **C15**. `get_ifft` evaluates the Fourier series (whenever the harmonics fit in `shape`, which is when
it does not raise); `get_epsilon` of a patterned layer is the Fourier series of the permittivity
truncated to the harmonics, and is the permittivity itself when every FFT bin is covered exactly once. -/
theorem C15_real_space_is_fourier_series {nh : ℕ} (H : Fin nh → ℤ × ℤ) {Nx Ny : ℕ} (hx : 0 < Nx)
    (hy : 0 < Ny) :
    (∀ (u : Fin nh → ℂ) g, getIfft H u Nx Ny = .ok g → ∀ x y, g x y =
      ∑ i, u i * Complex.exp (2 * Real.pi * Complex.I * ((H i).1 * x / Nx + (H i).2 * y / Ny))) ∧
    (∀ u : Fin nh → ℂ, (∃ g, getIfft H u Nx Ny = .ok g) ↔
      nh ≠ 0 ∧ ∀ i, -(Nx : ℤ) ≤ (H i).1 ∧ (H i).1 < Nx ∧ -(Ny : ℤ) ≤ (H i).2 ∧ (H i).2 < Ny) ∧
    (∀ (i0 : Fin nh) (eps : Grid Nx Ny) g, H i0 = (0, 0) → getEpsilon H i0 eps Nx Ny = .ok g →
      (∀ x y, g x y = ∑ i, coeff eps (H i).1 (H i).2 *
        Complex.exp (2 * Real.pi * Complex.I * ((H i).1 * x / Nx + (H i).2 * y / Ny))) ∧
      ((∀ (p : Fin Nx) (q : Fin Ny),
        ∃! i, (Nx : ℤ) ∣ (H i).1 - (p : ℕ) ∧ (Ny : ℤ) ∣ (H i).2 - (q : ℕ)) → g = eps)) := by
  have : NeZero Nx := ⟨hx.ne'⟩
  have : NeZero Ny := ⟨hy.ne'⟩
  refine ⟨?_, ?_, ?_⟩
  · intro u g hg x y
    rw [(getIfft_ok hg).2.2]
    rfl
  · intro u
    exact ⟨fun ⟨g, hg⟩ => ⟨(getIfft_ok hg).2.1, (getIfft_ok hg).1⟩, fun ⟨h1, h2⟩ => getIfft_exists u h1 h2⟩
  · intro i0 eps g h0 hg
    unfold getEpsilon at hg
    rw [bind_eq_ok] at hg
    obtain ⟨A, hA, hg⟩ := hg
    have hcol : ∀ i, A i i0 = coeff eps (H i).1 (H i).2 := by
      intro i; rw [(toeplitz_ok hA).2]; simp [h0]
    have hser : ∀ x y, g x y = ∑ i, coeff eps (H i).1 (H i).2 *
        Complex.exp (2 * Real.pi * Complex.I * ((H i).1 * x / Nx + (H i).2 * y / Ny)) := by
      intro x y
      rw [(getIfft_ok hg).2.2]
      unfold series
      exact Finset.sum_congr rfl fun i _ => by simp only [hcol]
    refine ⟨hser, fun hcov => ?_⟩
    funext x y
    rw [hser]
    have hbin : ∀ i, ∃ pq : Fin Nx × Fin Ny,
        (Nx : ℤ) ∣ (H i).1 - (pq.1 : ℕ) ∧ (Ny : ℤ) ∣ (H i).2 - (pq.2 : ℕ) := by
      intro i
      obtain ⟨a1, a2, a3, a4⟩ := (getIfft_ok hg).1 i
      obtain ⟨p, hp⟩ := pyFin_isSome a1 a2
      obtain ⟨q, hq⟩ := pyFin_isSome a3 a4
      exact ⟨(p, q), (pyFin_some hp).2.2, (pyFin_some hq).2.2⟩
    choose b hb using hbin
    have hbij : Function.Bijective b := by
      constructor
      · intro i j hij
        obtain ⟨k, -, hk⟩ := hcov (b i).1 (b i).2
        exact (hk i (hb i)).trans (hk j (by rw [hij]; exact hb j)).symm
      · rintro ⟨p, q⟩
        obtain ⟨i, hi, -⟩ := hcov p q
        refine ⟨i, Prod.ext (fin_eq_of_dvd ?_) (fin_eq_of_dvd ?_)⟩
        · have := dvd_sub hi.1 (hb i).1; simpa using this
        · have := dvd_sub hi.2 (hb i).2; simpa using this
    rw [← inversion eps x y, ← Fintype.sum_prod_type' (f := fun (p : Fin Nx) (q : Fin Ny) => coeff eps ((p : ℕ) : ℤ) ((q : ℕ) : ℤ) *
      (chi Nx ((p : ℕ) : ℤ) ((x : ℕ) : ℤ) * chi Ny ((q : ℕ) : ℤ) ((y : ℕ) : ℤ)))]
    refine Fintype.sum_bijective b hbij _ _ fun i => ?_
    rw [coeff_period eps (hb i).1 (hb i).2]
    congr 1
    rw [← chi_period (hb i).1 (x : ℕ), ← chi_period (hb i).2 (y : ℕ)]
    unfold chi
    rw [← Complex.exp_add]
    congr 1
    push_cast
    ring

/-- C15 on a concrete pattern: three pixels and three orders reconstruct the pattern exactly. -/
example (eps : Grid 3 1) : getEpsilon Examples.threeOrders.get (1 : Fin 3) eps 3 1 = .ok eps := by
  obtain ⟨A, hA⟩ := (C12_convolution_matrices_defined_partial _ _ Examples.threeOrders_good
    Examples.threeOrders_accepted).1 eps
  obtain ⟨g, hg⟩ := getIfft_exists (H := Examples.threeOrders.get) (Nx := 3) (Ny := 1)
    (fun i => A i (1 : Fin 3)) (by decide) (by decide)
  have h : getEpsilon Examples.threeOrders.get (1 : Fin 3) eps 3 1 = .ok g := by
    unfold getEpsilon
    erw [hA]
    exact hg
  rw [h, ((C15_real_space_is_fourier_series _ (by norm_num) (by norm_num)).2.2 _ _ _ rfl h).2]
  have key : ∀ (p : Fin 3) (q : Fin 1), ∃ i : Fin 3,
      ((3 : ℤ) ∣ (Examples.threeOrders.get i).1 - (p : ℕ) ∧
        (1 : ℤ) ∣ (Examples.threeOrders.get i).2 - (q : ℕ)) ∧
      ∀ j : Fin 3, (3 : ℤ) ∣ (Examples.threeOrders.get j).1 - (p : ℕ) ∧
        (1 : ℤ) ∣ (Examples.threeOrders.get j).2 - (q : ℕ) → j = i := by decide
  intro p q
  obtain ⟨i, h1, h2⟩ := key p q
  exact ⟨i, h1, h2⟩

/-- **C15**, errors: `get_ifft` raises `IndexError` when an order is not an index of an axis, and `ValueError` when there
are no orders. -/
theorem C15_errors {nh : ℕ} (H : Fin nh → ℤ × ℤ) (u : Fin nh → ℂ) (Nx Ny : ℕ) :
    (getIfft H u Nx Ny = .error .valueError ↔ nh = 0) ∧
    (getIfft H u Nx Ny = .error .indexError ↔
      ∃ i, ¬ (-(Nx : ℤ) ≤ (H i).1 ∧ (H i).1 < Nx ∧ -(Ny : ℤ) ≤ (H i).2 ∧ (H i).2 < Ny)) ∧
    ∀ e, getIfft H u Nx Ny = .error e → e = .valueError ∨ e = .indexError := by
  have hb : (∃ i, pyFin Nx (H i).1 = none ∨ pyFin Ny (H i).2 = none) ↔
      ∃ i, ¬ (-(Nx : ℤ) ≤ (H i).1 ∧ (H i).1 < Nx ∧ -(Ny : ℤ) ≤ (H i).2 ∧ (H i).2 < Ny) := by
    refine exists_congr fun i => ?_
    rw [pyFin_none, pyFin_none]
    tauto
  unfold getIfft
  by_cases h1 : ∃ i, pyFin Nx (H i).1 = none ∨ pyFin Ny (H i).2 = none
  · have hn : nh ≠ 0 := by
      obtain ⟨i, -⟩ := h1
      intro h0
      have := i.isLt
      omega
    rw [if_pos h1, ← hb]
    simp [hn, h1]
  · rw [if_neg h1, ← hb]
    by_cases h2 : nh = 0
    · simp [h2, h1]
    · simp [h2, h1]

example : getIfft (nh := 1) (fun _ => (2, 0)) (fun _ => 1) 2 2 = .error .indexError :=
  (C15_errors _ _ 2 2).2.1.mpr ⟨0, by norm_num⟩

end Nannos
