import Verif.Proofs.Filter
import Mathlib.Tactic.FieldSimp
import Mathlib.Tactic.Linarith

/-!
C51 and C60: the density filter.
Positions are cyclic: in `Fin n`, `i + j` and `i - j` are taken modulo `n`.
-/

namespace Nannos

variable {Nx Ny : ℕ}

/-- **C51**, no filter: a zero radius leaves the array unchanged, complex entries included. -/
theorem C51_zero_radius (u : Grid Nx Ny) (vectors : Option (Fin 2 → Fin 2 → ℝ)) : applyFilter u (0, 0) vectors = .ok u := by
  unfold applyFilter
  rw [if_pos rfl]

/-- **C51**, on every grid with at least two pixels in each direction the filter with non-zero radii returns, at every
position, a fixed combination with positive weights of the (real parts of the) entries around it. -/
theorem C51_weighted_average [NeZero Nx] [NeZero Ny] (hx : 2 ≤ Nx) (hy : 2 ≤ Ny) (r : ℝ × ℝ) (h1 : r.1 ≠ 0) (h2 : r.2 ≠ 0)
    (vectors : Option (Fin 2 → Fin 2 → ℝ)) :
    ∃ w : Fin Nx → Fin Ny → ℝ, (∀ a b, 0 < w a b) ∧ ∀ u : Grid Nx Ny,
      applyFilter u r vectors = .ok fun i j => ((∑ a, ∑ b, w a b * (u (i - a) (j - b)).re : ℝ) : ℂ) :=
  ⟨_, fun a b => mul_pos (weight_pos hx _ _ a) (weight_pos hy _ _ b), fun u => applyFilter_ok hx hy u r h1 h2 vectors⟩

/-- **C51**, linearity, for arrays and coefficients that are real: no other hypothesis, and all three calls succeed or
raise together. -/
theorem C51_linear (r : ℝ × ℝ) (vectors : Option (Fin 2 → Fin 2 → ℝ)) (u v : Grid Nx Ny) (s t : ℝ) :
    (∃ fu fv, applyFilter u r vectors = .ok fu ∧ applyFilter v r vectors = .ok fv ∧
      applyFilter (fun i j => s * u i j + t * v i j) r vectors = .ok fun i j => s * fu i j + t * fv i j) ∨
    ∃ e, applyFilter u r vectors = .error e ∧ applyFilter v r vectors = .error e ∧
      applyFilter (fun i j => s * u i j + t * v i j) r vectors = .error e := by
  classical
  by_cases h0 : r = (0, 0)
  · subst h0
    simp only [C51_zero_radius]
    exact .inl ⟨u, v, rfl, rfl, rfl⟩
  by_cases he : Nx = 0 ∨ Ny = 0
  · right
    refine ⟨.valueError, ?_⟩
    unfold applyFilter
    simp only [if_neg h0, if_pos he, and_self]
  by_cases hb : (2 ≤ Nx ∧ 2 ≤ Ny) ∧ r.1 ≠ 0 ∧ r.2 ≠ 0
  · left
    obtain ⟨⟨hx, hy⟩, h1, h2⟩ := hb
    have : NeZero Nx := ⟨by omega⟩
    have : NeZero Ny := ⟨by omega⟩
    obtain ⟨w, -, hw⟩ := C51_weighted_average hx hy r h1 h2 vectors
    refine ⟨_, _, hw u, hw v, ?_⟩
    rw [hw]
    congr 1
    funext i j
    rw [← Complex.ofReal_mul, ← Complex.ofReal_mul, ← Complex.ofReal_add]
    congr 1
    rw [Finset.mul_sum, Finset.mul_sum, ← Finset.sum_add_distrib]
    refine Finset.sum_congr rfl fun a _ => ?_
    rw [Finset.mul_sum, Finset.mul_sum, ← Finset.sum_add_distrib]
    refine Finset.sum_congr rfl fun b _ => ?_
    rw [Complex.add_re, Complex.re_ofReal_mul, Complex.re_ofReal_mul]
    ring
  · right
    refine ⟨.nonfinite, ?_⟩
    have key : ∀ x : Grid Nx Ny, applyFilter x r vectors = .error .nonfinite := by
      intro x
      have hor : (r.1 = 0 ∨ Nx ≤ 1) ∨ (r.2 = 0 ∨ Ny ≤ 1) := by
        by_contra hc
        push Not at hc
        exact hb ⟨⟨by omega, by omega⟩, hc.1.1, hc.2.1⟩
      have k : ∀ lx ly : ℝ, ∀ f : (Fin Nx → ℝ) → (Fin Ny → ℝ) → Except PyErr (Grid Nx Ny), (do
          let bumpx ← bump (n := Nx) lx r.1
          let bumpy ← bump (n := Ny) ly r.2
          f bumpx bumpy) = .error .nonfinite := by
        intro lx ly f
        rcases hor with h | h
        · rw [bump_err lx r.1 h]
          rfl
        · rw [bump_err ly r.2 h]
          unfold bump
          dsimp only
          split_ifs <;> rfl
      unfold applyFilter
      rw [if_neg h0, if_neg he]
      cases vectors with
      | none => exact k _ _ _
      | some v => exact k _ _ _
    exact ⟨key _, key _, key _⟩

/-- **C51**, translations: filtering an array shifted cyclically by `(p, q)` gives the filtered array, shifted. -/
theorem C51_translation [NeZero Nx] [NeZero Ny] (hx : 2 ≤ Nx) (hy : 2 ≤ Ny) (r : ℝ × ℝ) (h1 : r.1 ≠ 0) (h2 : r.2 ≠ 0)
    (vectors : Option (Fin 2 → Fin 2 → ℝ)) (u : Grid Nx Ny) (p : Fin Nx) (q : Fin Ny) :
    ∃ f, applyFilter u r vectors = .ok f ∧
      applyFilter (fun i j => u (i - p) (j - q)) r vectors = .ok fun i j => f (i - p) (j - q) := by
  obtain ⟨w, -, hw⟩ := C51_weighted_average hx hy r h1 h2 vectors
  refine ⟨_, hw u, ?_⟩
  rw [hw]
  congr 1
  funext i j
  congr 1
  refine Finset.sum_congr rfl fun a _ => Finset.sum_congr rfl fun b _ => ?_
  rw [sub_right_comm i a p, sub_right_comm j b q]

/-- **C51, the claim on constants fails**: every constant array is multiplied by a number larger than one, which depends on the
grid and the radii only. -/
theorem C51_constants_are_amplified [NeZero Nx] [NeZero Ny] (hx : 2 ≤ Nx) (hy : 2 ≤ Ny) (r : ℝ × ℝ) (h1 : r.1 ≠ 0) (h2 : r.2 ≠ 0)
    (vectors : Option (Fin 2 → Fin 2 → ℝ)) : ∃ gain : ℝ, 1 < gain ∧ ∀ c : ℝ,
      applyFilter (fun (_ : Fin Nx) (_ : Fin Ny) => (c : ℂ)) r vectors = .ok fun _ _ => ((gain * c : ℝ) : ℂ) := by
  refine ⟨(∑ a, weight (window Nx Ny vectors).1 r.1 Nx a) * ∑ b, weight (window Nx Ny vectors).2 r.2 Ny b,
    one_lt_mul_of_lt_of_le (weight_sum hx _ _) (weight_sum hy _ _).le, fun c => ?_⟩
  rw [applyFilter_ok hx hy _ r h1 h2 vectors]
  congr 1
  funext i j
  congr 1
  simp only [Complex.ofReal_re]
  rw [Finset.sum_mul, Finset.sum_mul]
  refine Finset.sum_congr rfl fun a _ => ?_
  rw [Finset.mul_sum, Finset.sum_mul]

/-- **C51, the parts that hold together**: linear, translation equivariant and the identity for zero radii; constants
are mapped to constants, in proportion. -/
theorem C51_filter_partial [NeZero Nx] [NeZero Ny] (hx : 2 ≤ Nx) (hy : 2 ≤ Ny) (r : ℝ × ℝ) (h1 : r.1 ≠ 0) (h2 : r.2 ≠ 0)
    (vectors : Option (Fin 2 → Fin 2 → ℝ)) :
    (∀ u : Grid Nx Ny, applyFilter u (0, 0) vectors = .ok u) ∧
    ∃ F : Grid Nx Ny → Grid Nx Ny, (∀ u, applyFilter u r vectors = .ok (F u)) ∧
      (∀ (u v : Grid Nx Ny) (s t : ℝ), F (fun i j => s * u i j + t * v i j) = fun i j => s * F u i j + t * F v i j) ∧
      (∀ (u : Grid Nx Ny) (p : Fin Nx) (q : Fin Ny), F (fun i j => u (i - p) (j - q)) = fun i j => F u (i - p) (j - q)) ∧
      ∃ gain : ℝ, ∀ c : ℝ, F (fun _ _ => (c : ℂ)) = fun _ _ => ((gain * c : ℝ) : ℂ) := by
  obtain ⟨w, -, hw⟩ := C51_weighted_average hx hy r h1 h2 vectors
  obtain ⟨gain, -, hg⟩ := C51_constants_are_amplified hx hy r h1 h2 vectors
  refine ⟨fun u => C51_zero_radius u vectors, _, hw, fun u v s t => ?_, fun u p q => ?_, gain, fun c => ?_⟩
  · rcases C51_linear r vectors u v s t with ⟨fu, fv, e1, e2, e3⟩ | ⟨e, e1, -, -⟩
    · rw [hw] at e1 e2 e3
      cases e1
      cases e2
      exact Except.ok.inj e3
    · rw [hw] at e1
      cases e1
  · obtain ⟨f, e1, e2⟩ := C51_translation hx hy r h1 h2 vectors u p q
    rw [hw] at e1 e2
    cases e1
    exact Except.ok.inj e2
  · have := hg c
    rw [hw] at this
    exact Except.ok.inj this

/-- **C51**, arrays with a single row or column cannot be filtered: the kernel is normalised by a trapezoidal
integral, which vanishes, and the result is not finite. -/
theorem C51_single_row (u : Grid Nx Ny) (hx : 0 < Nx) (hy : 0 < Ny) (h : Nx = 1 ∨ Ny = 1) (r : ℝ × ℝ) (hr : r ≠ (0, 0))
    (vectors : Option (Fin 2 → Fin 2 → ℝ)) : applyFilter u r vectors = .error .nonfinite := by
  classical
  have k : ∀ lx ly : ℝ, ∀ f : (Fin Nx → ℝ) → (Fin Ny → ℝ) → Except PyErr (Grid Nx Ny), (do
      let bumpx ← bump (n := Nx) lx r.1
      let bumpy ← bump (n := Ny) ly r.2
      f bumpx bumpy) = .error .nonfinite := by
    intro lx ly f
    rcases h with h | h
    · rw [bump_err lx r.1 (.inr h.le)]
      rfl
    · rw [bump_err ly r.2 (.inr h.le)]
      unfold bump
      dsimp only
      split_ifs <;> rfl
  unfold applyFilter
  rw [if_neg hr, if_neg (by omega)]
  cases vectors with
  | none => exact k _ _ _
  | some v => exact k _ _ _

/-! ### C60: where the filter puts things -/

theorem linspaceSym_abs (l : ℝ) {n : ℕ} (hn : 2 ≤ n) (i : Fin n) :
    linspaceSym l n i = l * (2 * (i : ℝ) - ((n : ℝ) - 1)) / (2 * ((n : ℝ) - 1)) := by
  have e : ((n - 1 : ℕ) : ℝ) = (n : ℝ) - 1 := by
    rw [Nat.cast_sub (by omega), Nat.cast_one]
  have h : (n : ℝ) - 1 ≠ 0 := by
    have : (2 : ℝ) ≤ n := by exact_mod_cast hn
    linarith
  unfold linspaceSym
  rw [e]
  field_simp
  ring

theorem bell_congr (l r : ℝ) {n : ℕ} (hn : 2 ≤ n) (i j : Fin n) (h : (i : ℕ) + j = n - 1) : bell l r n i = bell l r n j := by
  have e : (i : ℝ) + j = (n : ℝ) - 1 := by
    have : ((n - 1 : ℕ) : ℝ) = (n : ℝ) - 1 := by
      rw [Nat.cast_sub (by omega), Nat.cast_one]
    rw [← this, ← h]
    push_cast
    rfl
  unfold bell
  rw [linspaceSym_abs l hn, linspaceSym_abs l hn]
  have : 2 * (i : ℝ) - ((n : ℝ) - 1) = -(2 * (j : ℝ) - ((n : ℝ) - 1)) := by linarith
  rw [this]
  congr 3
  ring

/-- Pixels by which twice the displacement is counted: two for an odd number of pixels, one for an even number. -/
def drift (n : ℕ) [NeZero n] : Fin n := if n % 2 = 1 then 1 + 1 else 1

theorem weight_symm (l r : ℝ) {n : ℕ} [NeZero n] (hn : 2 ≤ n) (p : Fin n) : weight l r n (-drift n - p) = weight l r n p := by
  unfold weight
  congr 1
  apply bell_congr l r hn
  have hone : ((1 : Fin n) : ℕ) = 1 := by rw [Fin.val_one', Nat.mod_eq_of_lt (by omega)]
  have hdr : ((drift n : Fin n) : ℕ) = (if n % 2 = 1 then 2 else 1) := by
    unfold drift
    split_ifs with h
    · rw [Fin.val_add, hone, Nat.mod_eq_of_lt]
      omega
    · exact hone
  have hp := p.isLt
  have hd : ((drift n : Fin n) : ℕ) < n := (drift n).isLt
  have hh : ((half n : Fin n) : ℕ) = n / 2 := rfl
  rw [Fin.sub_def, Fin.sub_def, Fin.sub_def, Fin.neg_def]
  simp only [hh]
  generalize ((drift n : Fin n) : ℕ) = d at *
  have h1 : (n - d) % n = if d = 0 then 0 else n - d := by
    split_ifs with h
    · subst h
      simp
    · exact Nat.mod_eq_of_lt (by omega)
  have h2 : ∀ k m : ℕ, m < n → k < n → (n - k + m) % n = if k ≤ m then m - k else n - k + m := by
    intro k m hm hk
    split_ifs with h
    · rw [show n - k + m = (m - k) + n by omega, Nat.add_mod_right, Nat.mod_eq_of_lt (by omega)]
    · exact Nat.mod_eq_of_lt (by omega)
  have hm1 : (n - d) % n < n := Nat.mod_lt _ (by omega)
  have hm2 : (n - (p : ℕ) + (n - d) % n) % n < n := Nat.mod_lt _ (by omega)
  rw [h2 (n / 2) _ hm2 (by omega), h2 (n / 2) _ hp (by omega), h2 _ _ hm1 hp, h1]
  split_ifs at * <;> omega

/-- **C60, what holds**: a pattern symmetric about a pixel `c` along the first axis is mapped to one symmetric about the
point one pixel (odd number of pixels) or half a pixel (even number) before `c`. -/
theorem C60_symmetric_patterns_partial [NeZero Nx] [NeZero Ny] (hx : 2 ≤ Nx) (hy : 2 ≤ Ny) (r : ℝ × ℝ) (h1 : r.1 ≠ 0) (h2 : r.2 ≠ 0)
    (vectors : Option (Fin 2 → Fin 2 → ℝ)) (u : Grid Nx Ny) (c : Fin Nx) (hu : ∀ i j, u (c + c - i) j = u i j) :
    ∃ f, applyFilter u r vectors = .ok f ∧ ∀ i j, f (c + c - (if Nx % 2 = 1 then 1 + 1 else 1) - i) j = f i j := by
  refine ⟨_, applyFilter_ok hx hy u r h1 h2 vectors, fun i j => ?_⟩
  congr 1
  rw [← Equiv.sum_comp (Equiv.subLeft (-drift Nx))]
  refine Finset.sum_congr rfl fun a _ => Finset.sum_congr rfl fun b _ => ?_
  rw [Equiv.subLeft_apply, weight_symm _ _ hx, ← hu (i - a)]
  congr 3
  change c + c - drift Nx - i - (-drift Nx - a) = c + c - (i - a)
  abel

/-- **C60, the claim fails**: on every grid with at least three pixels along the first axis, a single bright pixel, which is
symmetric about itself, is mapped to a spot that is brighter before the pixel than after it. -/
theorem C60_filter_displaces [NeZero Nx] [NeZero Ny] (hx : 3 ≤ Nx) (hy : 2 ≤ Ny) (r : ℝ × ℝ) (h1 : r.1 ≠ 0) (h2 : r.2 ≠ 0)
    (vectors : Option (Fin 2 → Fin 2 → ℝ)) (hv : ∀ v, vectors = some v → v 0 0 ≠ 0) (c : Fin Nx) (c' : Fin Ny) :
    ∃ f, applyFilter (fun i j => if i = c ∧ j = c' then 1 else 0) r vectors = .ok f ∧ ∀ j, (f (c + 1) j).re < (f (c - 1) j).re := by
  have hl : (window Nx Ny vectors).1 ≠ 0 := by
    cases vectors with
    | none =>
      change (Nx : ℝ) ≠ 0
      exact_mod_cast (by omega : Nx ≠ 0)
    | some v => exact hv v rfl
  refine ⟨_, applyFilter_ok (by omega) hy _ r h1 h2 vectors, fun j => ?_⟩
  rw [Complex.ofReal_re, Complex.ofReal_re]
  have key : ∀ i : Fin Nx, (∑ a : Fin Nx, ∑ b : Fin Ny, weight (window Nx Ny vectors).1 r.1 Nx a * weight (window Nx Ny vectors).2 r.2 Ny b *
      ((if i - a = c ∧ j - b = c' then 1 else 0 : ℂ)).re) = weight (window Nx Ny vectors).1 r.1 Nx (i - c) * weight (window Nx Ny vectors).2 r.2 Ny (j - c') := by
    intro i
    rw [Finset.sum_eq_single (i - c), Finset.sum_eq_single (j - c')]
    · rw [sub_sub_cancel, sub_sub_cancel, if_pos ⟨rfl, rfl⟩, Complex.one_re, mul_one]
    · intro b _ hb
      rw [if_neg, Complex.zero_re, mul_zero]
      rintro ⟨-, h⟩
      exact hb (by rw [← h, sub_sub_cancel])
    · intro h
      exact absurd (Finset.mem_univ _) h
    · intro a _ ha
      apply Finset.sum_eq_zero
      intro b _
      rw [if_neg, Complex.zero_re, mul_zero]
      rintro ⟨h, -⟩
      exact ha (by rw [← h, sub_sub_cancel])
    · intro h
      exact absurd (Finset.mem_univ _) h
  rw [key, key]
  apply mul_lt_mul_of_pos_right _ (weight_pos hy _ _ _)
  rw [add_sub_cancel_left, sub_right_comm, sub_self, zero_sub]
  unfold weight
  apply div_lt_div_of_pos_right _ (trapz_pos (by omega) _ (bell_pos _ _ _))
  unfold bell
  rw [Real.exp_lt_exp, linspaceSym_abs _ (by omega), linspaceSym_abs _ (by omega)]
  have hN : (3 : ℝ) ≤ Nx := by exact_mod_cast hx
  have hone : ((1 : Fin Nx) : ℕ) = 1 := by rw [Fin.val_one', Nat.mod_eq_of_lt (by omega)]
  have hh : ((half Nx : Fin Nx) : ℕ) = Nx / 2 := rfl
  have hneg : ((-1 : Fin Nx) : ℕ) = Nx - 1 := by
    rw [Fin.neg_def]
    simp only [hone]
    exact Nat.mod_eq_of_lt (by omega)
  have ha : ((1 - half Nx : Fin Nx) : ℕ) = if Nx = 3 then 0 else Nx - Nx / 2 + 1 := by
    rw [Fin.sub_def]
    simp only [hh, hone]
    split_ifs with h
    · subst h
      rfl
    · exact Nat.mod_eq_of_lt (by omega)
  have hb : ((-1 - half Nx : Fin Nx) : ℕ) = Nx - 1 - Nx / 2 := by
    rw [Fin.sub_def]
    simp only [hh, hneg]
    rw [show Nx - Nx / 2 + (Nx - 1) = (Nx - 1 - Nx / 2) + Nx by omega, Nat.add_mod_right, Nat.mod_eq_of_lt (by omega)]
  set A := ((1 - half Nx : Fin Nx) : ℕ) with hA
  set B := ((-1 - half Nx : Fin Nx) : ℕ) with hB
  have hi : (2 * (B : ℤ) - (Nx - 1)) ^ 2 < (2 * (A : ℤ) - (Nx - 1)) ^ 2 := by
    rw [sq_lt_sq]
    rcases abs_cases (2 * (B : ℤ) - (Nx - 1)) with ⟨e1, s1⟩ | ⟨e1, s1⟩ <;> rcases abs_cases (2 * (A : ℤ) - (Nx - 1)) with ⟨e2, s2⟩ | ⟨e2, s2⟩ <;>
      rw [e1, e2] <;> clear e1 e2 <;> split_ifs at ha with h3 <;> omega
  have hi' : (2 * (B : ℝ) - (Nx - 1)) ^ 2 < (2 * (A : ℝ) - (Nx - 1)) ^ 2 := by exact_mod_cast hi
  have hr : 0 < r.1 ^ 2 := by positivity
  have hl2 : 0 < (window Nx Ny vectors).1 ^ 2 := by positivity
  have hd : 0 < (2 * ((Nx : ℝ) - 1)) ^ 2 := by
    have : (Nx : ℝ) - 1 ≠ 0 := by linarith
    positivity
  apply div_lt_div_of_pos_right _ hr
  rw [neg_lt_neg_iff, div_pow, div_pow, mul_pow _ (2 * (B : ℝ) - (Nx - 1)), mul_pow _ (2 * (A : ℝ) - (Nx - 1))]
  exact div_lt_div_of_pos_right (mul_lt_mul_of_pos_left hi' hl2) hd

/-- The hypotheses are met: a 64 by 64 pattern with a filter radius of 3 pixels. -/
example : ∃ gain : ℝ, 1 < gain ∧ applyFilter (fun (_ : Fin 64) (_ : Fin 64) => 1) (3, 3) none = .ok fun _ _ => (gain : ℂ) := by
  obtain ⟨g, h1, h2⟩ := C51_constants_are_amplified (Nx := 64) (Ny := 64) (by norm_num) (by norm_num) (3, 3) (by norm_num) (by norm_num) none
  exact ⟨g, h1, by simpa using h2 1⟩

end Nannos
