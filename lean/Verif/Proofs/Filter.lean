import Verif.Model.Filter
import Verif.Proofs.Fourier
import Mathlib.Algebra.Group.Fin.Basic
import Mathlib.Algebra.BigOperators.Fin
import Mathlib.Tactic.Positivity

/-! The density filter as a cyclic convolution. -/

namespace Nannos

open Spec

variable {Nx Ny : ℕ}

/-- Characters turn convolutions into products. -/
theorem sum_conv {α : Type} [AddCommGroup α] [Fintype α] (ψ : α → ℂ) (hψ : ∀ a b, ψ (a + b) = ψ a * ψ b) (k u : α → ℂ) :
    ∑ x, (∑ a, k a * u (x - a)) * ψ x = (∑ a, k a * ψ a) * ∑ x, u x * ψ x := by
  simp only [Finset.sum_mul]
  rw [Finset.sum_comm]
  refine Finset.sum_congr rfl fun a _ => ?_
  rw [Finset.mul_sum]
  rw [← Equiv.sum_comp (Equiv.subRight a) (fun x => k a * ψ a * (u x * ψ x))]
  refine Finset.sum_congr rfl fun x _ => ?_
  have : ψ x = ψ (x - a) * ψ a := by rw [← hψ, sub_add_cancel]
  simp only [Equiv.subRight_apply]
  rw [this]
  ring

theorem chi_fin_add {n : ℕ} [NeZero n] (k : ℤ) (x y : Fin n) :
    chi n k ((x + y : Fin n) : ℕ) = chi n k (x : ℕ) * chi n k (y : ℕ) := by
  rw [← chi_add, chi_comm, chi_comm (x := ((x : ℕ) : ℤ) + ((y : ℕ) : ℤ))]
  have h : (n : ℤ) ∣ ((x + y : Fin n) : ℕ) - (((x : ℕ) : ℤ) + ((y : ℕ) : ℤ)) := by
    rw [Fin.val_add]
    push_cast
    refine ⟨-(((x : ℕ) + (y : ℕ) : ℤ) / n), ?_⟩
    have := Int.emod_add_mul_ediv ((x : ℕ) + (y : ℕ) : ℤ) n
    linear_combination this
  have e : (((x + y : Fin n) : ℕ) : ℤ) = ((((x + y : Fin n) : ℕ) : ℤ) - (((x : ℕ) : ℤ) + ((y : ℕ) : ℤ))) + (((x : ℕ) : ℤ) + ((y : ℕ) : ℤ)) := by ring
  rw [e, chi_add_left, (chi_eq_one _ _).mpr (Dvd.dvd.mul_right h k), one_mul]

/-- Cyclic convolution. -/
noncomputable def cconv [NeZero Nx] [NeZero Ny] (k u : Grid Nx Ny) : Grid Nx Ny := fun x y =>
  ∑ a : Fin Nx, ∑ b : Fin Ny, k a b * u (x - a) (y - b)

theorem coeff_cconv [NeZero Nx] [NeZero Ny] (k u : Grid Nx Ny) (p q : ℤ) :
    coeff (cconv k u) p q = coeff k p q * coeff u p q * ((Nx : ℂ) * Ny) := by
  have h1 : (Nx : ℂ) ≠ 0 := by exact_mod_cast NeZero.ne Nx
  have h2 : (Ny : ℂ) ≠ 0 := by exact_mod_cast NeZero.ne Ny
  have key := sum_conv (α := Fin Nx × Fin Ny) (fun z => chi Nx (-p) (z.1 : ℕ) * chi Ny (-q) (z.2 : ℕ))
    (fun a b => by rw [Prod.fst_add, Prod.snd_add, chi_fin_add, chi_fin_add]; ring)
    (fun z => k z.1 z.2) (fun z => u z.1 z.2)
  simp only [Fintype.sum_prod_type, Prod.fst_sub, Prod.snd_sub] at key
  rw [coeff_eq, coeff_eq, coeff_eq]
  unfold cconv
  rw [key]
  field_simp

theorem filter_core [NeZero Nx] [NeZero Ny] (k u : Grid Nx Ny) (i : Fin Nx) (j : Fin Ny) :
    inverseFourierTransform (fun p q => fourierTransform k p q * fourierTransform u p q) i j * ((Nx : ℂ) * Ny) = cconv k u i j := by
  rw [inverse_eq, ← inversion (cconv k u) i j, Finset.sum_mul]
  refine Finset.sum_congr rfl fun p _ => ?_
  rw [Finset.sum_mul]
  refine Finset.sum_congr rfl fun q _ => ?_
  rw [coeff_cconv, fourierTransform_eq, fourierTransform_eq]
  ring

/-- `n // 2` as a position. -/
def half (n : ℕ) [NeZero n] : Fin n := ⟨n / 2, Nat.div_lt_self (Nat.pos_of_ne_zero (NeZero.ne n)) (by norm_num)⟩

theorem shiftIdx_eq {n : ℕ} [NeZero n] (i : Fin n) : shiftIdx i = i - half n := by
  apply Fin.ext
  rw [Fin.sub_def]
  simp only [shiftIdx, half]
  congr 1
  omega

theorem trapz_pos {n : ℕ} (hn : 2 ≤ n) (b : Fin n → ℝ) (hb : ∀ i, 0 < b i) : 0 < trapz b := by
  unfold trapz
  apply Finset.sum_pos
  · intro i _
    have := hb ⟨i, by omega⟩
    have := hb ⟨i + 1, by omega⟩
    positivity
  · exact ⟨⟨0, by omega⟩, Finset.mem_univ _⟩

theorem trapz_eq {n : ℕ} (b : Fin (n + 1) → ℝ) : trapz b = ∑ i, b i - (b 0 + b (Fin.last n)) / 2 := by
  have h1 := Fin.sum_univ_succ b
  have h2 := Fin.sum_univ_castSucc b
  have : trapz b = ∑ i : Fin n, (b i.castSucc + b i.succ) / 2 := rfl
  rw [this, ← Finset.sum_div, Finset.sum_add_distrib]
  linarith

/-- The samples before they are normalised. -/
noncomputable def bell (l r : ℝ) (n : ℕ) (i : Fin n) : ℝ := Real.exp (-(linspaceSym l n i ^ 2) / r ^ 2)

theorem bell_pos (l r : ℝ) (n : ℕ) (i : Fin n) : 0 < bell l r n i := Real.exp_pos _

theorem bump_ok {n : ℕ} (hn : 2 ≤ n) (l r : ℝ) (hr : r ≠ 0) :
    bump (n := n) l r = .ok fun i => bell l r n i / trapz (bell l r n) := by
  have h := (trapz_pos hn _ (bell_pos l r n)).ne'
  unfold bump
  dsimp only
  rw [if_neg]
  · rfl
  · rintro (h1 | h1)
    · exact hr h1
    · exact h h1

theorem bump_err {n : ℕ} (l r : ℝ) (h : r = 0 ∨ n ≤ 1) : bump (n := n) l r = .error .nonfinite := by
  unfold bump
  dsimp only
  rw [if_pos]
  rcases h with h | h
  · exact .inl h
  · right
    unfold trapz
    have : IsEmpty (Fin (n - 1)) := by
      have : n - 1 = 0 := by omega
      rw [this]
      infer_instance
    simp

/-- The extent of the window: in pixels, or given by the lattice vectors. -/
def window (Nx Ny : ℕ) (vectors : Option (Fin 2 → Fin 2 → ℝ)) : ℝ × ℝ :=
  match vectors with
  | none => (Nx, Ny)
  | some v => (v 0 0, v 1 1)

/-- The weights of the filter along one axis. -/
noncomputable def weight (l r : ℝ) (n : ℕ) [NeZero n] (p : Fin n) : ℝ := bell l r n (p - half n) / trapz (bell l r n)

theorem applyFilter_ok [NeZero Nx] [NeZero Ny] (hx : 2 ≤ Nx) (hy : 2 ≤ Ny) (u : Grid Nx Ny) (r : ℝ × ℝ) (h1 : r.1 ≠ 0)
    (h2 : r.2 ≠ 0) (vectors : Option (Fin 2 → Fin 2 → ℝ)) :
    applyFilter u r vectors = .ok fun i j => ((∑ a : Fin Nx, ∑ b : Fin Ny,
      weight (window Nx Ny vectors).1 r.1 Nx a * weight (window Nx Ny vectors).2 r.2 Ny b * (u (i - a) (j - b)).re : ℝ) : ℂ) := by
  classical
  have hr : r ≠ (0, 0) := by
    intro h
    rw [h] at h1
    exact h1 rfl
  unfold applyFilter
  rw [if_neg hr, if_neg (by omega)]
  have key : ∀ lx ly : ℝ, (do
      let bumpx ← bump (n := Nx) lx r.1
      let bumpy ← bump (n := Ny) ly r.2
      let kernel : Grid Nx Ny := fun i j => ((bumpx i * bumpy j : ℝ) : ℂ)
      let kernelFt := fourierTransform kernel
      let imgFt := fourierTransform u
      let out := inverseFourierTransform fun p q => kernelFt p q * imgFt p q
      pure fun i j => (((out (shiftIdx i) (shiftIdx j)).re : ℝ) : ℂ) * ((Nx : ℂ) * Ny) : Except PyErr (Grid Nx Ny)) =
      .ok fun i j => ((∑ a : Fin Nx, ∑ b : Fin Ny, weight lx r.1 Nx a * weight ly r.2 Ny b * (u (i - a) (j - b)).re : ℝ) : ℂ) := by
    intro lx ly
    rw [bump_ok hx lx r.1 h1, bump_ok hy ly r.2 h2]
    change Except.ok _ = Except.ok _
    congr 1
    funext i j
    have hc := filter_core (fun a b => (((bell lx r.1 Nx a / trapz (bell lx r.1 Nx)) * (bell ly r.2 Ny b / trapz (bell ly r.2 Ny)) : ℝ) : ℂ)) u
      (shiftIdx i) (shiftIdx j)
    set z := inverseFourierTransform (fun p q => fourierTransform (fun a b => (((bell lx r.1 Nx a / trapz (bell lx r.1 Nx)) * (bell ly r.2 Ny b / trapz (bell ly r.2 Ny)) : ℝ) : ℂ)) p q * fourierTransform u p q)
      (shiftIdx i) (shiftIdx j) with hz
    have h3 : ((z.re : ℝ) : ℂ) * ((Nx : ℂ) * Ny) = (((z * ((Nx : ℂ) * Ny)).re : ℝ) : ℂ) := by
      have : z * ((Nx : ℂ) * Ny) = ((Nx * Ny : ℝ) : ℂ) * z := by
        push_cast
        ring
      rw [this, Complex.re_ofReal_mul]
      push_cast
      ring
    change ((z.re : ℝ) : ℂ) * ((Nx : ℂ) * Ny) = _
    rw [h3, hc]
    congr 1
    unfold cconv
    rw [Complex.re_sum, ← Equiv.sum_comp (Equiv.subRight (half Nx))]
    refine Finset.sum_congr rfl fun a _ => ?_
    rw [Complex.re_sum, ← Equiv.sum_comp (Equiv.subRight (half Ny))]
    refine Finset.sum_congr rfl fun b _ => ?_
    rw [Complex.re_ofReal_mul]
    simp only [Equiv.subRight_apply, weight, shiftIdx_eq]
    rw [sub_sub_sub_cancel_right, sub_sub_sub_cancel_right]
  cases vectors with
  | none => exact key Nx Ny
  | some v => exact key (v 0 0) (v 1 1)

theorem weight_pos {n : ℕ} [NeZero n] (hn : 2 ≤ n) (l r : ℝ) (p : Fin n) : 0 < weight l r n p :=
  div_pos (bell_pos _ _ _ _) (trapz_pos hn _ (bell_pos _ _ _))

theorem weight_sum {n : ℕ} [NeZero n] (hn : 2 ≤ n) (l r : ℝ) : 1 < ∑ p, weight l r n p := by
  have e : ∑ p, weight l r n p = ∑ p, bell l r n p / trapz (bell l r n) := by
    unfold weight
    exact Equiv.sum_comp (Equiv.subRight (half n)) (fun p => bell l r n p / trapz (bell l r n))
  rw [e, ← Finset.sum_div, one_lt_div (trapz_pos hn _ (bell_pos _ _ _))]
  obtain ⟨m, rfl⟩ : ∃ m, n = m + 1 := ⟨n - 1, by omega⟩
  rw [trapz_eq]
  have h1 := bell_pos l r (m + 1) 0
  have h2 := bell_pos l r (m + 1) (Fin.last m)
  linarith

end Nannos
