import Verif.Props.Lattice
import Mathlib.Tactic.IntervalCases

/-! Property C57: does the circular truncation keep the smallest in-plane wavevectors? -/

namespace Nannos

open Matrix Spec

/-- Squared length of the reciprocal vector `G = i K₁ + j K₂`, `K₁`, `K₂` being the columns of the
reciprocal matrix. -/
def Spec.normSqG (r : Matrix (Fin 2) (Fin 2) ℝ) (g : ℤ × ℤ) : ℝ :=
  (r 0 0 * g.1 + r 0 1 * g.2) ^ 2 + (r 1 0 * g.1 + r 1 1 * g.2) ^ 2

/-- C07 on a concrete lattice: a square lattice of period 1 with `nh = 6` keeps five orders. -/
example : ∃ argsort l r H n, ArgsortContract argsort ∧
    mkLattice (.vectors ![![1, 0], ![0, 1]]) (.int 64) "circular" none = .ok l ∧
    l.reciprocal = .ok r ∧ l.getHarmonics argsort 6 true = .ok (H, n) ∧ (n : ℤ) < 6 := by
  obtain ⟨argsort, hA⟩ := exists_argsort
  have hr := reciprocal_ok.mpr ⟨(by simp [Lattice.matrix, det_fin_two] :
    (Lattice.matrix ⟨![![1, 0], ![0, 1]], false, .circular, (64, 64), none⟩).det ≠ 0), rfl⟩
  obtain ⟨H, n, h1, -, h2, -⟩ := C07_circular_truncation argsort hA _ rfl rfl _ hr 6 (by norm_num) true
  exact ⟨argsort, _, _, H, n, hA, rfl, hr, h1, h2⟩

theorem rows_of_orthogonal {a b c d s : ℝ} (h1 : a * c + b * d = 0) (h2 : s = c ^ 2 + d ^ 2)
    (h3 : s = a ^ 2 + b ^ 2) (hs : 0 < s) : a ^ 2 + c ^ 2 = s ∧ b ^ 2 + d ^ 2 = s ∧ a * b + c * d = 0 := by
  have k1 : (c ^ 2 - b ^ 2) * s = 0 := by
    have e : d ^ 2 = s - c ^ 2 := by linarith
    linear_combination (a * c - b * d) * h1 + c ^ 2 * h3 + b ^ 2 * e
  have k2 : c ^ 2 = b ^ 2 := by
    rcases mul_eq_zero.mp k1 with h | h
    · linarith
    · exact absurd h hs.ne'
  have k3 : d ^ 2 = a ^ 2 := by linarith
  have k4 : (a * b + c * d) ^ 2 = 0 := by
    linear_combination 2 * a * c * h1 + c ^ 2 * k3 - a ^ 2 * k2
  exact ⟨by linarith, by linarith, by simpa using k4⟩

theorem square_reciprocal {l : Lattice} {r : Matrix (Fin 2) (Fin 2) ℝ} (hr : l.reciprocal = .ok r)
    (horth : l.basis 0 0 * l.basis 1 0 + l.basis 0 1 * l.basis 1 1 = 0)
    (hlen : l.basis 0 0 ^ 2 + l.basis 0 1 ^ 2 = l.basis 1 0 ^ 2 + l.basis 1 1 ^ 2) :
    ∃ c : ℝ, 0 < c ∧ (∀ g, metric (r 0) (r 1) g = c * ((g.1 : ℝ) ^ 2 + (g.2 : ℝ) ^ 2)) ∧
      (∀ g, normSqG r g = c * ((g.1 : ℝ) ^ 2 + (g.2 : ℝ) ^ 2)) ∧ r 1 0 ^ 2 + r 1 1 ^ 2 = c := by
  obtain ⟨hd, hre⟩ := reciprocal_ok.mp hr
  set a := l.basis 0 0 with ha
  set b := l.basis 0 1 with hb
  set c := l.basis 1 0 with hc
  set d := l.basis 1 1 with hdd
  have hdet : a * d - b * c ≠ 0 := by
    rw [Lattice.matrix, det_transpose, det_fin_two] at hd
    simpa [of_apply] using hd
  set s := a ^ 2 + b ^ 2 with hs
  have hdet2 : (a * d - b * c) ^ 2 = s ^ 2 := by
    have : (a * d - b * c) ^ 2 = (a ^ 2 + b ^ 2) * (c ^ 2 + d ^ 2) - (a * c + b * d) ^ 2 := by ring
    rw [this, horth, ← hlen]; ring
  have hs0 : 0 < s := by
    have h1 : 0 ≤ s := by positivity
    rcases h1.lt_or_eq with h | h
    · exact h
    · rw [← h] at hdet2
      exact absurd (by simpa using hdet2) hdet
  have hinv : l.matrix⁻¹ = (1 / s) • Matrix.of l.basis := by
    apply inv_eq_left_inv
    ext i j
    simp only [Lattice.matrix, Matrix.smul_apply, mul_apply, Fin.sum_univ_two,
      transpose_apply, of_apply, smul_eq_mul]
    fin_cases i <;> fin_cases j <;> simp only [Fin.zero_eta, Fin.mk_one, one_apply_eq, ne_eq,
      zero_ne_one, one_ne_zero, not_false_eq_true, one_apply_ne, Fin.isValue] <;>
      simp only [← ha, ← hb, ← hc, ← hdd]
    · field_simp; exact hs.symm
    · linear_combination 1 / s * horth
    · linear_combination 1 / s * horth
    · field_simp; exact hlen.symm
  rw [hinv] at hre
  have e : ∀ i j, r i j = 2 * Real.pi / s * l.basis j i := by
    intro i j; rw [hre]; simp; ring
  have e00 := e 0 0
  have e01 := e 0 1
  have e10 := e 1 0
  have e11 := e 1 1
  simp only [← ha, ← hb, ← hc, ← hdd] at e00 e01 e10 e11
  set t := 2 * Real.pi / s with ht
  have ht0 : 0 < t := by have := Real.pi_pos; positivity
  -- rows of an orthogonal matrix are orthogonal too
  obtain ⟨f1, f2, f3⟩ := rows_of_orthogonal horth hlen hs hs0
  refine ⟨t ^ 2 * s, by positivity, ?_, ?_, ?_⟩
  · intro g
    unfold metric
    rw [e00, e01, e10, e11]
    linear_combination t ^ 2 * ((g.1 : ℝ) ^ 2 + (g.2 : ℝ) ^ 2) * f1 + 2 * g.1 * g.2 * t ^ 2 * f3
  · intro g
    unfold normSqG
    rw [e00, e01, e10, e11]
    linear_combination t ^ 2 * (g.1 : ℝ) ^ 2 * hs.symm + t ^ 2 * (g.2 : ℝ) ^ 2 * hlen.symm
      + 2 * g.1 * g.2 * t ^ 2 * horth
  · rw [e10, e11]
    linear_combination t ^ 2 * f2

/-- **C57** (partial).  For a square lattice in any orientation (`L₁ ⊥ L₂`, `|L₁| = |L₂|`), every
candidate order left out by the circular truncation has a strictly longer reciprocal vector than every
order kept.  Missing: other lattices, where it is false
(`C57_circular_truncation_keeps_longer_vector`, `C57_hexagonal_shell_is_split`), and orders outside the
candidate box. -/
theorem C57_circular_truncation_keeps_smallest_partial (argsort : List ℝ → List ℕ)
    (hA : ArgsortContract argsort) (l : Lattice) (hl : l.truncation = .circular)
    (hu : l.harmonicsArray = none) (r : Matrix (Fin 2) (Fin 2) ℝ) (hr : l.reciprocal = .ok r)
    (horth : l.basis 0 0 * l.basis 1 0 + l.basis 0 1 * l.basis 1 1 = 0)
    (hlen : l.basis 0 0 ^ 2 + l.basis 0 1 ^ 2 = l.basis 1 0 ^ 2 + l.basis 1 1 ^ 2)
    (nh : ℤ) (hn : 1 ≤ nh) (sort : Bool) :
    ∃ H n, l.getHarmonics argsort nh sort = .ok (H, n) ∧
      ∀ g ∈ H, ∀ g', InBox nh (r 0) (r 1) g' → g' ∉ H → normSqG r g < normSqG r g' := by
  obtain ⟨c, hc, h1, h2, -⟩ := square_reciprocal hr horth hlen
  obtain ⟨H, n, h, -, -, -, -, -, hsep, -⟩ := C07_circular_truncation argsort hA l hl hu r hr nh hn sort
  refine ⟨H, n, h, fun g hg g' hg' hng => ?_⟩
  have := hsep g hg g' hg' hng
  have ht := tolerance_nonneg (r 0) (r 1)
  rw [h1, h1] at this
  rw [h2, h2]
  linarith

/-- **C57**, refutation on a rectangular lattice of periods 1 and 1/3 with `nh = 6`: the order `(0, 1)` is
kept and the order `(2, 0)`, a candidate whose reciprocal vector is shorter, is not. -/
theorem C57_circular_truncation_keeps_longer_vector (argsort : List ℝ → List ℕ)
    (hA : ArgsortContract argsort) :
    ∃ l r H n, mkLattice (.vectors ![![1, 0], ![0, 1 / 3]]) (.int 64) "circular" none = .ok l ∧
      l.reciprocal = .ok r ∧ l.getHarmonics argsort 6 true = .ok (H, n) ∧
      ((0 : ℤ), (1 : ℤ)) ∈ H ∧ ((2 : ℤ), (0 : ℤ)) ∉ H ∧ InBox 6 (r 0) (r 1) (2, 0) ∧
      normSqG r (2, 0) < normSqG r (0, 1) := by
  have hinv : (Lattice.matrix ⟨![![1, 0], ![0, 1 / 3]], false, .circular, (64, 64), none⟩)⁻¹
      = !![1, 0; 0, 3] := by
    apply inv_eq_right_inv
    ext i j
    fin_cases i <;> fin_cases j <;> simp [Lattice.matrix, mul_apply, Fin.sum_univ_two]
  have hr : (Lattice.mk ![![1, 0], ![0, 1 / 3]] false .circular (64, 64) none).reciprocal
      = .ok !![2 * Real.pi, 0; 0, 6 * Real.pi] := by
    rw [reciprocal_ok]
    refine ⟨by simp [Lattice.matrix, det_fin_two], ?_⟩
    rw [hinv]
    ext i j
    fin_cases i <;> fin_cases j <;> simp
    ring
  have hpi := Real.pi_pos
  set r : Matrix (Fin 2) (Fin 2) ℝ := !![2 * Real.pi, 0; 0, 6 * Real.pi] with hrd
  have hmet : ∀ g, metric (r 0) (r 1) g = 4 * Real.pi ^ 2 * ((g.1 : ℝ) ^ 2 + (g.2 : ℝ) ^ 2) := by
    intro g; simp only [metric, hrd, of_apply, cons_val', cons_val_zero, cons_val_one, cons_val_fin_one]; ring
  have htol : tolerance (r 0) (r 1) < 4 * Real.pi ^ 2 := by
    have h36 : max ((2 * Real.pi) ^ 2) ((6 * Real.pi) ^ 2) = 36 * Real.pi ^ 2 := by
      rw [max_eq_right (by nlinarith [mul_pos hpi hpi])]; ring
    simp [tolerance, hrd, h36]
    nlinarith [mul_pos hpi hpi]
  obtain ⟨H, n, h, hlen, hlt, hnd, hbox, hneg, hsep, hmax⟩ :=
    C07_circular_truncation argsort hA _ rfl rfl r hr 6 (by norm_num) true
  have e0 := extent_ge_two hr 6 0
  have e1 := extent_ge_two hr 6 1
  set A : Finset (ℤ × ℤ) := {(0, 0), (1, 0), (-1, 0), (0, 1), (0, -1)} with hAd
  have hAin : ∀ g ∈ A, g ∈ H := by
    refine hmax A (by decide) ?_ ?_
    · intro g hg
      simp only [hAd, Finset.mem_insert, Finset.mem_singleton] at hg
      rcases hg with rfl | rfl | rfl | rfl | rfl <;> constructor <;> simp <;> omega
    · intro g hg g' _ hng
      rw [hmet, hmet]
      have h1 : g.1 ^ 2 + g.2 ^ 2 ≤ 1 := by
        simp only [hAd, Finset.mem_insert, Finset.mem_singleton] at hg
        rcases hg with rfl | rfl | rfl | rfl | rfl <;> norm_num
      have h2 : 2 ≤ g'.1 ^ 2 + g'.2 ^ 2 := by
        by_contra hc
        obtain ⟨x, y⟩ := g'
        simp only at hc
        have hx : -1 ≤ x ∧ x ≤ 1 := by constructor <;> nlinarith [sq_nonneg y, sq_nonneg x]
        have hy : -1 ≤ y ∧ y ≤ 1 := by constructor <;> nlinarith [sq_nonneg y, sq_nonneg x]
        obtain ⟨hx1, hx2⟩ := hx
        obtain ⟨hy1, hy2⟩ := hy
        apply hng
        interval_cases x <;> interval_cases y <;> simp at hc <;> simp [hAd]
      have h1' : (g.1 : ℝ) ^ 2 + (g.2 : ℝ) ^ 2 ≤ 1 := by exact_mod_cast h1
      have h2' : (2 : ℝ) ≤ (g'.1 : ℝ) ^ 2 + (g'.2 : ℝ) ^ 2 := by exact_mod_cast h2
      nlinarith [mul_pos hpi hpi]
  refine ⟨_, r, H, n, rfl, hr, h, hAin _ (by simp [hAd]), ?_, ⟨by simp; omega, by simp; omega⟩, ?_⟩
  · intro h20
    have hsub : [((2 : ℤ), (0 : ℤ)), (0, 0), (1, 0), (-1, 0), (0, 1), (0, -1)] ⊆ H := by
      intro g hg
      rcases List.mem_cons.mp hg with rfl | hg
      · exact h20
      · exact hAin g (by simpa [hAd] using hg)
    have hnd6 : [((2 : ℤ), (0 : ℤ)), (0, 0), (1, 0), (-1, 0), (0, 1), (0, -1)].Nodup := by decide
    have := (hnd6.subperm hsub).length_le
    simp at this
    omega
  · simp [normSqG, hrd]
    nlinarith [mul_pos hpi hpi]

/-- **C57**, refutation on the hexagonal lattice `L₁ = (1,0)`, `L₂ = (1/2, √3/2)`: the six shortest
reciprocal vectors are equally long, but for `nh = 4` only one opposite pair of them is kept. -/
theorem C57_hexagonal_shell_is_split (argsort : List ℝ → List ℕ) (hA : ArgsortContract argsort) :
    ∃ l r H n, mkLattice (.vectors ![![1, 0], ![1 / 2, Real.sqrt 3 / 2]]) (.int 64) "circular" none
        = .ok l ∧
      l.reciprocal = .ok r ∧ l.getHarmonics argsort 4 true = .ok (H, n) ∧
      normSqG r (1, 1) = normSqG r (1, 0) ∧ ((1 : ℤ), (1 : ℤ)) ∈ H ∧ ((1 : ℤ), (0 : ℤ)) ∉ H ∧
      InBox 4 (r 0) (r 1) (1, 0) := by
  have h3 : Real.sqrt 3 ^ 2 = 3 := Real.sq_sqrt (by norm_num)
  have hs0 : 0 < Real.sqrt 3 := Real.sqrt_pos.mpr (by norm_num)
  set s := Real.sqrt 3 with hsd
  have hinv : (Lattice.matrix ⟨![![1, 0], ![1 / 2, s / 2]], false, .circular, (64, 64), none⟩)⁻¹
      = !![1, -s / 3; 0, 2 * s / 3] := by
    apply inv_eq_right_inv
    ext i j
    fin_cases i <;> fin_cases j <;> simp [Lattice.matrix, mul_apply, Fin.sum_univ_two] <;>
      nlinarith
  have hr : (Lattice.mk ![![1, 0], ![1 / 2, s / 2]] false .circular (64, 64) none).reciprocal
      = .ok !![2 * Real.pi, 0; 2 * Real.pi * (-s / 3), 2 * Real.pi * (2 * s / 3)] := by
    rw [reciprocal_ok]
    refine ⟨by simp [Lattice.matrix, det_fin_two]; positivity, ?_⟩
    rw [hinv]
    ext i j
    fin_cases i <;> fin_cases j <;> simp
  have hpi := Real.pi_pos
  set r : Matrix (Fin 2) (Fin 2) ℝ :=
    !![2 * Real.pi, 0; 2 * Real.pi * (-s / 3), 2 * Real.pi * (2 * s / 3)] with hrd
  have hmet : ∀ g, metric (r 0) (r 1) g
      = 4 * Real.pi ^ 2 * ((g.1 : ℝ) ^ 2 + (g.2 : ℝ) ^ 2 - 2 * s / 3 * (g.1 * g.2)) := by
    intro g; simp only [metric, hrd, of_apply, cons_val', cons_val_zero, cons_val_one, cons_val_fin_one]; ring
  have htol : tolerance (r 0) (r 1) < 4 * Real.pi ^ 2 * (1 / 10) := by
    have h36 : max ((2 * Real.pi) ^ 2)
        ((2 * Real.pi * (-s / 3)) ^ 2 + (2 * Real.pi * (2 * s / 3)) ^ 2)
        ≤ 8 * Real.pi ^ 2 := by
      apply max_le
      · nlinarith [mul_pos hpi hpi]
      · have : (2 * Real.pi * (-s / 3)) ^ 2 + (2 * Real.pi * (2 * s / 3)) ^ 2
            = 4 * Real.pi ^ 2 * (5 / 9 * s ^ 2) := by ring
        rw [this, h3]
        nlinarith [mul_pos hpi hpi]
    have : tolerance (r 0) (r 1) ≤ 8 * Real.pi ^ 2 / 10 ^ 10 := by
      simp only [tolerance, hrd]
      simp only [of_apply, cons_val', cons_val_zero, cons_val_one, cons_val_fin_one]
      gcongr
      simpa using h36
    nlinarith [mul_pos hpi hpi]
  have hs1 : 17 / 10 < s := by nlinarith
  have hs2 : s < 1733 / 1000 := by nlinarith
  obtain ⟨H, n, h, hlen, hlt, hnd, hbox, hneg, hsep, hmax⟩ :=
    C07_circular_truncation argsort hA _ rfl rfl r hr 4 (by norm_num) true
  have e0 := extent_ge_two hr 4 0
  have e1 := extent_ge_two hr 4 1
  set A : Finset (ℤ × ℤ) := {(0, 0), (1, 1), (-1, -1)} with hAd
  have hAin : ∀ g ∈ A, g ∈ H := by
    refine hmax A (by decide) ?_ ?_
    · intro g hg
      simp only [hAd, Finset.mem_insert, Finset.mem_singleton] at hg
      rcases hg with rfl | rfl | rfl <;> constructor <;> simp <;> omega
    · intro g hg g' _ hng
      rw [hmet, hmet]
      have h1 : (g.1 : ℝ) ^ 2 + (g.2 : ℝ) ^ 2 - 2 * s / 3 * (g.1 * g.2) ≤ 2 - 2 * s / 3 := by
        simp only [hAd, Finset.mem_insert, Finset.mem_singleton] at hg
        rcases hg with rfl | rfl | rfl <;> simp <;> nlinarith
      have h2 : (1 : ℝ) ≤ (g'.1 : ℝ) ^ 2 + (g'.2 : ℝ) ^ 2 - 2 * s / 3 * (g'.1 * g'.2) := by
        obtain ⟨x, y⟩ := g'
        simp only
        rcases eq_or_ne x y with hxy | hxy
        · subst hxy
          have hx : (4 : ℝ) ≤ (x : ℝ) ^ 2 := by
            have : 4 ≤ x ^ 2 := by
              by_contra hc
              have hx1 : -1 ≤ x := by nlinarith
              have hx2 : x ≤ 1 := by nlinarith
              apply hng
              interval_cases x <;> simp [hAd]
            exact_mod_cast this
          nlinarith
        · have hd : (1 : ℝ) ≤ ((x : ℝ) - y) ^ 2 := by
            have : 1 ≤ (x - y) ^ 2 := by
              have : x - y ≠ 0 := sub_ne_zero.mpr hxy
              have := sq_pos_of_ne_zero this
              omega
            exact_mod_cast this
          rcases le_or_gt 0 ((x : ℝ) * y) with hp | hp
          · rcases hp.lt_or_eq with hp | hp
            · nlinarith
            · nlinarith
          · have hp1 : (x : ℝ) * y ≤ -1 := by
              have : x * y < 0 := by exact_mod_cast hp
              have : x * y ≤ -1 := by omega
              exact_mod_cast this
            nlinarith [sq_nonneg ((x : ℝ) + y)]
      nlinarith [mul_pos hpi hpi]
  refine ⟨_, r, H, n, rfl, hr, h, ?_, hAin _ (by simp [hAd]), ?_, ⟨by simp; omega, by simp; omega⟩⟩
  · simp [normSqG, hrd]
    nlinarith
  · intro h10
    have h10' := hneg _ h10
    have hsub : [((1 : ℤ), (0 : ℤ)), (-1, 0), (0, 0), (1, 1), (-1, -1)] ⊆ H := by
      intro g hg
      rcases List.mem_cons.mp hg with rfl | hg
      · exact h10
      rcases List.mem_cons.mp hg with rfl | hg
      · simpa using h10'
      · exact hAin g (by simpa [hAd] using hg)
    have hnd6 : [((1 : ℤ), (0 : ℤ)), (-1, 0), (0, 0), (1, 1), (-1, -1)].Nodup := by decide
    have := (hnd6.subperm hsub).length_le
    simp at this
    omega

end Nannos
