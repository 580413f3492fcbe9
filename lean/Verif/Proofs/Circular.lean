import Verif.Proofs.Lattice
import Verif.Spec.Truncation

/-! Helper lemmas for the circular truncation (C07, C08). -/

set_option linter.unusedSimpArgs false

namespace Nannos

open Matrix Spec

variable (Lk : Matrix (Fin 2) (Fin 2) ℝ)

theorem rowNorm_sq (i : Fin 2) : rowNorm Lk i ^ 2 = Lk i 0 ^ 2 + Lk i 1 ^ 2 := by
  unfold rowNorm
  rw [Real.sq_sqrt (by positivity)]

theorem rowNorm_nonneg (i : Fin 2) : 0 ≤ rowNorm Lk i := Real.sqrt_nonneg _

theorem lagrange : (rowNorm Lk 0 * rowNorm Lk 1) ^ 2 = rowDot Lk ^ 2 + rowCross Lk ^ 2 := by
  rw [mul_pow, rowNorm_sq, rowNorm_sq]
  unfold rowDot rowCross
  ring

theorem gl2_eq_metric (g : ℤ × ℤ) : gl2 Lk g = metric (Lk 0) (Lk 1) g := by
  unfold gl2 metric
  rw [rowNorm_sq]
  unfold rowDot
  ring

variable {Lk}

theorem rowNorm_pos (h : rowCross Lk ≠ 0) : 0 < rowNorm Lk 0 ∧ 0 < rowNorm Lk 1 := by
  have hl := lagrange Lk
  have : 0 < (rowNorm Lk 0 * rowNorm Lk 1) ^ 2 := by
    rw [hl]
    have := sq_nonneg (rowDot Lk)
    positivity
  have hne : rowNorm Lk 0 * rowNorm Lk 1 ≠ 0 := by
    intro h0; rw [h0] at this; simp at this
  exact ⟨lt_of_le_of_ne (rowNorm_nonneg Lk 0) (fun e => hne (by rw [← e]; ring)),
    lt_of_le_of_ne (rowNorm_nonneg Lk 1) (fun e => hne (by rw [← e]; ring))⟩

theorem sinus_eq (h : rowCross Lk ≠ 0) :
    1 - rowDot Lk ^ 2 / (rowNorm Lk 0 * rowNorm Lk 1) ^ 2 =
      (|rowCross Lk| / (rowNorm Lk 0 * rowNorm Lk 1)) ^ 2 := by
  obtain ⟨h0, h1⟩ := rowNorm_pos h
  have hl := lagrange Lk
  have hp : 0 < rowNorm Lk 0 * rowNorm Lk 1 := mul_pos h0 h1
  rw [div_pow, sq_abs]
  field_simp
  linarith [hl, mul_pow (rowNorm Lk 0) (rowNorm Lk 1) 2]

theorem circular_guard (nh : ℤ) : (nh < 0 ∨ rowNorm Lk 0 * rowNorm Lk 1 = 0 ∨
      1 - rowDot Lk ^ 2 / (rowNorm Lk 0 * rowNorm Lk 1) ^ 2 ≤ 0) ↔ (nh < 0 ∨ rowCross Lk = 0) := by
  constructor
  · rintro (h | h | h)
    · exact Or.inl h
    · right
      by_contra hc
      obtain ⟨h0, h1⟩ := rowNorm_pos hc
      exact (mul_pos h0 h1).ne' h
    · right
      by_contra hc
      obtain ⟨h0, h1⟩ := rowNorm_pos hc
      rw [sinus_eq hc] at h
      have hpos : 0 < |rowCross Lk| / (rowNorm Lk 0 * rowNorm Lk 1) :=
        div_pos (abs_pos.mpr hc) (mul_pos h0 h1)
      have := pow_pos hpos 2
      linarith
  · rintro (h | h)
    · exact Or.inl h
    · by_cases h0 : rowNorm Lk 0 * rowNorm Lk 1 = 0
      · exact Or.inr (Or.inl h0)
      · right; right
        have hl := lagrange Lk
        rw [h] at hl
        rw [hl]
        have : rowDot Lk ^ 2 + 0 ^ 2 ≠ 0 := by rw [← hl]; exact pow_ne_zero 2 h0
        have h2 : rowDot Lk ^ 2 ≠ 0 := by simpa using this
        simp only [ne_eq, OfNat.ofNat_ne_zero, not_false_eq_true, zero_pow, add_zero]
        rw [div_self h2]
        simp

theorem uExtent_eq (nh : ℤ) (h : rowCross Lk ≠ 0) (i : Fin 2) :
    (uExtent nh Lk i : ℤ) = extent nh (Lk 0) (Lk 1) (Lk i) := by
  obtain ⟨h0, h1⟩ := rowNorm_pos h
  unfold uExtent extent
  rw [sinus_eq h, Real.sqrt_sq (by positivity)]
  push_cast
  congr 1
  rw [Int.natCast_floor_eq_floor]
  · rfl
  · have : 0 ≤ rowNorm Lk i := rowNorm_nonneg Lk i
    have := rowNorm_nonneg Lk 0
    have := rowNorm_nonneg Lk 1
    positivity

theorem uExtent_gt (nh : ℤ) (i : Fin 2) :
    (Real.sqrt (nh * |rowCross Lk| / Real.pi) + rowNorm Lk 0 + rowNorm Lk 1) /
    (rowNorm Lk i * Real.sqrt (1 - rowDot Lk ^ 2 / (rowNorm Lk 0 * rowNorm Lk 1) ^ 2))
      < (uExtent nh Lk i : ℝ) := by
  unfold uExtent
  push_cast
  have := Nat.lt_floor_add_one ((Real.sqrt (nh * |rowCross Lk| / Real.pi) + rowNorm Lk 0 + rowNorm Lk 1) /
    (rowNorm Lk i * Real.sqrt (1 - rowDot Lk ^ 2 / (rowNorm Lk 0 * rowNorm Lk 1) ^ 2)))
  linarith

/-- Each candidate half-width is at least two. -/
theorem two_le_uExtent (nh : ℤ) (h : rowCross Lk ≠ 0) (i : Fin 2) : 2 ≤ uExtent nh Lk i := by
  obtain ⟨h0, h1⟩ := rowNorm_pos h
  have hp : 0 < rowNorm Lk 0 * rowNorm Lk 1 := mul_pos h0 h1
  set s := Real.sqrt (1 - rowDot Lk ^ 2 / (rowNorm Lk 0 * rowNorm Lk 1) ^ 2) with hs
  have hs1 : s ≤ 1 := by
    rw [hs]
    refine Real.sqrt_le_iff.mpr ⟨zero_le_one, ?_⟩
    have : 0 ≤ rowDot Lk ^ 2 / (rowNorm Lk 0 * rowNorm Lk 1) ^ 2 := by positivity
    linarith
  have hs0 : 0 < s := by
    rw [hs, sinus_eq h]
    apply Real.sqrt_pos.mpr
    have := abs_pos.mpr h
    positivity
  have hi : 0 < rowNorm Lk i := by fin_cases i <;> assumption
  have key := uExtent_gt (Lk := Lk) nh i
  have : (1 : ℝ) ≤ (Real.sqrt (nh * |rowCross Lk| / Real.pi) + rowNorm Lk 0 + rowNorm Lk 1) /
      (rowNorm Lk i * s) := by
    rw [le_div_iff₀ (by positivity), one_mul]
    have hsq := Real.sqrt_nonneg (nh * |rowCross Lk| / Real.pi)
    have : rowNorm Lk i * s ≤ rowNorm Lk i := mul_le_of_le_one_right hi.le hs1
    have : rowNorm Lk i ≤ rowNorm Lk 0 + rowNorm Lk 1 := by fin_cases i <;> simp <;> linarith
    linarith
  have h2 : (1 : ℝ) < (uExtent nh Lk i : ℝ) := by linarith
  have : 1 < uExtent nh Lk i := by exact_mod_cast h2
  omega

/-- The box holds more than `nh` candidates. -/
theorem box_large {nh : ℤ} (hn : 0 ≤ nh) (h : rowCross Lk ≠ 0) :
    nh < (2 * (uExtent nh Lk 0 : ℤ) + 1) * (2 * (uExtent nh Lk 1 : ℤ) + 1) := by
  obtain ⟨h0, h1⟩ := rowNorm_pos h
  have hp : 0 < rowNorm Lk 0 * rowNorm Lk 1 := mul_pos h0 h1
  have k0 := uExtent_gt (Lk := Lk) nh 0
  have k1 := uExtent_gt (Lk := Lk) nh 1
  rw [sinus_eq h, Real.sqrt_sq (by positivity)] at k0 k1
  set c := |rowCross Lk| with hc
  have hcpos : 0 < c := abs_pos.mpr h
  set R := Real.sqrt (nh * c / Real.pi) + rowNorm Lk 0 + rowNorm Lk 1 with hR
  have hnr : (0 : ℝ) ≤ nh := by exact_mod_cast hn
  have hsq : Real.sqrt (nh * c / Real.pi) ^ 2 = nh * c / Real.pi :=
    Real.sq_sqrt (by positivity)
  have hR2 : nh * c / Real.pi ≤ R ^ 2 := by
    rw [← hsq]
    apply pow_le_pow_left₀ (Real.sqrt_nonneg _)
    rw [hR]; linarith
  have hRpos : 0 < R := by
    rw [hR]; have := Real.sqrt_nonneg (nh * c / Real.pi); linarith
  have e0 : R / (rowNorm Lk 0 * (c / (rowNorm Lk 0 * rowNorm Lk 1))) = R * rowNorm Lk 1 / c := by
    field_simp
  have e1 : R / (rowNorm Lk 1 * (c / (rowNorm Lk 0 * rowNorm Lk 1))) = R * rowNorm Lk 0 / c := by
    field_simp
  rw [e0] at k0
  rw [e1] at k1
  have hc_le : c ≤ rowNorm Lk 0 * rowNorm Lk 1 := by
    have hl := lagrange Lk
    apply le_of_sq_le_sq _ hp.le
    rw [hl, hc, sq_abs]
    nlinarith [sq_nonneg (rowDot Lk)]
  have hprod : R ^ 2 / c ≤ (R * rowNorm Lk 1 / c) * (R * rowNorm Lk 0 / c) := by
    rw [div_mul_div_comm, div_le_div_iff₀ hcpos (by positivity)]
    nlinarith [mul_le_mul_of_nonneg_left hc_le (by positivity : 0 ≤ R ^ 2 * c)]
  have hpi : nh / Real.pi ≤ R ^ 2 / c := by
    rw [div_le_div_iff₀ Real.pi_pos hcpos]
    have := hR2
    rw [div_le_iff₀ Real.pi_pos] at this
    linarith
  have p0 : 0 < R * rowNorm Lk 1 / c := by positivity
  have p1 : 0 < R * rowNorm Lk 0 / c := by positivity
  have hmul : (R * rowNorm Lk 1 / c) * (R * rowNorm Lk 0 / c)
      < (uExtent nh Lk 0 : ℝ) * (uExtent nh Lk 1 : ℝ) :=
    mul_lt_mul'' k0 k1 p0.le p1.le
  have h4 : (nh : ℝ) ≤ 4 * (nh / Real.pi) := by
    rw [mul_div_assoc', le_div_iff₀ Real.pi_pos]
    nlinarith [Real.pi_lt_four]
  have q0 : (0 : ℝ) ≤ (uExtent nh Lk 0 : ℝ) := by positivity
  have q1 : (0 : ℝ) ≤ (uExtent nh Lk 1 : ℝ) := by positivity
  have : (nh : ℝ) < (2 * (uExtent nh Lk 0 : ℝ) + 1) * (2 * (uExtent nh Lk 1 : ℝ) + 1) := by
    nlinarith
  exact_mod_cast this

/-- What a successful circular truncation returns. -/
theorem circular_ok {argsort : List ℝ → List ℕ} (hA : ArgsortContract argsort) {nh : ℤ}
    {H : List (ℤ × ℤ)} {n : ℤ} (h : circularTruncation argsort nh Lk = .ok (H, n)) :
    1 ≤ nh ∧ rowCross Lk ≠ 0 ∧ ∃ (full : List (ℤ × ℤ)) (i : ℕ),
      (∀ g, g ∈ full ↔ InBox nh (Lk 0) (Lk 1) g) ∧ full.Nodup ∧ nh < full.length ∧
      (full.Pairwise fun x y => metric (Lk 0) (Lk 1) x ≤ metric (Lk 0) (Lk 1) y) ∧
      H = full.take i ∧ n = i ∧ (i : ℤ) < nh ∧
      (0 < i → ∀ a b, full[i - 1]? = some a → full[i]? = some b →
        tolerance (Lk 0) (Lk 1) < metric (Lk 0) (Lk 1) b - metric (Lk 0) (Lk 1) a) ∧
      (∀ j : ℕ, (j : ℤ) < nh → 0 < j → (∀ a b, full[j - 1]? = some a → full[j]? = some b →
        tolerance (Lk 0) (Lk 1) < metric (Lk 0) (Lk 1) b - metric (Lk 0) (Lk 1) a) → j ≤ i) := by
  unfold circularTruncation at h
  split at h
  · simp at h
  rename_i hg
  rw [circular_guard] at hg
  push Not at hg
  obtain ⟨hn, hc⟩ := hg
  have hbox := box_large hn hc
  dsimp only at h
  rw [if_pos hbox] at h
  split at h
  · simp at h
  rename_i hn1
  set e0 : ℤ := (uExtent nh Lk 0 : ℤ) with he0
  set e1 : ℤ := (uExtent nh Lk 1 : ℤ) with he1
  set G := meshFlat (pyRange (-e0) (e0 + 1)) (pyRange (-e1) (e1 + 1)) with hG
  set full := gather G (argsort (G.map (gl2 Lk))) with hfull
  have hperm : full.Perm G := argsort_gather_perm G (gl2 Lk) (hA _)
  have hsort := argsort_gather_sorted G (gl2 Lk) (hA _)
  rw [← hfull] at hsort
  have hmem : ∀ g, g ∈ full ↔ InBox nh (Lk 0) (Lk 1) g := by
    intro g
    rw [hperm.mem_iff, hG, mem_meshFlat, mem_pyRange, mem_pyRange, InBox, ← uExtent_eq nh hc 0,
      ← uExtent_eq nh hc 1, abs_le, abs_le]
    constructor
    · rintro ⟨⟨a, b⟩, c, d⟩; exact ⟨⟨a, by omega⟩, c, by omega⟩
    · rintro ⟨⟨a, b⟩, c, d⟩; exact ⟨⟨a, by omega⟩, c, by omega⟩
  have hlen : (full.length : ℤ) = (2 * e0 + 1) * (2 * e1 + 1) := by
    rw [hperm.length_eq, hG, meshFlat_length, pyRange_length, pyRange_length]
    push_cast
    rw [Int.toNat_of_nonneg (by omega), Int.toNat_of_nonneg (by omega)]
    ring
  have htol : 1 / 10 ^ 10 * max (rowNorm Lk 0 ^ 2) (rowNorm Lk 1 ^ 2) = tolerance (Lk 0) (Lk 1) := by
    rw [rowNorm_sq, rowNorm_sq, tolerance]; ring
  simp only [Except.ok.injEq, Prod.mk.injEq] at h
  obtain ⟨h1, h2⟩ := h
  rw [htol, gather_map, ← hfull] at h1 h2
  have hcond : ∀ j : ℕ, 0 < j → (j : ℤ) < nh → (|(full.map (gl2 Lk)).getD j 0 -
      (full.map (gl2 Lk)).getD (j - 1) 0| > tolerance (Lk 0) (Lk 1) ↔
      (∀ a b, full[j - 1]? = some a → full[j]? = some b →
        tolerance (Lk 0) (Lk 1) < metric (Lk 0) (Lk 1) b - metric (Lk 0) (Lk 1) a)) := by
    intro j hj0 hj
    have hjl : j < full.length := by omega
    rw [List.pairwise_iff_getElem] at hsort
    have hs := hsort (j - 1) j (by omega) hjl (by omega)
    have g1 : full[j - 1]? = some full[j - 1] := List.getElem?_eq_getElem (by omega)
    have g2 : full[j]? = some full[j] := List.getElem?_eq_getElem hjl
    simp only [List.getD_eq_getElem?_getD, List.getElem?_map, g1, g2, Option.map_some,
      Option.getD_some, gl2_eq_metric] at hs ⊢
    rw [abs_of_nonneg (by linarith)]
    constructor
    · intro hh a b ha hb
      simp only [Option.some.injEq] at ha hb
      subst ha; subst hb; exact hh
    · intro hh; exact hh _ _ rfl rfl
  set i := downTo (fun i => |(full.map (gl2 Lk)).getD i 0 - (full.map (gl2 Lk)).getD (i - 1) 0| >
    tolerance (Lk 0) (Lk 1)) (nh.toNat - 1) with hi
  have hle : i ≤ nh.toNat - 1 := downTo_le _ _
  refine ⟨by omega, hc, full, i, hmem, ?_, by rw [hlen]; exact hbox, ?_, h1.symm, h2.symm,
    by omega, ?_, ?_⟩
  · exact hperm.nodup_iff.mpr (meshFlat_nodup (pyRange_nodup _ _) (pyRange_nodup _ _))
  · refine hsort.imp ?_
    intro x y hxy
    rwa [gl2_eq_metric, gl2_eq_metric] at hxy
  · intro hpos
    rcases downTo_spec (fun i => |(full.map (gl2 Lk)).getD i 0 - (full.map (gl2 Lk)).getD (i - 1) 0| >
      tolerance (Lk 0) (Lk 1)) (nh.toNat - 1) with h0 | h0
    · omega
    · exact (hcond i hpos (by omega)).mp h0
  · intro j hj hj0 hh
    exact downTo_max _ _ j (by omega) ((hcond j hj0 hj).mpr hh)

theorem circular_succeeds (argsort : List ℝ → List ℕ) {nh : ℤ} (hn : 1 ≤ nh) (hc : rowCross Lk ≠ 0) :
    ∃ H n, circularTruncation argsort nh Lk = .ok (H, n) := by
  unfold circularTruncation
  rw [if_neg (by rw [circular_guard]; push Not; exact ⟨by omega, hc⟩)]
  dsimp only
  rw [if_pos (box_large (by omega) hc), if_neg (by omega)]
  exact ⟨_, _, rfl⟩

theorem metric_neg (r0 r1 : Fin 2 → ℝ) (g : ℤ × ℤ) : metric r0 r1 (-g.1, -g.2) = metric r0 r1 g := by
  unfold metric
  push_cast
  ring

theorem tolerance_nonneg (r0 r1 : Fin 2 → ℝ) : 0 ≤ tolerance r0 r1 := by
  unfold tolerance
  have : 0 ≤ max (r0 0 ^ 2 + r0 1 ^ 2) (r1 0 ^ 2 + r1 1 ^ 2) :=
    le_max_of_le_left (by positivity)
  positivity

end Nannos
