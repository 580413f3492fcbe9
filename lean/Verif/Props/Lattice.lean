import Verif.Proofs.Circular

/-! Properties C03-C09: reciprocal lattice, Bloch phase, truncations. -/

set_option linter.unusedSimpArgs false

namespace Nannos

open Matrix Spec

/-! ### C03, C04 -/

theorem inv2_ok {A X : Matrix (Fin 2) (Fin 2) ℝ} : inv2 A = .ok X ↔ A.det ≠ 0 ∧ X = A⁻¹ := by
  unfold inv2
  split <;> rename_i h <;> simp [h, eq_comm]

theorem reciprocal_ok {l : Lattice} {r : Matrix (Fin 2) (Fin 2) ℝ} :
    l.reciprocal = .ok r ↔ l.matrix.det ≠ 0 ∧ r = (2 * Real.pi) • (l.matrix⁻¹)ᵀ := by
  unfold Lattice.reciprocal
  rw [bind_eq_ok]
  constructor
  · rintro ⟨a, h1, h2⟩
    rw [inv2_ok] at h1
    simp only [except_pure_eq_ok, Except.ok.injEq] at h2
    exact ⟨h1.1, by rw [← h2, h1.2]⟩
  · rintro ⟨h1, h2⟩
    exact ⟨_, inv2_ok.mpr ⟨h1, rfl⟩, by simp [h2]⟩

theorem reciprocal_dual {l : Lattice} {r : Matrix (Fin 2) (Fin 2) ℝ} (h : l.reciprocal = .ok r)
    (i j : Fin 2) : ∑ k, r k i * l.basis j k = if i = j then 2 * Real.pi else 0 := by
  obtain ⟨hd, rfl⟩ := reciprocal_ok.mp h
  have h1 : l.matrix⁻¹ * l.matrix = 1 := nonsing_inv_mul _ (isUnit_iff_ne_zero.mpr hd)
  have h2 := congrFun (congrFun h1 i) j
  rw [mul_apply, one_apply] at h2
  simp only [Matrix.smul_apply, transpose_apply, smul_eq_mul]
  have : ∀ k, 2 * Real.pi * (l.matrix⁻¹ i k) * l.basis j k
      = 2 * Real.pi * (l.matrix⁻¹ i k * l.matrix k j) := by
    intro k; simp [Lattice.matrix]; ring
  rw [Finset.sum_congr rfl (fun k _ => this k), ← Finset.mul_sum, h2]
  split <;> simp

theorem det_ne_zero_iff (l : Lattice) : l.matrix.det ≠ 0 ↔ LinearIndependent ℝ l.basis := by
  rw [Lattice.matrix, det_transpose]
  have h1 : (Matrix.of l.basis).det ≠ 0 ↔ IsUnit (Matrix.of l.basis) := by
    rw [isUnit_iff_isUnit_det, isUnit_iff_ne_zero]
  rw [h1, ← linearIndependent_rows_iff_isUnit]
  rfl

/-- **C03**. The columns `K_i` of the reciprocal matrix satisfy `K_i · L_j = 2π δ_ij`; the computation
raises exactly when the basis vectors are linearly dependent; for a mono-periodic lattice of period
`a ≠ 0` the first reciprocal vector is `(2π/a, 0)`. -/
theorem C03_reciprocal_lattice_is_dual :
    (∀ (l : Lattice) r, l.reciprocal = .ok r →
      ∀ i j, ∑ k, r k i * l.basis j k = if i = j then 2 * Real.pi else 0) ∧
    (∀ l : Lattice, (∃ e, l.reciprocal = .error e) ↔ ¬ LinearIndependent ℝ l.basis) ∧
    (∀ (a : ℝ) (disc : DiscArg) (t : String) (H : Option (List (ℤ × ℤ))) (l : Lattice), a ≠ 0 →
      mkLattice (.period a) disc t H = .ok l →
      ∃ r, l.reciprocal = .ok r ∧ r 0 0 = 2 * Real.pi / a ∧ r 1 0 = 0) := by
  have hdet := det_ne_zero_iff
  refine ⟨fun l r h => reciprocal_dual h, ?_, ?_⟩
  · intro l
    rw [← hdet]
    constructor
    · rintro ⟨e, he⟩ hd
      rw [reciprocal_ok.mpr ⟨hd, rfl⟩] at he
      simp at he
    · intro hd
      push Not at hd
      refine ⟨.linAlgError, ?_⟩
      simp [Lattice.reciprocal, inv2, hd]
  · intro a disc t H l ha h
    have hb : l.basis = ![![a, 0], ![0, 1]] := by
      unfold mkLattice at h
      dsimp only at h
      split at h
      · simp at h
      · simp only [Except.ok.injEq] at h; rw [← h]
    have hd : l.matrix.det ≠ 0 := by
      rw [Lattice.matrix, det_transpose, hb, det_fin_two]
      simp [ha]
    have hr := reciprocal_ok.mpr ⟨hd, rfl⟩
    refine ⟨_, hr, ?_, ?_⟩
    · have := reciprocal_dual hr 0 0
      rw [Fin.sum_univ_two, hb] at this
      simp at this
      rw [eq_div_iff ha]
      simpa using this
    · have := reciprocal_dual hr 0 1
      rw [Fin.sum_univ_two, hb] at this
      simpa using this

/-- C03 on a concrete oblique lattice. -/
example : ∃ l r, mkLattice (.vectors ![![1, 0], ![1, 2]]) (.int 64) "circular" none = .ok l ∧
    l.reciprocal = .ok r ∧ r 0 0 * 1 + r 1 0 * 2 = 0 := by
  refine ⟨_, _, rfl, reciprocal_ok.mpr ⟨?_, rfl⟩, ?_⟩
  · simp [Lattice.matrix, det_fin_two]
  · have := C03_reciprocal_lattice_is_dual.1
      ⟨![![1, 0], ![1, 2]], false, .circular, (64, 64), none⟩ _
      (reciprocal_ok.mpr ⟨by simp [Lattice.matrix, det_fin_two], rfl⟩) 0 1
    rw [Fin.sum_univ_two] at this
    simpa using this

/-- **C04**. Translating by a lattice vector `R = n₁ L₁ + n₂ L₂` multiplies every harmonic by the same
phase `exp(i k₀·R)`, whatever the (complex) in-plane wavevector of the superstrate. -/
theorem C04_harmonics_share_bloch_phase (l : Lattice) (r : Matrix (Fin 2) (Fin 2) ℝ)
    (h : l.reciprocal = .ok r) (wavevector : Fin 3 → ℝ) (nsup : ℂ) (g : ℤ × ℤ) (n1 n2 : ℤ) :
    let k0 := k0para wavevector nsup
    let R : Fin 2 → ℂ := fun i => (n1 * l.basis 0 i + n2 * l.basis 1 i : ℝ)
    Complex.exp (Complex.I * (kxOf r k0 g * R 0 + kyOf r k0 g * R 1)) =
      Complex.exp (Complex.I * (wavevector 0 * nsup * R 0 + wavevector 1 * nsup * R 1)) := by
  intro k0 R
  have d := reciprocal_dual h
  have d00 := d 0 0
  have d01 := d 0 1
  have d10 := d 1 0
  have d11 := d 1 1
  rw [Fin.sum_univ_two] at d00 d01 d10 d11
  simp at d00 d01 d10 d11
  rw [Complex.exp_eq_exp_iff_exists_int]
  refine ⟨g.1 * n1 + g.2 * n2, ?_⟩
  have c00 : (r 0 0 : ℂ) * l.basis 0 0 + r 1 0 * l.basis 0 1 = 2 * Real.pi := by exact_mod_cast d00
  have c01 : (r 0 0 : ℂ) * l.basis 1 0 + r 1 0 * l.basis 1 1 = 0 := by exact_mod_cast d01
  have c10 : (r 0 1 : ℂ) * l.basis 0 0 + r 1 1 * l.basis 0 1 = 0 := by exact_mod_cast d10
  have c11 : (r 0 1 : ℂ) * l.basis 1 0 + r 1 1 * l.basis 1 1 = 2 * Real.pi := by exact_mod_cast d11
  simp only [kxOf, kyOf, k0, k0para, R]
  push_cast
  linear_combination Complex.I * (g.1 * n1 * c00 + g.1 * n2 * c01 + g.2 * n1 * c10 + g.2 * n2 * c11)

/-! ### C05 -/

theorem getHarmonics_ok {argsort : List ℝ → List ℕ} {l : Lattice} {nh n : ℤ} {sort : Bool}
    {H : List (ℤ × ℤ)} (hA : ArgsortContract argsort) (h : l.getHarmonics argsort nh sort = .ok (H, n)) :
    ∃ H', l.getHarmonics' argsort nh = .ok (H', n) ∧ H.Perm H' ∧
      (sort = true → H.Pairwise fun a b => a.1 ≤ b.1) ∧ (sort = false → H = H') := by
  unfold Lattice.getHarmonics at h
  rw [bind_eq_ok] at h
  obtain ⟨⟨H', n'⟩, h1, h2⟩ := h
  cases sort
  · simp at h2
    obtain ⟨rfl, rfl⟩ := h2
    exact ⟨H', h1, List.Perm.refl _, by simp, by simp⟩
  · simp at h2
    obtain ⟨rfl, rfl⟩ := h2
    refine ⟨H', h1, argsort_gather_perm H' (fun g => (g.1 : ℝ)) (hA _), fun _ => ?_, by simp⟩
    refine (argsort_gather_sorted H' (fun g => (g.1 : ℝ)) (hA _)).imp ?_
    intro a b hab
    exact_mod_cast hab

theorem oneDim_mem (nh : ℤ) (g : ℤ × ℤ) :
    g ∈ (oneDimTruncation nh).1 ↔ g.2 = 0 ∧ |g.1| ≤ max 0 ((nh - 1) / 2) := by
  have key : (nh - 1).tdiv 2 = (nh - 1) / 2 ∨ ((nh - 1).tdiv 2 ≤ 0 ∧ (nh - 1) / 2 ≤ 0) := by
    rcases le_or_gt 0 (nh - 1) with h | h
    · left; exact Int.tdiv_eq_ediv_of_nonneg h
    · right
      refine ⟨?_, by omega⟩
      have := Int.tdiv_le_tdiv (c := 2) (by norm_num) h.le
      simpa using this
  unfold oneDimTruncation
  simp only [List.mem_cons, List.mem_flatMap, mem_pyRange, List.not_mem_nil, or_false]
  set n := (nh - 1).tdiv 2
  set n' := (nh - 1) / 2
  obtain ⟨a, b⟩ := g
  simp only [Prod.mk.injEq]
  constructor
  · rintro (⟨rfl, rfl⟩ | ⟨x, ⟨h1, h2⟩, ⟨rfl, rfl⟩ | ⟨rfl, rfl⟩⟩)
    · simp
    · refine ⟨rfl, ?_⟩
      rw [abs_of_nonneg (by omega)]
      have := le_max_right 0 n'
      omega
    · refine ⟨rfl, ?_⟩
      rw [abs_neg, abs_of_nonneg (by omega)]
      have := le_max_right 0 n'
      omega
  · rintro ⟨rfl, h⟩
    rcases lt_trichotomy a 0 with ha | ha | ha
    · right
      rw [abs_of_neg ha] at h
      refine ⟨-a, ?_, Or.inr ⟨by ring, rfl⟩⟩
      rcases le_max_iff.mp h with h | h <;> rcases key with k | ⟨k1, k2⟩ <;> constructor <;> omega
    · left; exact ⟨ha, rfl⟩
    · right
      rw [abs_of_pos ha] at h
      refine ⟨a, ?_, Or.inl ⟨rfl, rfl⟩⟩
      rcases le_max_iff.mp h with h | h <;> rcases key with k | ⟨k1, k2⟩ <;> constructor <;> omega

theorem oneDim_nodup (nh : ℤ) : (oneDimTruncation nh).1.Nodup := by
  unfold oneDimTruncation
  simp only [List.nodup_cons, List.nodup_flatMap]
  refine ⟨?_, ?_, ?_⟩
  · simp only [List.mem_flatMap, mem_pyRange, List.mem_cons, Prod.mk.injEq, List.not_mem_nil, or_false]
    rintro ⟨x, ⟨h1, h2⟩, h | h⟩ <;> omega
  · intro x hx
    rw [mem_pyRange] at hx
    simp
    omega
  · refine List.Pairwise.imp_of_mem ?_ (pyRange_nodup _ _)
    intro a b ha hb hab
    rw [mem_pyRange] at ha hb
    intro g h1 h2
    simp at h1 h2
    rcases h1 with rfl | rfl <;> rcases h2 with h | h <;> simp at h <;> omega

theorem oneDim_length (nh : ℤ) :
    ((oneDimTruncation nh).1.length : ℤ) = 2 * max 0 ((nh - 1) / 2) + 1 := by
  have key : (nh - 1).tdiv 2 = (nh - 1) / 2 ∨ ((nh - 1).tdiv 2 ≤ 0 ∧ (nh - 1) / 2 ≤ 0) := by
    rcases le_or_gt 0 (nh - 1) with h | h
    · left; exact Int.tdiv_eq_ediv_of_nonneg h
    · right
      refine ⟨?_, by omega⟩
      have := Int.tdiv_le_tdiv (c := 2) (by norm_num) h.le
      simpa using this
  unfold oneDimTruncation
  simp only [List.length_cons, List.length_flatMap, List.length_nil, List.map_const', List.sum_replicate,
    pyRange_length, smul_eq_mul]
  set n := (nh - 1).tdiv 2
  set n' := (nh - 1) / 2
  push_cast
  rcases key with k | ⟨k1, k2⟩
  · rcases le_or_gt 0 n' with h | h
    · rw [max_eq_right h]; omega
    · rw [max_eq_left h.le]; omega
  · rw [max_eq_left k2]; omega

/-- **C05**. A mono-periodic lattice returns exactly the orders `(-N,0)..(N,0)`, each once, with
`N = max 0 ⌊(nh-1)/2⌋`; the returned count is the number of harmonics, is odd and at most `nh` when
`nh ≥ 1`; with `sort=True` they are strictly increasing. -/
theorem C05_mono_periodic_truncation (argsort : List ℝ → List ℕ) (hA : ArgsortContract argsort)
    (l : Lattice) (hl : l.truncation = .oneD) (hu : l.harmonicsArray = none) (nh : ℤ) (sort : Bool) :
    ∃ H n, l.getHarmonics argsort nh sort = .ok (H, n) ∧
      (∀ g, g ∈ H ↔ g.2 = 0 ∧ |g.1| ≤ max 0 ((nh - 1) / 2)) ∧ H.Nodup ∧
      n = H.length ∧ n = 2 * max 0 ((nh - 1) / 2) + 1 ∧ (1 ≤ nh → n ≤ nh) ∧
      (sort = true → H.Pairwise fun a b => a.1 < b.1) := by
  have hex : ∃ H n, l.getHarmonics argsort nh sort = .ok (H, n) := by
    unfold Lattice.getHarmonics Lattice.getHarmonics'
    rw [hu, hl]
    cases sort <;> exact ⟨_, _, rfl⟩
  obtain ⟨H, n, h⟩ := hex
  obtain ⟨H', h1, hp, hs, -⟩ := getHarmonics_ok hA h
  unfold Lattice.getHarmonics' at h1
  rw [hu, hl] at h1
  simp only [Except.ok.injEq] at h1
  have e1 : H' = (oneDimTruncation nh).1 := by rw [h1]
  have e2 : n = ((oneDimTruncation nh).1.length : ℤ) := by
    have : n = (oneDimTruncation nh).2 := by rw [h1]
    rw [this]; rfl
  have hnd : H.Nodup := hp.nodup_iff.mpr (e1 ▸ oneDim_nodup nh)
  have hmem : ∀ g, g ∈ H ↔ g.2 = 0 ∧ |g.1| ≤ max 0 ((nh - 1) / 2) := by
    intro g; rw [hp.mem_iff, e1, oneDim_mem]
  refine ⟨H, n, h, hmem, hnd, ?_, ?_, ?_, ?_⟩
  · rw [e2, hp.length_eq, e1]
  · rw [e2, oneDim_length]
  · intro hn
    rw [e2, oneDim_length, max_eq_right (by omega)]
    omega
  · intro hsort
    have h2 := hs hsort
    refine List.Pairwise.imp_of_mem ?_ (List.Pairwise.and h2 hnd)
    rintro a b ha hb ⟨h3, h4⟩
    rcases lt_or_eq_of_le h3 with h5 | h5
    · exact h5
    · exact absurd (Prod.ext h5 (((hmem a).mp ha).1.trans ((hmem b).mp hb).1.symm)) h4

/-- C05 is met by `Lattice(2)` with `nh = 7`: orders -3..3. -/
example : ∃ argsort l H n, ArgsortContract argsort ∧
    mkLattice (.period 2) (.int 64) "circular" none = .ok l ∧
    l.getHarmonics argsort 7 true = .ok (H, n) ∧ n = 7 ∧ ((-3 : ℤ), (0 : ℤ)) ∈ H := by
  obtain ⟨argsort, hA⟩ := exists_argsort
  obtain ⟨H, n, h1, h2, -, -, h5, -⟩ := C05_mono_periodic_truncation argsort hA
    ⟨![![2, 0], ![0, 1]], true, .oneD, (64, 1), none⟩ rfl rfl 7 true
  exact ⟨argsort, _, H, n, hA, rfl, h1, by rw [h5]; decide, (h2 _).mpr (by decide)⟩

/-! ### C06 -/

theorem parallelogramic_ok {argsort : List ℝ → List ℕ} (hA : ArgsortContract argsort) {nh : ℤ}
    {Lk : Matrix (Fin 2) (Fin 2) ℝ} {H : List (ℤ × ℤ)} {n : ℤ} (hn : 1 ≤ nh)
    (h : parallelogramicTruncation argsort nh Lk = .ok (H, n)) :
    ∃ M : ℤ, 0 ≤ M ∧ (2 * M + 1) ^ 2 ≤ nh ∧ nh < (2 * M + 3) ^ 2 ∧ n = (2 * M + 1) ^ 2 ∧
      H.Nodup ∧ (H.length : ℤ) = n ∧ ∀ g, g ∈ H ↔ |g.1| ≤ M ∧ |g.2| ≤ M := by
  unfold parallelogramicTruncation at h
  rw [if_neg (by omega)] at h
  dsimp only at h
  set root : ℤ := (Nat.sqrt nh.toNat : ℤ) with hroot
  have hr1 : root ^ 2 ≤ nh := by
    have h1 := Nat.sqrt_le' nh.toNat
    have h2 : ((Nat.sqrt nh.toNat : ℕ) : ℤ) ^ 2 ≤ (nh.toNat : ℤ) := by exact_mod_cast h1
    rw [Int.toNat_of_nonneg (by omega)] at h2
    exact h2
  have hr2 : nh < (root + 1) ^ 2 := by
    have h1 := Nat.lt_succ_sqrt' nh.toNat
    have h2 : (nh.toNat : ℤ) < ((Nat.sqrt nh.toNat : ℕ) + 1 : ℤ) ^ 2 := by exact_mod_cast h1
    rw [Int.toNat_of_nonneg (by omega)] at h2
    exact h2
  have hr0 : 1 ≤ root := by
    by_contra hc
    have : 0 ≤ root := by positivity
    have : root = 0 := by omega
    rw [this] at hr2
    norm_num at hr2
    omega
  set NG : ℤ := if root % 2 = 0 then root - 1 else root with hNG
  obtain ⟨M, hM0, hM, hroot2⟩ : ∃ M : ℤ, 0 ≤ M ∧ NG = 2 * M + 1 ∧ (root = 2 * M + 1 ∨ root = 2 * M + 2) := by
    rw [hNG]
    split
    · exact ⟨(root - 2) / 2, by omega, by omega, by omega⟩
    · exact ⟨(root - 1) / 2, by omega, by omega, by omega⟩
  have hfd : NG.fdiv 2 = M := by
    rw [Int.fdiv_eq_ediv_of_nonneg _ (by norm_num)]; omega
  rw [hfd] at h
  set G := meshFlat (pyRange (-M) (NG - M)) (pyRange (-M) (NG - M)) with hG
  have hperm : (gather G (argsort (G.map (gl2 Lk)))).Perm G := argsort_gather_perm G (gl2 Lk) (hA _)
  have hlen : (G.length : ℤ) = NG ^ 2 := by
    rw [hG, meshFlat_length, pyRange_length]
    push_cast
    rw [Int.toNat_of_nonneg (by omega)]
    ring
  simp only [Except.ok.injEq, Prod.mk.injEq] at h
  obtain ⟨h1, h2⟩ := h
  have htake : (gather G (argsort (G.map (gl2 Lk)))).take (NG ^ 2).toNat
      = gather G (argsort (G.map (gl2 Lk))) := by
    apply List.take_of_length_le
    rw [hperm.length_eq]
    omega
  rw [htake] at h1
  rw [h1] at hperm
  refine ⟨M, hM0, ?_, ?_, by rw [← h2, hM], ?_, ?_, ?_⟩
  · rcases hroot2 with e | e
    · rw [← e]; exact hr1
    · nlinarith
  · rcases hroot2 with e | e
    · nlinarith
    · rw [e] at hr2
      have : 2 * M + 2 + 1 = 2 * M + 3 := by ring
      rwa [this] at hr2
  · exact hperm.nodup_iff.mpr (meshFlat_nodup (pyRange_nodup _ _) (pyRange_nodup _ _))
  · rw [hperm.length_eq, hlen, h2]
  · intro g
    rw [hperm.mem_iff, hG, mem_meshFlat, mem_pyRange, mem_pyRange, abs_le, abs_le, hM]
    constructor
    · rintro ⟨⟨a, b⟩, c, d⟩; exact ⟨⟨a, by omega⟩, c, by omega⟩
    · rintro ⟨⟨a, b⟩, c, d⟩; exact ⟨⟨a, by omega⟩, c, by omega⟩

/-- **C06**. The parallelogrammic truncation of a non-degenerate lattice returns exactly the orders with
`|i|, |j| ≤ M`, each once, where `2M+1` is the largest odd number whose square is at most `nh`. -/
theorem C06_parallelogrammic_truncation (argsort : List ℝ → List ℕ) (hA : ArgsortContract argsort)
    (l : Lattice) (hl : l.truncation = .parallelogrammic) (hu : l.harmonicsArray = none)
    (hind : LinearIndependent ℝ l.basis) (nh : ℤ) (hn : 1 ≤ nh) (sort : Bool) :
    ∃ H n M, l.getHarmonics argsort nh sort = .ok (H, n) ∧
      (2 * M + 1) ^ 2 ≤ nh ∧ nh < (2 * M + 3) ^ 2 ∧ 0 ≤ M ∧
      (∀ g, g ∈ H ↔ |g.1| ≤ M ∧ |g.2| ≤ M) ∧ H.Nodup ∧ n = H.length ∧ n = (2 * M + 1) ^ 2 := by
  have hr : ∃ r, l.reciprocal = .ok r := by
    have := (C03_reciprocal_lattice_is_dual.2.1 l).not.mpr (by simpa using hind)
    cases hrec : l.reciprocal with
    | error e => exact absurd ⟨e, hrec⟩ this
    | ok r => exact ⟨r, rfl⟩
  obtain ⟨r, hr⟩ := hr
  have hex : ∃ H n, l.getHarmonics argsort nh sort = .ok (H, n) := by
    unfold Lattice.getHarmonics Lattice.getHarmonics' parallelogramicTruncation
    rw [hu, hl]
    simp only [hr, except_bind_ok]
    rw [if_neg (by omega)]
    cases sort <;> exact ⟨_, _, rfl⟩
  obtain ⟨H, n, h⟩ := hex
  obtain ⟨H', h1, hp, -, -⟩ := getHarmonics_ok hA h
  unfold Lattice.getHarmonics' at h1
  rw [hu, hl] at h1
  simp only [hr, except_bind_ok] at h1
  obtain ⟨M, m0, m1, m2, m3, m4, m5, m6⟩ := parallelogramic_ok hA hn h1
  exact ⟨H, n, M, h, m1, m2, m0, fun g => by rw [hp.mem_iff, m6], hp.nodup_iff.mpr m4,
    by rw [hp.length_eq, m5], m3⟩

/-- The failing boundary of C06: `nh = 0` returns no harmonics but the count 1. -/
theorem C06_nh_zero_miscounts (argsort : List ℝ → List ℕ) (hA : ArgsortContract argsort)
    (Lk : Matrix (Fin 2) (Fin 2) ℝ) :
    parallelogramicTruncation argsort 0 Lk = .ok ([], 1) := by
  have h0 : argsort [] = [] := by
    have := (hA []).perm
    simpa using this
  simp [parallelogramicTruncation, meshFlat, pyRange, h0, gather]

/-- C06 is met by a square lattice with `nh = 30`: 25 harmonics. -/
example : ∃ argsort l H n, ArgsortContract argsort ∧
    mkLattice (.vectors ![![1, 0], ![0, 1]]) (.int 64) "parallelogrammic" none = .ok l ∧
    l.getHarmonics argsort 30 true = .ok (H, n) ∧ n = 25 := by
  obtain ⟨argsort, hA⟩ := exists_argsort
  obtain ⟨H, n, M, h1, h2, h3, h4, -, -, -, h5⟩ := C06_parallelogrammic_truncation argsort hA
    ⟨![![1, 0], ![0, 1]], false, .parallelogrammic, (64, 64), none⟩ rfl rfl
    ((det_ne_zero_iff _).mp (by simp [Lattice.matrix, det_fin_two]))
    30 (by norm_num) true
  refine ⟨argsort, _, H, n, hA, rfl, h1, ?_⟩
  have : M = 2 := by nlinarith
  rw [h5, this]; norm_num

/-! ### C07 -/

theorem cross_of_reciprocal {l : Lattice} {r : Matrix (Fin 2) (Fin 2) ℝ} (h : l.reciprocal = .ok r) :
    rowCross r ≠ 0 := by
  obtain ⟨hd, rfl⟩ := reciprocal_ok.mp h
  have : rowCross ((2 * Real.pi) • (l.matrix⁻¹)ᵀ) = ((2 * Real.pi) • (l.matrix⁻¹)ᵀ).det := by
    rw [det_fin_two]; rfl
  rw [this, det_smul, det_transpose, det_nonsing_inv]
  have hpi := Real.pi_ne_zero
  have : (2 * Real.pi) ^ Fintype.card (Fin 2) ≠ 0 := pow_ne_zero _ (by positivity)
  refine mul_ne_zero this ?_
  rw [Ring.inverse_eq_inv']
  exact inv_ne_zero hd

/-- **C07**. For `nh ≥ 1` the circular truncation succeeds and returns distinct orders of the candidate
box, closed under inversion; their number is the returned count, strictly smaller than `nh`.  Every
candidate left out has a metric larger, by more than the tolerance, than every order kept; and the set
is the largest such set: any set of fewer than `nh` candidates separated in this way from the other
candidates is contained in the returned one. -/
theorem C07_circular_truncation (argsort : List ℝ → List ℕ) (hA : ArgsortContract argsort)
    (l : Lattice) (hl : l.truncation = .circular) (hu : l.harmonicsArray = none)
    (r : Matrix (Fin 2) (Fin 2) ℝ) (hr : l.reciprocal = .ok r) (nh : ℤ) (hn : 1 ≤ nh) (sort : Bool) :
    ∃ H n, l.getHarmonics argsort nh sort = .ok (H, n) ∧
      n = H.length ∧ n < nh ∧ H.Nodup ∧ (∀ g ∈ H, InBox nh (r 0) (r 1) g) ∧
      (∀ g ∈ H, (-g.1, -g.2) ∈ H) ∧
      (∀ g ∈ H, ∀ g', InBox nh (r 0) (r 1) g' → g' ∉ H →
        metric (r 0) (r 1) g + tolerance (r 0) (r 1) < metric (r 0) (r 1) g') ∧
      (∀ A : Finset (ℤ × ℤ), (A.card : ℤ) < nh → (∀ g ∈ A, InBox nh (r 0) (r 1) g) →
        (∀ g ∈ A, ∀ g', InBox nh (r 0) (r 1) g' → g' ∉ A →
          metric (r 0) (r 1) g + tolerance (r 0) (r 1) < metric (r 0) (r 1) g') →
        ∀ g ∈ A, g ∈ H) := by
  have hc := cross_of_reciprocal hr
  have hex : ∃ H n, l.getHarmonics argsort nh sort = .ok (H, n) := by
    obtain ⟨H0, n0, h0⟩ := circular_succeeds (Lk := r) argsort hn hc
    unfold Lattice.getHarmonics Lattice.getHarmonics'
    rw [hu, hl]
    simp only [hr, except_bind_ok, h0]
    cases sort <;> exact ⟨_, _, rfl⟩
  obtain ⟨H, n, h⟩ := hex
  obtain ⟨H', h1, hp, -, -⟩ := getHarmonics_ok hA h
  unfold Lattice.getHarmonics' at h1
  rw [hu, hl] at h1
  simp only [hr, except_bind_ok] at h1
  obtain ⟨-, -, full, i, m1, m2, m3, m4, m5, m6, m7, m8, m9⟩ := circular_ok hA h1
  have hlen : H'.length = i := by rw [m5, List.length_take]; omega
  have hsub : ∀ g ∈ H', g ∈ full := fun g hg => List.mem_of_mem_take (m5 ▸ hg)
  have hsep : ∀ g ∈ H', ∀ g', InBox nh (r 0) (r 1) g' → g' ∉ H' →
      metric (r 0) (r 1) g + tolerance (r 0) (r 1) < metric (r 0) (r 1) g' := by
    intro g hg g' hg' hng'
    have hipos : 0 < i := by
      rcases Nat.eq_zero_or_pos i with h0 | h0
      · rw [m5, h0] at hg; simp at hg
      · exact h0
    have hdrop : g' ∈ full.drop i := by
      have : g' ∈ full.take i ++ full.drop i := by rw [List.take_append_drop]; exact (m1 g').mpr hg'
      rcases List.mem_append.mp this with h2 | h2
      · exact absurd (m5 ▸ h2) hng'
      · exact h2
    have := sorted_split full (metric (r 0) (r 1)) m4 i hipos _ (m8 hipos) (m5 ▸ hg) hdrop
    linarith
  refine ⟨H, n, h, by rw [m6, hp.length_eq, hlen], by omega,
    hp.nodup_iff.mpr (m5 ▸ m2.sublist (List.take_sublist _ _)), ?_, ?_, ?_, ?_⟩
  · intro g hg
    exact (m1 g).mp (hsub g (hp.mem_iff.mp hg))
  · intro g hg
    rw [hp.mem_iff] at hg ⊢
    by_contra hng
    have hb := (m1 g).mp (hsub g hg)
    have := hsep g hg (-g.1, -g.2) ⟨by simpa using hb.1, by simpa using hb.2⟩ hng
    rw [metric_neg] at this
    have := tolerance_nonneg (r 0) (r 1)
    linarith
  · intro g hg g' hg' hng'
    exact hsep g (hp.mem_iff.mp hg) g' hg' (fun hh => hng' (hp.mem_iff.mpr hh))
  · intro A hcard hbox hA' g hg
    rw [hp.mem_iff]
    classical
    have hpre := separated_is_prefix (fun g => decide (g ∈ A)) full (metric (r 0) (r 1)) _
      (tolerance_nonneg (r 0) (r 1)) m4 (by
        intro x hx y hy hxA hyA
        have := hA' x (by simpa using hxA) y ((m1 y).mp hy) (by simpa using hyA)
        linarith)
    set F := full.filter (fun g => decide (g ∈ A)) with hF
    have hFmem : ∀ x, x ∈ F ↔ x ∈ A := by
      intro x
      rw [hF, List.mem_filter]
      constructor
      · rintro ⟨-, hx⟩; simpa using hx
      · intro hx; exact ⟨(m1 x).mpr (hbox x hx), by simpa using hx⟩
    have hFlen : F.length = A.card := by
      have hnd : F.Nodup := m2.filter _
      rw [← List.toFinset_card_of_nodup hnd]
      congr 1
      ext x; rw [List.mem_toFinset, hFmem]
    set D := full.filter (fun x => !decide (x ∈ A)) with hD
    have hapos : 0 < F.length := by
      rw [hFlen]; exact Finset.card_pos.mpr ⟨g, hg⟩
    have hle : F.length ≤ i := by
      apply m9 F.length (by rw [hFlen]; exact hcard) hapos
      intro a b ha hb
      have haA : a ∈ A := by
        rw [hpre, List.getElem?_append_left (by omega)] at ha
        exact (hFmem a).mp (List.mem_of_getElem? ha)
      have hbA : b ∉ A := by
        rw [hpre, List.getElem?_append_right le_rfl] at hb
        have := List.mem_of_getElem? hb
        rw [hD, List.mem_filter] at this
        simpa using this.2
      have hbf : b ∈ full := List.mem_of_getElem? hb
      have := hA' a haA b ((m1 b).mp hbf) hbA
      linarith
    rw [m5]
    have : g ∈ full.take F.length := by
      rw [hpre, List.take_append_of_le_length le_rfl, List.take_length]
      exact (hFmem g).mpr hg
    exact (List.take_prefix_take_left hle).subset this

/-! ### C08 -/

theorem extent_ge_two {l : Lattice} {r : Matrix (Fin 2) (Fin 2) ℝ} (h : l.reciprocal = .ok r) (nh : ℤ)
    (i : Fin 2) : 2 ≤ extent nh (r 0) (r 1) (r i) := by
  have hc := cross_of_reciprocal h
  have := two_le_uExtent nh hc i
  have e := uExtent_eq nh hc i
  omega

/-- **C08** (partial). The specular order is retained by the mono-periodic and parallelogrammic
truncations, and by the circular one for `nh ≥ 2` when `|r0·r1|` is below `|r0|²` by more than the
tolerance, `r0`, `r1` being the rows of the reciprocal matrix (in particular for rectangular lattices).
Missing: other circular truncations, where it is false, see `C08_specular_order_missing`. -/
theorem C08_specular_order_retained_partial (argsort : List ℝ → List ℕ)
    (hA : ArgsortContract argsort) (l : Lattice) (hu : l.harmonicsArray = none) (nh : ℤ) (sort : Bool)
    (H : List (ℤ × ℤ)) (n : ℤ) (h : l.getHarmonics argsort nh sort = .ok (H, n))
    (hcase : l.truncation = .oneD ∨ (l.truncation = .parallelogrammic ∧ 1 ≤ nh) ∨
      (l.truncation = .circular ∧ 2 ≤ nh ∧ ∃ r, l.reciprocal = .ok r ∧
        |r 0 0 * r 1 0 + r 0 1 * r 1 1| + tolerance (r 0) (r 1) < r 0 0 ^ 2 + r 0 1 ^ 2)) :
    ((0 : ℤ), (0 : ℤ)) ∈ H := by
  rcases hcase with hl | ⟨hl, hn⟩ | ⟨hl, hn, r, hr, hpd⟩
  · obtain ⟨H', n', h', hm, -⟩ := C05_mono_periodic_truncation argsort hA l hl hu nh sort
    rw [h] at h'
    simp only [Except.ok.injEq, Prod.mk.injEq] at h'
    rw [h'.1, hm]
    simp
  · have hr : ∃ r, l.reciprocal = .ok r := by
      obtain ⟨H', h1, -⟩ := getHarmonics_ok hA h
      unfold Lattice.getHarmonics' at h1
      rw [hu, hl] at h1
      dsimp only at h1
      rw [bind_eq_ok] at h1
      obtain ⟨r, hr, -⟩ := h1
      exact ⟨r, hr⟩
    obtain ⟨r, hr⟩ := hr
    have hind : LinearIndependent ℝ l.basis := by
      by_contra hc
      obtain ⟨e, he⟩ := (C03_reciprocal_lattice_is_dual.2.1 l).mpr hc
      rw [hr] at he
      simp at he
    obtain ⟨H', n', M, h', -, -, hM, hm, -⟩ :=
      C06_parallelogrammic_truncation argsort hA l hl hu hind nh hn sort
    rw [h] at h'
    simp only [Except.ok.injEq, Prod.mk.injEq] at h'
    rw [h'.1, hm]
    simpa using hM
  · obtain ⟨H', n', h', -, -, -, -, -, -, hmax⟩ :=
      C07_circular_truncation argsort hA l hl hu r hr nh (by omega) sort
    rw [h] at h'
    simp only [Except.ok.injEq, Prod.mk.injEq] at h'
    rw [h'.1]
    have e0 := extent_ge_two hr nh 0
    have e1 := extent_ge_two hr nh 1
    refine hmax {(0, 0)} (by simp; omega) ?_ ?_ (0, 0) (by simp)
    · intro g hg
      rw [Finset.mem_singleton] at hg
      subst hg
      exact ⟨by simp; omega, by simp; omega⟩
    · intro g hg g' _ hng
      rw [Finset.mem_singleton] at hg hng
      subst hg
      unfold metric
      simp only [Int.cast_zero, ne_eq, OfNat.ofNat_ne_zero, not_false_eq_true, zero_pow, add_zero,
        mul_zero, zero_mul, zero_add]
      set d := r 0 0 * r 1 0 + r 0 1 * r 1 1 with hd
      set u := r 0 0 ^ 2 + r 0 1 ^ 2 with hu'
      set t := tolerance (r 0) (r 1) with ht
      have ht0 : 0 ≤ t := tolerance_nonneg _ _
      have hsum : (1 : ℝ) ≤ (g'.1 : ℝ) ^ 2 + (g'.2 : ℝ) ^ 2 := by
        have : (1 : ℤ) ≤ g'.1 ^ 2 + g'.2 ^ 2 := by
          by_contra hc
          have h1 := sq_nonneg g'.1
          have h2 := sq_nonneg g'.2
          have h3 : g'.1 ^ 2 = 0 := by omega
          have h4 : g'.2 ^ 2 = 0 := by omega
          exact hng (Prod.ext (by simpa using h3) (by simpa using h4))
        exact_mod_cast this
      have habs : -(|d| * ((g'.1 : ℝ) ^ 2 + (g'.2 : ℝ) ^ 2)) ≤ 2 * g'.1 * g'.2 * d := by
        rcases abs_cases d with ⟨h1, h2⟩ | ⟨h1, h2⟩ <;> rw [h1]
        · nlinarith [mul_nonneg h2 (sq_nonneg ((g'.1 : ℝ) + g'.2))]
        · nlinarith [mul_nonneg (by linarith : 0 ≤ -d) (sq_nonneg ((g'.1 : ℝ) - g'.2))]
      have hpos : 0 < u - |d| - t := by linarith
      nlinarith [mul_le_mul_of_nonneg_left hsum (by linarith : 0 ≤ u - |d|)]

/-- **C08**, refutation.  When `|r0·r1| > |r0|²` (for `L1 = (1,0)`: an angle between the basis vectors
below 45 degrees) the circular truncation with `1 ≤ nh ≤ 5` never retains the specular order; `nh = 2`
is what `Simulation` uses for every stack of uniform layers. -/
theorem C08_specular_order_missing (argsort : List ℝ → List ℕ) (hA : ArgsortContract argsort)
    (l : Lattice) (hl : l.truncation = .circular) (hu : l.harmonicsArray = none)
    (r : Matrix (Fin 2) (Fin 2) ℝ) (hr : l.reciprocal = .ok r)
    (hob : r 0 0 ^ 2 + r 0 1 ^ 2 < |r 0 0 * r 1 0 + r 0 1 * r 1 1|) (nh : ℤ) (hn : 1 ≤ nh) (hn5 : nh ≤ 5)
    (sort : Bool) :
    ∃ H n, l.getHarmonics argsort nh sort = .ok (H, n) ∧ ((0 : ℤ), (0 : ℤ)) ∉ H := by
  obtain ⟨H, n, h, hlen, hlt, hnd, hbox, hneg, hsep, hmax⟩ :=
    C07_circular_truncation argsort hA l hl hu r hr nh hn sort
  refine ⟨H, n, h, fun h0 => ?_⟩
  have e0 := extent_ge_two hr nh 0
  have e1 := extent_ge_two hr nh 1
  obtain ⟨s, hs1, hs⟩ : ∃ s : ℤ, |s| = 1 ∧ (s : ℝ) * (r 0 0 * r 1 0 + r 0 1 * r 1 1)
      = -|r 0 0 * r 1 0 + r 0 1 * r 1 1| := by
    rcases abs_cases (r 0 0 * r 1 0 + r 0 1 * r 1 1) with ⟨h1, h2⟩ | ⟨h1, h2⟩
    · exact ⟨-1, by simp, by rw [h1]; push_cast; ring⟩
    · exact ⟨1, by simp, by rw [h1]; push_cast; ring⟩
  have hss : (s : ℝ) ^ 2 = 1 := by
    have : s ^ 2 = 1 := by rw [← sq_abs, hs1]; norm_num
    exact_mod_cast this
  have hin : ∀ k : ℤ, |k| ≤ 2 → k ≠ 0 → (k, s * k) ∈ H := by
    intro k hk hk0
    by_contra hc
    have := hsep (0, 0) h0 (k, s * k) ⟨by simp; omega, by
      simp only [abs_mul, hs1, one_mul]; omega⟩ hc
    have hk2 : 0 < (k : ℝ) ^ 2 := by positivity
    have ht := tolerance_nonneg (r 0) (r 1)
    unfold metric at this
    simp only [Int.cast_zero, ne_eq, OfNat.ofNat_ne_zero, not_false_eq_true, zero_pow, add_zero,
      mul_zero, zero_mul, zero_add, Int.cast_mul] at this
    have e : (r 0 0 ^ 2 + r 0 1 ^ 2) * ((k : ℝ) ^ 2 + (s * k : ℝ) ^ 2)
        + 2 * k * (s * k) * (r 0 0 * r 1 0 + r 0 1 * r 1 1)
        = 2 * (k : ℝ) ^ 2 * ((r 0 0 ^ 2 + r 0 1 ^ 2) - |r 0 0 * r 1 0 + r 0 1 * r 1 1|) := by
      linear_combination (r 0 0 ^ 2 + r 0 1 ^ 2) * (k : ℝ) ^ 2 * hss + 2 * (k : ℝ) ^ 2 * hs
    rw [e] at this
    nlinarith [mul_pos hk2 (by linarith : 0 < |r 0 0 * r 1 0 + r 0 1 * r 1 1| - (r 0 0 ^ 2 + r 0 1 ^ 2))]
  have hsub : [((0 : ℤ), (0 : ℤ)), (1, s * 1), (-1, s * -1), (2, s * 2), (-2, s * -2)] ⊆ H := by
    intro g hg
    simp only [List.mem_cons, List.not_mem_nil, or_false] at hg
    rcases hg with rfl | rfl | rfl | rfl | rfl
    · exact h0
    · exact hin 1 (by norm_num) (by norm_num)
    · exact hin (-1) (by norm_num) (by norm_num)
    · exact hin 2 (by norm_num) (by norm_num)
    · exact hin (-2) (by norm_num) (by norm_num)
  have h5 : 5 ≤ H.length := by
    have hnd5 : [((0 : ℤ), (0 : ℤ)), (1, s * 1), (-1, s * -1), (2, s * 2), (-2, s * -2)].Nodup := by
      simp
    have := (hnd5.subperm hsub).length_le
    simpa using this
  omega

/-- The lattice `((1,0),(1,1/2))` is such a lattice. -/
theorem C08_missing_on_oblique_lattice : ∃ l r, mkLattice (.vectors ![![1, 0], ![1, 1 / 2]]) (.int 64)
      "circular" none = .ok l ∧ l.reciprocal = .ok r ∧
      r 0 0 ^ 2 + r 0 1 ^ 2 < |r 0 0 * r 1 0 + r 0 1 * r 1 1| := by
  have hd : (Lattice.matrix ⟨![![1, 0], ![1, 1 / 2]], false, .circular, (64, 64), none⟩).det ≠ 0 := by
    simp [Lattice.matrix, det_fin_two]
  refine ⟨_, _, rfl, reciprocal_ok.mpr ⟨hd, rfl⟩, ?_⟩
  have hinv : (Lattice.matrix ⟨![![1, 0], ![1, 1 / 2]], false, .circular, (64, 64), none⟩)⁻¹
      = !![1, -2; 0, 2] := by
    apply inv_eq_right_inv
    ext i j
    fin_cases i <;> fin_cases j <;> simp [Lattice.matrix, mul_apply, Fin.sum_univ_two]
  rw [hinv]
  simp [abs_mul]
  have := Real.pi_pos
  rw [abs_of_pos this]
  nlinarith [sq_nonneg Real.pi, mul_pos this this]

/-- C08_partial applies to the square lattice. -/
example : ∃ l r, mkLattice (.vectors ![![1, 0], ![0, 1]]) (.int 64) "circular" none = .ok l ∧
    l.reciprocal = .ok r ∧
    |r 0 0 * r 1 0 + r 0 1 * r 1 1| + tolerance (r 0) (r 1) < r 0 0 ^ 2 + r 0 1 ^ 2 := by
  have hd : (Lattice.matrix ⟨![![1, 0], ![0, 1]], false, .circular, (64, 64), none⟩).det ≠ 0 := by
    simp [Lattice.matrix, det_fin_two]
  refine ⟨_, _, rfl, reciprocal_ok.mpr ⟨hd, rfl⟩, ?_⟩
  have hinv : (Lattice.matrix ⟨![![1, 0], ![0, 1]], false, .circular, (64, 64), none⟩)⁻¹ = 1 := by
    apply inv_eq_right_inv
    ext i j
    fin_cases i <;> fin_cases j <;> simp [Lattice.matrix, mul_apply, Fin.sum_univ_two]
  rw [hinv]
  simp [tolerance]
  have := Real.pi_pos
  nlinarith [mul_pos this this]

/-! ### C09 -/

/-- **C09**. Sorting only reorders the harmonics (same multiplicities, same count, same failures) by
non-decreasing first index, for every lattice, truncation, user-supplied harmonics and tie order. -/
theorem C09_sorting_only_reorders (argsort : List ℝ → List ℕ) (hA : ArgsortContract argsort)
    (l : Lattice) (nh : ℤ) :
    (∃ e, l.getHarmonics argsort nh true = .error e ∧ l.getHarmonics argsort nh false = .error e) ∨
    ∃ H H' n, l.getHarmonics argsort nh false = .ok (H, n) ∧
      l.getHarmonics argsort nh true = .ok (H', n) ∧ H'.Perm H ∧
      H'.Pairwise (fun a b => a.1 ≤ b.1) := by
  cases h : l.getHarmonics' argsort nh with
  | error e =>
    left
    exact ⟨e, by simp [Lattice.getHarmonics, h], by simp [Lattice.getHarmonics, h]⟩
  | ok p =>
    right
    obtain ⟨H, n⟩ := p
    have h1 : l.getHarmonics argsort nh false = .ok (H, n) := by simp [Lattice.getHarmonics, h]
    have h2 : l.getHarmonics argsort nh true =
        .ok (gather H (argsort (H.map fun g => (g.1 : ℝ))), n) := by simp [Lattice.getHarmonics, h]
    obtain ⟨H'', h3, h4, h5, -⟩ := getHarmonics_ok hA h2
    rw [h] at h3
    simp only [Except.ok.injEq, Prod.mk.injEq, and_true] at h3
    subst h3
    exact ⟨H, _, n, h1, h2, h4, h5 rfl⟩

end Nannos
