import Verif.Proofs.Generators

/-! The generator of tangent vectors by Fourier transforms, on patterns which do not reach the border of the cell. -/

namespace Nannos

open Spec

variable {Nx Ny : ℕ}

theorem fin_add_one_val {n : ℕ} [NeZero n] (i : Fin n) (h : (i : ℕ) + 1 < n) : ((i + 1 : Fin n) : ℕ) = i + 1 := by
  rw [Fin.val_add]
  have : ((1 : Fin n) : ℕ) = 1 := by
    rw [Fin.val_one', Nat.mod_eq_of_lt (by omega)]
  rw [this, Nat.mod_eq_of_lt h]

theorem fin_sub_one_val {n : ℕ} [NeZero n] (i : Fin n) (h : 0 < (i : ℕ)) : ((i - 1 : Fin n) : ℕ) = i - 1 := by
  have hi := i.isLt
  rw [Fin.val_sub]
  have : ((1 : Fin n) : ℕ) = 1 := by
    rw [Fin.val_one', Nat.mod_eq_of_lt (by omega)]
  rw [this]
  have : n - 1 + (i : ℕ) = (i - 1) + n := by omega
  rw [this, Nat.add_mod_right, Nat.mod_eq_of_lt (by omega)]

/-- Central differences on a ring. -/
noncomputable def ringDiff {n : ℕ} [NeZero n] (f : Fin n → ℂ) (i : Fin n) : ℂ := (f (i + 1) - f (i - 1)) / 2

theorem gradientAxis_inside {n : ℕ} [NeZero n] (f : Fin n → ℂ) (i : Fin n) (h0 : (i : ℕ) ≠ 0) (h1 : (i : ℕ) ≠ n - 1) :
    gradientAxis f i = ringDiff f i := by
  have hi := i.isLt
  unfold gradientAxis ringDiff entry
  rw [if_neg h0, if_neg h1, dif_pos (by omega), dif_pos (by omega)]
  congr 3
  · exact Fin.ext (fin_add_one_val i (by omega)).symm
  · exact Fin.ext (fin_sub_one_val i (by omega)).symm

theorem nearEnd_succ {n : ℕ} [NeZero n] (i : Fin n) (h : (i : ℕ) = 0 ∨ (i : ℕ) = n - 1) :
    NearEnd n ((i + 1 : Fin n) : ℕ) ∧ NearEnd n ((i - 1 : Fin n) : ℕ) := by
  have hi := i.isLt
  unfold NearEnd
  rcases Nat.lt_or_ge n 2 with h2 | h2
  · have := (i + 1).isLt
    have := (i - 1).isLt
    omega
  rcases h with h | h
  · refine ⟨?_, ?_⟩
    · rw [fin_add_one_val i (by omega)]; omega
    · have h1 : ((1 : Fin n) : ℕ) = 1 := by
        rw [Fin.val_one', Nat.mod_eq_of_lt (by omega)]
      rw [Fin.val_sub, h1, h, Nat.add_zero, Nat.mod_eq_of_lt (by omega)]
      omega
  · refine ⟨?_, ?_⟩
    · have h1 : ((1 : Fin n) : ℕ) = 1 := by
        rw [Fin.val_one', Nat.mod_eq_of_lt (by omega)]
      rw [Fin.val_add, h1, h, show n - 1 + 1 = n by omega, Nat.mod_self]
      omega
    · rw [fin_sub_one_val i (by omega)]; omega

theorem gradientAxis_end {n : ℕ} [NeZero n] (hn : 2 ≤ n) (f : Fin n → ℂ)
    (hf : ∀ i j : Fin n, NearEnd n i → NearEnd n j → f i = f j) (i : Fin n) (h : (i : ℕ) = 0 ∨ (i : ℕ) = n - 1) :
    gradientAxis f i = 0 ∧ ringDiff f i = 0 := by
  have hi := i.isLt
  refine ⟨?_, ?_⟩
  · unfold gradientAxis entry
    rcases h with h | h
    · rw [if_pos h, dif_pos (by omega), dif_pos (by omega), sub_eq_zero]
      apply hf <;> (unfold NearEnd; dsimp only; omega)
    · rw [if_neg (by omega), if_pos h, dif_pos (by omega), dif_pos (by omega), sub_eq_zero]
      apply hf <;> (unfold NearEnd; dsimp only; omega)
  · unfold ringDiff
    rw [hf _ _ (nearEnd_succ i h).1 (nearEnd_succ i h).2, sub_self, zero_div]

theorem gradientAxis_ring {n : ℕ} [NeZero n] (hn : 2 ≤ n) (f : Fin n → ℂ)
    (hf : ∀ i j : Fin n, NearEnd n i → NearEnd n j → f i = f j) (i : Fin n) : gradientAxis f i = ringDiff f i := by
  by_cases h : (i : ℕ) = 0 ∨ (i : ℕ) = n - 1
  · rw [(gradientAxis_end hn f hf i h).1, (gradientAxis_end hn f hf i h).2]
  · exact gradientAxis_inside f i (by omega) (by omega)

theorem weightedNormalPt_zero' (v0 v1 w : ℂ) : weightedNormalPt v0 v1 0 w = 0 := by
  unfold weightedNormalPt normalizePt
  split_ifs <;> simp

/-- The weighted normals on a ring. -/
noncomputable def ringNormals [NeZero Nx] [NeZero Ny] (G : Grid Nx Ny) : Grid Nx Ny × Grid Nx Ny :=
  (fun i j => weightedNormalPt (ringDiff (fun k => G k j) i) (ringDiff (G i) j) (ringDiff (fun k => G k j) i)
      (ringDiff (fun k => smooth G k j) i),
   fun i j => weightedNormalPt (ringDiff (fun k => G k j) i) (ringDiff (G i) j) (ringDiff (G i) j)
      (ringDiff (smooth G i) j))

theorem ringNormals_shift [NeZero Nx] [NeZero Ny] (G : Grid Nx Ny) (p : Fin Nx) (q : Fin Ny) :
    ringNormals (fun i j => G (i - p) (j - q)) =
      (fun i j => (ringNormals G).1 (i - p) (j - q), fun i j => (ringNormals G).2 (i - p) (j - q)) := by
  unfold ringNormals
  rw [smooth_shift]
  have e1 : ∀ (n : ℕ) [NeZero n] (i p : Fin n), i + 1 - p = i - p + 1 := fun n _ i p => by abel
  have e2 : ∀ (n : ℕ) [NeZero n] (i p : Fin n), i - 1 - p = i - p - 1 := fun n _ i p => by abel
  simp only [ringDiff, e1, e2]

theorem normals_ring [NeZero Nx] [NeZero Ny] (hx : 2 ≤ Nx) (hy : 2 ≤ Ny) {G : Grid Nx Ny} (h : ClearOfBorder G) :
    (fun i j => weightedNormalPt (gradientAxis (fun k => G k j) i) (gradientAxis (G i) j) (gradientAxis (fun k => G k j) i)
      (gradientAxis (fun k => smooth G k j) i)) = (ringNormals G).1 ∧
    (fun i j => weightedNormalPt (gradientAxis (fun k => G k j) i) (gradientAxis (G i) j) (gradientAxis (G i) j)
      (gradientAxis (smooth G i) j)) = (ringNormals G).2 := by
  constructor
  · funext i j
    dsimp only [ringNormals]
    rw [gradientAxis_ring hx (fun k => G k j) (fun i i' h1 h2 => h.1 i i' j h1 h2) i,
      gradientAxis_ring hy (G i) (fun j j' h1 h2 => h.2 i j j' h1 h2) j]
    by_cases e : (i : ℕ) = 0 ∨ (i : ℕ) = Nx - 1
    · rw [(gradientAxis_end hx (fun k => G k j) (fun i i' h1 h2 => h.1 i i' j h1 h2) i e).2, weightedNormalPt_zero',
        weightedNormalPt_zero']
    · rw [gradientAxis_inside _ i (by omega) (by omega)]
  · funext i j
    dsimp only [ringNormals]
    rw [gradientAxis_ring hx (fun k => G k j) (fun i i' h1 h2 => h.1 i i' j h1 h2) i,
      gradientAxis_ring hy (G i) (fun j j' h1 h2 => h.2 i j j' h1 h2) j]
    by_cases e : (j : ℕ) = 0 ∨ (j : ℕ) = Ny - 1
    · rw [(gradientAxis_end hy (G i) (fun j j' h1 h2 => h.2 i j j' h1 h2) j e).2, weightedNormalPt_zero',
        weightedNormalPt_zero']
    · rw [gradientAxis_inside _ j (by omega) (by omega)]

theorem nearEnd_mod {N k : ℕ} (hN : 0 < N) (hk : k < 3 * N) (h : NearEnd (3 * N) k) : NearEnd N (k % N) := by
  unfold NearEnd at *
  have hm := Nat.mod_lt k hN
  rcases Nat.lt_or_ge N 2 with h2 | h2
  · omega
  rcases h with h | h
  · rcases Nat.lt_or_ge k N with h3 | h3
    · rw [Nat.mod_eq_of_lt h3]; omega
    · omega
  · have : k = (k - 2 * N) + N * 2 := by omega
    rw [this, Nat.add_mul_mod_self_left, Nat.mod_eq_of_lt (by omega)]
    omega

theorem tile3_clear (hx : 0 < Nx) (hy : 0 < Ny) {a : Grid Nx Ny} (h : ClearOfBorder a) : ClearOfBorder (tile3 a) :=
  ⟨fun x x' _ h1 h2 => h.1 _ _ _ (nearEnd_mod hx x.isLt h1) (nearEnd_mod hx x'.isLt h2),
    fun _ y y' h1 h2 => h.2 _ _ _ (nearEnd_mod hy y.isLt h1) (nearEnd_mod hy y'.isLt h2)⟩

/-- Position of a displacement on the ring of `n` positions. -/
def ringPos (n : ℕ) [NeZero n] (s : ℤ) : Fin n :=
  ⟨pixel n s, by
    unfold pixel
    have h : (n : ℤ) ≠ 0 := by exact_mod_cast NeZero.ne n
    have := Int.emod_nonneg s h
    have := Int.emod_lt_of_pos s (b := n) (by omega)
    omega⟩

theorem ringPos_sub {n : ℕ} [NeZero n] (i : Fin n) (s : ℤ) : ((i - ringPos n s : Fin n) : ℕ) = pixel n ((i : ℕ) - s) := by
  have h : (n : ℤ) ≠ 0 := by exact_mod_cast NeZero.ne n
  have hi := i.isLt
  have h1 := Int.emod_nonneg s h
  have h2 := Int.emod_lt_of_pos s (b := n) (by omega)
  have h3 := Int.emod_nonneg ((i : ℕ) - s) h
  rw [Fin.val_sub]
  unfold ringPos pixel
  dsimp only
  zify
  rw [Int.toNat_of_nonneg h3]
  have : ((n - (s % n).toNat : ℕ) : ℤ) = n - s % n := by
    rw [Nat.cast_sub (by omega), Int.toNat_of_nonneg h1]
  rw [this]
  rw [show (n : ℤ) - s % n + (i : ℕ) = (i : ℕ) - s % n + n by ring, Int.add_emod_right]
  rw [Int.sub_emod, Int.emod_emod_of_dvd s (dvd_refl (n : ℤ)), ← Int.sub_emod]

theorem pixel_mod {N m : ℕ} (hN : 0 < N) (hm : 0 < m) (s : ℤ) : pixel (m * N) s % N = pixel N s := by
  unfold pixel
  have h1 : 0 ≤ s % ((m * N : ℕ) : ℤ) := Int.emod_nonneg s (by positivity)
  have h2 : 0 ≤ s % (N : ℤ) := Int.emod_nonneg s (by positivity)
  zify
  rw [Int.toNat_of_nonneg h2]
  have h3 := Int.emod_emod_of_dvd s (show (N : ℤ) ∣ ((m * N : ℕ) : ℤ) from ⟨m, by push_cast; ring⟩)
  rw [← h3]
  congr 1
  exact_mod_cast Int.toNat_of_nonneg h1

theorem spread_shift [NeZero (3 * Nx)] [NeZero (3 * Ny)] (e : ℝ) (N : Grid (3 * Nx) (3 * Ny)) (p : Fin (3 * Nx))
    (q : Fin (3 * Ny)) : spread e (fun i j => N (i - p) (j - q)) = fun i j => spread e N (i - p) (j - q) := by
  obtain ⟨K, hK⟩ := spread_conv (Nx := Nx) (Ny := Ny) e
  rw [hK, hK, cconv_shift]

/-- The centre of the spread normals of a pattern, before and after a displacement. -/
theorem centre_moved (hx : 0 < Nx) (hy : 0 < Ny) [NeZero (3 * Nx)] [NeZero (3 * Ny)] {a a' : Grid Nx Ny} {sx sy : ℤ}
    (h : ∀ (x : Fin Nx) (y : Fin Ny) (x' : Fin Nx) (y' : Fin Ny), (x' : ℕ) = pixel Nx ((x : ℕ) - sx) →
      (y' : ℕ) = pixel Ny ((y : ℕ) - sy) → a' x y = a x' y')
    (f : Grid (3 * Nx) (3 * Ny) → Grid (3 * Nx) (3 * Ny))
    (hf : ∀ G (p : Fin (3 * Nx)) (q : Fin (3 * Ny)), f (fun i j => G (i - p) (j - q)) = fun i j => f G (i - p) (j - q))
    (x : Fin Nx) (y : Fin Ny) (x' : Fin Nx) (y' : Fin Ny) (ex : (x' : ℕ) = pixel Nx ((x : ℕ) - sx))
    (ey : (y' : ℕ) = pixel Ny ((y : ℕ) - sy)) :
    centre (f (tile3 a')) x y = centre (f (tile3 a)) x' y' := by
  -- the displacement on the ring which brings the pixel of the centre there
  set sx' : ℤ := (x : ℕ) - (x' : ℕ) with hsx
  set sy' : ℤ := (y : ℕ) - (y' : ℕ) with hsy
  have hdx : ∀ k : ℤ, pixel Nx (k - sx') = pixel Nx (k - sx) := by
    intro k
    unfold pixel
    congr 1
    have h1 : ((x' : ℕ) : ℤ) = ((x : ℕ) - sx) % Nx := by
      rw [ex]; unfold pixel
      exact Int.toNat_of_nonneg (Int.emod_nonneg _ (by omega))
    have h2 : (Nx : ℤ) ∣ sx - sx' := by
      refine ⟨-(((x : ℕ) - sx) / Nx), ?_⟩
      have := Int.emod_add_mul_ediv ((x : ℕ) - sx) Nx
      rw [hsx, h1]
      linarith
    obtain ⟨m, hm⟩ := h2
    rw [show k - sx' = k - sx + Nx * m by rw [← hm]; ring, Int.add_mul_emod_self_left]
  have hdy : ∀ k : ℤ, pixel Ny (k - sy') = pixel Ny (k - sy) := by
    intro k
    unfold pixel
    congr 1
    have h1 : ((y' : ℕ) : ℤ) = ((y : ℕ) - sy) % Ny := by
      rw [ey]; unfold pixel
      exact Int.toNat_of_nonneg (Int.emod_nonneg _ (by omega))
    have h2 : (Ny : ℤ) ∣ sy - sy' := by
      refine ⟨-(((y : ℕ) - sy) / Ny), ?_⟩
      have := Int.emod_add_mul_ediv ((y : ℕ) - sy) Ny
      rw [hsy, h1]
      linarith
    obtain ⟨m, hm⟩ := h2
    rw [show k - sy' = k - sy + Ny * m by rw [← hm]; ring, Int.add_mul_emod_self_left]
  have key : tile3 a' = fun i j => tile3 a (i - ringPos (3 * Nx) sx') (j - ringPos (3 * Ny) sy') := by
    funext i j
    unfold tile3
    apply h
    · dsimp only
      rw [ringPos_sub, pixel_mod hx (by norm_num), hdx]
      unfold pixel
      congr 1
      rw [Int.sub_emod, Int.sub_emod ((i % Nx : ℕ) : ℤ)]
      push_cast
      rw [Int.emod_emod_of_dvd _ (dvd_refl (Nx : ℤ))]
    · dsimp only
      rw [ringPos_sub, pixel_mod hy (by norm_num), hdy]
      unfold pixel
      congr 1
      rw [Int.sub_emod, Int.sub_emod ((j % Ny : ℕ) : ℤ)]
      push_cast
      rw [Int.emod_emod_of_dvd _ (dvd_refl (Ny : ℤ))]
  rw [key, hf]
  unfold centre
  have pos : ∀ {N : ℕ} [NeZero (3 * N)] (k k' : Fin N),
      (⟨N + k, by omega⟩ : Fin (3 * N)) - ringPos (3 * N) ((k : ℕ) - (k' : ℕ)) = ⟨N + k', by omega⟩ := by
    intro N _ k k'
    apply Fin.ext
    rw [ringPos_sub]
    unfold pixel
    dsimp only
    rw [show ((N + (k : ℕ) : ℕ) : ℤ) - ((k : ℕ) - (k' : ℕ)) = N + (k' : ℕ) by push_cast; ring,
      Int.emod_eq_of_lt (by omega) (by omega)]
    omega
  dsimp only
  rw [hsx, hsy, pos, pos]

/-- The generator on two patterns displaced with respect to each other, neither of which reaches the border. -/
theorem tangentFft_moved (hx : 0 < Nx) (hy : 0 < Ny) {a a' : Grid Nx Ny} (hc : ClearOfBorder a) (hc' : ClearOfBorder a')
    {sx sy : ℤ} (h : ∀ (x : Fin Nx) (y : Fin Ny) (x' : Fin Nx) (y' : Fin Ny), (x' : ℕ) = pixel Nx ((x : ℕ) - sx) →
      (y' : ℕ) = pixel Ny ((y : ℕ) - sy) → a' x y = a x' y') (n : Bool) :
    ∃ t0 t1 t0' t1' : Grid Nx Ny, tangentFft ⟨Nx, Ny, a⟩ n = .ok ⟨Nx, Ny, t0, t1⟩ ∧
      tangentFft ⟨Nx, Ny, a'⟩ n = .ok ⟨Nx, Ny, t0', t1'⟩ ∧
      ∀ (x : Fin Nx) (y : Fin Ny) (x' : Fin Nx) (y' : Fin Ny), (x' : ℕ) = pixel Nx ((x : ℕ) - sx) →
        (y' : ℕ) = pixel Ny ((y : ℕ) - sy) → t0' x y = t0 x' y' ∧ t1' x y = t1 x' y' := by
  have : NeZero (3 * Nx) := ⟨by omega⟩
  have : NeZero (3 * Ny) := ⟨by omega⟩
  rw [tangentFft_ok a hx hy, tangentFft_ok a' hx hy]
  have raw : ∀ {b : Grid Nx Ny}, ClearOfBorder b → rawField (Nx := Nx) (Ny := Ny)
      (fun i j => gradientAxis (fun k => tile3 b k j) i) (fun i j => gradientAxis (tile3 b i) j)
      (fun i j => gradientAxis (fun k => smooth (tile3 b) k j) i) (fun i j => gradientAxis (smooth (tile3 b) i) j) =
      ⟨Nx, Ny, fun i j => ((centre (spread (1 / 2) (ringNormals (tile3 b)).2) i j).re : ℂ),
        fun i j => ((-(centre (spread (1 / 2) (ringNormals (tile3 b)).1) i j).re : ℝ) : ℂ)⟩ := by
    intro b hb
    obtain ⟨e1, e2⟩ := normals_ring (by omega) (by omega) (tile3_clear hx hy hb)
    unfold rawField
    rw [e1, e2]
  rw [raw hc, raw hc']
  have m1 := centre_moved hx hy h (fun G => spread (1 / 2) (ringNormals G).1)
    (fun G p q => by rw [ringNormals_shift, spread_shift])
  have m2 := centre_moved hx hy h (fun G => spread (1 / 2) (ringNormals G).2)
    (fun G p q => by rw [ringNormals_shift, spread_shift])
  set A := spread (1 / 2) (ringNormals (tile3 a)).1 with hA
  set B := spread (1 / 2) (ringNormals (tile3 a)).2 with hB
  set A' := spread (1 / 2) (ringNormals (tile3 a')).1 with hA'
  set B' := spread (1 / 2) (ringNormals (tile3 a')).2 with hB'
  -- the largest length is the same
  set t0 : Grid Nx Ny := fun i j => ((centre B i j).re : ℂ) with ht0
  set t1 : Grid Nx Ny := fun i j => ((-(centre A i j).re : ℝ) : ℂ) with ht1
  set t0' : Grid Nx Ny := fun i j => ((centre B' i j).re : ℂ) with ht0'
  set t1' : Grid Nx Ny := fun i j => ((-(centre A' i j).re : ℝ) : ℂ) with ht1'
  have hm : ∀ (x : Fin Nx) (y : Fin Ny) (x' : Fin Nx) (y' : Fin Ny), (x' : ℕ) = pixel Nx ((x : ℕ) - sx) →
      (y' : ℕ) = pixel Ny ((y : ℕ) - sy) → t0' x y = t0 x' y' ∧ t1' x y = t1 x' y' := by
    intro x y x' y' ex ey
    rw [ht0, ht0', ht1, ht1']
    dsimp only
    rw [m1 x y x' y' ex ey, m2 x y x' y' ex ey]
    exact ⟨rfl, rfl⟩
  have hmax : maxNorm t0' t1' = maxNorm t0 t1 := by
    have : NeZero Nx := ⟨by omega⟩
    have : NeZero Ny := ⟨by omega⟩
    unfold maxNorm
    refine (Equiv.iSup_congr ((Equiv.subRight (ringPos Nx sx)).prodCongr (Equiv.subRight (ringPos Ny sy))) fun p => ?_)
    obtain ⟨e1, e2⟩ := hm p.1 p.2 (p.1 - ringPos Nx sx) (p.2 - ringPos Ny sy) (ringPos_sub _ _) (ringPos_sub _ _)
    simp only [Equiv.prodCongr_apply, Prod.map, Equiv.subRight_apply]
    rw [e1, e2]
  refine ⟨_, _, _, _, rfl, rfl, fun x y x' y' ex ey => ?_⟩
  obtain ⟨e1, e2⟩ := hm x y x' y' ex ey
  cases n with
  | true =>
    change (normalizeVecPt (t0' x y) (t1' x y) (normPt (t0' x y) (t1' x y))).1 =
        (normalizeVecPt (t0 x' y') (t1 x' y') (normPt (t0 x' y') (t1 x' y'))).1 ∧
      (normalizeVecPt (t0' x y) (t1' x y) (normPt (t0' x y) (t1' x y))).2 =
        (normalizeVecPt (t0 x' y') (t1 x' y') (normPt (t0 x' y') (t1 x' y'))).2
    rw [e1, e2]
    exact ⟨rfl, rfl⟩
  | false =>
    change t0' x y / (maxNorm t0' t1' : ℂ) = t0 x' y' / (maxNorm t0 t1 : ℂ) ∧
      t1' x y / (maxNorm t0' t1' : ℂ) = t1 x' y' / (maxNorm t0 t1 : ℂ)
    rw [e1, e2, hmax]
    exact ⟨rfl, rfl⟩

end Nannos
