import Verif.Props.Symmetry
import Verif.Props.CircularMetric
import Verif.Examples.Run

/-! Property C65, continued: the circular truncation depends on the orientation of the lattice. Concrete cases of C63-C67. -/

namespace Nannos

open Matrix Spec

theorem orient_lo {argsort : List ℝ → List ℕ} (hA : ArgsortContract argsort) {l : Lattice} (hl : l.truncation = .circular)
    (hu : l.harmonicsArray = none) (hb : l.basis = ![![1, 0], ![1 / 2, 1]]) :
    ∃ H n, l.getHarmonics argsort 8 true = .ok (H, n) ∧ ((1 : ℤ), (1 : ℤ)) ∈ H := by
  have hinv : l.matrix⁻¹ = !![1, -1 / 2; 0, 1] := by
    apply inv_eq_right_inv
    ext i j
    fin_cases i <;> fin_cases j <;> simp [Lattice.matrix, hb, mul_apply, Fin.sum_univ_two] <;> norm_num
  have hr : l.reciprocal = .ok !![2 * Real.pi, 0; -Real.pi, 2 * Real.pi] := by
    rw [reciprocal_ok]
    refine ⟨by simp [Lattice.matrix, hb, det_fin_two], ?_⟩
    rw [hinv]
    ext i j
    fin_cases i <;> fin_cases j <;> simp
    ring
  have hpi := Real.pi_pos
  set r : Matrix (Fin 2) (Fin 2) ℝ := !![2 * Real.pi, 0; -Real.pi, 2 * Real.pi] with hrd
  have hmet : ∀ g, metric (r 0) (r 1) g = 4 * Real.pi ^ 2 * ((g.1 : ℝ) ^ 2 + (g.2 : ℝ) ^ 2 - g.1 * g.2) := by
    intro g; simp only [metric, hrd, of_apply, cons_val', cons_val_zero, cons_val_one, cons_val_fin_one]; ring
  have htol : tolerance (r 0) (r 1) < 4 * Real.pi ^ 2 := by
    have h36 : max ((2 * Real.pi) ^ 2) (Real.pi ^ 2 + (2 * Real.pi) ^ 2) = 5 * Real.pi ^ 2 := by
      rw [max_eq_right (by nlinarith [mul_pos hpi hpi])]; ring
    simp [tolerance, hrd, h36]
    nlinarith [mul_pos hpi hpi]
  obtain ⟨H, n, h, hlen, hlt, hnd, hbox, hneg, hsep, hmax⟩ := C07_circular_truncation argsort hA l hl hu r hr 8 (by norm_num) true
  have e0 := extent_ge_two hr 8 0
  have e1 := extent_ge_two hr 8 1
  set A : Finset (ℤ × ℤ) := {(0, 0), (1, 0), (-1, 0), (0, 1), (0, -1), (1, 1), (-1, -1)} with hAd
  refine ⟨H, n, h, hmax A (by decide) ?_ ?_ _ (by simp [hAd])⟩
  · intro g hg
    simp only [hAd, Finset.mem_insert, Finset.mem_singleton] at hg
    rcases hg with rfl | rfl | rfl | rfl | rfl | rfl | rfl <;> constructor <;> simp <;> omega
  · intro g hg g' _ hng
    rw [hmet, hmet]
    have h1 : g.1 ^ 2 + g.2 ^ 2 - g.1 * g.2 ≤ 1 := by
      simp only [hAd, Finset.mem_insert, Finset.mem_singleton] at hg
      rcases hg with rfl | rfl | rfl | rfl | rfl | rfl | rfl <;> norm_num
    have h2 : 2 ≤ g'.1 ^ 2 + g'.2 ^ 2 - g'.1 * g'.2 := by
      by_contra hc
      obtain ⟨x, y⟩ := g'
      simp only at hc
      have hx : -1 ≤ x ∧ x ≤ 1 := by constructor <;> nlinarith [sq_nonneg (x - 2 * y), sq_nonneg x]
      have hy : -1 ≤ y ∧ y ≤ 1 := by constructor <;> nlinarith [sq_nonneg (y - 2 * x), sq_nonneg y]
      obtain ⟨hx1, hx2⟩ := hx
      obtain ⟨hy1, hy2⟩ := hy
      apply hng
      interval_cases x <;> interval_cases y <;> simp at hc <;> simp [hAd]
    have h1' : (g.1 : ℝ) ^ 2 + (g.2 : ℝ) ^ 2 - g.1 * g.2 ≤ 1 := by exact_mod_cast h1
    have h2' : (2 : ℝ) ≤ (g'.1 : ℝ) ^ 2 + (g'.2 : ℝ) ^ 2 - g'.1 * g'.2 := by exact_mod_cast h2
    nlinarith [mul_pos hpi hpi]

theorem orient_hi {argsort : List ℝ → List ℕ} (hA : ArgsortContract argsort) {l : Lattice} (hl : l.truncation = .circular)
    (hu : l.harmonicsArray = none) (hb : l.basis = ![![0, 1], ![-1, 1 / 2]]) :
    ∃ H n, l.getHarmonics argsort 8 true = .ok (H, n) ∧ ((1 : ℤ), (1 : ℤ)) ∉ H := by
  have hinv : l.matrix⁻¹ = !![1 / 2, 1; -1, 0] := by
    apply inv_eq_right_inv
    ext i j
    fin_cases i <;> fin_cases j <;> simp [Lattice.matrix, hb, mul_apply, Fin.sum_univ_two]
  have hr : l.reciprocal = .ok !![Real.pi, -(2 * Real.pi); 2 * Real.pi, 0] := by
    rw [reciprocal_ok]
    refine ⟨by simp [Lattice.matrix, hb, det_fin_two], ?_⟩
    rw [hinv]
    ext i j
    fin_cases i <;> fin_cases j <;> simp
    ring
  have hpi := Real.pi_pos
  set r : Matrix (Fin 2) (Fin 2) ℝ := !![Real.pi, -(2 * Real.pi); 2 * Real.pi, 0] with hrd
  have hmet : ∀ g, metric (r 0) (r 1) g = Real.pi ^ 2 * (5 * ((g.1 : ℝ) ^ 2 + (g.2 : ℝ) ^ 2) + 4 * (g.1 * g.2)) := by
    intro g; simp only [metric, hrd, of_apply, cons_val', cons_val_zero, cons_val_one, cons_val_fin_one]; ring
  have htol : tolerance (r 0) (r 1) < 4 * Real.pi ^ 2 := by
    have h36 : max (Real.pi ^ 2 + (2 * Real.pi) ^ 2) ((2 * Real.pi) ^ 2) = 5 * Real.pi ^ 2 := by
      rw [max_eq_left (by nlinarith [mul_pos hpi hpi])]; ring
    simp [tolerance, hrd, h36]
    nlinarith [mul_pos hpi hpi]
  obtain ⟨H, n, h, hlen, hlt, hnd, hbox, hneg, hsep, hmax⟩ := C07_circular_truncation argsort hA l hl hu r hr 8 (by norm_num) true
  have e0 := extent_ge_two hr 8 0
  have e1 := extent_ge_two hr 8 1
  set A : Finset (ℤ × ℤ) := {(0, 0), (1, 0), (-1, 0), (0, 1), (0, -1), (1, -1), (-1, 1)} with hAd
  have hAin : ∀ g ∈ A, g ∈ H := by
    refine hmax A (by decide) ?_ ?_
    · intro g hg
      simp only [hAd, Finset.mem_insert, Finset.mem_singleton] at hg
      rcases hg with rfl | rfl | rfl | rfl | rfl | rfl | rfl <;> constructor <;> simp <;> omega
    · intro g hg g' _ hng
      rw [hmet, hmet]
      have h1 : 5 * (g.1 ^ 2 + g.2 ^ 2) + 4 * (g.1 * g.2) ≤ 6 := by
        simp only [hAd, Finset.mem_insert, Finset.mem_singleton] at hg
        rcases hg with rfl | rfl | rfl | rfl | rfl | rfl | rfl <;> norm_num
      have h2 : 10 ≤ 5 * (g'.1 ^ 2 + g'.2 ^ 2) + 4 * (g'.1 * g'.2) := by
        by_contra hc
        obtain ⟨x, y⟩ := g'
        simp only at hc
        have hx : -1 ≤ x ∧ x ≤ 1 := by constructor <;> nlinarith [sq_nonneg (2 * x + 5 * y), sq_nonneg x]
        have hy : -1 ≤ y ∧ y ≤ 1 := by constructor <;> nlinarith [sq_nonneg (2 * y + 5 * x), sq_nonneg y]
        obtain ⟨hx1, hx2⟩ := hx
        obtain ⟨hy1, hy2⟩ := hy
        apply hng
        interval_cases x <;> interval_cases y <;> simp at hc <;> simp [hAd]
      have h1' : 5 * ((g.1 : ℝ) ^ 2 + (g.2 : ℝ) ^ 2) + 4 * (g.1 * g.2) ≤ 6 := by exact_mod_cast h1
      have h2' : (10 : ℝ) ≤ 5 * ((g'.1 : ℝ) ^ 2 + (g'.2 : ℝ) ^ 2) + 4 * (g'.1 * g'.2) := by exact_mod_cast h2
      nlinarith [mul_pos hpi hpi]
  refine ⟨H, n, h, fun h11 => ?_⟩
  have hsub : [((1 : ℤ), (1 : ℤ)), (0, 0), (1, 0), (-1, 0), (0, 1), (0, -1), (1, -1), (-1, 1)] ⊆ H := by
    intro g hg
    rcases List.mem_cons.mp hg with rfl | hg
    · exact h11
    · exact hAin g (by simpa [hAd] using hg)
  have hnd6 : [((1 : ℤ), (1 : ℤ)), (0, 0), (1, 0), (-1, 0), (0, 1), (0, -1), (1, -1), (-1, 1)].Nodup := by decide
  have := (hnd6.subperm hsub).length_le
  simp at this
  omega

/-- **C65**, why the theorem needs the same orders: the lattice `(1,0)`, `(1/2,1)` with `nh = 8` retains the order `(1,1)`;
turned by 90 degrees it does not, whatever the sorting algorithm. -/
theorem C65_truncation_depends_on_orientation (argsort : List ℝ → List ℕ) (hA : ArgsortContract argsort) :
    ∃ l l' H n H' n', mkLattice (.vectors ![![1, 0], ![1 / 2, 1]]) (.int 64) "circular" none = .ok l ∧
      mkLattice (.vectors ![![0, 1], ![-1, 1 / 2]]) (.int 64) "circular" none = .ok l' ∧
      l.getHarmonics argsort 8 true = .ok (H, n) ∧ l'.getHarmonics argsort 8 true = .ok (H', n') ∧
      ((1 : ℤ), (1 : ℤ)) ∈ H ∧ ((1 : ℤ), (1 : ℤ)) ∉ H' := by
  obtain ⟨H, n, h1, h2⟩ := orient_lo hA (l := ⟨![![1, 0], ![1 / 2, 1]], false, .circular, (64, 64), none⟩) rfl rfl rfl
  obtain ⟨H', n', h1', h2'⟩ := orient_hi hA (l := ⟨![![0, 1], ![-1, 1 / 2]], false, .circular, (64, 64), none⟩) rfl rfl rfl
  exact ⟨_, _, H, n, H', n', rfl, rfl, h1, h1', h2, h2'⟩

/-- **C65**, orders: the parallelogrammic truncation retains the same orders for every lattice, and an array given by the
user is taken as it is. -/
theorem C65_orders_retained {A A' : List ℝ → List ℕ} (hA : ArgsortContract A) (hA' : ArgsortContract A') {l l' : Lattice}
    (h : (∃ H, l.harmonicsArray = some H ∧ l'.harmonicsArray = some H) ∨
      (l.harmonicsArray = none ∧ l'.harmonicsArray = none ∧ l.truncation = .parallelogrammic ∧ l'.truncation = .parallelogrammic ∧
        LinearIndependent ℝ l.basis ∧ LinearIndependent ℝ l'.basis))
    {nh n n' : ℤ} (hn : 1 ≤ nh) {H H' : List (ℤ × ℤ)} (h1 : l.getHarmonics A nh true = .ok (H, n))
    (h2 : l'.getHarmonics A' nh true = .ok (H', n')) : ∀ g, g ∈ H' ↔ g ∈ H := by
  rcases h with ⟨G, a, b⟩ | ⟨a, b, t, t', i, i'⟩
  · obtain ⟨K, k1, k2, -⟩ := getHarmonics_ok hA h1
    obtain ⟨K', k1', k2', -⟩ := getHarmonics_ok hA' h2
    unfold Lattice.getHarmonics' at k1 k1'
    rw [a] at k1
    rw [b] at k1'
    simp only [Except.ok.injEq, Prod.mk.injEq] at k1 k1'
    obtain ⟨rfl, -⟩ := k1
    obtain ⟨rfl, -⟩ := k1'
    intro g
    rw [k2.mem_iff, k2'.mem_iff]
  · obtain ⟨K, m, M, c1, c2, c3, c4, c5, -⟩ := C06_parallelogrammic_truncation A hA l t a i nh hn true
    obtain ⟨K', m', M', c1', c2', c3', c4', c5', -⟩ := C06_parallelogrammic_truncation A' hA' l' t' b i' nh hn true
    rw [h1] at c1
    rw [h2] at c1'
    simp only [Except.ok.injEq, Prod.mk.injEq] at c1 c1'
    obtain ⟨rfl, -⟩ := c1
    obtain ⟨rfl, -⟩ := c1'
    have : M = M' := by
      have a : M < M' + 1 := by nlinarith
      have b : M' < M + 1 := by nlinarith
      omega
    subst this
    intro g
    rw [c5, c5']

/-! ### Concrete cases -/

open Examples

/-- Air, a grating of four pixels, air. -/
noncomputable def patMats (g : Grid 4 1) : ℕ → LayerSpec := fun r =>
  if r = 0 then exLayer "Superstrate" 1 (NdArr.scalar (((1 : ℝ) ^ 2 : ℝ) : ℂ))
  else if r = 1 then exLayer "Slab" (1 / 8) (NdArr.ofGrid g)
  else exLayer "Substrate" 1 (NdArr.scalar (((1 : ℝ) ^ 2 : ℝ) : ℂ))

theorem patMats_slab : patMats exGrid = slabMats := rfl

theorem patMats_cases (g : Grid 4 1) (r : ℕ) : (patMats g r).iscopy = false ∧ (patMats g r).mu = 1 ∧ (patMats g r).lattice = 0 := by
  unfold patMats
  split_ifs <;> exact ⟨rfl, rfl, rfl⟩

theorem patMats_placed (g : Grid 4 1) : WellPlaced (patMats g) [0, 1, 2] := by
  intro k r _ hc
  rw [(patMats_cases g r).1] at hc
  simp at hc

theorem checkNyquist_of {l : Lattice} {H : List (ℤ × ℤ)} (hne : ∃ g, g ∈ H) {M : ℤ} (hM : ∀ g ∈ H, g.1 ≤ M ∧ g.2 ≤ M)
    (h1 : 2 * M < l.discretization.1) (h2 : l.is1D = true ∨ 2 * M < l.discretization.2) : checkNyquist l H = .ok () := by
  unfold checkNyquist maxHarmonic
  obtain ⟨g, hg⟩ := hne
  have hall : ∀ x ∈ H.flatMap (fun g => [g.1, g.2]), x ≤ M := by
    intro x hx
    obtain ⟨g, hg, hx⟩ := List.mem_flatMap.mp hx
    rcases List.mem_cons.mp hx with rfl | hx
    · exact (hM g hg).1
    · rw [List.mem_singleton] at hx
      subst hx
      exact (hM g hg).2
  rcases hf : H.flatMap (fun g => [g.1, g.2]) with _ | ⟨x, xs⟩
  · have : g.1 ∈ H.flatMap (fun g => [g.1, g.2]) := List.mem_flatMap.mpr ⟨g, hg, by simp⟩
    rw [hf] at this
    simp at this
  · rw [hf] at hall
    have hb := (foldl_max_le (l := xs)).mpr ⟨hall x (by simp), fun y hy => hall y (by simp [hy])⟩
    rw [hf]
    dsimp only
    rw [except_bind_ok, if_neg]
    · rfl
    · rintro (h | ⟨h, h'⟩)
      · omega
      · rcases h2 with h2 | h2
        · simp [h2] at h'
        · omega

/-- Three orders on a mono-periodic lattice. -/
theorem pat_init {E : Ext} (hA : ArgsortContract E.argsort) (g : Grid 4 1) (exc : PlaneWave) {form : String}
    (hf : form = "original" ∨ form = "tangent") {l : Lattice} (hl : ∃ a, a ≠ 0 ∧ l = ⟨![![a, 0], ![0, 1]], true, .oneD, (256, 1), none⟩) :
    ∃ c, simInit E (fun _ => l) (patMats g) [0, 1, 2] exc 3 form = .ok c ∧ c.harmonics.Nodup ∧
      (∀ g, g ∈ c.harmonics ↔ g.2 = 0 ∧ |g.1| ≤ 1) ∧ c.lattice = l := by
  obtain ⟨a, ha, rfl⟩ := hl
  obtain ⟨H, n, h1, h2, h3, -⟩ := C05_mono_periodic_truncation E.argsort hA ⟨![![a, 0], ![0, 1]], true, .oneD, (256, 1), none⟩ rfl rfl 3 true
  have h2' : ∀ g, g ∈ H ↔ g.2 = 0 ∧ |g.1| ≤ 1 := by
    intro g
    rw [h2]
    norm_num
  have hu : ((0 :: [1, 2]).all fun r => (patMats g r).isUniform) = false := rfl
  have hny : checkNyquist ⟨![![a, 0], ![0, 1]], true, .oneD, (256, 1), none⟩ H = .ok () := by
    refine checkNyquist_of ⟨(0, 0), (h2' _).mpr (by simp)⟩ (M := 1) (fun g hg => ?_) (by norm_num) (.inl rfl)
    obtain ⟨q1, q2⟩ := (h2' g).mp hg
    rw [abs_le] at q2
    exact ⟨q2.2, by rw [q1]; norm_num⟩
  obtain ⟨c, hc⟩ := simInit_exists (E := E) (lats := fun _ => ⟨![![a, 0], ![0, 1]], true, .oneD, (256, 1), none⟩) (mats := patMats g)
    (r0 := 0) (tl := [1, 2]) (exc := exc) (nh := 3) (form := form) (H := H) (n := n)
    (r := (2 * Real.pi) • (Lattice.matrix ⟨![![a, 0], ![0, 1]], true, .oneD, (256, 1), none⟩)⁻¹ᵀ)
    (by simp [patMats, exLayer]) (fun r _ => by rw [(patMats_cases g r).2.2, (patMats_cases g 0).2.2])
    (by tauto) (fun _ => hf) (by rw [hu]; exact h1) hny ⟨rfl, rfl⟩
    (by simp [patMats, exLayer, NdArr.scalar, NdArr.value]) (reciprocal_ok.mpr ⟨by simpa [Lattice.matrix, det_fin_two] using ha, rfl⟩)
  have hi := simInit_ok hc
  have hl := hi.lat_eq 0 rfl
  have hH : c.harmonics = H := by
    obtain ⟨k, hk⟩ := hi.harm
    rw [hl, hu] at hk
    have : effectiveNh 3 false = 3 := rfl
    rw [this, h1] at hk
    simp only [Except.ok.injEq, Prod.mk.injEq] at hk
    exact hk.1.symm
  exact ⟨c, hc, hH ▸ h3, hH ▸ h2', hl⟩

/-- A library whose sort compares keys, with the eigenvalue solver of the examples. -/
noncomputable def cmpE : Ext := { exE with argsort := exists_comparisonSort.choose }

theorem cmpE_eig : EigContract cmpE := exE_eig

theorem oblique (wl ph ps : ℝ) (h : 0 < wl) : ∃ p, planeWave wl (60, ph, ps) = .ok p := by
  have hc : Real.cos (60 * (Real.pi / 180)) = 1 / 2 := by
    rw [← Real.cos_pi_div_three]; congr 1; ring
  exact ((C02_modal_amplitude_is_magnetic_amplitude wl h (60, ph, ps)).1).mpr (by rw [hc]; norm_num)

/-- C63: a grating with three orders, oblique incidence, all lengths doubled. -/
example : ∃ (exc exc' : PlaneWave) (lats lats' : ℕ → Lattice) (c c' : Static), planeWave 1 (60, 30, 45) = .ok exc ∧ planeWave (2 * 1) (60, 30, 45) = .ok exc' ∧
    simInit cmpE lats slabMats [0, 1, 2] exc 3 "tangent" = .ok c ∧
    simInit cmpE lats' (fun r => scaledLayer 2 (slabMats r)) [0, 1, 2] exc' 3 "tangent" = .ok c' ∧ c'.harmonics = c.harmonics ∧
    ((1 : ℤ), (0 : ℤ)) ∈ c.harmonics := by
  obtain ⟨exc, h1⟩ := oblique 1 30 45 one_pos
  obtain ⟨exc', h2⟩ := oblique (2 * 1) 30 45 (by norm_num)
  obtain ⟨c, h3, h4, h5, h6⟩ := pat_init (E := cmpE) exists_comparisonSort.choose_spec.1 exGrid exc (.inr rfl) (l := exLat) ⟨1, one_ne_zero, rfl⟩
  obtain ⟨c', q1, q2, -⟩ := C63_unit_of_length cmpE_eig exists_comparisonSort.choose_spec.2 (s := 2) two_pos (lats := fun _ => exLat)
    (lats' := fun _ => ⟨![![2 * 1, 0], ![0, 1]], true, .oneD, (256, 1), none⟩)
    (fun _ => ⟨.period 1, .int 256, "circular", none, rfl, rfl⟩) h1 h2 h3 slab_placed (fun r _ => slab_mu r) h4 ((h5 _).mpr (by simp))
    (fun _ g hg => ((h5 g).mp hg).1)
  exact ⟨exc, exc', _, _, c, c', h1, h2, h3, q1, q2, (h5 _).mpr (by simp)⟩

/-- The grating displaced by a quarter of the period. -/
noncomputable def rollGrid : Grid 4 1 := fun x _ => if (x : ℕ) = 1 ∨ (x : ℕ) = 2 then 1 else 7

/-- The grating reflected. -/
noncomputable def flipGrid : Grid 4 1 := fun x _ => if (x : ℕ) = 0 ∨ (x : ℕ) = 3 then 1 else 7

theorem pat_moved {e1 e2 : ℤ} {u v : ℝ} {g g' : Grid 4 1} (sx sy : ℤ) (hw : WholePixels u v 4 1 sx sy)
    (hg : ∀ x : Fin 4, ∀ h, g' x 0 = g ⟨pixel 4 (e1 * (x : ℕ) - sx), h⟩ 0) (r : ℕ) : PatternMoved e1 e2 u v (patMats g r) (patMats g' r) := by
  unfold patMats
  split_ifs with h0 h1
  · exact ⟨rfl, rfl, fun _ => rfl, fun Nx Ny h => (by cases h),
      fun Nx Ny h => by simp [exLayer, NdArr.scalar] at h, .inl ⟨rfl, rfl⟩⟩
  · refine ⟨rfl, rfl, fun h => (by cases h), fun Nx Ny _ h => ?_,
      fun Nx Ny h => by simp [exLayer, NdArr.ofGrid] at h, .inl ⟨rfl, rfl⟩⟩
    simp only [exLayer, NdArr.ofGrid, List.cons.injEq, and_true] at h
    obtain ⟨rfl, rfl⟩ := h
    refine ⟨sx, sy, hw, fun x hx y hy => ?_⟩
    obtain rfl : y = 0 := by omega
    have p1 : pixel 4 (e1 * (x : ℤ) - sx) < 4 := by
      unfold pixel
      have := Int.emod_lt_of_pos (e1 * (x : ℤ) - sx) (by norm_num : (0 : ℤ) < ((4 : ℕ) : ℤ))
      have := Int.emod_nonneg (e1 * (x : ℤ) - sx) (by norm_num : ((4 : ℕ) : ℤ) ≠ 0)
      omega
    have p2 : pixel 1 (e2 * ((0 : ℕ) : ℤ) - sy) = 0 := by
      unfold pixel
      simp [Int.emod_one]
    simp only [exLayer, NdArr.ofGrid, p2]
    rw [dif_pos ⟨hx, by norm_num⟩, dif_pos ⟨p1, by norm_num⟩]
    exact hg ⟨x, hx⟩ p1
  · exact ⟨rfl, rfl, fun _ => rfl, fun Nx Ny h => (by cases h),
      fun Nx Ny h => by simp [exLayer, NdArr.scalar] at h, .inl ⟨rfl, rfl⟩⟩

theorem roll_moved (r : ℕ) : PatternMoved 1 1 (1 / 4) 0 (slabMats r) (patMats rollGrid r) := by
  rw [← patMats_slab]
  refine pat_moved 1 0 ⟨by norm_num, by norm_num⟩ (fun x h => ?_) r
  fin_cases x <;> simp [rollGrid, exGrid, pixel]

theorem flip_moved (r : ℕ) : PatternMoved (-1) 1 0 0 (slabMats r) (patMats flipGrid r) := by
  rw [← patMats_slab]
  refine pat_moved 0 0 ⟨by norm_num, by norm_num⟩ (fun x h => ?_) r
  fin_cases x <;> simp [flipGrid, exGrid, pixel]

/-- One order at normal incidence: the simulation runs. -/
theorem pat_runs {g : Grid 4 1} (hg : ∑ x, ∑ y, g x y = 16) :
    ∃ c, simInit exE (fun _ => exLat) (patMats g) [0, 1, 2] exExc 1 "original" = .ok c ∧ c.harmonics = [(0, 0)] ∧ c.lattice = exLat ∧
      (diffractionEfficiencies exE c false (Dyn.fresh (patMats g) (unsolved c.nh))).1 = .ok (.total (9 / 25) (16 / 25)) := by
  obtain ⟨c, h1, hn, hst, h4, h5⟩ := exInit (patMats g) 0 [1, 2] 1 one_pos (by simp [patMats, exLayer])
    (fun r _ => (patMats_cases g r).2.2) (patMats_cases g 0).2.1 rfl
  have hfl : c.incidentFlux ≠ 0 := by rw [h5]; norm_num
  have hnd : c.stack.Nodup := by rw [hst]; decide
  have hi : ∀ r, 0 < slabN r ∧ HasIndex (patMats g r) (slabN r) := by
    intro r
    refine ⟨by unfold slabN; split_ifs <;> norm_num, (patMats_cases g r).1, (patMats_cases g r).2.1, ?_⟩
    unfold slabN patMats
    by_cases h1 : r = 1
    · subst h1
      refine .inr ⟨4, 1, g, rfl, by norm_num, by norm_num, by decide, ?_⟩
      rw [hg]
      norm_num
    · left
      by_cases h0 : r = 0 <;> simp [h0, h1, exLayer]
  have := ex_efficiencies hn (mats := patMats g) slabN hnd (fun r _ => hi r)
    (t := 4 * Complex.I / 5) (x := 3 / 5) (r := 3 / 5) (y := 4 * Complex.I / 5) (by
      rw [hst, hn.omega]
      have := slab_02 (m := Idx c.nh)
      simpa [slabModes, slabN, patMats, exLayer] using this) (r0 := 0) (rN := 2) (by rw [hst]; rfl) (by rw [hst]; rfl) hfl
  refine ⟨c, h1, hn.harm, hn.lat, ?_⟩
  rw [this, h5]
  norm_num [slabN]

/-- C64: three orders, oblique incidence, the grating displaced by a quarter of the period; one order, results. -/
example : (∃ exc c c', planeWave 1 (60, 30, 45) = .ok exc ∧
      simInit exE (fun _ => exLat) slabMats [0, 1, 2] exc 3 "tangent" = .ok c ∧
      simInit exE (fun _ => exLat) (patMats rollGrid) [0, 1, 2] exc 3 "tangent" = .ok c' ∧
      (∀ r ∈ [0, 1, 2], PatternMoved 1 1 (1 / 4) 0 (slabMats r) (patMats rollGrid r)) ∧
      WellPlaced slabMats [0, 1, 2] ∧ WellPlaced (patMats rollGrid) [0, 1, 2] ∧ (∀ r ∈ [0, 1, 2], (slabMats r).mu = 1) ∧
      c.harmonics.Nodup ∧ ((0 : ℤ), (0 : ℤ)) ∈ c.harmonics ∧ ((1 : ℤ), (0 : ℤ)) ∈ c.harmonics ∧
      ¬ UsesGenerator "tangent" c.lattice.is1D slabMats [0, 1, 2] ∧ displacementPhase (1 / 4) 0 (1, 0) = -Complex.I) ∧
    ∃ c c' X X', (diffractionEfficiencies exE c false (Dyn.fresh slabMats (unsolved c.nh))).1 = .ok X ∧
      (diffractionEfficiencies exE c' false (Dyn.fresh (patMats rollGrid) (unsolved c'.nh))).1 = .ok X' ∧
      EfficienciesAlong id c c' X X' := by
  constructor
  · obtain ⟨exc, h1⟩ := oblique 1 30 45 one_pos
    obtain ⟨c, h3, h4, h5, h6⟩ := pat_init (E := exE) exSort_spec exGrid exc (.inr rfl) (l := exLat) ⟨1, one_ne_zero, rfl⟩
    obtain ⟨c', h3', -⟩ := pat_init (E := exE) exSort_spec rollGrid exc (.inr rfl) (l := exLat) ⟨1, one_ne_zero, rfl⟩
    refine ⟨exc, c, c', h1, h3, h3', fun r _ => roll_moved r, slab_placed, patMats_placed _, fun r _ => slab_mu r, h4,
      (h5 _).mpr (by simp), (h5 _).mpr (by simp), ?_, ?_⟩
    · rintro ⟨-, h, -⟩
      exact h ⟨rfl, by rw [h6]; rfl⟩
    · unfold displacementPhase
      have : -(2 * (Real.pi : ℂ) * Complex.I * (((1 : ℤ) : ℂ) * ((1 / 4 : ℝ) : ℂ) + ((0 : ℤ) : ℂ) * ((0 : ℝ) : ℂ))) = -(Real.pi / 2 * Complex.I) := by
        push_cast
        ring
      rw [this, Complex.exp_neg, Complex.exp_pi_div_two_mul_I, Complex.inv_I]
  · obtain ⟨c, h1, h2, h3, h4⟩ := pat_runs (g := exGrid) (by simp [Fin.sum_univ_succ, exGrid]; norm_num)
    obtain ⟨c', h1', h2', h3', h4'⟩ := pat_runs (g := rollGrid) (by simp [Fin.sum_univ_succ, rollGrid]; norm_num)
    have := C64_lateral_displacement exE_eig (u := 1 / 4) (v := 0) exExc_mk h1 h1' (fun r _ => roll_moved r) (.inl rfl) slab_placed (patMats_placed _)
      (fun r _ => slab_mu r) (by rw [h2]; decide) (by rw [h2]; decide) (fun hu => absurd rfl hu.1) [] []
    exact ⟨c, c', _, _, h4, h4', this.1 false _ _ h4 h4'⟩

/-- C66: three orders, oblique incidence, reversal of `x`; one order, reversal of `y`, results. -/
example : (∃ exc exc' c c', planeWave 1 (60, 30, 45) = .ok exc ∧ planeWave 1 (60, 180 - 30, -45) = .ok exc' ∧
      AnglesReflected (-1) 1 30 45 (180 - 30) (-45) ∧
      simInit exE (fun _ => exLat) slabMats [0, 1, 2] exc 3 "tangent" = .ok c ∧
      simInit exE (fun _ => exLat) (patMats flipGrid) [0, 1, 2] exc' 3 "tangent" = .ok c' ∧
      (∀ r ∈ [0, 1, 2], PatternMoved (-1) 1 0 0 (slabMats r) (patMats flipGrid r)) ∧
      WellPlaced slabMats [0, 1, 2] ∧ WellPlaced (patMats flipGrid) [0, 1, 2] ∧ (∀ r ∈ [0, 1, 2], (slabMats r).mu = 1) ∧
      c.harmonics.Nodup ∧ ((0 : ℤ), (0 : ℤ)) ∈ c.harmonics ∧ ((1 : ℤ), (0 : ℤ)) ∈ c.harmonics ∧ c.lattice.harmonicsArray = none ∧
      (c.lattice.basis 0 1 = 0 ∧ c.lattice.basis 1 0 = 0) ∧ ¬ UsesGenerator "tangent" c.lattice.is1D slabMats [0, 1, 2]) ∧
    ∃ c c' X X', (diffractionEfficiencies exE c false (Dyn.fresh slabMats (unsolved c.nh))).1 = .ok X ∧
      (diffractionEfficiencies exE c' false (Dyn.fresh (patMats rollGrid) (unsolved c'.nh))).1 = .ok X' ∧
      EfficienciesAlong (fun g => (1 * g.1, -1 * g.2)) c c' X X' := by
  constructor
  · obtain ⟨exc, h1⟩ := oblique 1 30 45 one_pos
    obtain ⟨exc', h1'⟩ := oblique 1 (180 - 30) (-45) one_pos
    obtain ⟨c, h3, h4, h5, h6⟩ := pat_init (E := exE) exSort_spec exGrid exc (.inr rfl) (l := exLat) ⟨1, one_ne_zero, rfl⟩
    obtain ⟨c', h3', -⟩ := pat_init (E := exE) exSort_spec flipGrid exc' (.inr rfl) (l := exLat) ⟨1, one_ne_zero, rfl⟩
    refine ⟨exc, exc', c, c', h1, h1', (C66_angles 30 45).1, h3, h3', fun r _ => flip_moved r, slab_placed, patMats_placed _,
      fun r _ => slab_mu r, h4, (h5 _).mpr (by simp), (h5 _).mpr (by simp), by rw [h6]; rfl, by rw [h6]; exact ⟨rfl, rfl⟩, ?_⟩
    rintro ⟨-, h, -⟩
    exact h ⟨rfl, by rw [h6]; rfl⟩
  · obtain ⟨c, h1, h2, h3, h4⟩ := pat_runs (g := exGrid) (by simp [Fin.sum_univ_succ, exGrid]; norm_num)
    obtain ⟨c', h1', h2', h3', h4'⟩ := pat_runs (g := rollGrid) (by simp [Fin.sum_univ_succ, rollGrid]; norm_num)
    have hm : ∀ r, PatternMoved 1 (-1) (1 / 4) 0 (slabMats r) (patMats rollGrid r) := by
      intro r
      rw [← patMats_slab]
      refine pat_moved 1 0 ⟨by norm_num, by norm_num⟩ (fun x h => ?_) r
      fin_cases x <;> simp [rollGrid, exGrid, pixel]
    have := C66_reflection exE_eig exSort_spec (e1 := 1) (e2 := -1) (.inl rfl) (.inr rfl) (u := 1 / 4) (v := 0) exExc_mk exExc_mk
      (by simpa using (C66_angles 0 0).2.1) h1 h1' (fun r _ => hm r) (.inl rfl) slab_placed (patMats_placed _)
      (fun r _ => slab_mu r) (by rw [h2]; decide) (by rw [h2]; decide) (by rw [h3]; exact fun h => absurd rfl h)
      (by rw [h3]; exact .inl ⟨rfl, rfl⟩) (by decide) (fun hu => absurd rfl hu.1) [] []
    exact ⟨c, c', _, _, h4, h4', this.1 false _ _ h4 h4'⟩

/-- C67: three orders and oblique incidence with two different sorts; one order, results. -/
example : (∃ exc c c', planeWave 1 (60, 30, 45) = .ok exc ∧
      simInit exE (fun _ => exLat) slabMats [0, 1, 2] exc 3 "tangent" = .ok c ∧
      simInit cmpE (fun _ => exLat) slabMats [0, 1, 2] exc 3 "tangent" = .ok c' ∧ OrdersAlong id c c' ∧
      ((1 : ℤ), (0 : ℤ)) ∈ c.harmonics) ∧
    ∃ c X, (diffractionEfficiencies exE c false (Dyn.fresh slabMats (unsolved c.nh))).1 = .ok X ∧
      EfficienciesAlong id c c X X := by
  constructor
  · obtain ⟨exc, h1⟩ := oblique 1 30 45 one_pos
    obtain ⟨c, h3, h4, h5, h6⟩ := pat_init (E := exE) exSort_spec exGrid exc (.inr rfl) (l := exLat) ⟨1, one_ne_zero, rfl⟩
    obtain ⟨c', h3', -⟩ := pat_init (E := cmpE) exists_comparisonSort.choose_spec.1 exGrid exc (.inr rfl) (l := exLat) ⟨1, one_ne_zero, rfl⟩
    have := C67_listing_of_orders exE_eig cmpE_eig exSort_spec exists_comparisonSort.choose_spec.1 (lats := fun _ => exLat)
      (lats' := fun _ => exLat) (fun _ => ⟨none, none, rfl, rfl, .none⟩) h1 h3 h3' slab_placed (fun r _ => slab_mu r) h4
      ((h5 _).mpr (by simp)) (by rintro ⟨-, h, -⟩; exact absurd ⟨rfl, by rw [h6]; rfl⟩ h) [] []
    exact ⟨exc, c, c', h1, h3, h3', this.1, (h5 _).mpr (by simp)⟩
  · obtain ⟨c, h1, h2, h3, h4⟩ := pat_runs (g := exGrid) (by simp [Fin.sum_univ_succ, exGrid]; norm_num)
    have := C67_listing_of_orders exE_eig exE_eig exSort_spec exSort_spec (lats := fun _ => exLat)
      (lats' := fun _ => exLat) (fun _ => ⟨none, none, rfl, rfl, .none⟩) exExc_mk h1 h1 slab_placed (fun r _ => slab_mu r)
      (by rw [h2]; decide) (by rw [h2]; decide) (fun hu => absurd rfl hu.1) [] []
    exact ⟨c, _, h4, this.2.1 false _ _ h4 h4⟩

/-- Nine orders on a bi-periodic lattice. -/
theorem pat_init9 {E : Ext} (hA : ArgsortContract E.argsort) (g : Grid 4 1) (exc : PlaneWave) {l : Lattice}
    (ht : l.truncation = .parallelogrammic) (hu : l.harmonicsArray = none) (hd : l.discretization = (64, 64)) (h2 : l.is1D = false)
    (hi : LinearIndependent ℝ l.basis) :
    ∃ c, simInit E (fun _ => l) (patMats g) [0, 1, 2] exc 9 "original" = .ok c ∧ c.harmonics.Nodup ∧
      (∀ g, g ∈ c.harmonics ↔ |g.1| ≤ 1 ∧ |g.2| ≤ 1) ∧ c.lattice = l := by
  obtain ⟨H, n, M, c1, c2, c3, c4, c5, c6, -⟩ := C06_parallelogrammic_truncation E.argsort hA l ht hu hi 9 (by norm_num) true
  obtain rfl : M = 1 := by nlinarith
  have hu : ((0 :: [1, 2]).all fun r => (patMats g r).isUniform) = false := rfl
  have hny : checkNyquist l H = .ok () := by
    refine checkNyquist_of ⟨(0, 0), (c5 _).mpr (by simp)⟩ (M := 1) (fun g hg => ?_) (by rw [hd]; norm_num) (.inr (by rw [hd]; norm_num))
    obtain ⟨q1, q2⟩ := (c5 g).mp hg
    rw [abs_le] at q1 q2
    exact ⟨q1.2, q2.2⟩
  obtain ⟨c, hc⟩ := simInit_exists (E := E) (lats := fun _ => l) (mats := patMats g)
    (r0 := 0) (tl := [1, 2]) (exc := exc) (nh := 9) (form := "original") (H := H) (n := n)
    (r := (2 * Real.pi) • l.matrix⁻¹ᵀ)
    (by simp [patMats, exLayer]) (fun r _ => by rw [(patMats_cases g r).2.2, (patMats_cases g 0).2.2])
    (by tauto) (fun h => by rw [h2] at h; simp at h) (by rw [hu]; exact c1) hny ⟨rfl, rfl⟩
    (by simp [patMats, exLayer, NdArr.scalar, NdArr.value]) (reciprocal_ok.mpr ⟨(det_ne_zero_iff l).mpr hi, rfl⟩)
  have hi := simInit_ok hc
  have hl := hi.lat_eq 0 rfl
  have hH : c.harmonics = H := by
    obtain ⟨k, hk⟩ := hi.harm
    rw [hl, hu] at hk
    have : effectiveNh 9 false = 9 := rfl
    rw [this, c1] at hk
    simp only [Except.ok.injEq, Prod.mk.injEq] at hk
    exact hk.1.symm
  exact ⟨c, hc, hH ▸ c6, hH ▸ c5, hl⟩

/-- C65: nine orders, oblique incidence, a rectangular lattice turned by 90 degrees. -/
example : ∃ exc exc' l l' c c', planeWave 1 (60, 30, 45) = .ok exc ∧ planeWave 1 (60, 30 + 90, 45) = .ok exc' ∧
    mkLattice (.vectors ![![1, 0], ![0, 2]]) (.int 64) "parallelogrammic" none = .ok l ∧
    mkLattice (.vectors ![![0, 1], ![-2, 0]]) (.int 64) "parallelogrammic" none = .ok l' ∧
    simInit exE (fun _ => l) slabMats [0, 1, 2] exc 9 "original" = .ok c ∧
    simInit exE (fun _ => l') slabMats [0, 1, 2] exc' 9 "original" = .ok c' ∧
    (∀ k : Fin 2, c'.lattice.basis k 0 =
        Real.cos (90 * (Real.pi / 180)) * c.lattice.basis k 0 - Real.sin (90 * (Real.pi / 180)) * c.lattice.basis k 1 ∧
      c'.lattice.basis k 1 =
        Real.sin (90 * (Real.pi / 180)) * c.lattice.basis k 0 + Real.cos (90 * (Real.pi / 180)) * c.lattice.basis k 1) ∧
    (∀ r ∈ [0, 1, 2], ∀ Nx Ny, (slabMats r).epsilon.shape ≠ [3, 3, Nx, Ny]) ∧ OrdersAlong id c c' ∧ c.harmonics.Nodup ∧
    c'.harmonics.Nodup ∧ ((0 : ℤ), (0 : ℤ)) ∈ c.harmonics ∧ ((1 : ℤ), (1 : ℤ)) ∈ c.harmonics := by
  obtain ⟨exc, h1⟩ := oblique 1 30 45 one_pos
  obtain ⟨exc', h1'⟩ := oblique 1 (30 + 90) 45 one_pos
  obtain ⟨c, h3, h4, h5, h6⟩ := pat_init9 (E := exE) exSort_spec exGrid exc
    (l := ⟨![![1, 0], ![0, 2]], false, .parallelogrammic, (64, 64), none⟩) rfl rfl rfl rfl
    ((det_ne_zero_iff _).mp (by simp [Lattice.matrix, det_fin_two]))
  obtain ⟨c', h3', h4', h5', h6'⟩ := pat_init9 (E := exE) exSort_spec exGrid exc'
    (l := ⟨![![0, 1], ![-2, 0]], false, .parallelogrammic, (64, 64), none⟩) rfl rfl rfl rfl
    ((det_ne_zero_iff _).mp (by simp [Lattice.matrix, det_fin_two]))
  have hs : Real.sin (90 * (Real.pi / 180)) = 1 := by rw [← Real.sin_pi_div_two]; congr 1; ring
  have hc : Real.cos (90 * (Real.pi / 180)) = 0 := by rw [← Real.cos_pi_div_two]; congr 1; ring
  refine ⟨exc, exc', _, _, c, c', h1, h1', rfl, rfl, h3, h3', ?_, ?_, ?_, h4, h4', (h5 _).mpr (by simp), (h5 _).mpr (by simp)⟩
  · rw [hs, hc, h6, h6']
    intro k
    fin_cases k <;> simp
  · intro r hr Nx Ny
    unfold slabMats
    split_ifs <;> simp [exLayer, NdArr.scalar, NdArr.ofGrid]
  · intro g
    rw [h5']
    simp [h5]

end Nannos
