import Verif.Proofs.NewtonCG
import Verif.Props.Opt

/-! C106: the default generator of tangent vectors together with the search it asks of scipy (one iteration of `"Newton-CG"` from
zero). -/

namespace Nannos

open Spec

/-- **C106**. One iteration suffices: for distinct orders which come in opposite pairs, the search returns amplitudes where the mean of
the squares is smallest, unless so little of the slopes is carried by the orders that scipy takes the curvature for
zero: then it returns zero. -/
theorem C106_one_iteration_finds_the_minimum {Nx Ny : ℕ} (hs : OptShape Nx Ny) {a : Grid Nx Ny} {d : Grid Nx Ny × Grid Nx Ny}
    (hd : slopes a = .ok d) {H : List (ℤ × ℤ)} (hH : BalancedOrders H (reducedSide Nx) (reducedSide Ny)) :
    let f := minifun H Nx Ny (strided d.1, strided d.2)
    let κ := ((Nx : ℝ) * Ny / ((reducedSide Nx : ℝ) * reducedSide Ny)) ^ 4 * carried H (strided d.1, strided d.2)
    (3 / 2 ^ 52 < κ → ∃ x, newtonCG H.length f = .ok x ∧ ∀ y, f x ≤ f y) ∧
    (κ ≤ 3 / 2 ^ 52 → newtonCG H.length f = .ok 0) := by
  obtain ⟨s1, s2, s3, s4⟩ := optShape_side hs
  have : NeZero (reducedSide Nx) := ⟨by omega⟩
  have : NeZero (reducedSide Ny) := ⟨by omega⟩
  have hr : ∀ x y, ((strided d.1, strided d.2).1 x y).im = 0 ∧ ((strided d.1, strided d.2).2 x y).im = 0 :=
    fun x y => slopes_real hd _ _
  have key := newtonCG_fit (Nx := Nx) (Ny := Ny) hH (by omega) (by omega) hr
  have e : (3 : ℝ) * (1 / 2 ^ 52) = 3 / 2 ^ 52 := by ring
  rw [e] at key
  intro f κ
  refine ⟨fun h => ⟨_, key.trans (by rw [if_neg (not_le.mpr h)]), ?_⟩, fun h => key.trans (by rw [if_pos h])⟩
  exact (bestFit_minimises hH (by omega) (by omega) hr).2

/-- The search, with an error where it does not return a minimiser. -/
noncomputable def checkedSearch (n : ℕ) (f : Unknowns n → ℝ) : Except PyErr (Unknowns n) := open Classical in
  match newtonCG n f with
  | .ok x => if ∀ y, f x ≤ f y then .ok x else .error .unmodelled
  | .error e => .error e

theorem checkedSearch_minimises : Minimises checkedSearch := by
  intro n f x h
  unfold checkedSearch at h
  split at h
  · split_ifs at h with hx
    obtain rfl := Except.ok.inj h
    exact hx
  · cases h

theorem fitted_zero {Mx My Nx Ny : ℕ} (H : List (ℤ × ℤ)) :
    fitted (Mx := Mx) (My := My) H Nx Ny (0 : Unknowns H.length) = (fun _ _ => 0, fun _ _ => 0) := by
  have : ∀ (p : Fin Mx) (q : Fin My), placed H (fun _ => 0) p q = 0 := by
    intro p q
    unfold placed
    split <;> rfl
  unfold fitted getAmps ifft2
  simp [this]

theorem vectorOf_zero {Mx My : ℕ} (Nx Ny : ℕ) : vectorOf (Mx := Mx) (My := My) (fun _ _ => 0, fun _ _ => 0) Nx Ny true = ⟨Nx, Ny, fun _ _ => 1, fun _ _ => 0⟩ := by
  unfold vectorOf finishOpt
  have zi : ∀ x : Fin Nx, ∀ y : Fin Ny, interpolate (fun (_ : Fin Mx) (_ : Fin My) => 0) Nx Ny x y = 0 := by
    intro x y
    unfold interpolate
    simp
  have small : normOptPt 0 0 ≤ 1 / 10 ^ 6 := by
    unfold normOptPt
    rw [map_zero, add_zero, add_zero]
    refine Real.sqrt_le_iff.mpr ⟨by norm_num, by norm_num⟩
  dsimp only
  simp only [zi, Complex.zero_re, Complex.ofReal_zero, neg_zero, if_true]
  unfold normalizeVecPt normalizePt
  simp only [if_pos small]
  simp

/-- The generator with the search of scipy: as with any minimiser, or the vector `(1, 0)` everywhere. -/
theorem opt_newton {Nx Ny : ℕ} (hs : OptShape Nx Ny) {a : Grid Nx Ny} (h0 : ∃ x y, a x y ≠ 0) {H : List (ℤ × ℤ)}
    (ho : OrdersFit Nx Ny H) (hH : BalancedOrders H (reducedSide Nx) (reducedSide Ny)) (normalize : Bool) :
    ∃ d t, slopes a = .ok d ∧ tangentOpt (optFit newtonCG) ⟨Nx, Ny, a⟩ H normalize = .ok t ∧
      let κ := ((Nx : ℝ) * Ny / ((reducedSide Nx : ℝ) * reducedSide Ny)) ^ 4 * carried H (strided d.1, strided d.2)
      (3 / 2 ^ 52 < κ → tangentOpt (optFit checkedSearch) ⟨Nx, Ny, a⟩ H normalize = .ok t) ∧
      (κ ≤ 3 / 2 ^ 52 → t = vectorOf (Mx := reducedSide Nx) (My := reducedSide Ny) (fun _ _ => 0, fun _ _ => 0) Nx Ny normalize) := by
  obtain ⟨s1, s2, s3, s4⟩ := optShape_side hs
  have : NeZero Nx := ⟨by omega⟩
  have : NeZero Ny := ⟨by omega⟩
  obtain ⟨d, hd⟩ : ∃ d, slopes a = .ok d := ⟨_, slopes_ok s1 s2 a⟩
  obtain ⟨k1, k2⟩ := C106_one_iteration_finds_the_minimum hs hd hH
  have r : ∀ argmin, tangentOpt (optFit argmin) ⟨Nx, Ny, a⟩ H normalize = optFit argmin ⟨Nx, Ny, a⟩ H normalize :=
    fun argmin => (C71_shapes (optFit argmin) a H normalize).1 hs ho h0
  simp only [r]
  have go : ∀ argmin x, argmin H.length (minifun H Nx Ny (strided d.1, strided d.2)) = .ok x →
      optFit argmin ⟨Nx, Ny, a⟩ H normalize =
        .ok (vectorOf (fitted H Nx Ny x : Grid (reducedSide Nx) (reducedSide Ny) × _) Nx Ny normalize) := by
    intro argmin x hx
    unfold optFit
    dsimp only
    rw [hd]
    simp only [bind, Except.bind]
    rw [hx]
    rfl
  rcases lt_or_ge (3 / 2 ^ 52) (((Nx : ℝ) * Ny / ((reducedSide Nx : ℝ) * reducedSide Ny)) ^ 4 * carried H (strided d.1, strided d.2)) with hk | hk
  · obtain ⟨x, hx, hm⟩ := k1 hk
    refine ⟨_, _, hd, go _ x hx, fun _ => go _ x ?_, fun hk' => absurd hk (not_lt.mpr hk')⟩
    unfold checkedSearch
    rw [hx]
    dsimp only
    rw [if_pos hm]
  · refine ⟨_, _, hd, go _ 0 (k2 hk), fun hk' => absurd hk' (not_lt.mpr hk), fun _ => ?_⟩
    rw [fitted_zero]

theorem carried_cast {M N : ℕ} (h : M = N) (H : List (ℤ × ℤ)) (d : Grid N N × Grid N N) :
    carried H (fun (x y : Fin M) => d.1 (Fin.cast h x) (Fin.cast h y), fun (x y : Fin M) => d.2 (Fin.cast h x) (Fin.cast h y)) =
      carried H d := by
  subst h
  rfl

theorem carried_small {N : ℕ} (h64 : N ≤ 64) (h0 : 0 < N) (H : List (ℤ × ℤ)) (d : Grid N N × Grid N N) :
    ((N : ℝ) * N / ((reducedSide N : ℝ) * reducedSide N)) ^ 4 * carried H (strided d.1, strided d.2) = carried H d := by
  have hR := reducedSide_small h64
  have hN : (N : ℝ) ≠ 0 := by exact_mod_cast h0.ne'
  rw [show ((reducedSide N : ℕ) : ℝ) = N by rw [hR], div_self (mul_ne_zero hN hN), one_pow, one_mul, ← carried_cast hR]
  congr 2
  · funext i j; exact strided_small h64 h0 d.1 i j
  · funext i j; exact strided_small h64 h0 d.2 i j

theorem balanced_fit {N : ℕ} (h64 : N ≤ 64) {H : List (ℤ × ℤ)} (hH : BalancedOrders H N N) : OrdersFit N N H := by
  intro g hg M hM
  obtain ⟨b1, b2⟩ := hH.below g hg
  have h2 := neg_abs_le g.1
  have h3 := le_abs_self g.1
  have h4 := neg_abs_le g.2
  have h5 := le_abs_self g.2
  simp only [List.mem_cons, List.not_mem_nil, or_false, or_self] at hM
  omega

/-- **C106**. The default generator of the code, nothing assumed of the search: on a square pattern of at most 64 pixels a side which
is not zero everywhere, for distinct orders which come in opposite pairs, it returns vectors.  If the squared moduli of the
Fourier coefficients of the slopes sum to more than `3 * 2^-52`, those of a pixel are the part of the smoothed slopes
of the modulus of the permittivity carried by these orders, turned by a quarter turn, scaled to length one, or `(1, 0)` where
they are shorter than `10^-6`; otherwise they are `(1, 0)` at every pixel. -/
theorem C106_default_vectors {N : ℕ} (h64 : N ≤ 64) {a : Grid N N} (hs : OptShape N N) (h0 : ∃ x y, a x y ≠ 0) {H : List (ℤ × ℤ)}
    (hH : BalancedOrders H N N) :
    ∃ (d : Grid N N × Grid N N) (t0 t1 : Grid N N), slopes a = .ok d ∧
      tangentOpt (optFit newtonCG) ⟨N, N, a⟩ H true = .ok ⟨N, N, t0, t1⟩ ∧
      (carried H d ≤ 3 / 2 ^ 52 → ∀ x y, t0 x y = 1 ∧ t1 x y = 0) ∧
      (3 / 2 ^ 52 < carried H d → ∀ x y, (bandLimited H d.1 x y).im = 0 ∧ (bandLimited H d.2 x y).im = 0 ∧
        let ℓ := Real.sqrt (1 / 2 ^ 52 + (bandLimited H d.1 x y).re ^ 2 + (bandLimited H d.2 x y).re ^ 2)
        (ℓ ≤ 1 / 10 ^ 6 → t0 x y = 1 ∧ t1 x y = 0) ∧
        (1 / 10 ^ 6 < ℓ → t0 x y = bandLimited H d.2 x y / ℓ ∧ t1 x y = -(bandLimited H d.1 x y) / ℓ)) := by
  have hR := reducedSide_small h64
  obtain ⟨s1, -, -, -⟩ := optShape_side hs
  have ho := balanced_fit h64 hH
  obtain ⟨d, t, h1, h2, h3, h4⟩ := opt_newton hs h0 ho (by rw [hR]; exact hH) true
  have hκ := carried_small h64 (by omega) H d
  rw [hκ] at h3 h4
  rcases lt_or_ge (3 / 2 ^ 52) (carried H d) with hk | hk
  · obtain ⟨d', t0, t1, e1, rfl, e3⟩ := C106_band_limited_slopes checkedSearch_minimises h64 hH (h3 hk)
    obtain rfl := Except.ok.inj (h1.symm.trans e1)
    exact ⟨d, t0, t1, h1, h2, fun hk' => absurd hk (not_lt.mpr hk'), fun _ => e3⟩
  · obtain rfl := (h4 hk).trans (vectorOf_zero N N)
    exact ⟨d, _, _, h1, h2, fun _ _ _ => ⟨rfl, rfl⟩, fun hk' => absurd hk' (not_lt.mpr hk)⟩

theorem chi_length (N : ℕ) (k x : ℤ) : ‖chi N k x‖ = 1 := by
  unfold chi
  rw [show (2 * Real.pi * Complex.I * (k * x / N) : ℂ) = ((2 * Real.pi * (k * x / N) : ℝ) : ℂ) * Complex.I by push_cast; ring]
  exact Complex.norm_exp_ofReal_mul_I _

theorem coeff_ring {M N : ℕ} [NeZero M] [NeZero N] (f : Grid M N) (p : Fin M) (q : Fin N) (a b : ℤ) :
    ‖coeff (fun i j => f (i - p) (j - q)) a b‖ = ‖coeff f a b‖ := by
  have e : coeff (fun i j => f (i - p) (j - q)) a b = chi M (-a) (p : ℕ) * chi N (-b) (q : ℕ) * coeff f a b := by
    rw [coeff_eq, coeff_eq, mul_div_assoc']
    congr 1
    have k1 : chi M (-a) (-(p : ℕ)) * chi M (-a) (p : ℕ) = 1 := by rw [← chi_add, neg_add_cancel, chi_comm, chi_zero]
    have k2 : chi N (-b) (-(q : ℕ)) * chi N (-b) (q : ℕ) = 1 := by rw [← chi_add, neg_add_cancel, chi_comm, chi_zero]
    have hx := Equiv.sum_comp (Equiv.subRight p) fun x => ∑ y, f x y * (chi M (-a) (x : ℕ) * chi N (-b) (y : ℕ))
    rw [← hx, Finset.mul_sum]
    refine Finset.sum_congr rfl fun x _ => ?_
    have hy := Equiv.sum_comp (Equiv.subRight q) fun y => f (x - p) y * (chi M (-a) ((x - p : Fin M) : ℕ) * chi N (-b) (y : ℕ))
    simp only [Equiv.subRight_apply] at hy ⊢
    rw [← hy, Finset.mul_sum]
    refine Finset.sum_congr rfl fun y _ => ?_
    rw [chi_sub_fin, chi_sub_fin]
    calc f (x - p) (y - q) * (chi M (-a) (x : ℕ) * chi N (-b) (y : ℕ))
        = f (x - p) (y - q) * (chi M (-a) (x : ℕ) * chi N (-b) (y : ℕ)) * (chi M (-a) (-(p : ℕ)) * chi M (-a) (p : ℕ)) *
            (chi N (-b) (-(q : ℕ)) * chi N (-b) (q : ℕ)) := by rw [k1, k2, mul_one, mul_one]
      _ = _ := by ring
  rw [e, norm_mul, norm_mul, chi_length, chi_length, one_mul, one_mul]

/-- **C106**. The vectors of the default generator of the code move along with the pattern, nothing assumed of the search: square
patterns of at most 64 pixels a side which do not reach the border of the cell, distinct orders which come in opposite pairs. -/
theorem C106_displacement_default {N : ℕ} (h64 : N ≤ 64) {a a' : Grid N N} (hs : OptShape N N) (h0 : ∃ x y, a x y ≠ 0)
    (hc : ClearOfBorder a) (hc' : ClearOfBorder a') {u v : ℝ} (hm : GridMoved 1 1 u v ⟨N, N, a⟩ ⟨N, N, a'⟩)
    {H : List (ℤ × ℤ)} (hH : BalancedOrders H N N) (normalize : Bool) :
    ∃ t t', tangentOpt (optFit newtonCG) ⟨N, N, a⟩ H normalize = .ok t ∧
      tangentOpt (optFit newtonCG) ⟨N, N, a'⟩ H normalize = .ok t' ∧ VectorsMoved 1 1 u v t t' := by
  have hR := reducedSide_small h64
  have s1 : 2 ≤ N := (optShape_side hs).1
  have : NeZero N := ⟨by omega⟩
  obtain ⟨Mx, My, b, b', sx, sy, e, e', hw, hb⟩ := id hm
  cases e
  cases e'
  have ha : a' = fun i j => a (i - ringPos N sx) (j - ringPos N sy) := by
    funext i j
    exact hb i j _ _ (by rw [ringPos_sub]; simp) (by rw [ringPos_sub]; simp)
  have h0' : ∃ x y, a' x y ≠ 0 := by
    obtain ⟨x, y, h⟩ := h0
    exact ⟨x + ringPos N sx, y + ringPos N sy, by rw [ha]; simpa using h⟩
  have ho := balanced_fit h64 hH
  have hH' : BalancedOrders H (reducedSide N) (reducedSide N) := by rw [hR]; exact hH
  obtain ⟨d, t, h1, h2, h3, h4⟩ := opt_newton hs h0 ho hH' normalize
  obtain ⟨d', t', h1', h2', h3', h4'⟩ := opt_newton hs h0' ho hH' normalize
  have hd := slopes_shift s1 s1 hc (ha ▸ hc') h1
  rw [← ha, h1'] at hd
  obtain rfl := Except.ok.inj hd
  rw [carried_small h64 (by omega)] at h3 h4 h3' h4'
  have hcar : carried H (fun i j => d.1 (i - ringPos N sx) (j - ringPos N sy), fun i j => d.2 (i - ringPos N sx) (j - ringPos N sy)) =
      carried H d := by
    unfold carried
    simp only [coeff_ring]
  rw [hcar] at h3' h4'
  refine ⟨t, t', h2, h2', ?_⟩
  rcases lt_or_ge (3 / 2 ^ 52) (carried H d) with hk | hk
  · exact C106_displacement checkedSearch_minimises h64 hc hc' hm (h3 hk) (h3' hk)
  · obtain rfl := h4 hk
    obtain rfl := h4' hk
    have zi : ∀ x y : Fin N, interpolate (fun (_ : Fin (reducedSide N)) (_ : Fin (reducedSide N)) => 0) N N x y = 0 := by
      intro x y
      unfold interpolate
      simp
    cases normalize <;> exact ⟨N, N, _, _, _, _, sx, sy, rfl, rfl, hw, fun x y x' y' _ _ => by dsimp only; simp only [zi]; simp⟩

/-- **C106**. The orders chosen by the code are such orders: those of every simulation on a lattice of two dimensions whose orders are
not given by the user, in arrays of the number of pixels declared for the lattice. -/
theorem C106_orders_of_a_simulation {E : Ext} (hS : ArgsortContract E.argsort) {lats : ℕ → Lattice} {mats : ℕ → LayerSpec}
    {stack : List ℕ} {exc : PlaneWave} {nh : ℤ} (hn : 1 ≤ nh) {form : String} {c : Static}
    (hinit : simInit E lats mats stack exc nh form = .ok c) (hu : c.lattice.harmonicsArray = none)
    (ht : c.lattice.truncation = .circular ∨ c.lattice.truncation = .parallelogrammic) (h2 : c.lattice.is1D = false) :
    BalancedOrders c.harmonics c.lattice.discretization.1 c.lattice.discretization.2 := by
  have hi := simInit_ok hinit
  obtain ⟨n, hh⟩ := hi.harm
  obtain ⟨r, hr, -⟩ := hi.recip
  have he : 1 ≤ effectiveNh nh (stack.all fun r => (mats r).isUniform) := by
    unfold effectiveNh
    dsimp only
    split_ifs <;> omega
  have key : c.harmonics.Nodup ∧ ∀ g ∈ c.harmonics, (-g.1, -g.2) ∈ c.harmonics := by
    rcases ht with ht | ht
    · obtain ⟨H, m, k1, -, -, k2, -, k3, -⟩ := C07_circular_truncation E.argsort hS c.lattice ht hu r hr _ he true
      obtain ⟨rfl, -⟩ := Prod.mk.inj (Except.ok.inj (hh.symm.trans k1))
      exact ⟨k2, k3⟩
    · have hind : LinearIndependent ℝ c.lattice.basis := (det_ne_zero_iff c.lattice).mp (reciprocal_ok.mp hr).1
      obtain ⟨H, m, M, k1, -, -, -, k3, k2, -⟩ := C06_parallelogrammic_truncation E.argsort hS c.lattice ht hu hind _ he true
      obtain ⟨rfl, -⟩ := Prod.mk.inj (Except.ok.inj (hh.symm.trans k1))
      exact ⟨k2, fun g hg => by rw [k3] at hg ⊢; simpa using hg⟩
  obtain ⟨M, hM, b1, b2⟩ := checkNyquist_ok hi.nyquist
  have b2 := b2 h2
  refine ⟨key.1, key.2, fun g hg => ?_⟩
  have m1 := maxHarmonic_ok hM g hg
  have m2 := maxHarmonic_ok hM _ (key.2 g hg)
  dsimp only at m2
  have a1 : |g.1| ≤ M := abs_le.mpr ⟨by omega, m1.1⟩
  have a2 : |g.2| ≤ M := abs_le.mpr ⟨by omega, m1.2⟩
  omega

end Nannos

namespace Nannos.Examples

/-- C106: a simulation with nine orders. -/
example (g : Grid 8 8) (exc : PlaneWave) : ∃ c, simInit exE (fun _ => cell) (gridMats "opt" g) [0, 1, 2] exc 9 "jones" = .ok c ∧
    c.lattice.harmonicsArray = none ∧ c.lattice.truncation = .parallelogrammic ∧ c.lattice.is1D = false ∧ c.nh = 9 := by
  obtain ⟨c, hc, k1, k2, k3⟩ := grid_init (E := exE) exSort_spec "opt" g (by simp) exc
  refine ⟨c, hc, by rw [k3]; rfl, by rw [k3]; rfl, by rw [k3]; rfl, ?_⟩
  have hp : c.harmonics.Perm nine := by
    rw [List.perm_ext_iff_of_nodup k1 (by decide)]
    rintro ⟨a, b⟩
    rw [k2, abs_le, abs_le]
    simp only [nine, List.mem_cons, Prod.mk.injEq, List.not_mem_nil, or_false]
    omega
  exact hp.length_eq

open Spec

/-- C106: a dot in a cell of eight by eight pixels with nine orders, before and after a displacement. -/
example : OptShape 8 8 ∧ (∃ x y, dotSquare 2 x y ≠ 0) ∧ BalancedOrders nine 8 8 ∧ ClearOfBorder (dotSquare 2) ∧
    ClearOfBorder (dotSquare 3) ∧ GridMoved 1 1 (1 / 8) 0 ⟨8, 8, dotSquare 2⟩ ⟨8, 8, dotSquare 3⟩ :=
  ⟨by unfold OptShape; omega, ⟨0, 0, by simp [dotSquare]⟩, nine_balanced (by norm_num) (by norm_num),
    dotSquare_clear 2 (by norm_num) (by norm_num), dotSquare_clear 3 (by norm_num) (by norm_num), dotSquare_moved⟩

end Nannos.Examples
