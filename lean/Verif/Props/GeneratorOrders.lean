import Verif.Proofs.GeneratorOrders
import Verif.Props.OptNewton

/-! # C107: the orders for which tangent vectors are generated -/

namespace Nannos

open Matrix Spec

variable {E : Ext} {c : Static} {mats mats' : ℕ → LayerSpec}

/-- Two layer objects differing at most in that the second is given, as `tangent_field`, the vectors `t` which the generator
named by the first returns for the pattern and the harmonics `H`; `normalize` is asked for by the `'tangent'` formulation only. -/
def Spec.GivenGenerated (E : Ext) (form : String) (H : List (ℤ × ℤ)) (L L' : LayerSpec) : Prop :=
  L' = L ∨ (L.isUniform = false ∧ L.tangentField = none ∧ (L.tangentFieldType = "fft" ∨ L.tangentFieldType = "opt") ∧
    ∃ w t, patternOf L = .ok w ∧ E.tangent L.tangentFieldType w H (form == "tangent") = .ok t ∧
      L' = { L with tangentField := some t })

/-- The orders `H` are those for which the generator is asked. -/
theorem given_generated {lats stack exc nh form} (hinit : simInit E lats mats stack exc nh form = .ok c) {H : List (ℤ × ℤ)} {m : ℤ}
    (hH0 : c.lattice.getHarmonics E.argsort c.nh true = .ok (H, m))
    (h : ∀ r ∈ stack, GivenGenerated E form H (mats r) (mats' r)) :
    simInit E lats mats' stack exc nh form = .ok c ∧
    ∀ (hist : List (Call c.nh)) (a : Call c.nh),
      a.result E c (afterCalls E c hist (Dyn.fresh mats' (unsolved c.nh))) =
        a.result E c (afterCalls E c hist (Dyn.fresh mats (unsolved c.nh))) := by
  have hi := simInit_ok hinit
  have hsame : ∀ r ∈ stack, ∃ f, mats' r = { mats r with tangentField := f } := by
    intro r hr
    rcases h r hr with e | ⟨-, -, -, -, t, -, -, e⟩
    · exact ⟨(mats r).tangentField, e⟩
    · exact ⟨_, e⟩
  constructor
  · rw [← hinit]
    refine simInit_congr (fun r hr => ?_) (fun r hr => ?_) (fun r hr => ?_) ?_
    · obtain ⟨f, e⟩ := hsame r hr
      rw [e]
    · obtain ⟨f, e⟩ := hsame r hr
      rw [e]
    · rcases h r (List.mem_of_mem_head? hr) with e | ⟨hu, -⟩
      · exact e
      · rw [(hi.sup r hr).1] at hu
        cases hu
    · congr 1
      rw [Bool.eq_iff_iff, List.all_eq_true, List.all_eq_true]
      refine forall₂_congr fun r hr => ?_
      obtain ⟨f, e⟩ := hsame r hr
      rw [e]
      rfl
  · intro hist a
    refine results_alike (t := E.tangent) (g := c.formulation) (fun r hr => ?_) hist a
    rw [hi.stack_eq] at hr
    rcases h r hr with e | ⟨hu, hn, hty, w, t, hw, ht, e⟩
    · rw [e]
      exact ⟨rfl, rfl, rfl, rfl, rfl, rfl, fun _ => rfl⟩
    · rw [e]
      refine ⟨rfl, rfl, rfl, rfl, rfl, ?_, fun _ => rfl⟩
      refine buildPure_vectors (t := E.tangent) (c := c) fun w' H n hw' hH => ?_
      rw [hH0] at hH
      obtain ⟨rfl, -⟩ := Prod.mk.inj (Except.ok.inj hH)
      rw [hw] at hw'
      obtain rfl := Except.ok.inj hw'
      unfold getTangentField
      simp only [hn, hty, if_true, hi.form_eq, ht]

/-- **C107**, all but the circular truncation. Let every layer, or some of them, be given as `tangent_field` the vectors which
its generator returns for its pattern and the harmonics of the simulation: the object constructed is the same and every
call returns or raises exactly the same, after every history.  Missing: the circular truncation, see
`C107_circular_fewer_orders`. -/
theorem C107_generated_is_given_partial (hA : ArgsortContract E.argsort) {lats stack exc nh form}
    (hinit : simInit E lats mats stack exc nh form = .ok c)
    (hl : c.lattice.truncation = .circular → c.lattice.harmonicsArray ≠ none)
    (h : ∀ r ∈ stack, GivenGenerated E form c.harmonics (mats r) (mats' r)) :
    simInit E lats mats' stack exc nh form = .ok c ∧
    ∀ (hist : List (Call c.nh)) (a : Call c.nh),
      a.result E c (afterCalls E c hist (Dyn.fresh mats' (unsolved c.nh))) =
        a.result E c (afterCalls E c hist (Dyn.fresh mats (unsolved c.nh))) := by
  obtain ⟨m, hm⟩ := (simInit_ok hinit).harm
  obtain ⟨m', hm'⟩ := getHarmonics_again hA hl hm
  exact given_generated hinit hm' h

/-- **C107**, negation for the circular truncation (a defect). The generator is asked for the orders of a truncation of the
number of harmonics actually kept, which is less again: it is given strictly fewer orders than the simulation has.
Whatever it does for as many orders or more, every call returns or raises exactly the same, after every history. -/
theorem C107_circular_fewer_orders (hA : ArgsortContract E.argsort) {lats stack exc nh form}
    (hinit : simInit E lats mats stack exc nh form = .ok c) (hl : c.lattice.truncation = .circular)
    (hu : c.lattice.harmonicsArray = none) (t : String → PGrid → List (ℤ × ℤ) → Bool → Except PyErr Field2)
    (ht : ∀ ty w H b, H.length < c.harmonics.length → t ty w H b = E.tangent ty w H b) :
    simInit { E with tangent := t } lats mats stack exc nh form = .ok c ∧
    ∀ (hist : List (Call c.nh)) (a : Call c.nh),
      a.result { E with tangent := t } c (afterCalls { E with tangent := t } c hist (Dyn.fresh mats (unsolved c.nh))) =
        a.result E c (afterCalls E c hist (Dyn.fresh mats (unsolved c.nh))) := by
  have hi := simInit_ok hinit
  refine ⟨hinit, fun hist a => ?_⟩
  obtain ⟨r0, hr0, -⟩ := hi.recip
  refine results_alike (t := t) (g := c.formulation) (fun r hr => ⟨rfl, rfl, rfl, rfl, rfl, ?_, fun _ => rfl⟩) hist a
  refine buildPure_vectors (t := t) (c := c) (f := (mats r).tangentField) fun w H n hw hH => ?_
  have hlen : H.length < c.harmonics.length := by
    rcases Nat.eq_zero_or_pos c.nh with h0 | h0
    · obtain ⟨M, hM, -⟩ := checkNyquist_ok hi.nyquist
      obtain ⟨g, hg, -⟩ := maxHarmonic_mem hM
      have := List.length_pos_of_mem hg
      have e : c.harmonics.length = 0 := h0
      omega
    obtain ⟨H', n', h1, h2, h3, -⟩ := C07_circular_truncation E.argsort hA c.lattice hl hu r0 hr0 c.nh (by omega) true
    rw [h1] at hH
    obtain ⟨rfl, rfl⟩ := Prod.mk.inj (Except.ok.inj hH)
    rw [h2] at h3
    exact_mod_cast h3
  unfold getTangentField
  simp only [ht _ _ _ _ hlen]

/-- On the unit square lattice: a disk of orders is what the circular truncation returns when asked for as many as it has with
the next shell. -/
theorem circular_square {argsort : List ℝ → List ℕ} (hA : ArgsortContract argsort) {l : Lattice} (hl : l.truncation = .circular)
    (hu : l.harmonicsArray = none) (hb : l.basis = ![![1, 0], ![0, 1]]) (K : ℤ) (A S : Finset (ℤ × ℤ))
    (hA1 : ∀ g, g ∈ A ↔ g.1 ^ 2 + g.2 ^ 2 ≤ K) (hS : ∀ g ∈ S, g.1 ^ 2 + g.2 ^ 2 = K + 1) (hc : A.card < (A ∪ S).card)
    (h2 : ∀ g ∈ A ∪ S, |g.1| ≤ 2 ∧ |g.2| ≤ 2) :
    ∃ H n, l.getHarmonics argsort (A ∪ S).card true = .ok (H, n) ∧ H.Nodup ∧ ∀ g, g ∈ H ↔ g ∈ A := by
  have hinv : l.matrix⁻¹ = !![1, 0; 0, 1] := by
    apply inv_eq_right_inv
    ext i j
    fin_cases i <;> fin_cases j <;> simp [Lattice.matrix, hb, mul_apply, Fin.sum_univ_two]
  have hr : l.reciprocal = .ok !![2 * Real.pi, 0; 0, 2 * Real.pi] := by
    rw [reciprocal_ok]
    refine ⟨by simp [Lattice.matrix, hb, det_fin_two], ?_⟩
    rw [hinv]
    ext i j
    fin_cases i <;> fin_cases j <;> simp
  have hpi := Real.pi_pos
  set r : Matrix (Fin 2) (Fin 2) ℝ := !![2 * Real.pi, 0; 0, 2 * Real.pi] with hrd
  have hmet : ∀ g, metric (r 0) (r 1) g = 4 * Real.pi ^ 2 * (((g.1 ^ 2 + g.2 ^ 2 : ℤ)) : ℝ) := by
    intro g; simp only [metric, hrd, of_apply, cons_val', cons_val_zero, cons_val_one, cons_val_fin_one]; push_cast; ring
  have htol : tolerance (r 0) (r 1) < 4 * Real.pi ^ 2 := by
    simp [tolerance, hrd]
    nlinarith [mul_pos hpi hpi]
  have htol0 : 0 ≤ tolerance (r 0) (r 1) := by
    unfold tolerance
    positivity
  have sep : ∀ {a b : ℤ}, a + 1 ≤ b → 4 * Real.pi ^ 2 * (a : ℝ) + tolerance (r 0) (r 1) < 4 * Real.pi ^ 2 * (b : ℝ) := by
    intro a b hab
    have : (a : ℝ) + 1 ≤ b := by exact_mod_cast hab
    nlinarith [mul_pos hpi hpi]
  obtain ⟨H, n, h, hlen, hlt, hnd, -, -, hsep, hmax⟩ :=
    C07_circular_truncation argsort hA _ hl hu r hr (A ∪ S).card (by omega) true
  have hbox : ∀ g ∈ A ∪ S, InBox (A ∪ S).card (r 0) (r 1) g := fun g hg =>
    ⟨(h2 g hg).1.trans (extent_ge_two hr _ 0), (h2 g hg).2.trans (extent_ge_two hr _ 1)⟩
  have hAin : ∀ g ∈ A, g ∈ H := by
    refine hmax A (by exact_mod_cast hc) (fun g hg => hbox g (Finset.mem_union_left _ hg)) fun g hg g' _ hng => ?_
    rw [hmet, hmet]
    rw [hA1] at hg hng
    exact sep (by omega)
  refine ⟨H, n, h, hnd, fun g => ⟨fun hg => ?_, hAin g⟩⟩
  by_contra hgA
  have hsub : ∀ s ∈ A ∪ S, s ∈ H := by
    intro s hs
    rcases Finset.mem_union.mp hs with h1 | h1
    · exact hAin s h1
    · by_contra hsH
      have := hsep g hg s (hbox s hs) hsH
      rw [hmet, hmet, hS s h1] at this
      rw [hA1] at hgA
      have h3 : (K + 1 : ℤ) ≤ g.1 ^ 2 + g.2 ^ 2 := by omega
      have h4 : ((K + 1 : ℤ) : ℝ) ≤ ((g.1 ^ 2 + g.2 ^ 2 : ℤ) : ℝ) := by exact_mod_cast h3
      nlinarith [mul_pos hpi hpi]
  have hle : (A ∪ S).card ≤ H.length := by
    rw [← List.toFinset_card_of_nodup hnd]
    exact Finset.card_le_card fun s hs => List.mem_toFinset.mpr (hsub s hs)
  omega

theorem disk_one (g : ℤ × ℤ) : g ∈ ({(0, 0), (1, 0), (-1, 0), (0, 1), (0, -1)} : Finset (ℤ × ℤ)) ↔ g.1 ^ 2 + g.2 ^ 2 ≤ 1 := by
  obtain ⟨x, y⟩ := g
  constructor
  · intro h
    simp only [Finset.mem_insert, Finset.mem_singleton, Prod.mk.injEq] at h
    rcases h with ⟨rfl, rfl⟩ | ⟨rfl, rfl⟩ | ⟨rfl, rfl⟩ | ⟨rfl, rfl⟩ | ⟨rfl, rfl⟩ <;> norm_num
  · intro h
    dsimp only at h
    have hx1 : -1 ≤ x := by nlinarith [sq_nonneg y]
    have hx2 : x ≤ 1 := by nlinarith [sq_nonneg y]
    have hy1 : -1 ≤ y := by nlinarith [sq_nonneg x]
    have hy2 : y ≤ 1 := by nlinarith [sq_nonneg x]
    interval_cases x <;> interval_cases y <;> simp at h ⊢

theorem disk_zero (g : ℤ × ℤ) : g ∈ ({(0, 0)} : Finset (ℤ × ℤ)) ↔ g.1 ^ 2 + g.2 ^ 2 ≤ 0 := by
  obtain ⟨x, y⟩ := g
  simp only [Finset.mem_singleton, Prod.mk.injEq]
  constructor
  · rintro ⟨rfl, rfl⟩
    norm_num
  · intro h
    constructor <;> nlinarith [sq_nonneg x, sq_nonneg y]

/-- The two truncations of the default simulation with `nh = 9` on the unit square lattice. -/
theorem square_nine (hA : ArgsortContract E.argsort) {lats stack exc form}
    (hinit : simInit E lats mats stack exc 9 form = .ok c) (hp : ∃ r ∈ stack, (mats r).isUniform = false)
    (hl : c.lattice.truncation = .circular) (hu : c.lattice.harmonicsArray = none) (hb : c.lattice.basis = ![![1, 0], ![0, 1]]) :
    (c.nh = 5 ∧ ∀ g, g ∈ c.harmonics ↔ g ∈ [((0 : ℤ), (0 : ℤ)), (1, 0), (-1, 0), (0, 1), (0, -1)]) ∧
    ∃ m, c.lattice.getHarmonics E.argsort c.nh true = .ok ([(0, 0)], m) := by
  have hi := simInit_ok hinit
  obtain ⟨H, n, k1, k2, k3⟩ := circular_square hA hl hu hb 1 {(0, 0), (1, 0), (-1, 0), (0, 1), (0, -1)}
    {(1, 1), (1, -1), (-1, 1), (-1, -1)} disk_one (by decide) (by decide) (by decide)
  obtain ⟨H', n', l1, l2, l3⟩ := circular_square hA hl hu hb 0 {(0, 0)}
    {(1, 0), (-1, 0), (0, 1), (0, -1)} disk_zero (by decide) (by decide) (by decide)
  obtain ⟨m, hm⟩ := hi.harm
  have hall : (stack.all fun r => (mats r).isUniform) = false := by
    obtain ⟨r, hr, hr1⟩ := hp
    rw [List.all_eq_false]
    exact ⟨r, hr, by simp [hr1]⟩
  rw [hall, show effectiveNh 9 false = ((({(0, 0), (1, 0), (-1, 0), (0, 1), (0, -1)} : Finset (ℤ × ℤ)) ∪
    {(1, 1), (1, -1), (-1, 1), (-1, -1)}).card : ℤ) from rfl, k1] at hm
  obtain ⟨rfl, -⟩ := Prod.mk.inj (Except.ok.inj hm)
  have h5 : c.nh = 5 := by
    change c.harmonics.length = 5
    rw [← List.toFinset_card_of_nodup k2]
    have : c.harmonics.toFinset = {(0, 0), (1, 0), (-1, 0), (0, 1), (0, -1)} := by
      ext g
      rw [List.mem_toFinset, k3]
    rw [this]
    rfl
  refine ⟨⟨h5, fun g => by rw [k3]; simp⟩, n', ?_⟩
  have hH' : H' = [(0, 0)] := by
    have e : H'.toFinset = {(0, 0)} := by
      ext g
      rw [List.mem_toFinset, l3]
    have e1 : H'.length = 1 := by
      rw [← List.toFinset_card_of_nodup l2, e]
      rfl
    obtain ⟨x, rfl⟩ := List.length_eq_one_iff.mp e1
    have := (l3 x).mp (by simp)
    rw [Finset.mem_singleton] at this
    rw [this]
  rw [← hH', ← l1, h5]
  rfl

theorem placed_zero {Mx My : ℕ} (a : Fin [((0 : ℤ), (0 : ℤ))].length → ℂ) (p : Fin Mx) (q : Fin My) (x y : ℤ) :
    placed [(0, 0)] a p q * (chi Mx (p : ℕ) x * chi My (q : ℕ) y) = placed [(0, 0)] a p q := by
  unfold placed
  split
  · rename_i k hk
    have h := List.find?_some hk
    have e : [((0 : ℤ), (0 : ℤ))].get k = (0, 0) := List.mem_singleton.mp (List.get_mem _ k)
    rw [e] at h
    simp only [decide_eq_true_eq] at h
    have z : ∀ {n : ℕ} {p : Fin n}, pyFin n 0 = some p → (p : ℕ) = 0 := by
      intro n p hp
      unfold pyFin at hp
      rw [dif_pos ⟨le_rfl, by have := p.isLt; omega⟩] at hp
      rw [← Option.some.inj hp]
      rfl
    rw [z h.1, z h.2, Nat.cast_zero, chi_zero, chi_zero]
    simp
  · simp

theorem interpolate_const {Mx My Nx Ny : ℕ} (hx : 2 ≤ Mx) (hy : 2 ≤ My) (k : ℂ) (x : Fin Nx) (y : Fin Ny) :
    interpolate (fun (_ : Fin Mx) (_ : Fin My) => k) Nx Ny x y = k := by
  unfold interpolate interpNode
  have e : ∀ i j : ℕ, i ≤ Mx - 1 → j ≤ My - 1 → (if _ : i < Mx ∧ j < My then k else 0) = k := by
    intro i j hi hj
    rw [dif_pos ⟨by omega, by omega⟩]
  dsimp only
  rw [e _ _ (by omega) (by omega), e _ _ (by omega) (by omega), e _ _ (by omega) (by omega), e _ _ (by omega) (by omega)]
  push_cast
  ring

/-- **C107**. From the order `(0, 0)` alone the default generator makes vectors which are the same at every pixel, whatever the
pattern and whatever the search finds. -/
theorem C107_one_order_same_vector {argmin : (n : ℕ) → (Unknowns n → ℝ) → Except PyErr (Unknowns n)} {w : PGrid} {normalize : Bool}
    {t : Field2} (h : tangentOpt (optFit argmin) w [(0, 0)] normalize = .ok t) :
    ∃ u v : ℂ, t = ⟨w.Nx, w.Ny, fun _ _ => u, fun _ _ => v⟩ := by
  obtain ⟨hs, -, hf⟩ := tangentOpt_ok h
  obtain ⟨s1, s2, s3, s4⟩ := optShape_side hs
  obtain ⟨d, x, -, -, rfl⟩ := optFit_ok hf
  have key : ∀ a : Fin [((0 : ℤ), (0 : ℤ))].length → ℂ, ∃ k : ℂ,
      (getAmps [(0, 0)] w.Nx w.Ny a : Grid (reducedSide w.Nx) (reducedSide w.Ny)) = fun _ _ => k := by
    intro a
    refine ⟨(w.Nx : ℂ) * w.Ny / ((reducedSide w.Nx : ℂ) * reducedSide w.Ny) *
      ∑ p : Fin (reducedSide w.Nx), ∑ q : Fin (reducedSide w.Ny), placed [(0, 0)] a p q, funext fun x => funext fun y => ?_⟩
    rw [getAmps_eq]
    simp only [placed_zero]
  obtain ⟨k1, e1⟩ := key fun k => (x 0 k : ℂ) + Complex.I * x 1 k
  obtain ⟨k2, e2⟩ := key fun k => (x 2 k : ℂ) + Complex.I * x 3 k
  have r2 : 2 ≤ reducedSide w.Nx ∧ 2 ≤ reducedSide w.Ny := by unfold reducedSide; omega
  unfold vectorOf fitted
  simp only [e1, e2, interpolate_const r2.1 r2.2]
  unfold finishOpt
  cases normalize
  · exact ⟨_, _, rfl⟩
  · exact ⟨_, _, rfl⟩

/-- **C107**, the consequence. A simulation on the unit square lattice with the (default) circular truncation and `nh = 9`, of a
stack that is not homogeneous, with the generators of the code: there are five orders, `(0, 0)`, `(±1, 0)` and `(0, ±1)`; layers
given the vectors generated for the order `(0, 0)` alone do the same in every call after every history; and these, for the
default generator, are the same vector at every pixel, whatever the pattern. -/
theorem C107_square_nine (argmin : (n : ℕ) → (Unknowns n → ℝ) → Except PyErr (Unknowns n)) (hA : ArgsortContract E.argsort)
    {lats stack exc form} (hinit : simInit (E.withGenerators (optFit argmin)) lats mats stack exc 9 form = .ok c)
    (hp : ∃ r ∈ stack, (mats r).isUniform = false)
    (hl : c.lattice.truncation = .circular) (hu : c.lattice.harmonicsArray = none) (hb : c.lattice.basis = ![![1, 0], ![0, 1]])
    (h : ∀ r ∈ stack, GivenGenerated (E.withGenerators (optFit argmin)) form [(0, 0)] (mats r) (mats' r)) :
    (c.nh = 5 ∧ ∀ g, g ∈ c.harmonics ↔ g ∈ [((0 : ℤ), (0 : ℤ)), (1, 0), (-1, 0), (0, 1), (0, -1)]) ∧
    (∀ (hist : List (Call c.nh)) (a : Call c.nh),
      a.result (E.withGenerators (optFit argmin)) c
          (afterCalls (E.withGenerators (optFit argmin)) c hist (Dyn.fresh mats' (unsolved c.nh))) =
        a.result (E.withGenerators (optFit argmin)) c
          (afterCalls (E.withGenerators (optFit argmin)) c hist (Dyn.fresh mats (unsolved c.nh)))) ∧
    ∀ r ∈ stack, (mats r).tangentFieldType = "opt" → (mats r).tangentField = none → ∀ t, (mats' r).tangentField = some t →
      ∃ u v : ℂ, t = ⟨t.Nx, t.Ny, fun _ _ => u, fun _ _ => v⟩ := by
  obtain ⟨h1, m, h2⟩ := square_nine (E := E.withGenerators (optFit argmin)) hA hinit hp hl hu hb
  refine ⟨h1, (given_generated hinit h2 h).2, fun r hr hty hn t ht => ?_⟩
  rcases h r hr with e | ⟨-, -, -, w, t', -, k, e⟩
  · rw [e, hn] at ht
    cases ht
  · rw [e] at ht
    obtain rfl := Option.some.inj ht
    rw [hty] at k
    have k' : tangentOpt (optFit argmin) w [(0, 0)] (form == "tangent") = .ok t' := k
    obtain ⟨u, v, rfl⟩ := C107_one_order_same_vector k'
    exact ⟨u, v, rfl⟩

/-- **C71**, nothing missing for accepted patterns: a pattern of an accepted size which is not zero everywhere gets vectors, one per
pixel, for any distinct orders which come in opposite pairs and fit into the reduced array; the search is the one of the code. -/
theorem C71_accepted_patterns_get_vectors {Nx Ny : ℕ} (hs : OptShape Nx Ny) {a : Grid Nx Ny} (h0 : ∃ x y, a x y ≠ 0)
    {H : List (ℤ × ℤ)} (ho : OrdersFit Nx Ny H) (hH : BalancedOrders H (reducedSide Nx) (reducedSide Ny)) (normalize : Bool) :
    ∃ t0 t1 : Grid Nx Ny, tangentOpt (optFit newtonCG) ⟨Nx, Ny, a⟩ H normalize = .ok ⟨Nx, Ny, t0, t1⟩ := by
  obtain ⟨d, t, -, h, -⟩ := opt_newton hs h0 ho hH normalize
  obtain ⟨-, -, hf⟩ := tangentOpt_ok h
  obtain ⟨-, x, -, -, rfl⟩ := optFit_ok hf
  rw [h]
  unfold vectorOf finishOpt
  cases normalize
  · exact ⟨_, _, rfl⟩
  · exact ⟨_, _, rfl⟩

end Nannos

namespace Nannos.Examples

open Matrix Spec

/-- Unit square cell, the default truncation. -/
noncomputable def disk : Lattice := { cell with truncation := .circular }

theorem disk_init {E : Ext} (hA : ArgsortContract E.argsort) (ty : String) (g : Grid 8 8) (exc : PlaneWave) :
    ∃ c, simInit E (fun _ => disk) (gridMats ty g) [0, 1, 2] exc 9 "jones" = .ok c ∧ c.lattice = disk := by
  have hi : LinearIndependent ℝ disk.basis := (det_ne_zero_iff disk).mp (by simp [disk, cell, Lattice.matrix, det_fin_two])
  obtain ⟨H, n, c1, -, c3⟩ := circular_square hA (l := disk) rfl rfl rfl 1 {(0, 0), (1, 0), (-1, 0), (0, 1), (0, -1)}
    {(1, 1), (1, -1), (-1, 1), (-1, -1)} disk_one (by decide) (by decide) (by decide)
  have hu : ((0 :: [1, 2]).all fun r => (gridMats ty g r).isUniform) = false := by
    simp [gridMats, exLayer, LayerSpec.isUniform, NdArr.ofGrid, isUniform, isAnisotropic]
  have hny : checkNyquist disk H = .ok () := by
    refine checkNyquist_of ⟨(0, 0), (c3 _).mpr (by simp)⟩ (M := 1) (fun g hg => ?_) (by simp [disk, cell]) (.inr (by simp [disk, cell]))
    have := (c3 g).mp hg
    revert g
    intro g _ hg
    simp only [Finset.mem_insert, Finset.mem_singleton] at hg
    rcases hg with rfl | rfl | rfl | rfl | rfl <;> decide
  obtain ⟨c, hc⟩ := simInit_exists (E := E) (lats := fun _ => disk) (mats := gridMats ty g)
    (r0 := 0) (tl := [1, 2]) (exc := exc) (nh := 9) (form := "jones") (H := H) (n := n)
    (r := (2 * Real.pi) • disk.matrix⁻¹ᵀ)
    (by simp [gridMats, exLayer]) (fun r _ => by rw [(gridMats_cases ty g r).2.2.1, (gridMats_cases ty g 0).2.2.1])
    (by tauto) (fun h => by cases h) (by rw [hu]; exact c1) hny ⟨rfl, rfl⟩
    (by simp [gridMats, exLayer, NdArr.scalar, NdArr.value]) (reciprocal_ok.mpr ⟨(det_ne_zero_iff disk).mpr hi, rfl⟩)
  exact ⟨c, hc, (simInit_ok hc).lat_eq 0 rfl⟩

/-- The vectors the default generator returns for a dot. -/
theorem dot_given {H : List (ℤ × ℤ)} (hH : BalancedOrders H 8 8) : ∃ t, ∀ r ∈ [0, 1, 2],
    GivenGenerated (exE.withGenerators (optFit newtonCG)) "jones" H (gridMats "opt" (dotSquare 2) r)
      (if r = 1 then { gridMats "opt" (dotSquare 2) 1 with tangentField := some t } else gridMats "opt" (dotSquare 2) r) := by
  obtain ⟨d, t, -, ht, -⟩ := opt_newton (a := dotSquare 2) (by unfold OptShape; omega) ⟨0, 0, by simp [dotSquare]⟩
    (balanced_fit (by norm_num) hH) hH false
  refine ⟨t, fun r hr => ?_⟩
  by_cases h1 : r = 1
  · subst h1
    exact .inr ⟨by simp [gridMats, exLayer, LayerSpec.isUniform, NdArr.ofGrid, isUniform, isAnisotropic], rfl, .inr rfl, _, t,
      patternOf_grid _ _ (by decide), ht, by simp⟩
  · exact .inl (by rw [if_neg h1])

/-- C107: nine orders of a square lattice with the parallelogrammic truncation. -/
example (exc : PlaneWave) : ∃ c t, simInit (exE.withGenerators (optFit newtonCG)) (fun _ => cell) (gridMats "opt" (dotSquare 2))
      [0, 1, 2] exc 9 "jones" = .ok c ∧
    ∀ (hist : List (Call c.nh)) (a : Call c.nh),
      a.result (exE.withGenerators (optFit newtonCG)) c (afterCalls (exE.withGenerators (optFit newtonCG)) c hist
          (Dyn.fresh (fun r => if r = 1 then { gridMats "opt" (dotSquare 2) 1 with tangentField := some t }
            else gridMats "opt" (dotSquare 2) r) (unsolved c.nh))) =
        a.result (exE.withGenerators (optFit newtonCG)) c (afterCalls (exE.withGenerators (optFit newtonCG)) c hist
          (Dyn.fresh (gridMats "opt" (dotSquare 2)) (unsolved c.nh))) := by
  obtain ⟨c, hc, k1, k2, k3⟩ := grid_init (E := exE.withGenerators (optFit newtonCG)) exSort_spec "opt" (dotSquare 2) (by simp) exc
  obtain ⟨t, ht⟩ := dot_given (H := c.harmonics) ⟨k1, fun g hg => (k2 _).mpr (by have := (k2 _).mp hg; simpa using this),
    fun g hg => by have := (k2 _).mp hg; omega⟩
  exact ⟨c, t, hc, (C107_generated_is_given_partial exSort_spec hc (by rw [k3]; simp [cell]) ht).2⟩

/-- C107: with the circular truncation, the orders a generator is given for the dot, and the vectors it returns. -/
example (exc : PlaneWave) : ∃ c u v, simInit (exE.withGenerators (optFit newtonCG)) (fun _ => disk) (gridMats "opt" (dotSquare 2))
      [0, 1, 2] exc 9 "jones" = .ok c ∧ c.nh = 5 ∧
    ∀ (hist : List (Call c.nh)) (a : Call c.nh),
      a.result (exE.withGenerators (optFit newtonCG)) c (afterCalls (exE.withGenerators (optFit newtonCG)) c hist
          (Dyn.fresh (fun r => if r = 1 then { gridMats "opt" (dotSquare 2) 1 with
              tangentField := some ⟨8, 8, fun _ _ => u, fun _ _ => v⟩ } else gridMats "opt" (dotSquare 2) r) (unsolved c.nh))) =
        a.result (exE.withGenerators (optFit newtonCG)) c (afterCalls (exE.withGenerators (optFit newtonCG)) c hist
          (Dyn.fresh (gridMats "opt" (dotSquare 2)) (unsolved c.nh))) := by
  obtain ⟨c, hc, k3⟩ := disk_init (E := exE.withGenerators (optFit newtonCG)) exSort_spec "opt" (dotSquare 2) exc
  obtain ⟨t, ht⟩ := dot_given (H := [(0, 0)]) ⟨by decide, by decide, by decide⟩
  obtain ⟨h1, h2, -⟩ := C107_square_nine newtonCG (E := exE) exSort_spec hc
    ⟨1, by simp, by simp [gridMats, exLayer, LayerSpec.isUniform, NdArr.ofGrid, isUniform, isAnisotropic]⟩
    (by rw [k3]; rfl) (by rw [k3]; rfl) (by rw [k3]; rfl) ht
  rcases ht 1 (by simp) with e | ⟨-, -, -, w, t', hw, k, e⟩
  · have := congrArg LayerSpec.tangentField e
    simp [gridMats, exLayer] at this
  · rw [patternOf_grid _ _ (by decide)] at hw
    obtain rfl := Except.ok.inj hw
    have := congrArg LayerSpec.tangentField e
    simp only [if_true, Option.some.injEq] at this
    subst this
    obtain ⟨u, v, rfl⟩ := C107_one_order_same_vector (argmin := newtonCG) k
    exact ⟨c, u, v, hc, h1.1, h2⟩

end Nannos.Examples
