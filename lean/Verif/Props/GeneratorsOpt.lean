import Verif.Model.Generators
import Verif.Props.Sim
import Verif.Proofs.Medium
import Verif.Spec.Symmetry
import Verif.Props.GeneratorsMoved

/-! C71: patterns which the generator `'opt'` (the default one) accepts. -/

namespace Nannos

open Spec

/-- Sizes of arrays: squares of 2 to 64 pixels, and rectangles whose sides are multiples of 64. -/
def Spec.OptShape (Nx Ny : ℕ) : Prop := (Nx = Ny ∧ 2 ≤ Nx ∧ Nx ≤ 64) ∨ (0 < Nx ∧ 0 < Ny ∧ 64 ∣ Nx ∧ 64 ∣ Ny)

/-- The orders are indices of an array with the sides `min 64 Nx` and `min 64 Ny` of the reduced pattern. -/
def Spec.OrdersFit (Nx Ny : ℕ) (H : List (ℤ × ℤ)) : Prop :=
  ∀ g ∈ H, ∀ N ∈ [min 64 Nx, min 64 Ny], -(N : ℤ) ≤ g.1 ∧ g.1 < N ∧ -(N : ℤ) ≤ g.2 ∧ g.2 < N

theorem ordersFit_iff {Nx Ny : ℕ} {H : List (ℤ × ℤ)} : OrdersFit Nx Ny H ↔
    (¬ ∃ g ∈ H, pyFin (min (2 ^ 6) Nx) g.1 = none ∨ pyFin (min (2 ^ 6) Nx) g.2 = none) ∧
    ¬ ∃ g ∈ H, pyFin (min (2 ^ 6) Ny) g.1 = none ∨ pyFin (min (2 ^ 6) Ny) g.2 = none := by
  unfold OrdersFit
  simp only [pyFin_none, show (2 : ℕ) ^ 6 = 64 from rfl]
  push Not
  constructor
  · intro h
    refine ⟨fun g hg => ?_, fun g hg => ?_⟩
    · have := h g hg (min 64 Nx) (by simp)
      exact ⟨⟨this.1, this.2.1⟩, this.2.2⟩
    · have := h g hg (min 64 Ny) (by simp)
      exact ⟨⟨this.1, this.2.1⟩, this.2.2⟩
  · rintro ⟨h1, h2⟩ g hg N hN
    simp only [List.mem_cons, List.not_mem_nil, or_false] at hN
    rcases hN with rfl | rfl
    · exact ⟨(h1 g hg).1.1, (h1 g hg).1.2, (h1 g hg).2⟩
    · exact ⟨(h2 g hg).1.1, (h2 g hg).1.2, (h2 g hg).2⟩

theorem strided_iff {N : ℕ} (h : 2 ≤ N) :
    broadcastable (min (2 ^ 6) N) (stridedLength N (N / min (2 ^ 6) N)) ↔ N ≤ 64 ∨ 64 ∣ N := by
  unfold broadcastable stridedLength
  rcases le_or_gt N 64 with h64 | h64
  · have : min (2 ^ 6) N = N := by omega
    rw [this, Nat.div_self (by omega)]
    simp [h64]
  · have : min (2 ^ 6) N = 64 := by omega
    rw [this]
    have hk : 0 < N / 64 := by omega
    have hN : N = 64 * (N / 64) + N % 64 := by omega
    generalize N / 64 = k at hN hk
    have hdvd : 64 ∣ N ↔ N % 64 = 0 := Nat.dvd_iff_mod_eq_zero
    rw [hdvd]
    generalize hr : N % 64 = r at hN
    have hr' : r < 64 := by omega
    constructor
    · intro hb
      right
      by_contra h0
      have : 65 ≤ (N + k - 1) / k := by
        rw [Nat.le_div_iff_mul_le hk]
        omega
      rcases hb with hb | hb | hb <;> omega
    · rintro (hb | rfl)
      · omega
      · left
        rw [hN, Nat.add_zero]
        symm
        rw [Nat.div_eq_iff hk]
        constructor <;> omega

theorem optShape_iff {Nx Ny : ℕ} : OptShape Nx Ny ↔ ¬ (Nx < 2 ∨ Ny < 2) ∧ ¬ (min (2 ^ 6) Nx ≠ min (2 ^ 6) Ny) ∧
    ¬ (¬ broadcastable (min (2 ^ 6) Nx) (stridedLength Nx (Nx / min (2 ^ 6) Nx)) ∨
      ¬ broadcastable (min (2 ^ 6) Ny) (stridedLength Ny (Ny / min (2 ^ 6) Ny))) := by
  by_cases h2 : Nx < 2 ∨ Ny < 2
  · simp only [h2, not_true_eq_false, false_and, iff_false]
    rintro (h | h) <;> omega
  · rw [strided_iff (by omega), strided_iff (by omega)]
    unfold OptShape
    simp only [h2, not_false_eq_true, true_and]
    omega

theorem guards {α : Type} (p1 p2 p3 p4 p5 p6 : Prop) {_ : Decidable p1} {_ : Decidable p2} {_ : Decidable p3}
    {_ : Decidable p4} {_ : Decidable p5} {_ : Decidable p6} (f : Except PyErr α) (m : Except PyErr α) (hm : m = (do
      raiseIf p1 .valueError
      raiseIf p2 .indexError
      raiseIf p3 .indexError
      raiseIf p4 .valueError
      raiseIf p5 .valueError
      raiseIf p6 .nonfinite
      f)) :
    (¬ p1 ∧ ¬ p4 ∧ ¬ p5 → ¬ p2 ∧ ¬ p3 → ¬ p6 → m = f) ∧
    (¬ p1 ∧ ¬ p4 ∧ ¬ p5 → ¬ (¬ p2 ∧ ¬ p3) → m = .error .indexError) ∧
    (¬ (¬ p1 ∧ ¬ p4 ∧ ¬ p5) → ¬ p2 ∧ ¬ p3 → m = .error .valueError) ∧
    (¬ (¬ p1 ∧ ¬ p4 ∧ ¬ p5) → m = .error .valueError ∨ m = .error .indexError) ∧ (p6 → ∃ e, m = .error e) := by
  subst hm
  unfold raiseIf
  by_cases h1 : p1 <;> by_cases h2 : p2 <;> by_cases h3 : p3 <;> by_cases h4 : p4 <;> by_cases h5 : p5 <;>
    by_cases h6 : p6 <;> simp [h1, h2, h3, h4, h5, h6]

/-- **C71**. The generator `'opt'` raises `ValueError` or `IndexError` on every pattern which is neither a square of 2 to 64
pixels nor an array whose sides are multiples of 64 (`ValueError` when the orders fit), `IndexError` when the
orders do not fit, and a pattern of zeros has no result; it goes on to the minimisation for all others. -/
theorem C71_shapes (fit : PGrid → List (ℤ × ℤ) → Bool → Except PyErr Field2) {Nx Ny : ℕ} (a : Grid Nx Ny)
    (H : List (ℤ × ℤ)) (normalize : Bool) :
    (OptShape Nx Ny → OrdersFit Nx Ny H → (∃ x y, a x y ≠ 0) →
      tangentOpt fit ⟨Nx, Ny, a⟩ H normalize = fit ⟨Nx, Ny, a⟩ H normalize) ∧
    (OptShape Nx Ny → ¬ OrdersFit Nx Ny H → tangentOpt fit ⟨Nx, Ny, a⟩ H normalize = .error .indexError) ∧
    (¬ OptShape Nx Ny → OrdersFit Nx Ny H → tangentOpt fit ⟨Nx, Ny, a⟩ H normalize = .error .valueError) ∧
    (¬ OptShape Nx Ny → tangentOpt fit ⟨Nx, Ny, a⟩ H normalize = .error .valueError ∨
      tangentOpt fit ⟨Nx, Ny, a⟩ H normalize = .error .indexError) ∧
    ((∀ x y, a x y = 0) → ∃ e, tangentOpt fit ⟨Nx, Ny, a⟩ H normalize = .error e) := by
  rw [optShape_iff, ordersFit_iff]
  have := guards _ _ _ _ _ _ _ _ (show tangentOpt fit ⟨Nx, Ny, a⟩ H normalize = _ from rfl)
  obtain ⟨g1, g2, g3, g4, g5⟩ := this
  exact ⟨fun h1 h2 h3 => g1 h1 h2 (by push Not; exact h3), g2, g3, g4, g5⟩

/-- If `solve()` returns, in a formulation which needs tangent vectors, every patterned layer has obtained its vectors. -/
theorem tangent_returned {E : Ext} {lats : ℕ → Lattice} {mats : ℕ → LayerSpec} {stack : List ℕ} {exc : PlaneWave} {nh : ℤ}
    {form : String} {c : Static} (hinit : simInit E lats mats stack exc nh form = .ok c) (hist : List (Call c.nh))
    (h : (solve E c (afterCalls E c hist (Dyn.fresh mats (unsolved c.nh)))).1 = .ok ())
    (hform : form ≠ "original") (hform1 : ¬ (form = "tangent" ∧ c.lattice.is1D = true))
    {r : ℕ} (hr : r ∈ stack) (hu : (mats r).isUniform = false) (hcp : (mats r).iscopy = false) (hmu : (mats r).mu = 1) :
    ∃ w H b t, patternOf (mats r) = .ok w ∧ getTangentField E (mats r) w H b = .ok t := by
  have hi := simInit_ok hinit
  obtain ⟨A1, res, hs, h0, h1, -⟩ := history_inv (E := E) hi.nodup (noStale_unsolved mats c.stack) hist
  rw [solve_result hs h1] at h
  have hfix := (hs.fix hi.nodup h r (by rw [hi.stack_eq]; exact hr)).form
  have hf : c.formulation = form := hi.form_eq
  have key : ∀ M p Q, buildPure E c (mats r) = .ok (.patterned M p Q) →
      ∃ w H b t, patternOf (mats r) = .ok w ∧ getTangentField E (mats r) w H b = .ok t := by
    intro M p Q hb
    obtain ⟨-, -, -, -, -, -, -, w, para, eph, Ht, n, k1, -, -, -, -, k6⟩ := buildPure_patterned_ok hmu hb
    by_contra hno
    have hg : ∀ b, ∃ e, getTangentField E (mats r) w Ht b = .error e := by
      intro b
      cases he : getTangentField E (mats r) w Ht b with
      | error e => exact ⟨e, rfl⟩
      | ok t => exact absurd ⟨w, Ht, b, t, k1, he⟩ hno
    obtain ⟨e1, q1⟩ := hg true
    obtain ⟨e2, q2⟩ := hg false
    unfold pepsOf at k6
    rw [hf] at k6
    simp only [hform, if_false, q1, q2] at k6
    split at k6
    · rename_i hft
      rw [if_neg (fun hh => hform1 ⟨hft, hh⟩)] at k6
      cases k6
    · split at k6 <;> cases k6
  cases hfix with
  | uniform Q ev hc hb => rw [buildPure_uniform hb] at hu; cases hu
  | patterned M p Q ev hc hb => exact key M p Q hb
  | copyUniform M p Q ev hc => rw [hc] at hcp; cases hcp
  | copyPatterned M p Q ev hc => rw [hc] at hcp; cases hcp

/-- **C71**, simulations. If `solve()` returns after any sequence of calls, in a formulation which needs tangent vectors,
then every patterned layer of the stack which asks the generator `'opt'` has a pattern of one of these sizes. -/
theorem C71_layers {E : Ext} (fit : PGrid → List (ℤ × ℤ) → Bool → Except PyErr Field2)
    {lats : ℕ → Lattice} {mats : ℕ → LayerSpec} {stack : List ℕ} {exc : PlaneWave} {nh : ℤ} {form : String} {c : Static}
    (hinit : simInit (E.withGenerators fit) lats mats stack exc nh form = .ok c) (hist : List (Call c.nh))
    (h : (solve (E.withGenerators fit) c
      (afterCalls (E.withGenerators fit) c hist (Dyn.fresh mats (unsolved c.nh)))).1 = .ok ())
    (hform : form ≠ "original") (hform1 : ¬ (form = "tangent" ∧ c.lattice.is1D = true))
    {r : ℕ} (hr : r ∈ stack) (hu : (mats r).isUniform = false) (hcp : (mats r).iscopy = false) (hmu : (mats r).mu = 1)
    (ht : (mats r).tangentField = none) (hty : (mats r).tangentFieldType = "opt") :
    ∃ w, patternOf (mats r) = .ok w ∧ OptShape w.Nx w.Ny := by
  obtain ⟨w, H, b, t, h1, h2⟩ := tangent_returned hinit hist h hform hform1 hr hu hcp hmu
  refine ⟨w, h1, ?_⟩
  by_contra hno
  have e : getTangentField (E.withGenerators fit) (mats r) w H b = tangentOpt fit w H b := by
    unfold getTangentField
    rw [ht, hty]
    rfl
  rw [e] at h2
  rcases (C71_shapes fit w.g H b).2.2.2.1 hno with q | q <;> exact absurd (h2.symm.trans q) (by simp)

/-- **C71**, names of the generators: those other than `'fft'` and `'opt'` are refused, also by a simulation which needs
tangent vectors. -/
theorem C71_generator_names (fit : PGrid → List (ℤ × ℤ) → Bool → Except PyErr Field2) (type : String)
    (hty : type ≠ "fft" ∧ type ≠ "opt") :
    (∀ w H normalize, tangentGenerator fit type w H normalize = .error .valueError) ∧
    ∀ {E : Ext} {lats : ℕ → Lattice} {mats : ℕ → LayerSpec} {stack : List ℕ} {exc : PlaneWave} {nh : ℤ} {form : String}
      {c : Static}, simInit E lats mats stack exc nh form = .ok c → form ≠ "original" →
      ¬ (form = "tangent" ∧ c.lattice.is1D = true) → ∀ r ∈ stack, (mats r).isUniform = false → (mats r).iscopy = false →
      (mats r).mu = 1 → (mats r).tangentField = none → (mats r).tangentFieldType = type →
      ∀ hist, (solve E c (afterCalls E c hist (Dyn.fresh mats (unsolved c.nh)))).1 ≠ .ok () := by
  constructor
  · intro w H normalize
    unfold tangentGenerator
    rw [if_neg hty.1, if_neg hty.2]
  · intro E lats mats stack exc nh form c hinit hform hform1 r hr hu hcp hmu ht htt hist h
    obtain ⟨w, H, b, t, -, h2⟩ := tangent_returned hinit hist h hform hform1 hr hu hcp hmu
    unfold getTangentField at h2
    rw [ht, htt] at h2
    simp [hty.1, hty.2] at h2

namespace Examples

/-- C71: sizes which are accepted and sizes which are not; the default size is accepted. -/
example : OptShape 256 256 ∧ OptShape 50 50 ∧ OptShape 64 128 ∧ ¬ OptShape 100 100 ∧ ¬ OptShape 32 64 ∧ ¬ OptShape 128 1 ∧
    OrdersFit 100 100 [(0, 0), (-7, 3)] ∧ ¬ OrdersFit 4 4 [(5, 0)] := by
  unfold OptShape OrdersFit
  simp

/-- C71: the object is constructed, and whatever is called, it cannot be solved. -/
example (fit : PGrid → List (ℤ × ℤ) → Bool → Except PyErr Field2) (g : Grid 100 100) : ∃ exc c,
    planeWave 1 (60, 30, 45) = .ok exc ∧
    simInit (exE.withGenerators fit) (fun _ => cell) (gridMats "opt" g) [0, 1, 2] exc 9 "jones" = .ok c ∧
    ∀ hist, (solve (exE.withGenerators fit) c
      (afterCalls (exE.withGenerators fit) c hist (Dyn.fresh (gridMats "opt" g) (unsolved c.nh)))).1 ≠ .ok () := by
  obtain ⟨exc, h1⟩ := oblique 1 30 45 one_pos
  obtain ⟨c, h3, -⟩ := grid_init (E := exE.withGenerators fit) exSort_spec "opt" g (by decide) exc
  refine ⟨exc, c, h1, h3, fun hist h => ?_⟩
  obtain ⟨w, hw, ho⟩ := C71_layers fit h3 hist h (by decide) (by simp) (r := 1) (by simp)
    (by simp [gridMats, exLayer, LayerSpec.isUniform, isUniform, isAnisotropic, NdArr.ofGrid]) rfl rfl rfl rfl
  rw [patternOf_grid _ _ (by decide)] at hw
  obtain rfl := Except.ok.inj hw
  unfold OptShape at ho
  simp at ho

/-- C71: a name which is neither. -/
example (g : Grid 100 100) : ∃ exc c, planeWave 1 (60, 30, 45) = .ok exc ∧
    simInit exE (fun _ => cell) (gridMats "FFT" g) [0, 1, 2] exc 9 "jones" = .ok c ∧
    ∀ hist, (solve exE c (afterCalls exE c hist (Dyn.fresh (gridMats "FFT" g) (unsolved c.nh)))).1 ≠ .ok () := by
  obtain ⟨exc, h1⟩ := oblique 1 30 45 one_pos
  obtain ⟨c, h3, -⟩ := grid_init (E := exE) exSort_spec "FFT" g (by decide) exc
  exact ⟨exc, c, h1, h3, (C71_generator_names (fun _ _ _ => .error .valueError) "FFT" (by decide)).2 h3 (by decide) (by simp) 1
    (by simp) (by simp [gridMats, exLayer, LayerSpec.isUniform, isUniform, isAnisotropic, NdArr.ofGrid]) rfl rfl rfl rfl⟩

end Examples

end Nannos
