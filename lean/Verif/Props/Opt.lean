import Verif.Proofs.Opt
import Verif.Props.GeneratorsOpt
import Verif.Props.Denser

/-! C106: the default generator of tangent vectors (`'opt'`). -/

namespace Nannos

open Spec

variable {argmin argmin' : (n : ℕ) → (Unknowns n → ℝ) → Except PyErr (Unknowns n)}

theorem optShape_side {Nx Ny : ℕ} (h : OptShape Nx Ny) : 2 ≤ Nx ∧ 2 ≤ Ny ∧ reducedSide Nx = reducedSide Ny ∧ 2 ≤ reducedSide Nx := by
  unfold OptShape at h
  unfold reducedSide
  omega

/-- What is returned has passed the checks. -/
theorem tangentOpt_ok {fit : PGrid → List (ℤ × ℤ) → Bool → Except PyErr Field2} {w : PGrid} {H : List (ℤ × ℤ)} {normalize : Bool}
    {t : Field2} (h : tangentOpt fit w H normalize = .ok t) : OptShape w.Nx w.Ny ∧ OrdersFit w.Nx w.Ny H ∧ fit w H normalize = .ok t := by
  obtain ⟨k1, k2, k3, k4, k5⟩ := C71_shapes fit w.g H normalize
  have hs : OptShape w.Nx w.Ny := by
    by_contra hs
    rcases k4 hs with e | e <;> · rw [h] at e; cases e
  have ho : OrdersFit w.Nx w.Ny H := by
    by_contra ho
    have e := k2 hs ho
    rw [h] at e
    cases e
  refine ⟨hs, ho, ?_⟩
  by_cases h0 : ∃ x y, w.g x y ≠ 0
  · rw [← k1 hs ho h0]; exact h
  · push Not at h0
    obtain ⟨e, he⟩ := k5 h0
    rw [h] at he
    cases he

/-- **C106**. The vectors of the generator `'opt'` are independent of the minimisation: two methods which return a place
where the function is smallest, in general not the same place, give the same vectors. -/
theorem C106_any_minimiser (hA : Minimises argmin) (hA' : Minimises argmin') {w : PGrid} {H : List (ℤ × ℤ)} {normalize : Bool}
    {t t' : Field2} (h : tangentOpt (optFit argmin) w H normalize = .ok t)
    (h' : tangentOpt (optFit argmin') w H normalize = .ok t') : t = t' := by
  obtain ⟨-, -, h⟩ := tangentOpt_ok h
  obtain ⟨-, -, h'⟩ := tangentOpt_ok h'
  obtain ⟨d, x, h1, h2, rfl⟩ := optFit_ok h
  exact (optFit_eq hA' h' h1 (hA _ _ _ h2)).symm

theorem bandLimited_cast {M N : ℕ} (h : M = N) (H : List (ℤ × ℤ)) (f : Grid N N) (i j : Fin N) :
    bandLimited H (fun (x y : Fin M) => f (Fin.cast h x) (Fin.cast h y)) (Fin.cast h.symm i) (Fin.cast h.symm j) =
      bandLimited H f i j := by
  subst h
  rfl

/-- The vectors in terms of the slopes, any accepted size. -/
theorem opt_bandLimited (hA : Minimises argmin) {w : PGrid} {H : List (ℤ × ℤ)}
    (hH : BalancedOrders H (reducedSide w.Nx) (reducedSide w.Ny)) {normalize : Bool} {t : Field2}
    (h : tangentOpt (optFit argmin) w H normalize = .ok t) : ∃ d, slopes w.g = .ok d ∧
      t = vectorOf (bandLimited H (strided d.1), bandLimited H (strided d.2)) w.Nx w.Ny normalize := by
  obtain ⟨hs, -, h⟩ := tangentOpt_ok h
  obtain ⟨s1, s2, s3, s4⟩ := optShape_side hs
  obtain ⟨d, x, h1, -⟩ := optFit_ok h
  have : NeZero (reducedSide w.Nx) := ⟨by omega⟩
  have : NeZero (reducedSide w.Ny) := ⟨by omega⟩
  obtain ⟨z, hz, hm⟩ := bandLimited_minimises (Nx := w.Nx) (Ny := w.Ny) hH (by omega) (by omega) (d := (strided d.1, strided d.2))
    (fun x y => slopes_real h1 _ _)
  exact ⟨d, h1, by rw [optFit_eq hA h h1 hm, hz]⟩

/-- **C106**. On a square pattern of at most 64 pixels a side, for distinct orders which come in opposite pairs, the
generator `'opt'` returns at each pixel the part carried by these orders of the smoothed slopes of the modulus of the
permittivity, turned by a quarter turn, scaled to length one (`sqrt(2^-52 + |v|^2)` is the length), or the vector `(1, 0)` where
that length is at most `10^-6`. -/
theorem C106_band_limited_slopes (hA : Minimises argmin) {N : ℕ} (h64 : N ≤ 64) {a : Grid N N} {H : List (ℤ × ℤ)}
    (hH : BalancedOrders H N N) {t : Field2} (h : tangentOpt (optFit argmin) ⟨N, N, a⟩ H true = .ok t) :
    ∃ (d : Grid N N × Grid N N) (t0 t1 : Grid N N), slopes a = .ok d ∧ t = ⟨N, N, t0, t1⟩ ∧ ∀ x y,
      (bandLimited H d.1 x y).im = 0 ∧ (bandLimited H d.2 x y).im = 0 ∧
      let ℓ := Real.sqrt (1 / 2 ^ 52 + (bandLimited H d.1 x y).re ^ 2 + (bandLimited H d.2 x y).re ^ 2)
      (ℓ ≤ 1 / 10 ^ 6 → t0 x y = 1 ∧ t1 x y = 0) ∧
      (1 / 10 ^ 6 < ℓ → t0 x y = bandLimited H d.2 x y / ℓ ∧ t1 x y = -(bandLimited H d.1 x y) / ℓ) := by
  have hR := reducedSide_small h64
  obtain ⟨hs, -, -⟩ := tangentOpt_ok h
  have s1 : 2 ≤ N := (optShape_side hs).1
  have : NeZero N := ⟨by omega⟩
  obtain ⟨d, h1, rfl⟩ := opt_bandLimited (w := ⟨N, N, a⟩) hA (by change BalancedOrders H (reducedSide N) (reducedSide N); rw [hR]; exact hH) h
  have e : ∀ f : Grid N N, ∀ x y : Fin N,
      interpolate (bandLimited H (strided f)) N N x y = bandLimited H f x y := by
    intro f x y
    rw [interpolate_same hR hR s1 s1, ← bandLimited_cast hR]
    congr 1
    funext i j
    exact strided_small h64 (by omega) f i j
  refine ⟨d, _, _, h1, rfl, fun x y => ?_⟩
  have r1 := bandLimited_real hH (fun x y => (slopes_real h1 x y).1) x y
  have r2 := bandLimited_real hH (fun x y => (slopes_real h1 x y).2) x y
  refine ⟨r1, r2, ?_⟩
  dsimp only
  rw [e, e]
  have q1 : (((bandLimited H d.1 x y).re : ℝ) : ℂ) = bandLimited H d.1 x y := Complex.ext (by simp) (by simp [r1])
  have q2 : (((bandLimited H d.2 x y).re : ℝ) : ℂ) = bandLimited H d.2 x y := Complex.ext (by simp) (by simp [r2])
  have n1 : normOptPt ((bandLimited H d.2 x y).re : ℂ) ((-(bandLimited H d.1 x y).re : ℝ) : ℂ) =
      Real.sqrt (1 / 2 ^ 52 + (bandLimited H d.1 x y).re ^ 2 + (bandLimited H d.2 x y).re ^ 2) := by
    unfold normOptPt
    rw [Complex.normSq_ofReal, Complex.normSq_ofReal]
    congr 1
    ring
  rw [n1]
  unfold normalizeVecPt normalizePt
  refine ⟨fun hl => ?_, fun hl => ?_⟩
  · simp only [if_pos hl]
    simp
  · simp only [if_neg (not_le.mpr hl)]
    rw [q2]
    push_cast
    rw [q1]
    exact ⟨rfl, rfl⟩

/-- **C106**. The generator `'opt'` sees the moduli of the permittivities up to a common factor, nothing else: patterns with
the same moduli, and patterns multiplied by a number other than zero, get the same vectors (whatever the
minimisation does). -/
theorem C106_only_moduli {Nx Ny : ℕ} {a b : Grid Nx Ny} {s : ℝ} (hs : 0 < s) (h : ∀ x y, ‖b x y‖ = s * ‖a x y‖)
    (H : List (ℤ × ℤ)) (normalize : Bool) :
    tangentOpt (optFit argmin) ⟨Nx, Ny, b⟩ H normalize = tangentOpt (optFit argmin) ⟨Nx, Ny, a⟩ H normalize := by
  have hr : relativeModulus b = relativeModulus a := by
    rw [← relativeModulus_times (a := (s : ℂ)) (by exact_mod_cast hs.ne') a]
    unfold relativeModulus
    have : ∀ x y, ‖(s : ℂ) * a x y‖ = ‖b x y‖ := fun x y => by
      rw [h, norm_mul, Complex.norm_real, Real.norm_of_nonneg hs.le]
    simp only [this]
  have hz : (∀ x y, b x y = 0) ↔ ∀ x y, a x y = 0 := by
    refine forall_congr' fun x => forall_congr' fun y => ?_
    rw [← norm_eq_zero, h, mul_eq_zero, norm_eq_zero]
    simp [hs.ne']
  have hf : optFit argmin ⟨Nx, Ny, b⟩ H normalize = optFit argmin ⟨Nx, Ny, a⟩ H normalize := by
    unfold optFit
    dsimp only
    rw [slopes_modulus hr]
  unfold tangentOpt
  simp only [hz, hf]

/-- **C106**, a consequence a user may not expect: where materials of different permittivity have the same modulus (a metal of
permittivity -2 and a dielectric of permittivity 2, or a gain and a loss medium), the generator sees no interface: it returns
the vector `(1, 0)` at every pixel. -/
theorem C106_equal_moduli_show_no_interface (hA : Minimises argmin) {Nx Ny : ℕ} {a : Grid Nx Ny} {s : ℝ}
    (h : ∀ x y, ‖a x y‖ = s) {H : List (ℤ × ℤ)} {t : Field2} (ht : tangentOpt (optFit argmin) ⟨Nx, Ny, a⟩ H true = .ok t) :
    t = ⟨Nx, Ny, fun _ _ => 1, fun _ _ => 0⟩ := by
  obtain ⟨hs, -, ht⟩ := tangentOpt_ok ht
  obtain ⟨s1, s2, -, -⟩ := optShape_side hs
  have : NeZero Nx := ⟨by dsimp only at s1; omega⟩
  have : NeZero Ny := ⟨by dsimp only at s2; omega⟩
  obtain ⟨d, x, h1, h2, rfl⟩ := optFit_ok ht
  have hd : ∀ x y, d.1 x y = 0 ∧ d.2 x y = 0 := by
    have hc : ∃ c, relativeModulus a = fun _ _ => c := ⟨_, by unfold relativeModulus; simp only [h]; rfl⟩
    obtain ⟨c, hc⟩ := hc
    rw [slopes_ok s1 s2] at h1
    obtain rfl := Except.ok.inj h1
    have z : (smooth fun _ _ => 0 : Grid Nx Ny) = fun _ _ => 0 := by
      funext i j
      simp [smooth]
    have hr : rawSlopes a = (fun _ _ => 0, fun _ _ => 0) := by
      unfold rawSlopes
      simp only [hc, gradientAxis_const s1, gradientAxis_const s2, z]
    intro x y
    simp [hr]
  have hf := fun i j => fitted_flat (d := (strided d.1, strided d.2)) (fun i j => hd _ _) (hA _ _ _ h2) i j
  rw [fieldOf_congr (b' := (fun _ _ => 0, fun _ _ => 0)) (by simpa using hf)]
  unfold vectorOf finishOpt
  have zi : ∀ x : Fin Nx, ∀ y : Fin Ny, interpolate (fun (_ : Fin (reducedSide Nx)) (_ : Fin (reducedSide Ny)) => 0) Nx Ny x y = 0 := by
    intro x y
    unfold interpolate
    simp
  have small : normOptPt 0 0 ≤ 1 / 10 ^ 6 := by
    unfold normOptPt
    rw [map_zero, add_zero, add_zero]
    refine Real.sqrt_le_iff.mpr ⟨by norm_num, by norm_num⟩
  dsimp only
  simp only [zi, Complex.zero_re, Complex.ofReal_zero, neg_zero, if_true]
  unfold normalizeVecPt normalizePt
  simp only [if_pos small]
  simp

/-- **C106**. On square patterns of at most 64 pixels a side which do not reach the border of the cell, the vectors of the generator
`'opt'` move along with the pattern. -/
theorem C106_displacement (hA : Minimises argmin) {N : ℕ} (h64 : N ≤ 64) {a a' : Grid N N} (hc : ClearOfBorder a)
    (hc' : ClearOfBorder a') {u v : ℝ} (hm : GridMoved 1 1 u v ⟨N, N, a⟩ ⟨N, N, a'⟩) {H : List (ℤ × ℤ)} {normalize : Bool}
    {t t' : Field2} (h : tangentOpt (optFit argmin) ⟨N, N, a⟩ H normalize = .ok t)
    (h' : tangentOpt (optFit argmin) ⟨N, N, a'⟩ H normalize = .ok t') : VectorsMoved 1 1 u v t t' := by
  obtain ⟨hs, -, h⟩ := tangentOpt_ok h
  obtain ⟨-, -, h'⟩ := tangentOpt_ok h'
  have s1 : 2 ≤ N := (optShape_side hs).1
  have : NeZero N := ⟨by omega⟩
  obtain ⟨Mx, My, b, b', sx, sy, e, e', hw, hb⟩ := hm
  cases e
  cases e'
  have ha : a' = fun i j => a (i - ringPos N sx) (j - ringPos N sy) := by
    funext i j
    exact hb i j _ _ (by rw [ringPos_sub]; simp) (by rw [ringPos_sub]; simp)
  subst ha
  obtain ⟨t0, t1, rfl, rfl⟩ := optFit_moved hA s1 h64 hc hc' h h'
  refine ⟨N, N, _, _, _, _, sx, sy, rfl, rfl, hw, fun x y x' y' ex ey => ?_⟩
  have e1 : x - ringPos N sx = x' := Fin.ext (by rw [ringPos_sub, ex]; simp)
  have e2 : y - ringPos N sy = y' := Fin.ext (by rw [ringPos_sub, ey]; simp)
  rw [e1, e2]
  simp

/-- **C106**. On a pattern of more than 64 pixels a side (a multiple `64 m` of 64), the vectors are stretched over the cell: those
of the last pixel are made of the slopes at the pixel `m - 1` before it (`b` below is the fit at pixels `0, m, 2m, …`). -/
theorem C106_finer_patterns_are_stretched (hA : Minimises argmin) {m : ℕ} (hm : 0 < m) {a : Grid (64 * m) (64 * m)}
    {H : List (ℤ × ℤ)} (hH : BalancedOrders H 64 64) {t : Field2}
    (h : tangentOpt (optFit argmin) ⟨64 * m, 64 * m, a⟩ H true = .ok t) :
    ∃ (d : Grid (64 * m) (64 * m) × Grid (64 * m) (64 * m)) (b : Grid 64 64 × Grid 64 64) (t0 t1 : Grid (64 * m) (64 * m)),
      slopes a = .ok d ∧ t = ⟨64 * m, 64 * m, t0, t1⟩ ∧
      b.1 = bandLimited H (fun i j => d.1 ⟨m * i, by have := i.isLt; nlinarith⟩ ⟨m * j, by have := j.isLt; nlinarith⟩) ∧
      b.2 = bandLimited H (fun i j => d.2 ⟨m * i, by have := i.isLt; nlinarith⟩ ⟨m * j, by have := j.isLt; nlinarith⟩) ∧
      t0 ⟨64 * m - 1, by omega⟩ ⟨64 * m - 1, by omega⟩ = (normalizeVecPt (b.2 63 63) (-(b.1 63 63)) (normOptPt (b.2 63 63) (b.1 63 63))).1 ∧
      t1 ⟨64 * m - 1, by omega⟩ ⟨64 * m - 1, by omega⟩ = (normalizeVecPt (b.2 63 63) (-(b.1 63 63)) (normOptPt (b.2 63 63) (b.1 63 63))).2 := by
  have hR : reducedSide (64 * m) = 64 := by unfold reducedSide; omega
  obtain ⟨d, h1, rfl⟩ := opt_bandLimited (w := ⟨64 * m, 64 * m, a⟩) hA
    (by change BalancedOrders H (reducedSide (64 * m)) (reducedSide (64 * m)); rw [hR]; exact hH) h
  have cast : ∀ f : Grid (64 * m) (64 * m), ∀ i j : Fin 64, bandLimited H (strided f) (Fin.cast hR.symm i) (Fin.cast hR.symm j) =
      bandLimited H (fun i j : Fin 64 => f ⟨m * i, by have := i.isLt; nlinarith⟩ ⟨m * j, by have := j.isLt; nlinarith⟩) i j := by
    intro f i j
    rw [← bandLimited_cast hR]
    congr 1
    funext i j
    unfold strided
    have : 64 * m / reducedSide (64 * m) = m := by rw [hR]; omega
    congr 1 <;> exact Fin.ext (by change _ * (64 * m / reducedSide (64 * m)) = m * _; rw [this, mul_comm]; rfl)
  have last : ∀ f : Grid (reducedSide (64 * m)) (reducedSide (64 * m)),
      interpolate f (64 * m) (64 * m) ⟨64 * m - 1, by omega⟩ ⟨64 * m - 1, by omega⟩ = f (Fin.cast hR.symm 63) (Fin.cast hR.symm 63) := by
    intro f
    have hn : interpNode (reducedSide (64 * m)) (64 * m) (64 * m - 1) = (62, 1) := by
      unfold interpNode
      rw [hR]
      have e1 : (64 * m - 1) * (64 - 1) / (64 * m - 1) = 63 := by rw [mul_comm]; exact Nat.mul_div_cancel _ (by omega)
      have e2 : ((64 * m - 1 : ℕ) : ℝ) ≠ 0 := by
        have : 64 * m - 1 ≠ 0 := by omega
        exact_mod_cast this
      dsimp only
      rw [e1, mul_div_right_comm, div_self e2]
      norm_num
    unfold interpolate
    dsimp only
    rw [hn]
    simp only [sub_self, zero_mul, mul_zero, mul_one, Complex.ofReal_zero, Complex.ofReal_one, zero_add, one_mul]
    rw [dif_pos (by omega)]
    rfl
  have real : ∀ f : Grid (64 * m) (64 * m), (∀ x y, (f x y).im = 0) → ∀ i j : Fin 64,
      (((bandLimited H (fun i j : Fin 64 => f ⟨m * i, by have := i.isLt; nlinarith⟩ ⟨m * j, by have := j.isLt; nlinarith⟩) i j).re : ℝ) : ℂ) =
      bandLimited H (fun i j : Fin 64 => f ⟨m * i, by have := i.isLt; nlinarith⟩ ⟨m * j, by have := j.isLt; nlinarith⟩) i j := by
    intro f hf i j
    exact Complex.ext (by simp) (by rw [Complex.ofReal_im, bandLimited_real hH (fun _ _ => hf _ _)])
  have normNeg : ∀ p q : ℂ, normOptPt p (-q) = normOptPt p q := fun p q => by unfold normOptPt; rw [Complex.normSq_neg]
  refine ⟨d, (bandLimited H (fun i j => d.1 ⟨m * i, by have := i.isLt; nlinarith⟩ ⟨m * j, by have := j.isLt; nlinarith⟩),
    bandLimited H (fun i j => d.2 ⟨m * i, by have := i.isLt; nlinarith⟩ ⟨m * j, by have := j.isLt; nlinarith⟩)), _, _, h1, rfl, rfl,
    rfl, ?_, ?_⟩
  all_goals
    dsimp only
    rw [last, last, cast, cast]
    push_cast
    rw [real _ (fun x y => (slopes_real h1 x y).1), real _ (fun x y => (slopes_real h1 x y).2), normNeg]

/-- Layers which ask for tangent vectors ask the generator `'opt'`, their patterns have at most 64 pixels along each side and do not
reach the border. -/
def Spec.AskOptInside (mats : ℕ → LayerSpec) (stack : List ℕ) : Prop :=
  ∀ r ∈ stack, (mats r).tangentField = none → (mats r).tangentFieldType = "opt" ∧
    ∀ w, patternOf (mats r) = .ok w → ClearOfBorder w.g ∧ w.Nx ≤ 64 ∧ w.Ny ≤ 64

/-- The generator `'opt'` moves its vectors along with such patterns. -/
theorem opt_generatorMoves {E : Ext} (hA : Minimises argmin) {u v : ℝ}
    {mats mats' : ℕ → LayerSpec} {stack : List ℕ} (hm : ∀ r ∈ stack, PatternMoved 1 1 u v (mats r) (mats' r))
    (ha : AskOptInside mats stack) (ha' : AskOptInside mats' stack) :
    GeneratorMoves 1 1 u v (E.withGenerators (optFit argmin)) mats mats' stack := by
  intro r hr ht w w' H nrm t t' hw hw' hg h1 h2
  have ht' : (mats' r).tangentField = none := by
    rcases (hm r hr).vectors with ⟨-, k⟩ | ⟨s, s', k, -⟩
    · exact k
    · rw [ht] at k; simp at k
  obtain ⟨e, hc⟩ := ha r hr ht
  obtain ⟨e', hc'⟩ := ha' r hr ht'
  obtain ⟨hc, b1, b2⟩ := hc w hw
  obtain ⟨hc', -, -⟩ := hc' w' hw'
  rw [e] at h1 h2
  change tangentOpt (optFit argmin) w H nrm = .ok t at h1
  change tangentOpt (optFit argmin) w' H nrm = .ok t' at h2
  obtain ⟨Mx, My, b, b', sx, sy, rfl, rfl, hs, hb⟩ := id hg
  have hsh := (tangentOpt_ok h1).1
  have hxy : Mx = My := by
    unfold OptShape at hsh
    dsimp only at hsh b1 b2
    omega
  subst hxy
  exact C106_displacement hA b1 hc hc' hg h1 h2

/-- **C64**, with the default generator of the code. As `C64_lateral_displacement`, for layers which ask the generator `'opt'` and
patterns of at most 64 pixels a side which, before and after the displacement, do not reach the border of the cell. -/
theorem C64_lateral_displacement_opt {E : Ext} (hE : EigContract E) (hA : Minimises argmin) {u v : ℝ}
    {lats : ℕ → Lattice} {mats mats' : ℕ → LayerSpec} {stack : List ℕ} {wl : ℝ} {angles : ℝ × ℝ × ℝ} {exc : PlaneWave}
    {nh : ℤ} {form : String} {c c' : Static} (hexc : planeWave wl angles = .ok exc)
    (hinit : simInit (E.withGenerators (optFit argmin)) lats mats stack exc nh form = .ok c)
    (hinit' : simInit (E.withGenerators (optFit argmin)) lats mats' stack exc nh form = .ok c')
    (hm : ∀ r ∈ stack, PatternMoved 1 1 u v (mats r) (mats' r)) (hsq : SquareTensors form mats stack)
    (ha : AskOptInside mats stack) (ha' : AskOptInside mats' stack)
    (hw : WellPlaced mats stack) (hw' : WellPlaced mats' stack) (hmu : ∀ r ∈ stack, (mats r).mu = 1)
    (hnd : c.harmonics.Nodup) (hzero : ((0 : ℤ), (0 : ℤ)) ∈ c.harmonics)
    (hist : List (Call c.nh)) (hist' : List (Call c'.nh)) :
    (∀ orders X X',
      (diffractionEfficiencies (E.withGenerators (optFit argmin)) c orders
        (afterCalls (E.withGenerators (optFit argmin)) c hist (Dyn.fresh mats (unsolved c.nh)))).1 = .ok X →
      (diffractionEfficiencies (E.withGenerators (optFit argmin)) c' orders
        (afterCalls (E.withGenerators (optFit argmin)) c' hist' (Dyn.fresh mats' (unsolved c'.nh)))).1 = .ok X' →
      EfficienciesAlong id c c' X X') ∧
    ∀ layer zs Fs Fs',
      (getFieldFourier (E.withGenerators (optFit argmin)) c layer zs
        (afterCalls (E.withGenerators (optFit argmin)) c hist (Dyn.fresh mats (unsolved c.nh)))).1 = .ok Fs →
      (getFieldFourier (E.withGenerators (optFit argmin)) c' layer zs
        (afterCalls (E.withGenerators (optFit argmin)) c' hist' (Dyn.fresh mats' (unsolved c'.nh)))).1 = .ok Fs' →
      List.Forall₂ (FieldsAlong id (displacementPhase u v) 1 c c') Fs Fs' :=
  C64_lateral_displacement (E := E.withGenerators (optFit argmin)) hE hexc hinit hinit' hm hsq hw hw' hmu hnd hzero
    (fun _ => opt_generatorMoves hA hm ha ha') hist hist'

/-- The default generator does not see a common factor. -/
theorem opt_factorUnseen (E : Ext) {p : ℝ} (hp : 0 < p) (lat : Lattice) (form : String) {L : LayerSpec} (hL : L.tangentFieldType = "opt") :
    FactorUnseen (E.withGenerators (optFit argmin)) p lat form L := by
  refine .inr (.inr (.inr fun u H b => ?_))
  rw [hL]
  change tangentOpt (optFit argmin) _ H b = tangentOpt (optFit argmin) u H b
  exact C106_only_moduli (s := p ^ 2) (by positivity) (fun x y => by
    rw [norm_mul, norm_pow, Complex.norm_real, Real.norm_of_nonneg hp.le]) H b

/-- **C103**, with the default generator of the code: every call after every history of calls, for layers whose vectors are given or
left to the generator `'opt'`; nothing is assumed of the generator or of the minimisation. -/
theorem C103_denser_stack_opt {E : Ext} {lats : ℕ → Lattice} {mats : ℕ → LayerSpec} {stack : List ℕ} {nh : ℤ} {form : String}
    {p : ℝ} (hp : 0 < p) {wl : ℝ} {angles : ℝ × ℝ × ℝ} {exc : PlaneWave} (hexc : planeWave wl angles = .ok exc) {c : Static}
    (hc : simInit (E.withGenerators (optFit argmin)) lats mats stack exc nh form = .ok c)
    (hL : ∀ r ∈ stack, (mats r).tangentField ≠ none ∨ (mats r).tangentFieldType = "opt") :
    ∃ exc', planeWave (p * wl) angles = .ok exc' ∧
      simInit (E.withGenerators (optFit argmin)) lats (fun r => denser p (mats r)) stack exc' nh form = .ok (c.slow p exc') ∧
      ∀ (hist : List (Call c.nh)) (a : Call c.nh),
        a.result (E.withGenerators (optFit argmin)) (c.slow p exc')
            (afterCalls (E.withGenerators (optFit argmin)) (c.slow p exc') hist
              (Dyn.fresh (fun r => denser p (mats r)) (unsolved c.nh))) =
          (a.result (E.withGenerators (optFit argmin)) c
            (afterCalls (E.withGenerators (optFit argmin)) c hist (Dyn.fresh mats (unsolved c.nh)))).map (divided p) := by
  obtain ⟨exc', h1, -, h2⟩ := (C103_denser_stack (E := E.withGenerators (optFit argmin)) (lats := lats) (mats := mats) (stack := stack)
    (nh := nh) (form := form) hp wl angles).2 exc hexc
  obtain ⟨h3, h4⟩ := h2 c hc
  refine ⟨exc', h1, h3, h4 fun r hr => ?_⟩
  rcases hL r hr with h | h
  · exact .inr (.inr (.inl h))
  · exact opt_factorUnseen E hp _ _ h

namespace Examples

/-- A minimisation which returns a minimiser when there is one. -/
noncomputable def exMin (n : ℕ) (f : Unknowns n → ℝ) : Except PyErr (Unknowns n) := open Classical in
  if h : ∃ x, ∀ y, f x ≤ f y then .ok h.choose else .error .nonfinite

theorem exMin_minimises : Minimises exMin := by
  intro n f x h
  unfold exMin at h
  split at h
  · rename_i hx
    obtain rfl := Except.ok.inj h
    exact hx.choose_spec
  · cases h

/-- With balanced orders it returns. -/
theorem exMin_returns {Nx Ny : ℕ} (a : Grid Nx Ny) {H : List (ℤ × ℤ)} (hs : OptShape Nx Ny) (ho : OrdersFit Nx Ny H)
    (hH : BalancedOrders H (reducedSide Nx) (reducedSide Ny)) (h0 : ∃ x y, a x y ≠ 0) (normalize : Bool) :
    ∃ t, tangentOpt (optFit exMin) ⟨Nx, Ny, a⟩ H normalize = .ok t := by
  rw [(C71_shapes (optFit exMin) a H normalize).1 hs ho h0]
  obtain ⟨s1, s2, s3, s4⟩ := optShape_side hs
  have : NeZero Nx := ⟨by omega⟩
  have : NeZero Ny := ⟨by omega⟩
  have : NeZero (reducedSide Nx) := ⟨by omega⟩
  have : NeZero (reducedSide Ny) := ⟨by omega⟩
  obtain ⟨d, hd⟩ : ∃ d, slopes a = .ok d := ⟨_, slopes_ok s1 s2 a⟩
  obtain ⟨z, -, hz⟩ := bandLimited_minimises (Nx := Nx) (Ny := Ny) hH (by omega) (by omega) (d := (strided d.1, strided d.2))
    (fun x y => slopes_real hd _ _)
  unfold optFit
  dsimp only
  rw [hd]
  have : ∃ x, exMin H.length (minifun H Nx Ny (strided d.1, strided d.2)) = .ok x := by
    unfold exMin
    rw [dif_pos ⟨z, hz⟩]
    exact ⟨_, rfl⟩
  obtain ⟨x, hx⟩ := this
  simp only [bind, Except.bind]
  rw [hx]
  exact ⟨_, rfl⟩

/-- Nine orders. -/
def nine : List (ℤ × ℤ) := [(0, 0), (1, 0), (-1, 0), (0, 1), (0, -1), (1, 1), (-1, -1), (1, -1), (-1, 1)]

theorem nine_balanced {M N : ℕ} (hM : 3 ≤ M) (hN : 3 ≤ N) : BalancedOrders nine M N := by
  refine ⟨by decide, by decide, fun g hg => ?_⟩
  have : |g.1| ≤ 1 ∧ |g.2| ≤ 1 := by revert g; decide
  omega

theorem nine_fit {N : ℕ} (hN : 3 ≤ N) : OrdersFit N N nine := by
  intro g hg M hM
  have h1 : |g.1| ≤ 1 ∧ |g.2| ≤ 1 := by revert g; decide
  have h2 := abs_le.mp h1.1
  have h3 := abs_le.mp h1.2
  simp only [List.mem_cons, List.not_mem_nil, or_false, or_self] at hM
  omega

/-- A dot of permittivity 4 in a square cell of eight by eight pixels. -/
noncomputable def dotSquare (x0 : ℕ) : Grid 8 8 := fun x y => if (x : ℕ) = x0 ∧ (y : ℕ) = 3 then 4 else 1

theorem dotSquare_clear (x0 : ℕ) (h : 2 ≤ x0) (h' : x0 < 6) : ClearOfBorder (dotSquare x0) := by
  unfold ClearOfBorder NearEnd dotSquare
  refine ⟨fun x x' y h1 h2 => ?_, fun x y y' h1 h2 => ?_⟩
  · rw [if_neg (by omega), if_neg (by omega)]
  · rw [if_neg (by omega), if_neg (by omega)]

theorem dotSquare_pixel (x y : ℕ) (hx : x < 8) (hy : y < 8) : ∀ h1 h2,
    dotSquare 3 ⟨x, hx⟩ ⟨y, hy⟩ = dotSquare 2 ⟨pixel 8 (1 * (x : ℤ) - 1), h1⟩ ⟨pixel 8 (1 * (y : ℤ) - 0), h2⟩ := by
  intro h1 h2
  unfold dotSquare
  dsimp only
  have e1 : (pixel 8 (1 * (x : ℤ) - 1) = 2) ↔ x = 3 := by
    unfold pixel
    push_cast
    omega
  have e2 : pixel 8 (1 * (y : ℤ) - 0) = y := by
    unfold pixel
    push_cast
    omega
  simp only [e1, e2]

theorem dotSquare_moved : GridMoved 1 1 (1 / 8) 0 ⟨8, 8, dotSquare 2⟩ ⟨8, 8, dotSquare 3⟩ := by
  refine ⟨8, 8, dotSquare 2, dotSquare 3, 1, 0, rfl, rfl, ⟨by norm_num, by norm_num⟩, fun x y x' y' ex ey => ?_⟩
  obtain ⟨x', hx'⟩ := x'
  obtain ⟨y', hy'⟩ := y'
  simp only at ex ey
  subst ex ey
  exact dotSquare_pixel _ _ _ _ _ _

/-- C106: a dot in a cell of eight by eight pixels with nine orders, before and after a displacement: vectors are returned. -/
example (normalize : Bool) : Minimises exMin ∧ BalancedOrders nine 8 8 ∧ ClearOfBorder (dotSquare 2) ∧ ClearOfBorder (dotSquare 3) ∧
    GridMoved 1 1 (1 / 8) 0 ⟨8, 8, dotSquare 2⟩ ⟨8, 8, dotSquare 3⟩ ∧
    (∃ t, tangentOpt (optFit exMin) ⟨8, 8, dotSquare 2⟩ nine normalize = .ok t) ∧
    ∃ t, tangentOpt (optFit exMin) ⟨8, 8, dotSquare 3⟩ nine normalize = .ok t := by
  have hs : OptShape 8 8 := by unfold OptShape; omega
  exact ⟨exMin_minimises, nine_balanced (by norm_num) (by norm_num), dotSquare_clear 2 (by norm_num) (by norm_num),
    dotSquare_clear 3 (by norm_num) (by norm_num), dotSquare_moved,
    exMin_returns _ hs (nine_fit (by norm_num)) (nine_balanced (by decide) (by decide)) ⟨0, 0, by simp [dotSquare]⟩ _,
    exMin_returns _ hs (nine_fit (by norm_num)) (nine_balanced (by decide) (by decide)) ⟨0, 0, by simp [dotSquare]⟩ _⟩

/-- C106: 128 by 128 pixels. -/
example : BalancedOrders nine 64 64 ∧ ∃ t, tangentOpt (optFit exMin) ⟨64 * 2, 64 * 2, fun x _ => if (x : ℕ) < 50 then 4 else 1⟩ nine true = .ok t := by
  have hs : OptShape (64 * 2) (64 * 2) := by unfold OptShape; omega
  exact ⟨nine_balanced (by norm_num) (by norm_num),
    exMin_returns _ hs (nine_fit (by norm_num)) (nine_balanced (by decide) (by decide)) ⟨0, 0, by norm_num⟩ _⟩

/-- C106: a metal of permittivity -2 in a dielectric of permittivity 2: the vectors show no interface. -/
example : (∀ x y, ‖(fun x _ => if (x : ℕ) < 4 then (-2 : ℂ) else 2 : Grid 8 8) x y‖ = 2) ∧
    tangentOpt (optFit exMin) ⟨8, 8, fun x _ => if (x : ℕ) < 4 then (-2 : ℂ) else 2⟩ nine true = .ok ⟨8, 8, fun _ _ => 1, fun _ _ => 0⟩ := by
  have hs : OptShape 8 8 := by unfold OptShape; omega
  have hn : ∀ x y, ‖(fun x _ => if (x : ℕ) < 4 then (-2 : ℂ) else 2 : Grid 8 8) x y‖ = 2 := fun x y => by
    dsimp only
    split_ifs <;> simp
  obtain ⟨t, ht⟩ := exMin_returns (fun x _ => if (x : ℕ) < 4 then (-2 : ℂ) else 2 : Grid 8 8) hs (nine_fit (by norm_num))
    (nine_balanced (by decide) (by decide)) ⟨0, 0, by simp⟩ true
  exact ⟨hn, by rw [ht, C106_equal_moduli_show_no_interface exMin_minimises hn ht]⟩

theorem gridMats_movedSquare (ty : String) (r : ℕ) :
    PatternMoved 1 1 (1 / 8) 0 (gridMats ty (dotSquare 2) r) (gridMats ty (dotSquare 3) r) := by
  unfold gridMats
  by_cases h1 : r = 1
  · subst h1
    refine ⟨rfl, rfl, fun h => (by cases h), fun Nx Ny _ h => ?_,
      fun Nx Ny h => by simp [exLayer, NdArr.ofGrid] at h, .inl ⟨rfl, rfl⟩⟩
    simp only [if_true, exLayer, NdArr.ofGrid, List.cons.injEq, and_true] at h
    obtain ⟨rfl, rfl⟩ := h
    refine ⟨1, 0, ⟨by norm_num, by norm_num⟩, fun x hx y hy => ?_⟩
    have p1 : pixel 8 (1 * (x : ℤ) - 1) < 8 := by unfold pixel; omega
    have p2 : pixel 8 (1 * (y : ℤ) - 0) < 8 := by unfold pixel; omega
    simp only [if_true, exLayer, NdArr.ofGrid]
    rw [dif_pos ⟨hx, hy⟩, dif_pos ⟨p1, p2⟩]
    exact dotSquare_pixel x y hx hy p1 p2
  · simp only [h1, if_false]
    exact ⟨rfl, rfl, fun _ => rfl, fun Nx Ny h => (by cases h),
      fun Nx Ny h => by simp [exLayer, NdArr.scalar] at h, .inl ⟨rfl, rfl⟩⟩

theorem gridMats_askOpt {g : Grid 8 8} (hc : ClearOfBorder g) : AskOptInside (gridMats "opt" g) [0, 1, 2] := by
  intro r _ _
  refine ⟨by unfold gridMats; split_ifs <;> rfl, fun w hw => ?_⟩
  by_cases h1 : r = 1
  · subst h1
    rw [patternOf_grid _ _ (by decide)] at hw
    obtain rfl := Except.ok.inj hw
    exact ⟨hc, by norm_num, by norm_num⟩
  · exfalso
    simp [patternOf, gridMats, h1, exLayer, NdArr.scalar, NdArr.toGrid, LayerSpec.isAnisotropic, isAnisotropic] at hw

/-- C64 with the default generator: nine orders, oblique incidence, a displaced dot. -/
example : ∃ exc c c', planeWave 1 (60, 30, 45) = .ok exc ∧ Minimises exMin ∧
    simInit (exE.withGenerators (optFit exMin)) (fun _ => cell) (gridMats "opt" (dotSquare 2)) [0, 1, 2] exc 9 "jones" = .ok c ∧
    simInit (exE.withGenerators (optFit exMin)) (fun _ => cell) (gridMats "opt" (dotSquare 3)) [0, 1, 2] exc 9 "jones" = .ok c' ∧
    (∀ r ∈ [0, 1, 2], PatternMoved 1 1 (1 / 8) 0 (gridMats "opt" (dotSquare 2) r) (gridMats "opt" (dotSquare 3) r)) ∧
    AskOptInside (gridMats "opt" (dotSquare 2)) [0, 1, 2] ∧ AskOptInside (gridMats "opt" (dotSquare 3)) [0, 1, 2] ∧
    WellPlaced (gridMats "opt" (dotSquare 2)) [0, 1, 2] ∧ WellPlaced (gridMats "opt" (dotSquare 3)) [0, 1, 2] ∧
    (∀ r ∈ [0, 1, 2], (gridMats "opt" (dotSquare 2) r).mu = 1) ∧ c.harmonics.Nodup ∧ ((0 : ℤ), (0 : ℤ)) ∈ c.harmonics ∧
    UsesGenerator "jones" c.lattice.is1D (gridMats "opt" (dotSquare 2)) [0, 1, 2] := by
  obtain ⟨exc, h1⟩ := oblique 1 30 45 one_pos
  obtain ⟨c, h3, h4, h5, h6⟩ := grid_init (E := exE.withGenerators (optFit exMin)) exSort_spec "opt" (dotSquare 2) (by decide) exc
  obtain ⟨c', h3', -⟩ := grid_init (E := exE.withGenerators (optFit exMin)) exSort_spec "opt" (dotSquare 3) (by decide) exc
  exact ⟨exc, c, c', h1, exMin_minimises, h3, h3', fun r _ => gridMats_movedSquare "opt" r,
    gridMats_askOpt (dotSquare_clear 2 (by norm_num) (by norm_num)),
    gridMats_askOpt (dotSquare_clear 3 (by norm_num) (by norm_num)), gridMats_placed _ _, gridMats_placed _ _,
    fun r _ => (gridMats_cases _ _ r).2.1, h4, (h5 _).mpr (by simp), by decide, by simp, 1, by simp, rfl⟩

/-- C103 with the default generator: nine orders, a dot. -/
example : ∃ exc c, planeWave 1 (60, 30, 45) = .ok exc ∧
    simInit (exE.withGenerators (optFit exMin)) (fun _ => cell) (gridMats "opt" (dotSquare 2)) [0, 1, 2] exc 9 "jones" = .ok c ∧
    ∀ r ∈ [0, 1, 2], (gridMats "opt" (dotSquare 2) r).tangentField ≠ none ∨ (gridMats "opt" (dotSquare 2) r).tangentFieldType = "opt" := by
  obtain ⟨exc, h1⟩ := oblique 1 30 45 one_pos
  obtain ⟨c, h3, -⟩ := grid_init (E := exE.withGenerators (optFit exMin)) exSort_spec "opt" (dotSquare 2) (by decide) exc
  exact ⟨exc, c, h1, h3, fun r _ => .inr (by unfold gridMats; split_ifs <;> rfl)⟩

end Examples

end Nannos
