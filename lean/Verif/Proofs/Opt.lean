import Verif.Spec.Opt
import Verif.Proofs.GeneratorsMoved

/-! The least-squares fit of the default generator of tangent vectors. -/

namespace Nannos

open Spec

variable {Nx Ny Mx My : ℕ}

/-! ### The fit is linear in the unknowns -/

theorem placed_comb (H : List (ℤ × ℤ)) (a b : Fin H.length → ℂ) (s t : ℂ) (p : Fin Mx) (q : Fin My) :
    placed H (fun k => s * a k + t * b k) p q = s * placed H a p q + t * placed H b p q := by
  unfold placed
  split <;> simp

theorem getAmps_comb (H : List (ℤ × ℤ)) (a b : Fin H.length → ℂ) (s t : ℂ) (i : Fin Mx) (j : Fin My) :
    getAmps H Nx Ny (fun k => s * a k + t * b k) i j = s * getAmps H Nx Ny a i j + t * getAmps H Nx Ny b i j := by
  unfold getAmps ifft2
  simp only [placed_comb, add_mul, Finset.sum_add_distrib, mul_assoc, ← Finset.mul_sum]
  ring

/-- Halfway between two values of the unknowns. -/
noncomputable def halfway {n : ℕ} (x y : Unknowns n) : Unknowns n := fun c k => (x c k + y c k) / 2

theorem fitted_halfway (H : List (ℤ × ℤ)) (x y : Unknowns H.length) (i : Fin Mx) (j : Fin My) :
    ((fitted H Nx Ny (halfway x y)).1 i j).re = (((fitted H Nx Ny x).1 i j).re + ((fitted H Nx Ny y).1 i j).re) / 2 ∧
    ((fitted H Nx Ny (halfway x y)).2 i j).re = (((fitted H Nx Ny x).2 i j).re + ((fitted H Nx Ny y).2 i j).re) / 2 := by
  have key : ∀ a b : Fin H.length → ℂ, (getAmps H Nx Ny (fun k => (1 / 2 : ℂ) * a k + (1 / 2 : ℂ) * b k) i j : ℂ).re =
      ((getAmps H Nx Ny a i j).re + (getAmps H Nx Ny b i j).re) / 2 := by
    intro a b
    rw [getAmps_comb, ← mul_add, show (1 / 2 : ℂ) = ((1 / 2 : ℝ) : ℂ) by push_cast; rfl, Complex.re_ofReal_mul,
      Complex.add_re]
    ring
  unfold fitted
  dsimp only
  rw [← key, ← key]
  constructor <;> (congr 3; funext k; unfold halfway; push_cast; ring)

/-! ### Two minimisers give one fit -/

theorem halfway_normSq (u v d : ℂ) :
    ‖(u + v) / 2 - d‖ ^ 2 = (‖u - d‖ ^ 2 + ‖v - d‖ ^ 2) / 2 - ‖u - v‖ ^ 2 / 4 := by
  simp only [Complex.sq_norm, Complex.normSq_apply, Complex.sub_re, Complex.sub_im, Complex.div_ofNat_re,
    Complex.div_ofNat_im, Complex.add_re, Complex.add_im]
  ring

theorem minifun_halfway (H : List (ℤ × ℤ)) (d : Grid Mx My × Grid Mx My) (x y : Unknowns H.length) :
    minifun H Nx Ny d (halfway x y) = (minifun H Nx Ny d x + minifun H Nx Ny d y) / 2 -
      (∑ i : Fin Mx, ∑ j : Fin My, ((((fitted H Nx Ny x).1 i j).re - ((fitted H Nx Ny y).1 i j).re) ^ 2 +
        (((fitted H Nx Ny x).2 i j).re - ((fitted H Nx Ny y).2 i j).re) ^ 2)) / (8 * (Mx : ℝ) * My) := by
  have key : ∀ a b : ℝ, ∀ d : ℂ, ‖(((a + b) / 2 : ℝ) : ℂ) - d‖ ^ 2 = (‖(a : ℂ) - d‖ ^ 2 + ‖(b : ℂ) - d‖ ^ 2) / 2 - (a - b) ^ 2 / 4 := by
    intro a b d
    have := halfway_normSq a b d
    rw [← Complex.ofReal_sub, Complex.norm_real, Real.norm_eq_abs, sq_abs] at this
    rw [← this]
    push_cast
    rfl
  unfold minifun
  simp only [(fitted_halfway H x y _ _).1, (fitted_halfway H x y _ _).2, key]
  have e : ∀ A B : ℝ, A / (8 * (Mx : ℝ) * My) = (A / 4) / (2 * (Mx : ℝ) * My) := fun A _ => by
    rw [div_div]; congr 1; ring
  rw [e _ 0, ← add_div, div_right_comm, ← sub_div]
  congr 1
  simp only [Finset.sum_div, ← Finset.sum_add_distrib, ← Finset.sum_sub_distrib]
  refine Finset.sum_congr rfl fun i _ => Finset.sum_congr rfl fun j _ => ?_
  ring

theorem minimisers_agree {H : List (ℤ × ℤ)} {d : Grid Mx My × Grid Mx My} {x y : Unknowns H.length}
    (hx : ∀ z, minifun H Nx Ny d x ≤ minifun H Nx Ny d z) (hy : ∀ z, minifun H Nx Ny d y ≤ minifun H Nx Ny d z)
    (i : Fin Mx) (j : Fin My) : ((fitted H Nx Ny x).1 i j).re = ((fitted H Nx Ny y).1 i j).re ∧
      ((fitted H Nx Ny x).2 i j).re = ((fitted H Nx Ny y).2 i j).re := by
  have h := minifun_halfway (Nx := Nx) (Ny := Ny) H d x y
  have h1 := hx (halfway x y)
  have h2 := hy x
  have h3 := hx y
  set S := ∑ i : Fin Mx, ∑ j : Fin My, ((((fitted H Nx Ny x).1 i j).re - ((fitted H Nx Ny y).1 i j).re) ^ 2 +
        (((fitted H Nx Ny x).2 i j).re - ((fitted H Nx Ny y).2 i j).re) ^ 2) with hS
  have p1 : (0 : ℝ) < Mx := by exact_mod_cast i.pos
  have p2 : (0 : ℝ) < My := by exact_mod_cast j.pos
  have h4 : S / (8 * (Mx : ℝ) * My) ≤ 0 := by linarith
  have h5 : S ≤ 0 := by
    by_contra hc
    exact absurd h4 (not_le.mpr (div_pos (not_le.mp hc) (by positivity)))
  have h6 : (((fitted H Nx Ny x).1 i j).re - ((fitted H Nx Ny y).1 i j).re) ^ 2 +
        (((fitted H Nx Ny x).2 i j).re - ((fitted H Nx Ny y).2 i j).re) ^ 2 ≤ S := by
    rw [hS]
    refine le_trans ?_ (Finset.single_le_sum (f := fun i => ∑ j : Fin My, ((((fitted H Nx Ny x).1 i j).re - ((fitted H Nx Ny y).1 i j).re) ^ 2 +
        (((fitted H Nx Ny x).2 i j).re - ((fitted H Nx Ny y).2 i j).re) ^ 2)) (fun i _ => Finset.sum_nonneg fun j _ => by positivity) (Finset.mem_univ i))
    exact Finset.single_le_sum (f := fun j => ((((fitted H Nx Ny x).1 i j).re - ((fitted H Nx Ny y).1 i j).re) ^ 2 +
        (((fitted H Nx Ny x).2 i j).re - ((fitted H Nx Ny y).2 i j).re) ^ 2)) (fun j _ => by positivity) (Finset.mem_univ j)
  constructor <;> nlinarith [sq_nonneg (((fitted H Nx Ny x).1 i j).re - ((fitted H Nx Ny y).1 i j).re),
    sq_nonneg (((fitted H Nx Ny x).2 i j).re - ((fitted H Nx Ny y).2 i j).re)]

/-! ### Interpolation acts on the real part -/

theorem interpolate_re (f : Grid Mx My) (x : Fin Nx) (y : Fin Ny) :
    interpolate (fun i j => ((f i j).re : ℂ)) Nx Ny x y = ((interpolate f Nx Ny x y).re : ℂ) := by
  unfold interpolate
  have h : ∀ i j : ℕ, (if h : i < Mx ∧ j < My then (((f ⟨i, h.1⟩ ⟨j, h.2⟩).re : ℝ) : ℂ) else 0) =
      (((if h : i < Mx ∧ j < My then f ⟨i, h.1⟩ ⟨j, h.2⟩ else 0 : ℂ).re : ℝ) : ℂ) := by
    intro i j
    split <;> simp
  simp only [h]
  simp only [Complex.add_re, Complex.re_ofReal_mul]
  push_cast
  ring

theorem interpolate_re_congr {f g : Grid Mx My} (h : ∀ i j, (f i j).re = (g i j).re) (x : Fin Nx) (y : Fin Ny) :
    (interpolate f Nx Ny x y).re = (interpolate g Nx Ny x y).re := by
  have : (fun i j => ((f i j).re : ℂ)) = fun i j => ((g i j).re : ℂ) := by
    funext i j; rw [h]
  exact Complex.ofReal_injective (by rw [← interpolate_re, ← interpolate_re, this])

theorem interpolate_same {f : Grid Mx My} (hx : Mx = Nx) (hy : My = Ny) (h2x : 2 ≤ Nx) (h2y : 2 ≤ Ny) (x : Fin Nx) (y : Fin Ny) :
    interpolate f Nx Ny x y = f (Fin.cast hx.symm x) (Fin.cast hy.symm y) := by
  subst hx hy
  simp only [Fin.cast_eq_self]
  have key : ∀ {N : ℕ} (_ : 2 ≤ N) (i : Fin N), (interpNode N N i = (↑i, 0) ∧ (i : ℕ) + 1 < N) ∨
      ((i : ℕ) = N - 1 ∧ interpNode N N i = (N - 2, 1)) := by
    intro N hN i
    have hi := i.isLt
    have e1 : (i : ℕ) * (N - 1) / (N - 1) = i := Nat.mul_div_cancel _ (by omega)
    have e2 : ((N - 1 : ℕ) : ℝ) ≠ 0 := by
      have : N - 1 ≠ 0 := by omega
      exact_mod_cast this
    unfold interpNode
    dsimp only
    rw [e1, mul_div_assoc, div_self e2, mul_one]
    rcases Nat.lt_or_ge ((i : ℕ) + 1) N with h | h
    · left
      rw [min_eq_left (by omega), sub_self]
      exact ⟨rfl, h⟩
    · right
      have : (i : ℕ) = N - 1 := by omega
      refine ⟨this, ?_⟩
      rw [min_eq_right (by omega), this, show N - 1 = (N - 2) + 1 by omega]
      push_cast
      rw [add_sub_cancel_left]
  unfold interpolate
  rcases key h2x x with ⟨ex, hx'⟩ | ⟨hx', ex⟩ <;> rcases key h2y y with ⟨ey, hy'⟩ | ⟨hy', ey⟩ <;> rw [ex, ey] <;> simp
  · rw [dif_pos (by omega)]; congr 1; exact Fin.ext (by simp; omega)
  · rw [dif_pos (by omega)]
    have : (⟨Mx - 2 + 1, by omega⟩ : Fin Mx) = x := Fin.ext (by simp; omega)
    rw [this]
  · rw [dif_pos (by omega)]
    have e1 : (⟨Mx - 2 + 1, by omega⟩ : Fin Mx) = x := Fin.ext (by simp; omega)
    have e2 : (⟨My - 2 + 1, by omega⟩ : Fin My) = y := Fin.ext (by simp; omega)
    rw [e1, e2]

/-! ### The slopes of a pattern -/

/-- The slopes before the division by the largest. -/
noncomputable def rawSlopes [NeZero Nx] [NeZero Ny] (g : Grid Nx Ny) : Grid Nx Ny × Grid Nx Ny :=
  (smooth fun i j => gradientAxis (fun k => relativeModulus g k j) i, smooth fun i j => gradientAxis (relativeModulus g i) j)

theorem slopes_ok [NeZero Nx] [NeZero Ny] (hx : 2 ≤ Nx) (hy : 2 ≤ Ny) (g : Grid Nx Ny) :
    slopes g = .ok (fun x y => (rawSlopes g).1 x y / maxNormOpt (rawSlopes g).1 (rawSlopes g).2,
      fun x y => (rawSlopes g).2 x y / maxNormOpt (rawSlopes g).1 (rawSlopes g).2) := by
  unfold slopes
  rw [gradient_ok hx hy]
  simp only [bind, Except.bind]
  rw [applyFilter_smooth hx hy]
  dsimp only
  rw [applyFilter_smooth hx hy]
  rfl

/-! ### What is returned -/

/-- What is made of the real parts of the fit. -/
noncomputable def vectorOf (b : Grid Mx My × Grid Mx My) (Nx Ny : ℕ) (normalize : Bool) : Field2 :=
  finishOpt (Nx := Nx) (Ny := Ny) (fun x y => ((interpolate b.2 Nx Ny x y).re : ℂ))
    (fun x y => ((-(interpolate b.1 Nx Ny x y).re : ℝ) : ℂ)) normalize

theorem fieldOf_congr {b b' : Grid Mx My × Grid Mx My} (h : ∀ i j, (b.1 i j).re = (b'.1 i j).re ∧ (b.2 i j).re = (b'.2 i j).re)
    (normalize : Bool) : vectorOf b Nx Ny normalize = vectorOf b' Nx Ny normalize := by
  unfold vectorOf
  simp only [interpolate_re_congr (fun i j => (h i j).1), interpolate_re_congr (fun i j => (h i j).2)]

theorem optFit_ok {argmin : (n : ℕ) → (Unknowns n → ℝ) → Except PyErr (Unknowns n)} {w : PGrid} {H : List (ℤ × ℤ)}
    {normalize : Bool} {t : Field2} (h : optFit argmin w H normalize = .ok t) : ∃ d x, slopes w.g = .ok d ∧
      argmin H.length (minifun H w.Nx w.Ny (strided d.1, strided d.2)) = .ok x ∧
      t = vectorOf (fitted H w.Nx w.Ny x : Grid (reducedSide w.Nx) (reducedSide w.Ny) × _) w.Nx w.Ny normalize := by
  unfold optFit at h
  rw [bind_eq_ok] at h
  obtain ⟨d, h1, h⟩ := h
  rw [bind_eq_ok] at h
  obtain ⟨x, h2, h⟩ := h
  exact ⟨d, x, h1, h2, (Except.ok.inj h).symm⟩

/-- The generator returns what any minimiser gives. -/
theorem optFit_eq {argmin : (n : ℕ) → (Unknowns n → ℝ) → Except PyErr (Unknowns n)} (hA : Minimises argmin) {w : PGrid}
    {H : List (ℤ × ℤ)} {normalize : Bool} {t : Field2} (h : optFit argmin w H normalize = .ok t)
    {d : Grid w.Nx w.Ny × Grid w.Nx w.Ny} (hd : slopes w.g = .ok d) {z : Unknowns H.length}
    (hz : ∀ y, minifun H w.Nx w.Ny (strided d.1, strided d.2) z ≤ minifun H w.Nx w.Ny (strided d.1, strided d.2) y) :
    t = vectorOf (fitted H w.Nx w.Ny z : Grid (reducedSide w.Nx) (reducedSide w.Ny) × _) w.Nx w.Ny normalize := by
  obtain ⟨d', x, h1, h2, rfl⟩ := optFit_ok h
  obtain rfl := Except.ok.inj (h1.symm.trans hd)
  exact fieldOf_congr (fun i j => minimisers_agree (hA _ _ _ h2) hz i j) _

/-! ### Displaced fits -/

theorem getAmps_eq (H : List (ℤ × ℤ)) (a : Fin H.length → ℂ) (x : Fin Mx) (y : Fin My) :
    (getAmps H Nx Ny a x y : ℂ) = (Nx : ℂ) * Ny / ((Mx : ℂ) * My) *
      ∑ p : Fin Mx, ∑ q : Fin My, placed H a p q * (chi Mx (p : ℕ) (x : ℕ) * chi My (q : ℕ) (y : ℕ)) := by
  unfold getAmps ifft2
  have : ∀ p : Fin Mx, ∀ q : Fin My, placed H a p q * Complex.exp (2 * Real.pi * Complex.I * (p * x / Mx + q * y / My)) =
      placed H a p q * (chi Mx (p : ℕ) (x : ℕ) * chi My (q : ℕ) (y : ℕ)) := by
    intro p q
    unfold chi
    rw [← Complex.exp_add]
    congr 2
    push_cast
    ring
  simp only [this]
  ring

theorem chi_sub_fin [NeZero Mx] (p : ℤ) (x s : Fin Mx) : chi Mx p ((x - s : Fin Mx) : ℕ) = chi Mx p (x : ℕ) * chi Mx p (-(s : ℕ)) := by
  rw [← chi_add, chi_comm, chi_comm p]
  apply chi_period
  rw [Fin.val_sub]
  push_cast [Nat.cast_sub (le_of_lt s.isLt)]
  have h := Int.emod_add_mul_ediv ((Mx : ℤ) - (s : ℕ) + (x : ℕ)) Mx
  refine ⟨1 - (((Mx : ℤ) - (s : ℕ) + (x : ℕ)) / Mx), ?_⟩
  linarith

theorem getAmps_shift [NeZero Mx] [NeZero My] (H : List (ℤ × ℤ)) (a : Fin H.length → ℂ) (r : Fin Mx) (s : Fin My) :
    ∃ b : Fin H.length → ℂ, ∀ x y, (getAmps H Nx Ny b x y : ℂ) = getAmps H Nx Ny a (x - r) (y - s) := by
  refine ⟨fun k => a k * (chi Mx (H.get k).1 (-(r : ℕ)) * chi My (H.get k).2 (-(s : ℕ))), fun x y => ?_⟩
  rw [getAmps_eq, getAmps_eq]
  congr 1
  refine Finset.sum_congr rfl fun p _ => Finset.sum_congr rfl fun q _ => ?_
  rw [chi_sub_fin, chi_sub_fin]
  unfold placed
  split
  case h_1 k hk =>
    have hk := List.find?_some hk
    simp only [decide_eq_true_eq] at hk
    have e1 : chi Mx (H.get k).1 (-(r : ℕ)) = chi Mx (p : ℕ) (-(r : ℕ)) := chi_period (pyFin_some hk.1).2.2 _
    have e2 : chi My (H.get k).2 (-(s : ℕ)) = chi My (q : ℕ) (-(s : ℕ)) := chi_period (pyFin_some hk.2).2.2 _
    dsimp only
    rw [e1, e2]
    ring
  case h_2 => ring

/-- Unknowns with given amplitudes. -/
noncomputable def unknownsOf {n : ℕ} (b c : Fin n → ℂ) : Unknowns n :=
  ![fun k => (b k).re, fun k => (b k).im, fun k => (c k).re, fun k => (c k).im]

theorem fitted_unknownsOf (H : List (ℤ × ℤ)) (b c : Fin H.length → ℂ) :
    fitted (Mx := Mx) (My := My) H Nx Ny (unknownsOf b c) = (getAmps H Nx Ny b, getAmps H Nx Ny c) := by
  unfold fitted unknownsOf
  have : ∀ z : ℂ, (z.re : ℂ) + Complex.I * z.im = z := fun z => by rw [mul_comm]; exact Complex.re_add_im z
  simp [this]

theorem fitted_shift [NeZero Mx] [NeZero My] (H : List (ℤ × ℤ)) (x : Unknowns H.length) (r : Fin Mx) (s : Fin My) :
    ∃ z : Unknowns H.length, fitted H Nx Ny z =
      (fun i j => (fitted H Nx Ny x).1 (i - r) (j - s), fun i j => (fitted H Nx Ny x).2 (i - r) (j - s)) := by
  obtain ⟨b, hb⟩ := getAmps_shift (Nx := Nx) (Ny := Ny) H (fun k => (x 0 k : ℂ) + Complex.I * x 1 k) r s
  obtain ⟨c, hc⟩ := getAmps_shift (Nx := Nx) (Ny := Ny) H (fun k => (x 2 k : ℂ) + Complex.I * x 3 k) r s
  refine ⟨unknownsOf b c, ?_⟩
  rw [fitted_unknownsOf]
  exact Prod.ext (funext fun i => funext fun j => hb i j) (funext fun i => funext fun j => hc i j)

theorem minifun_shift [NeZero Mx] [NeZero My] {H : List (ℤ × ℤ)} {x z : Unknowns H.length} {r : Fin Mx} {s : Fin My}
    (hz : fitted H Nx Ny z =
      (fun i j => (fitted H Nx Ny x).1 (i - r) (j - s), fun i j => (fitted H Nx Ny x).2 (i - r) (j - s)))
    {d d' : Grid Mx My × Grid Mx My} (hd : d' = (fun i j => d.1 (i - r) (j - s), fun i j => d.2 (i - r) (j - s))) :
    minifun H Nx Ny d' z = minifun H Nx Ny d x := by
  subst hd
  have key : ∀ F : Fin Mx → Fin My → ℝ, ∑ i, ∑ j, F (i - r) (j - s) = ∑ i, ∑ j, F i j := fun F => by
    rw [← Equiv.sum_comp (Equiv.subRight r) (fun i => ∑ j, F i j)]
    exact Finset.sum_congr rfl fun i _ => Equiv.sum_comp (Equiv.subRight s) (F (i - r))
  unfold minifun
  rw [hz]
  generalize fitted H Nx Ny x = A
  exact congrArg (fun S => S / (2 * (Mx : ℝ) * My))
    (key fun i j => ‖(((A.1 i j).re : ℝ) : ℂ) - d.1 i j‖ ^ 2 + ‖(((A.2 i j).re : ℝ) : ℂ) - d.2 i j‖ ^ 2)

/-- The fit of displaced data is the displaced fit. -/
theorem minimiser_shift [NeZero Mx] [NeZero My] {H : List (ℤ × ℤ)} {x : Unknowns H.length} {r : Fin Mx} {s : Fin My}
    {d d' : Grid Mx My × Grid Mx My} (hd : d' = (fun i j => d.1 (i - r) (j - s), fun i j => d.2 (i - r) (j - s)))
    (hx : ∀ y, minifun H Nx Ny d x ≤ minifun H Nx Ny d y) :
    ∃ z : Unknowns H.length, fitted H Nx Ny z =
      (fun i j => (fitted H Nx Ny x).1 (i - r) (j - s), fun i j => (fitted H Nx Ny x).2 (i - r) (j - s)) ∧
      ∀ y, minifun H Nx Ny d' z ≤ minifun H Nx Ny d' y := by
  obtain ⟨z, hz⟩ := fitted_shift (Nx := Nx) (Ny := Ny) H x r s
  refine ⟨z, hz, fun y => ?_⟩
  obtain ⟨y', hy'⟩ := fitted_shift (Nx := Nx) (Ny := Ny) H y (-r) (-s)
  have hd' : d = (fun i j => d'.1 (i - -r) (j - -s), fun i j => d'.2 (i - -r) (j - -s)) := by
    subst hd
    simp
  rw [minifun_shift hz hd, ← minifun_shift hy' hd']
  exact hx y'

/-! ### Displaced patterns -/

theorem relativeModulus_shift [NeZero Nx] [NeZero Ny] (a : Grid Nx Ny) (p : Fin Nx) (q : Fin Ny) :
    relativeModulus (fun i j => a (i - p) (j - q)) = fun i j => relativeModulus a (i - p) (j - q) := by
  unfold relativeModulus
  have : (⨆ u : Fin Nx × Fin Ny, ‖a (u.1 - p) (u.2 - q)‖) = ⨆ u : Fin Nx × Fin Ny, ‖a u.1 u.2‖ :=
    Equiv.iSup_congr ((Equiv.subRight p).prodCongr (Equiv.subRight q)) fun _ => rfl
  rw [this]

theorem relativeModulus_clear {a : Grid Nx Ny} (h : ClearOfBorder a) : ClearOfBorder (relativeModulus a) := by
  unfold relativeModulus
  exact ⟨fun x x' y h1 h2 => by dsimp only; rw [h.1 x x' y h1 h2], fun x y y' h1 h2 => by dsimp only; rw [h.2 x y y' h1 h2]⟩

theorem rawSlopes_ring [NeZero Nx] [NeZero Ny] (hx : 2 ≤ Nx) (hy : 2 ≤ Ny) {a : Grid Nx Ny} (h : ClearOfBorder a) :
    rawSlopes a = (smooth fun i j => ringDiff (fun k => relativeModulus a k j) i, smooth fun i j => ringDiff (relativeModulus a i) j) := by
  have hc := relativeModulus_clear h
  unfold rawSlopes
  congr 2
  · funext i j
    exact gradientAxis_ring hx _ (fun i i' h1 h2 => hc.1 i i' j h1 h2) i
  · funext i j
    exact gradientAxis_ring hy _ (fun j j' h1 h2 => hc.2 i j j' h1 h2) j

theorem rawSlopes_shift [NeZero Nx] [NeZero Ny] (hx : 2 ≤ Nx) (hy : 2 ≤ Ny) {a : Grid Nx Ny} {p : Fin Nx} {q : Fin Ny}
    (h : ClearOfBorder a) (h' : ClearOfBorder fun i j => a (i - p) (j - q)) :
    rawSlopes (fun i j => a (i - p) (j - q)) =
      (fun i j => (rawSlopes a).1 (i - p) (j - q), fun i j => (rawSlopes a).2 (i - p) (j - q)) := by
  rw [rawSlopes_ring hx hy h, rawSlopes_ring hx hy h', relativeModulus_shift]
  have e1 : ∀ (n : ℕ) [NeZero n] (i p : Fin n), i + 1 - p = i - p + 1 := fun n _ i p => by abel
  have e2 : ∀ (n : ℕ) [NeZero n] (i p : Fin n), i - 1 - p = i - p - 1 := fun n _ i p => by abel
  dsimp only
  rw [← smooth_shift, ← smooth_shift]
  simp only [ringDiff, e1, e2]

theorem maxNormOpt_shift [NeZero Nx] [NeZero Ny] (a b : Grid Nx Ny) (p : Fin Nx) (q : Fin Ny) :
    maxNormOpt (fun i j => a (i - p) (j - q)) (fun i j => b (i - p) (j - q)) = maxNormOpt a b := by
  unfold maxNormOpt
  exact Equiv.iSup_congr ((Equiv.subRight p).prodCongr (Equiv.subRight q)) fun _ => rfl

theorem slopes_shift [NeZero Nx] [NeZero Ny] (hx : 2 ≤ Nx) (hy : 2 ≤ Ny) {a : Grid Nx Ny} {p : Fin Nx} {q : Fin Ny}
    (h : ClearOfBorder a) (h' : ClearOfBorder fun i j => a (i - p) (j - q)) {d : Grid Nx Ny × Grid Nx Ny}
    (hd : slopes a = .ok d) : slopes (fun i j => a (i - p) (j - q)) =
      .ok (fun i j => d.1 (i - p) (j - q), fun i j => d.2 (i - p) (j - q)) := by
  rw [slopes_ok hx hy] at hd ⊢
  obtain rfl := Except.ok.inj hd
  rw [rawSlopes_shift hx hy h h', maxNormOpt_shift]

theorem finishOpt_shift [NeZero Nx] [NeZero Ny] (a b : Grid Nx Ny) (p : Fin Nx) (q : Fin Ny) (normalize : Bool) :
    ∃ t0 t1 : Grid Nx Ny, finishOpt a b normalize = ⟨Nx, Ny, t0, t1⟩ ∧
      finishOpt (fun i j => a (i - p) (j - q)) (fun i j => b (i - p) (j - q)) normalize =
        ⟨Nx, Ny, fun i j => t0 (i - p) (j - q), fun i j => t1 (i - p) (j - q)⟩ := by
  cases normalize
  · refine ⟨_, _, rfl, ?_⟩
    unfold finishOpt
    rw [maxNormOpt_shift]
    rfl
  · exact ⟨_, _, rfl, rfl⟩

theorem reducedSide_small {N : ℕ} (h : N ≤ 64) : reducedSide N = N := by
  unfold reducedSide; omega

theorem strided_small {N : ℕ} (h : N ≤ 64) (h0 : 0 < N) (f : Grid N N) (i j : Fin (reducedSide N)) :
    strided f i j = f (Fin.cast (reducedSide_small h) i) (Fin.cast (reducedSide_small h) j) := by
  unfold strided
  have : N / reducedSide N = 1 := by rw [reducedSide_small h]; exact Nat.div_self h0
  congr 1 <;> exact Fin.ext (by simp [this])

theorem cast_sub_fin {M N : ℕ} [NeZero M] [NeZero N] (h : M = N) (i j : Fin M) : Fin.cast h (i - j) = Fin.cast h i - Fin.cast h j := by
  subst h
  rfl

/-- The generator on a pattern and on the same pattern displaced, neither of which reaches the border. -/
theorem optFit_moved {argmin : (n : ℕ) → (Unknowns n → ℝ) → Except PyErr (Unknowns n)} (hA : Minimises argmin) {N : ℕ}
    [NeZero N] (h2 : 2 ≤ N) (h64 : N ≤ 64) {a : Grid N N} {p q : Fin N} (hc : ClearOfBorder a)
    (hc' : ClearOfBorder fun i j => a (i - p) (j - q)) {H : List (ℤ × ℤ)} {normalize : Bool} {t t' : Field2}
    (h : optFit argmin ⟨N, N, a⟩ H normalize = .ok t)
    (h' : optFit argmin ⟨N, N, fun i j => a (i - p) (j - q)⟩ H normalize = .ok t') :
    ∃ t0 t1 : Grid N N, t = ⟨N, N, t0, t1⟩ ∧ t' = ⟨N, N, fun i j => t0 (i - p) (j - q), fun i j => t1 (i - p) (j - q)⟩ := by
  obtain ⟨d, x, h1, hx, rfl⟩ := optFit_ok h
  have hs := slopes_shift h2 h2 hc hc' h1
  have : NeZero (reducedSide N) := ⟨by rw [reducedSide_small h64]; omega⟩
  have hR := reducedSide_small h64
  obtain ⟨z, hz, hmin⟩ := minimiser_shift (d := (strided d.1, strided d.2))
    (d' := (strided fun i j => d.1 (i - p) (j - q), strided fun i j => d.2 (i - p) (j - q))) (r := Fin.cast hR.symm p)
    (s := Fin.cast hR.symm q)
    (by
      refine Prod.ext (funext fun i => funext fun j => ?_) (funext fun i => funext fun j => ?_)
      all_goals
        dsimp only
        rw [strided_small h64 (by omega), strided_small h64 (by omega), cast_sub_fin, cast_sub_fin, Fin.cast_cast,
          Fin.cast_cast, Fin.cast_eq_self, Fin.cast_eq_self])
    (hA _ _ _ hx)
  rw [optFit_eq hA h' hs hmin, hz]
  dsimp only
  unfold vectorOf
  simp only [interpolate_same hR hR h2 h2, ← cast_sub_fin]
  exact finishOpt_shift (Nx := N) (Ny := N)
    (fun i j => ((((fitted H N N x).2 (Fin.cast hR.symm i) (Fin.cast hR.symm j) : ℂ).re : ℝ) : ℂ))
    (fun i j => ((-((fitted H N N x).1 (Fin.cast hR.symm i) (Fin.cast hR.symm j) : ℂ).re : ℝ) : ℂ)) p q normalize

/-! ### Patterns whose slopes vanish -/

theorem relativeModulus_times {a : ℂ} (ha : a ≠ 0) (g : Grid Nx Ny) : relativeModulus (fun x y => a * g x y) = relativeModulus g := by
  unfold relativeModulus
  funext x y
  have : (⨆ p : Fin Nx × Fin Ny, ‖a * g p.1 p.2‖) = ‖a‖ * ⨆ p : Fin Nx × Fin Ny, ‖g p.1 p.2‖ := by
    simp only [norm_mul]
    exact (Real.mul_iSup_of_nonneg (norm_nonneg a) _).symm
  rw [this, norm_mul, mul_div_mul_left _ _ (norm_ne_zero_iff.mpr ha)]

theorem slopes_modulus {g g' : Grid Nx Ny} (h : relativeModulus g = relativeModulus g') : slopes g = slopes g' := by
  unfold slopes
  rw [h]

/-! ### The band-limited slopes -/

theorem series_eq (H : List (ℤ × ℤ)) (u : Fin H.length → ℂ) (x : Fin Mx) (y : Fin My) :
    series H.get u Mx My x y = ∑ k, u k * (chi Mx (H.get k).1 (x : ℕ) * chi My (H.get k).2 (y : ℕ)) := by
  unfold series chi
  refine Finset.sum_congr rfl fun k _ => ?_
  rw [← Complex.exp_add]
  congr 2
  push_cast
  ring

theorem Spec.BalancedOrders.separate {H : List (ℤ × ℤ)} (h : BalancedOrders H Mx My) {g g' : ℤ × ℤ} (hg : g ∈ H) (hg' : g' ∈ H)
    (h1 : (Mx : ℤ) ∣ g.1 - g'.1) (h2 : (My : ℤ) ∣ g.2 - g'.2) : g = g' := by
  have b := h.below g hg
  have b' := h.below g' hg'
  have key : ∀ {M : ℕ} {a c : ℤ}, 2 * |a| < M → 2 * |c| < M → (M : ℤ) ∣ a - c → a = c := by
    intro M a c ha hc hd
    have h3 : |a - c| < M := by
      have := abs_sub a c
      omega
    have := Int.eq_zero_of_abs_lt_dvd hd h3
    omega
  exact Prod.ext (key b.1 b'.1 h1) (key b.2 b'.2 h2)

theorem placed_at [NeZero Mx] [NeZero My] {H : List (ℤ × ℤ)} (h : BalancedOrders H Mx My) (a : Fin H.length → ℂ) (f : Fin Mx → Fin My → ℂ) :
    ∑ p : Fin Mx, ∑ q : Fin My, placed H a p q * f p q =
      ∑ k, a k * ((pyFin Mx (H.get k).1).elim 0 fun p => (pyFin My (H.get k).2).elim 0 fun q => f p q) := by
  classical
  have key : ∀ p : Fin Mx, ∀ q : Fin My, placed H a p q =
      ∑ k, if pyFin Mx (H.get k).1 = some p ∧ pyFin My (H.get k).2 = some q then a k else 0 := by
    intro p q
    unfold placed
    split
    case h_1 k hk =>
      have hk := List.find?_some hk
      simp only [decide_eq_true_eq] at hk
      rw [Finset.sum_eq_single k, if_pos hk]
      · intro k' _ hne
        rw [if_neg]
        rintro ⟨e1, e2⟩
        apply hne
        have d1 := (pyFin_some e1).2.2
        have d2 := (pyFin_some e2).2.2
        have d3 := (pyFin_some hk.1).2.2
        have d4 := (pyFin_some hk.2).2.2
        have := h.separate (List.get_mem H k') (List.get_mem H k) (by have := dvd_sub d1 d3; simpa using this)
          (by have := dvd_sub d2 d4; simpa using this)
        exact (List.nodup_iff_injective_get.mp h.nodup) this
      · simp
    case h_2 hk =>
      rw [List.find?_eq_none] at hk
      refine (Finset.sum_eq_zero fun k _ => ?_).symm
      have := hk k (by simp)
      rw [if_neg (by simpa using this)]
  simp only [key, Finset.sum_mul]
  rw [Finset.sum_congr rfl fun p _ => Finset.sum_comm, Finset.sum_comm]
  refine Finset.sum_congr rfl fun k _ => ?_
  cases h1 : pyFin Mx (H.get k).1 with
  | none => simp
  | some p0 =>
    cases h2 : pyFin My (H.get k).2 with
    | none => simp
    | some q0 =>
      simp only [Option.elim_some, Option.some.injEq]
      rw [Finset.sum_eq_single p0, Finset.sum_eq_single q0]
      · simp
      · intro q _ hq; rw [if_neg (by rintro ⟨-, rfl⟩; exact hq rfl), zero_mul]
      · simp
      · intro p _ hp; exact Finset.sum_eq_zero fun q _ => by rw [if_neg (by rintro ⟨rfl, -⟩; exact hp rfl), zero_mul]
      · simp

theorem getAmps_series [NeZero Mx] [NeZero My] {H : List (ℤ × ℤ)} (h : BalancedOrders H Mx My) (a : Fin H.length → ℂ) (x : Fin Mx)
    (y : Fin My) : (getAmps H Nx Ny a x y : ℂ) = (Nx : ℂ) * Ny / ((Mx : ℂ) * My) * series H.get a Mx My x y := by
  rw [getAmps_eq, placed_at h a (fun p q => chi Mx (p : ℕ) (x : ℕ) * chi My (q : ℕ) (y : ℕ)), series_eq]
  congr 1
  refine Finset.sum_congr rfl fun k _ => ?_
  have b := h.below _ (List.get_mem H k)
  have b1 := abs_le.mp (le_refl |(H.get k).1|)
  have b2 := abs_le.mp (le_refl |(H.get k).2|)
  obtain ⟨p, hp⟩ := pyFin_isSome (n := Mx) (i := (H.get k).1) (by omega) (by omega)
  obtain ⟨q, hq⟩ := pyFin_isSome (n := My) (i := (H.get k).2) (by omega) (by omega)
  rw [hp, hq]
  simp only [Option.elim_some]
  rw [chi_period (pyFin_some hp).2.2, chi_period (pyFin_some hq).2.2]

/-- Orthogonality of the waves. -/
theorem waves_orthogonal [NeZero Mx] [NeZero My] (g g' : ℤ × ℤ) : ∑ x : Fin Mx, ∑ y : Fin My,
    (chi Mx g.1 (x : ℕ) * chi My g.2 (y : ℕ)) * (chi Mx g'.1 (x : ℕ) * chi My g'.2 (y : ℕ)) =
      if (Mx : ℤ) ∣ g.1 + g'.1 ∧ (My : ℤ) ∣ g.2 + g'.2 then (Mx : ℂ) * My else 0 := by
  have : ∀ x : Fin Mx, ∀ y : Fin My, (chi Mx g.1 (x : ℕ) * chi My g.2 (y : ℕ)) * (chi Mx g'.1 (x : ℕ) * chi My g'.2 (y : ℕ)) =
      chi Mx (g.1 + g'.1) (x : ℕ) * chi My (g.2 + g'.2) (y : ℕ) := by
    intro x y
    rw [chi_add_left, chi_add_left]
    ring
  simp only [this, ← Finset.mul_sum, chi_sum, ← Finset.sum_mul]
  split_ifs <;> simp_all

/-- The difference between an array and its band-limited part is orthogonal to the waves of the orders. -/
theorem bandLimited_orthogonal [NeZero Mx] [NeZero My] {H : List (ℤ × ℤ)} (h : BalancedOrders H Mx My) (f : Grid Mx My)
    (a : Fin H.length → ℂ) : ∑ x, ∑ y, (bandLimited H f x y - f x y) * series H.get a Mx My x y = 0 := by
  have m1 : (Mx : ℂ) ≠ 0 := by exact_mod_cast NeZero.ne Mx
  have m2 : (My : ℂ) ≠ 0 := by exact_mod_cast NeZero.ne My
  have key : ∀ k, ∑ x, ∑ y, (bandLimited H f x y - f x y) * (chi Mx (H.get k).1 (x : ℕ) * chi My (H.get k).2 (y : ℕ)) = 0 := by
    intro k
    simp only [sub_mul, Finset.sum_sub_distrib]
    rw [sub_eq_zero]
    have e1 : ∑ x, ∑ y, f x y * (chi Mx (H.get k).1 (x : ℕ) * chi My (H.get k).2 (y : ℕ)) =
        (Mx : ℂ) * My * coeff f (-(H.get k).1) (-(H.get k).2) := by
      rw [coeff_eq, neg_neg, neg_neg]
      field_simp
    rw [e1]
    unfold bandLimited
    simp only [series_eq, Finset.sum_mul, mul_assoc]
    rw [Finset.sum_congr rfl fun x _ => Finset.sum_comm, Finset.sum_comm]
    have e2 : ∀ k', (∑ x : Fin Mx, ∑ y : Fin My, coeff f (H.get k').1 (H.get k').2 *
        (chi Mx (H.get k').1 (x : ℕ) * (chi My (H.get k').2 (y : ℕ) * (chi Mx (H.get k).1 (x : ℕ) * chi My (H.get k).2 (y : ℕ))))) =
        coeff f (H.get k').1 (H.get k').2 *
          if (Mx : ℤ) ∣ (H.get k').1 + (H.get k).1 ∧ (My : ℤ) ∣ (H.get k').2 + (H.get k).2 then (Mx : ℂ) * My else 0 := by
      intro k'
      rw [← waves_orthogonal]
      simp only [Finset.mul_sum, mul_assoc]
    rw [Finset.sum_congr rfl fun k' _ => e2 k']
    obtain ⟨k0, hk0⟩ := List.mem_iff_get.mp (h.opposite _ (List.get_mem H k))
    rw [Finset.sum_eq_single k0]
    · rw [if_pos (by rw [hk0]; simp), hk0]
      ring
    · intro k' _ hne
      rw [if_neg, mul_zero]
      rintro ⟨d1, d2⟩
      apply hne
      have := h.separate (List.get_mem H k') (h.opposite _ (List.get_mem H k)) (by simpa using d1) (by simpa using d2)
      exact (List.nodup_iff_injective_get.mp h.nodup) (this.trans hk0.symm)
    · simp
  simp only [series_eq, Finset.mul_sum]
  rw [Finset.sum_congr rfl fun x _ => Finset.sum_comm, Finset.sum_comm]
  refine Finset.sum_eq_zero fun k _ => ?_
  have := key k
  calc _ = a k * ∑ x, ∑ y, (bandLimited H f x y - f x y) * (chi Mx (H.get k).1 (x : ℕ) * chi My (H.get k).2 (y : ℕ)) := by
        simp only [Finset.mul_sum]
        refine Finset.sum_congr rfl fun x _ => Finset.sum_congr rfl fun y _ => ?_
        ring
    _ = 0 := by rw [this, mul_zero]

/-- The band-limited part of a real array is real. -/
theorem bandLimited_real [NeZero Mx] [NeZero My] {H : List (ℤ × ℤ)} (h : BalancedOrders H Mx My) {f : Grid Mx My}
    (hf : ∀ x y, (f x y).im = 0) (x : Fin Mx) (y : Fin My) : (bandLimited H f x y).im = 0 := by
  rw [← Complex.conj_eq_iff_im]
  unfold bandLimited
  rw [series_eq, map_sum]
  choose σ hσ using fun k => List.mem_iff_get.mp (h.opposite _ (List.get_mem H k))
  have inv : ∀ k, σ (σ k) = k := fun k => by
    apply List.nodup_iff_injective_get.mp h.nodup
    rw [hσ, hσ]
    simp
  rw [← Equiv.sum_comp (⟨σ, σ, inv, inv⟩ : Equiv _ _)]
  refine Finset.sum_congr rfl fun k _ => ?_
  simp only [Equiv.coe_fn_mk]
  rw [hσ, map_mul, map_mul, chi_conj, chi_conj, coeff_conj f (fun x y => Complex.conj_eq_iff_im.mpr (hf x y))]
  simp

/-- Nothing carried by the orders is closer to a real array than its band-limited part. -/
theorem bandLimited_closest [NeZero Mx] [NeZero My] {H : List (ℤ × ℤ)} (h : BalancedOrders H Mx My) {f : Grid Mx My}
    (hf : ∀ x y, (f x y).im = 0) (a : Fin H.length → ℂ) :
    ∑ x : Fin Mx, ∑ y : Fin My, ‖(((bandLimited H f x y).re : ℝ) : ℂ) - f x y‖ ^ 2 ≤
      ∑ x : Fin Mx, ∑ y : Fin My, ‖(((series H.get a Mx My x y).re : ℝ) : ℂ) - f x y‖ ^ 2 := by
  have real : ∀ (b : ℝ) x y, ‖(b : ℂ) - f x y‖ ^ 2 = (b - (f x y).re) ^ 2 := by
    intro b x y
    rw [Complex.sq_norm, Complex.normSq_apply, Complex.sub_re, Complex.sub_im, hf, Complex.ofReal_re, Complex.ofReal_im]
    ring
  simp only [real]
  have orth : ∑ x : Fin Mx, ∑ y : Fin My, ((bandLimited H f x y).re - (f x y).re) *
      ((series H.get a Mx My x y).re - (bandLimited H f x y).re) = 0 := by
    have h0 := bandLimited_orthogonal h f (fun k => a k - coeff f (H.get k).1 (H.get k).2)
    have h1 := congrArg Complex.re h0
    rw [Complex.re_sum, Complex.zero_re] at h1
    rw [← h1]
    refine Finset.sum_congr rfl fun x _ => ?_
    rw [Complex.re_sum]
    refine Finset.sum_congr rfl fun y _ => ?_
    have hs : series H.get (fun k => a k - coeff f (H.get k).1 (H.get k).2) Mx My x y = series H.get a Mx My x y - bandLimited H f x y := by
      unfold bandLimited
      rw [series_eq, series_eq, series_eq, ← Finset.sum_sub_distrib]
      exact Finset.sum_congr rfl fun k _ => by ring
    rw [hs, Complex.mul_re, Complex.sub_im (bandLimited H f x y), bandLimited_real h hf, hf]
    simp
  have expand : ∀ x y, ((series H.get a Mx My x y).re - (f x y).re) ^ 2 = ((bandLimited H f x y).re - (f x y).re) ^ 2 +
      2 * (((bandLimited H f x y).re - (f x y).re) * ((series H.get a Mx My x y).re - (bandLimited H f x y).re)) +
      ((series H.get a Mx My x y).re - (bandLimited H f x y).re) ^ 2 := fun x y => by ring
  simp only [expand, Finset.sum_add_distrib, ← Finset.mul_sum, orth, mul_zero, add_zero]
  exact le_add_of_nonneg_right (Finset.sum_nonneg fun x _ => Finset.sum_nonneg fun y _ => sq_nonneg _)

/-- Amplitudes of the band-limited slopes. -/
noncomputable def bestFit (H : List (ℤ × ℤ)) (Nx Ny : ℕ) (d : Grid Mx My × Grid Mx My) : Unknowns H.length :=
  unknownsOf (fun k => ((Mx : ℂ) * My / ((Nx : ℂ) * Ny)) * coeff d.1 (H.get k).1 (H.get k).2)
    (fun k => ((Mx : ℂ) * My / ((Nx : ℂ) * Ny)) * coeff d.2 (H.get k).1 (H.get k).2)

/-- The band-limited slopes are the best fit. -/
theorem bestFit_minimises [NeZero Mx] [NeZero My] {H : List (ℤ × ℤ)} (h : BalancedOrders H Mx My) (hx : 0 < Nx) (hy : 0 < Ny)
    {d : Grid Mx My × Grid Mx My} (hd : ∀ x y, (d.1 x y).im = 0 ∧ (d.2 x y).im = 0) :
      fitted H Nx Ny (bestFit H Nx Ny d) = (bandLimited H d.1, bandLimited H d.2) ∧
      ∀ y, minifun H Nx Ny d (bestFit H Nx Ny d) ≤ minifun H Nx Ny d y := by
  have m1 : (Mx : ℂ) ≠ 0 := by exact_mod_cast NeZero.ne Mx
  have m2 : (My : ℂ) ≠ 0 := by exact_mod_cast NeZero.ne My
  have n1 : (Nx : ℂ) ≠ 0 := by exact_mod_cast hx.ne'
  have n2 : (Ny : ℂ) ≠ 0 := by exact_mod_cast hy.ne'
  have series_mul : ∀ (c : ℂ) (a : Fin H.length → ℂ) (x : Fin Mx) (y : Fin My), series H.get (fun k => c * a k) Mx My x y = c * series H.get a Mx My x y := by
    intro c a x y
    rw [series_eq, series_eq, Finset.mul_sum]
    exact Finset.sum_congr rfl fun k _ => by ring
  have amp : ∀ f : Grid Mx My, (getAmps H Nx Ny fun k => ((Mx : ℂ) * My / ((Nx : ℂ) * Ny)) * coeff f (H.get k).1 (H.get k).2 : Grid Mx My) =
      bandLimited H f := by
    intro f
    funext x y
    rw [getAmps_series h, series_mul]
    unfold bandLimited
    field_simp
  unfold bestFit
  refine ⟨?_, fun y => ?_⟩
  · rw [fitted_unknownsOf, amp, amp]
  · unfold minifun
    rw [fitted_unknownsOf, amp, amp]
    refine div_le_div_of_nonneg_right ?_ (by positivity)
    simp only [Finset.sum_add_distrib]
    unfold fitted
    dsimp only
    simp only [getAmps_series h, ← series_mul]
    exact add_le_add (bandLimited_closest h (fun x y => (hd x y).1) _) (bandLimited_closest h (fun x y => (hd x y).2) _)

theorem bandLimited_minimises [NeZero Mx] [NeZero My] {H : List (ℤ × ℤ)} (h : BalancedOrders H Mx My) (hx : 0 < Nx) (hy : 0 < Ny)
    {d : Grid Mx My × Grid Mx My} (hd : ∀ x y, (d.1 x y).im = 0 ∧ (d.2 x y).im = 0) : ∃ z : Unknowns H.length,
      fitted H Nx Ny z = (bandLimited H d.1, bandLimited H d.2) ∧ ∀ y, minifun H Nx Ny d z ≤ minifun H Nx Ny d y :=
  ⟨_, bestFit_minimises h hx hy hd⟩

theorem rawSlopes_real [NeZero Nx] [NeZero Ny] (g : Grid Nx Ny) (x : Fin Nx) (y : Fin Ny) :
    ((rawSlopes g).1 x y).im = 0 ∧ ((rawSlopes g).2 x y).im = 0 := by
  unfold rawSlopes smooth
  exact ⟨Complex.ofReal_im _, Complex.ofReal_im _⟩

theorem slopes_real {g : Grid Nx Ny} {d : Grid Nx Ny × Grid Nx Ny} (h : slopes g = .ok d) (x : Fin Nx) (y : Fin Ny) :
    (d.1 x y).im = 0 ∧ (d.2 x y).im = 0 := by
  have hN : 2 ≤ Nx ∧ 2 ≤ Ny := by
    by_contra hc
    unfold slopes gradient at h
    rw [if_pos (by omega)] at h
    simp [bind, Except.bind] at h
  have : NeZero Nx := ⟨by omega⟩
  have : NeZero Ny := ⟨by omega⟩
  rw [slopes_ok hN.1 hN.2] at h
  obtain rfl := Except.ok.inj h
  obtain ⟨h1, h2⟩ := rawSlopes_real g x y
  simp only [Complex.div_ofReal_im, h1, h2, zero_div, and_self]

theorem minifun_nonneg (H : List (ℤ × ℤ)) (d : Grid Mx My × Grid Mx My) (x : Unknowns H.length) : 0 ≤ minifun H Nx Ny d x :=
  div_nonneg (Finset.sum_nonneg fun _ _ => Finset.sum_nonneg fun _ _ => add_nonneg (sq_nonneg _) (sq_nonneg _)) (by positivity)

/-- Without slopes the fit vanishes. -/
theorem fitted_flat {H : List (ℤ × ℤ)} {d : Grid Mx My × Grid Mx My} (hd : ∀ i j, d.1 i j = 0 ∧ d.2 i j = 0)
    {x : Unknowns H.length} (hx : ∀ y, minifun H Nx Ny d x ≤ minifun H Nx Ny d y) (i : Fin Mx) (j : Fin My) :
    ((fitted H Nx Ny x).1 i j).re = 0 ∧ ((fitted H Nx Ny x).2 i j).re = 0 := by
  have hz : fitted (Mx := Mx) (My := My) H Nx Ny (unknownsOf (fun _ => 0) fun _ => 0) = (fun _ _ => 0, fun _ _ => 0) := by
    rw [fitted_unknownsOf]
    have : (getAmps H Nx Ny fun _ => 0 : Grid Mx My) = fun _ _ => 0 := by
      funext x y
      have := getAmps_comb (Nx := Nx) (Ny := Ny) H (fun _ => 0) (fun _ => 0) 0 0 x y
      simpa using this
    rw [this]
  have h0 : minifun H Nx Ny d (unknownsOf (fun _ => 0) fun _ => 0) = 0 := by
    unfold minifun
    rw [hz]
    simp [(hd _ _).1, (hd _ _).2]
  obtain ⟨e1, e2⟩ := minimisers_agree hx (y := unknownsOf (fun _ => 0) fun _ => 0)
    (fun y => h0.le.trans (minifun_nonneg H d y)) i j
  rw [hz] at e1 e2
  exact ⟨e1, e2⟩

end Nannos
