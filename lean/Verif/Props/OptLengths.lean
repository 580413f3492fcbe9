import Verif.Props.OptNewton

/-! C106: the lengths of the tangent vectors which the default generator returns without normalisation (for the formulations `jones`
and `pol`), and of the slopes it fits. -/

namespace Nannos

open Spec

theorem maxNormOpt_spec {Nx Ny : ℕ} [NeZero Nx] [NeZero Ny] (t0 t1 : Grid Nx Ny) :
    (∀ x y, normOptPt (t0 x y) (t1 x y) ≤ maxNormOpt t0 t1) ∧ ∃ x y, normOptPt (t0 x y) (t1 x y) = maxNormOpt t0 t1 := by
  have hfin : (Set.range fun p : Fin Nx × Fin Ny => normOptPt (t0 p.1 p.2) (t1 p.1 p.2)).Finite := Set.finite_range _
  refine ⟨fun x y => le_ciSup hfin.bddAbove (x, y), ?_⟩
  obtain ⟨p, hp⟩ := exists_eq_ciSup_of_finite (f := fun p : Fin Nx × Fin Ny => normOptPt (t0 p.1 p.2) (t1 p.1 p.2))
  exact ⟨p.1, p.2, hp⟩

/-- **C106**. The slopes which are fitted are the smoothed gradient of the relative modulus divided by one positive number, such that
the longest one has length one, up to the constant `2^-52` which `norm` adds. -/
theorem C106_slope_lengths {Nx Ny : ℕ} {a : Grid Nx Ny} {d : Grid Nx Ny × Grid Nx Ny} (h : slopes a = .ok d) :
    ∃ (g f : Grid Nx Ny × Grid Nx Ny) (M : ℝ), gradient (relativeModulus a) = .ok g ∧ applyFilter g.1 (4, 4) none = .ok f.1 ∧
      applyFilter g.2 (4, 4) none = .ok f.2 ∧ 0 < M ∧ (∀ x y, d.1 x y = f.1 x y / M ∧ d.2 x y = f.2 x y / M) ∧
      (∀ x y, 1 / 2 ^ 52 / M ^ 2 + Complex.normSq (d.1 x y) + Complex.normSq (d.2 x y) ≤ 1) ∧
      ∃ x y, 1 / 2 ^ 52 / M ^ 2 + Complex.normSq (d.1 x y) + Complex.normSq (d.2 x y) = 1 := by
  have hN : 2 ≤ Nx ∧ 2 ≤ Ny := by
    by_contra hc
    unfold slopes gradient at h
    rw [if_pos (by omega)] at h
    simp [bind, Except.bind] at h
  have : NeZero Nx := ⟨by omega⟩
  have : NeZero Ny := ⟨by omega⟩
  unfold slopes at h
  rw [bind_eq_ok] at h
  obtain ⟨g, h1, h⟩ := h
  rw [bind_eq_ok] at h
  obtain ⟨fx, h2, h⟩ := h
  rw [bind_eq_ok] at h
  obtain ⟨fy, h3, h⟩ := h
  obtain rfl := Except.ok.inj h
  obtain ⟨m1, x0, y0, m2⟩ := maxNormOpt_spec fx fy
  have hpos : ∀ x y, 0 < normOptPt (fx x y) (fy x y) := fun x y => by
    unfold normOptPt
    have := Complex.normSq_nonneg (fx x y)
    have := Complex.normSq_nonneg (fy x y)
    positivity
  have hM : 0 < maxNormOpt fx fy := m2 ▸ hpos x0 y0
  have hsq : ∀ x y, normOptPt (fx x y) (fy x y) ^ 2 = 1 / 2 ^ 52 + Complex.normSq (fx x y) + Complex.normSq (fy x y) := fun x y => by
    unfold normOptPt
    refine Real.sq_sqrt ?_
    have := Complex.normSq_nonneg (fx x y)
    have := Complex.normSq_nonneg (fy x y)
    positivity
  have e : ∀ x y, 1 / 2 ^ 52 / maxNormOpt fx fy ^ 2 + Complex.normSq (fx x y / maxNormOpt fx fy) +
      Complex.normSq (fy x y / maxNormOpt fx fy) = normOptPt (fx x y) (fy x y) ^ 2 / maxNormOpt fx fy ^ 2 := by
    intro x y
    rw [hsq, Complex.normSq_div, Complex.normSq_div, Complex.normSq_ofReal]
    field_simp
  refine ⟨g, (fx, fy), _, h1, h2, h3, hM, fun x y => ⟨rfl, rfl⟩, fun x y => ?_, x0, y0, ?_⟩
  · dsimp only
    rw [e, div_le_one (by positivity)]
    exact pow_le_pow_left₀ (hpos x y).le (m1 x y) 2
  · dsimp only
    rw [e, m2, div_self (by positivity)]

/-- **C106**. Without normalisation, as the formulations `jones` and `pol` ask for: the band-limited slopes turned by a quarter turn,
all divided by the length of the longest one. -/
theorem C106_relative_lengths {argmin : (n : ℕ) → (Unknowns n → ℝ) → Except PyErr (Unknowns n)} (hA : Minimises argmin) {N : ℕ}
    (h64 : N ≤ 64) {a : Grid N N} {H : List (ℤ × ℤ)} (hH : BalancedOrders H N N) {t : Field2}
    (h : tangentOpt (optFit argmin) ⟨N, N, a⟩ H false = .ok t) :
    ∃ (d : Grid N N × Grid N N) (t0 t1 : Grid N N) (M : ℝ), slopes a = .ok d ∧ t = ⟨N, N, t0, t1⟩ ∧
      (let ℓ := fun x y => Real.sqrt (1 / 2 ^ 52 + (bandLimited H d.1 x y).re ^ 2 + (bandLimited H d.2 x y).re ^ 2)
       (∀ x y, ℓ x y ≤ M) ∧ ∃ x y, ℓ x y = M) ∧
      ∀ x y, (bandLimited H d.1 x y).im = 0 ∧ (bandLimited H d.2 x y).im = 0 ∧
        t0 x y = bandLimited H d.2 x y / M ∧ t1 x y = -(bandLimited H d.1 x y) / M := by
  have hR := reducedSide_small h64
  obtain ⟨hs, -, -⟩ := tangentOpt_ok h
  have s1 : 2 ≤ N := (optShape_side hs).1
  have : NeZero N := ⟨by omega⟩
  obtain ⟨d, h1, rfl⟩ := opt_bandLimited (w := ⟨N, N, a⟩) hA (by change BalancedOrders H (reducedSide N) (reducedSide N); rw [hR]; exact hH) h
  have e : ∀ f : Grid N N, interpolate (bandLimited H (strided f)) N N = bandLimited H f := by
    intro f
    funext x y
    rw [interpolate_same hR hR s1 s1, ← bandLimited_cast hR]
    congr 1
    funext i j
    exact strided_small h64 (by omega) f i j
  have r1 := fun x y => bandLimited_real hH (fun x y => (slopes_real h1 x y).1) x y
  have r2 := fun x y => bandLimited_real hH (fun x y => (slopes_real h1 x y).2) x y
  obtain ⟨m1, x0, y0, m2⟩ := maxNormOpt_spec (fun x y => ((bandLimited H d.2 x y).re : ℂ))
    (fun x y => ((-(bandLimited H d.1 x y).re : ℝ) : ℂ))
  have n1 : ∀ x y, normOptPt ((bandLimited H d.2 x y).re : ℂ) ((-(bandLimited H d.1 x y).re : ℝ) : ℂ) =
      Real.sqrt (1 / 2 ^ 52 + (bandLimited H d.1 x y).re ^ 2 + (bandLimited H d.2 x y).re ^ 2) := by
    intro x y
    unfold normOptPt
    rw [Complex.normSq_ofReal, Complex.normSq_ofReal]
    congr 1
    ring
  refine ⟨d, _, _, maxNormOpt (fun x y => ((bandLimited H d.2 x y).re : ℂ)) (fun x y => ((-(bandLimited H d.1 x y).re : ℝ) : ℂ)), h1, rfl,
    ⟨fun x y => (n1 x y).symm.trans_le (m1 x y), x0, y0, (n1 x0 y0).symm.trans m2⟩, fun x y => ⟨r1 x y, r2 x y, ?_⟩⟩
  have q1 : (((bandLimited H d.1 x y).re : ℝ) : ℂ) = bandLimited H d.1 x y := Complex.ext (by simp) (by simp [r1])
  have q2 : (((bandLimited H d.2 x y).re : ℝ) : ℂ) = bandLimited H d.2 x y := Complex.ext (by simp) (by simp [r2])
  dsimp only
  rw [e, e, q2, Complex.ofReal_neg, q1]
  exact ⟨rfl, rfl⟩

open Examples in
/-- C106: a dot in a cell of eight by eight pixels with nine orders. -/
example : ∃ t d, tangentOpt (optFit newtonCG) ⟨8, 8, dotSquare 2⟩ nine false = .ok t ∧ slopes (dotSquare 2) = .ok d ∧
    BalancedOrders nine 8 8 := by
  obtain ⟨t, t', h1, -⟩ := C106_displacement_default (N := 8) (by norm_num) (a := dotSquare 2) (a' := dotSquare 3)
    (by unfold OptShape; omega) ⟨0, 0, by simp [dotSquare]⟩ (dotSquare_clear 2 (by norm_num) (by norm_num))
    (dotSquare_clear 3 (by norm_num) (by norm_num)) dotSquare_moved (nine_balanced (by norm_num) (by norm_num)) false
  exact ⟨t, _, h1, slopes_ok (by norm_num) (by norm_num) _, nine_balanced (by norm_num) (by norm_num)⟩

end Nannos
