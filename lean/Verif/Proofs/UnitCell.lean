import Verif.Spec.UnitCell
import Verif.Proofs.MovedInit

/-! Simulations of one structure described with two cells. -/

namespace Nannos

open Matrix Spec

section cell
variable {A : Matrix (Fin 2) (Fin 2) ℤ}

theorem det_sq (hA : A.det = 1 ∨ A.det = -1) : A.det * A.det = 1 := by
  rcases hA with h | h <;> rw [h] <;> rfl

theorem changedOrder_inj (hA : A.det = 1 ∨ A.det = -1) : Function.Injective (changedOrder A) := by
  rintro ⟨a, b⟩ ⟨a', b'⟩ h
  simp only [changedOrder, Prod.mk.injEq] at h
  obtain ⟨h1, h2⟩ := h
  have hd : A.det ≠ 0 := by rcases hA with h | h <;> rw [h] <;> norm_num
  rw [det_fin_two] at hd
  have e1 : (A 0 0 * A 1 1 - A 0 1 * A 1 0) * (a - a') = 0 := by linear_combination A 1 1 * h1 - A 0 1 * h2
  have e2 : (A 0 0 * A 1 1 - A 0 1 * A 1 0) * (b - b') = 0 := by linear_combination A 0 0 * h2 - A 1 0 * h1
  have := (mul_eq_zero.mp e1).resolve_left hd
  have := (mul_eq_zero.mp e2).resolve_left hd
  simp only [Prod.mk.injEq]
  omega

/-- Rotations and reflections by the numbers used for related simulations. -/
theorem ortho_numbers {R : Matrix (Fin 2) (Fin 2) ℝ} (hR : Rᵀ * R = 1) :
    R 1 1 ^ 2 + (-R 0 1) ^ 2 = 1 ∧ R.det ^ 2 = 1 ∧ R 0 0 = R.det * R 1 1 ∧ R 1 0 = R.det * -R 0 1 := by
  have h00 := congrFun (congrFun hR 0) 0
  have h01 := congrFun (congrFun hR 0) 1
  have h11 := congrFun (congrFun hR 1) 1
  simp [mul_apply, Fin.sum_univ_two] at h00 h01 h11
  rw [det_fin_two]
  refine ⟨?_, ?_, ?_, ?_⟩
  · linear_combination h11
  · have : (R 0 0 * R 1 1 - R 0 1 * R 1 0) ^ 2 = (R 0 0 * R 0 0 + R 1 0 * R 1 0) * (R 0 1 * R 0 1 + R 1 1 * R 1 1) -
      (R 0 0 * R 0 1 + R 1 0 * R 1 1) ^ 2 := by ring
    rw [this, h00, h11, h01]; norm_num
  · linear_combination -R 0 0 * h11 + R 0 1 * h01
  · linear_combination -R 1 0 * h11 + R 1 1 * h01

/-- Its action on the orders. -/
noncomputable def cellTransf (A : Matrix (Fin 2) (Fin 2) ℤ) (hA : A.det = 1 ∨ A.det = -1) (u v : ℝ)
    (R : Matrix (Fin 2) (Fin 2) ℝ) (hR : Rᵀ * R = 1) : Transf where
  f := changedOrder A
  inj := changedOrder_inj hA
  f0 := by simp [changedOrder]
  p := displacementPhase u v
  hp := shiftPhase_unit u v
  p0 := by simp [displacementPhase]
  x := R 1 1
  y := -R 0 1
  d := R.det
  hxy := (ortho_numbers hR).1
  hd := (ortho_numbers hR).2.1
  s := 1
  pos := one_pos

/-- Reciprocal vectors. -/
theorem reciprocal_cell {R : Matrix (Fin 2) (Fin 2) ℝ} (hR : Rᵀ * R = 1)
    {l l' : Lattice} (h : CellChanged A R l l') {r r'} (hr : l.reciprocal = .ok r) (hr' : l'.reciprocal = .ok r') (g : ℤ × ℤ) :
    r' 0 0 * (changedOrder A g).1 + r' 0 1 * (changedOrder A g).2 =
      R 0 0 * (r 0 0 * g.1 + r 0 1 * g.2) + R 0 1 * (r 1 0 * g.1 + r 1 1 * g.2) ∧
    r' 1 0 * (changedOrder A g).1 + r' 1 1 * (changedOrder A g).2 =
      R 1 0 * (r 0 0 * g.1 + r 0 1 * g.2) + R 1 1 * (r 1 0 * g.1 + r 1 1 * g.2) := by
  have D := reciprocal_dual hr
  have D' := reciprocal_dual hr'
  have hdet := (reciprocal_ok.mp hr').1
  rw [Lattice.matrix, det_transpose, det_fin_two] at hdet
  simp only [of_apply] at hdet
  have a00 := D 0 0
  have a01 := D 0 1
  have a10 := D 1 0
  have a11 := D 1 1
  have b00 := D' 0 0
  have b01 := D' 0 1
  have b10 := D' 1 0
  have b11 := D' 1 1
  simp only [Fin.sum_univ_two, if_true, show ((0 : Fin 2) = 1) = False from by simp, show ((1 : Fin 2) = 0) = False from by simp, if_false] at a00 a01 a10 a11 b00 b01 b10 b11
  have key : ∀ p q : ℝ, p * l'.basis 0 0 + q * l'.basis 0 1 = 0 → p * l'.basis 1 0 + q * l'.basis 1 1 = 0 → p = 0 ∧ q = 0 := by
    intro p q h1 h2
    constructor
    · refine (mul_eq_zero.mp (?_ : p * (l'.basis 0 0 * l'.basis 1 1 - l'.basis 0 1 * l'.basis 1 0) = 0)).resolve_right hdet
      linear_combination l'.basis 1 1 * h1 - l'.basis 0 1 * h2
    · refine (mul_eq_zero.mp (?_ : q * (l'.basis 0 0 * l'.basis 1 1 - l'.basis 0 1 * l'.basis 1 0) = 0)).resolve_right hdet
      linear_combination l'.basis 0 0 * h2 - l'.basis 1 0 * h1
  have hb : ∀ k i, l'.basis k i = A k 0 * (R i 0 * l.basis 0 0 + R i 1 * l.basis 0 1) +
      A k 1 * (R i 0 * l.basis 1 0 + R i 1 * l.basis 1 1) := by
    intro k i
    rw [h k]
    simp [Fin.sum_univ_two, mulVec, dotProduct]
  have h00 := congrFun (congrFun hR 0) 0
  have h01 := congrFun (congrFun hR 0) 1
  have h11 := congrFun (congrFun hR 1) 1
  simp [mul_apply, Fin.sum_univ_two] at h00 h01 h11
  have e : ∀ k (X Y : ℝ), (R 0 0 * X + R 0 1 * Y) * l'.basis k 0 + (R 1 0 * X + R 1 1 * Y) * l'.basis k 1 =
      A k 0 * (X * l.basis 0 0 + Y * l.basis 0 1) + A k 1 * (X * l.basis 1 0 + Y * l.basis 1 1) := by
    intro k X Y
    rw [hb, hb]
    linear_combination (A k 0 * l.basis 0 0 + A k 1 * l.basis 1 0) * X * h00 +
      (A k 0 * l.basis 0 1 + A k 1 * l.basis 1 1) * Y * h11 +
      ((A k 0 * l.basis 0 1 + A k 1 * l.basis 1 1) * X + (A k 0 * l.basis 0 0 + A k 1 * l.basis 1 0) * Y) * h01
  unfold changedOrder
  push_cast
  obtain ⟨h1, h2⟩ := key
    (r' 0 0 * (A 0 0 * g.1 + A 0 1 * g.2) + r' 0 1 * (A 1 0 * g.1 + A 1 1 * g.2) -
      (R 0 0 * (r 0 0 * g.1 + r 0 1 * g.2) + R 0 1 * (r 1 0 * g.1 + r 1 1 * g.2)))
    (r' 1 0 * (A 0 0 * g.1 + A 0 1 * g.2) + r' 1 1 * (A 1 0 * g.1 + A 1 1 * g.2) -
      (R 1 0 * (r 0 0 * g.1 + r 0 1 * g.2) + R 1 1 * (r 1 0 * g.1 + r 1 1 * g.2)))
    (by
      have := e 0 (r 0 0 * g.1 + r 0 1 * g.2) (r 1 0 * g.1 + r 1 1 * g.2)
      linear_combination -this + (A 0 0 * g.1 + A 0 1 * g.2) * b00 + (A 1 0 * g.1 + A 1 1 * g.2) * b10 -
        A 0 0 * (g.1 * a00 + g.2 * a10) - A 0 1 * (g.1 * a01 + g.2 * a11))
    (by
      have := e 1 (r 0 0 * g.1 + r 0 1 * g.2) (r 1 0 * g.1 + r 1 1 * g.2)
      linear_combination -this + (A 0 0 * g.1 + A 0 1 * g.2) * b01 + (A 1 0 * g.1 + A 1 1 * g.2) * b11 -
        A 1 0 * (g.1 * a00 + g.2 * a10) - A 1 1 * (g.1 * a01 + g.2 * a11))
  exact ⟨sub_eq_zero.mp h1, sub_eq_zero.mp h2⟩

theorem frac_inj {N : ℕ} {x y : Fin N} (h : SameMod1 ((x : ℕ) / N : ℝ) ((y : ℕ) / N : ℝ)) : x = y := by
  obtain ⟨n, h⟩ := h
  have hN : (N : ℝ) ≠ 0 := by have := x.pos; positivity
  refine fin_eq_of_dvd ⟨n, ?_⟩
  have : ((x : ℕ) : ℝ) = (y : ℕ) + n * N := by field_simp at h; linarith
  have h2 : ((x : ℕ) : ℤ) = (y : ℕ) + n * N := by exact_mod_cast this
  linarith

/-- Fourier coefficients of the two patterns. -/
theorem coeff_cell (hA : A.det = 1 ∨ A.det = -1) {u v : ℝ} {Nx Ny Nx' Ny' : ℕ} [NeZero Nx] [NeZero Ny] [NeZero Nx'] [NeZero Ny']
    {w : Grid Nx Ny} {w' : Grid Nx' Ny'} (hN : Nx' * Ny' = Nx * Ny)
    (h : ∀ x' y', ∃ (x : Fin Nx) (y : Fin Ny), SamePoint A u v (((x' : Fin Nx') : ℕ) / Nx') (((y' : Fin Ny') : ℕ) / Ny') ((x : ℕ) / Nx) ((y : ℕ) / Ny) ∧
      w' x' y' = w x y) (a b : ℤ) :
    coeff w' (A 0 0 * a + A 0 1 * b) (A 1 0 * a + A 1 1 * b) = displacementPhase u v (a, b) * coeff w a b := by
  choose fx fy hf using h
  let F : Fin Nx' × Fin Ny' → Fin Nx × Fin Ny := fun p => (fx p.1 p.2, fy p.1 p.2)
  have hinj : Function.Injective F := by
    rintro ⟨p, q⟩ ⟨p', q'⟩ hpq
    obtain ⟨e1, e2⟩ := Prod.mk.inj hpq
    obtain ⟨⟨⟨n1, k1⟩, ⟨n2, k2⟩⟩, -⟩ := hf p q
    obtain ⟨⟨⟨n1', k1'⟩, ⟨n2', k2'⟩⟩, -⟩ := hf p' q'
    rw [← e1] at k1'
    rw [← e2] at k2'
    have hd := det_sq hA
    rw [det_fin_two] at hd
    have hdR : ((A 0 0 : ℝ) * A 1 1 - A 0 1 * A 1 0) * (A 0 0 * A 1 1 - A 0 1 * A 1 0) = 1 := by exact_mod_cast hd
    refine Prod.ext (frac_inj ⟨(A 0 0 * A 1 1 - A 0 1 * A 1 0) * (A 1 1 * (n1 - n1') - A 1 0 * (n2 - n2')), ?_⟩)
      (frac_inj ⟨(A 0 0 * A 1 1 - A 0 1 * A 1 0) * (A 0 0 * (n2 - n2') - A 0 1 * (n1 - n1')), ?_⟩)
    · push_cast
      linear_combination ((A 0 0 : ℝ) * A 1 1 - A 0 1 * A 1 0) * (A 1 1 * (k1 - k1') - A 1 0 * (k2 - k2')) -
        (((p : ℕ) : ℝ) / Nx' - ((p' : ℕ) : ℝ) / Nx') * hdR
    · push_cast
      linear_combination ((A 0 0 : ℝ) * A 1 1 - A 0 1 * A 1 0) * (A 0 0 * (k2 - k2') - A 0 1 * (k1 - k1')) -
        (((q : ℕ) : ℝ) / Ny' - ((q' : ℕ) : ℝ) / Ny') * hdR
  have hbij : Function.Bijective F := by
    rw [Fintype.bijective_iff_injective_and_card]
    refine ⟨hinj, ?_⟩
    simp [hN]
  rw [coeff_eq, coeff_eq, mul_div_assoc', show (Nx' : ℂ) * Ny' = Nx * Ny by exact_mod_cast hN]
  congr 1
  rw [← Fintype.sum_prod_type' (f := fun x y => w x y * (chi Nx (-a) (x : ℕ) * chi Ny (-b) (y : ℕ))),
    ← Fintype.sum_prod_type' (f := fun x y => w' x y * (chi Nx' (-(A 0 0 * a + A 0 1 * b)) (x : ℕ) *
      chi Ny' (-(A 1 0 * a + A 1 1 * b)) (y : ℕ))),
    ← (Equiv.ofBijective F hbij).sum_comp, Finset.mul_sum]
  refine Finset.sum_congr rfl fun p _ => ?_
  obtain ⟨⟨⟨n1, k1⟩, ⟨n2, k2⟩⟩, hw⟩ := hf p.1 p.2
  simp only [Equiv.ofBijective_apply]
  change _ = _ * (w (fx p.1 p.2) (fy p.1 p.2) * (chi Nx (-a) ((fx p.1 p.2 : Fin Nx) : ℕ) * chi Ny (-b) ((fy p.1 p.2 : Fin Ny) : ℕ)))
  rw [hw]
  have key : chi Nx' (-(A 0 0 * a + A 0 1 * b)) (p.1 : ℕ) * chi Ny' (-(A 1 0 * a + A 1 1 * b)) (p.2 : ℕ) =
      displacementPhase u v (a, b) * (chi Nx (-a) ((fx p.1 p.2 : Fin Nx) : ℕ) * chi Ny (-b) ((fy p.1 p.2 : Fin Ny) : ℕ)) := by
    unfold chi displacementPhase
    rw [← Complex.exp_add, ← Complex.exp_add, ← Complex.exp_add]
    rw [Complex.exp_eq_exp_iff_exists_int]
    refine ⟨-(a * n1 + b * n2), ?_⟩
    have k1C := congrArg (fun t : ℝ => (t : ℂ)) k1
    have k2C := congrArg (fun t : ℝ => (t : ℂ)) k2
    push_cast at k1C k2C ⊢
    linear_combination -(2 * Real.pi * Complex.I * a) * k1C - (2 * Real.pi * Complex.I * b) * k2C
  rw [key]
  ring

end cell

variable {A : Matrix (Fin 2) (Fin 2) ℤ} {hA : A.det = 1 ∨ A.det = -1} {u v : ℝ} {R : Matrix (Fin 2) (Fin 2) ℝ}
  {hR : Rᵀ * R = 1} {c c' : Static} {E E' : Ext}

/-- Convolution matrices of the two patterns. -/
theorem toep_cell {σ : Fin c.nh ≃ Fin c'.nh} (hσ : ∀ i, c'.harmonics.get (σ i) = changedOrder A (c.harmonics.get i))
    {Nx Ny Nx' Ny' : ℕ} {w : Grid Nx Ny} {w' : Grid Nx' Ny'} (hN : Nx' * Ny' = Nx * Ny)
    (hw : ∀ x' y', ∃ (x : Fin Nx) (y : Fin Ny), SamePoint A u v (((x' : Fin Nx') : ℕ) / Nx') (((y' : Fin Ny') : ℕ) / Ny') ((x : ℕ) / Nx) ((y : ℕ) / Ny) ∧
      w' x' y' = w x y) {B B'}
    (h : c.toep ⟨Nx, Ny, w⟩ = .ok B) (h' : c'.toep ⟨Nx', Ny', w'⟩ = .ok B') :
    B' * ((cellTransf A hA u v R hR).orderMap c c' σ).D = ((cellTransf A hA u v R hR).orderMap c c' σ).D * B := by
  rcases Nat.eq_zero_or_pos c.nh with h0 | hpos
  · ext i j
    exact absurd j.2 (by omega)
  unfold Static.toep at h h'
  dsimp only at h h'
  have i0 : Fin c.nh := ⟨0, hpos⟩
  obtain ⟨n1, n2⟩ := toep_pos h i0
  obtain ⟨n1', n2'⟩ := toep_pos h' (σ i0)
  have : NeZero Nx := ⟨n1⟩
  have : NeZero Ny := ⟨n2⟩
  have : NeZero Nx' := ⟨n1'⟩
  have : NeZero Ny' := ⟨n2'⟩
  obtain ⟨-, rfl⟩ := toeplitz_ok h
  obtain ⟨-, rfl⟩ := toeplitz_ok h'
  rw [OrderMap.intertwine1]
  intro i j
  simp only [of_apply]
  change displacementPhase u v (c.harmonics.get j) * coeff w' ((c'.harmonics.get (σ i)).1 - (c'.harmonics.get (σ j)).1)
    ((c'.harmonics.get (σ i)).2 - (c'.harmonics.get (σ j)).2) = displacementPhase u v (c.harmonics.get i) * _
  rw [hσ i, hσ j]
  have := coeff_cell hA hN hw ((c.harmonics.get i).1 - (c.harmonics.get j).1) ((c.harmonics.get i).2 - (c.harmonics.get j).2)
  unfold changedOrder
  dsimp only
  rw [show A 0 0 * (c.harmonics.get i).1 + A 0 1 * (c.harmonics.get i).2 -
      (A 0 0 * (c.harmonics.get j).1 + A 0 1 * (c.harmonics.get j).2) =
      A 0 0 * ((c.harmonics.get i).1 - (c.harmonics.get j).1) + A 0 1 * ((c.harmonics.get i).2 - (c.harmonics.get j).2) by ring,
    show A 1 0 * (c.harmonics.get i).1 + A 1 1 * (c.harmonics.get i).2 -
      (A 1 0 * (c.harmonics.get j).1 + A 1 1 * (c.harmonics.get j).2) =
      A 1 0 * ((c.harmonics.get i).1 - (c.harmonics.get j).1) + A 1 1 * ((c.harmonics.get i).2 - (c.harmonics.get j).2) by ring,
    this, ← mul_assoc]
  congr 1
  unfold displacementPhase
  rw [← Complex.exp_add]
  congr 1
  push_cast
  ring

/-- Media of the two simulations. -/
theorem medium_cell {mats mats' : ℕ → LayerSpec} {stack : List ℕ} {σ : Fin c.nh ≃ Fin c'.nh}
    (hσ : ∀ i, c'.harmonics.get (σ i) = changedOrder A (c.harmonics.get i))
    (h : ∀ r ∈ stack, CellPattern A u v (mats r) (mats' r)) (hmu : ∀ r ∈ stack, (mats r).mu = 1)
    (hw : WellPlaced mats stack)
    {r : ℕ} {P e} (hm : Medium E c mats r P e) : r ∈ stack → ∀ P' e', Medium E' c' mats' r P' e' →
      e' * ((cellTransf A hA u v R hR).orderMap c c' σ).D = ((cellTransf A hA u v R hR).orderMap c c' σ).D * e := by
  have hcp : ∀ r ∈ stack, (mats' r).iscopy = (mats r).iscopy := fun r hr => by rw [(h r hr).same]
  have hmu' : ∀ r ∈ stack, (mats' r).mu = 1 := fun r hr => by rw [(h r hr).same]; exact hmu r hr
  induction hm with
  | uniform r hc hu ha =>
    intro hr P' e' hm'
    cases hm' with
    | uniform _ =>
      rw [(h r hr).uniform hu]
      simp
    | patterned _ M p Q _ hb =>
      have := buildPure_patterned hb
      rw [(h r hr).unif, hu] at this
      simp at this
    | copy _ _ _ hc' => rw [hcp r hr, hc] at hc'; simp at hc'
  | patterned r M p Q hc hb =>
    intro hr P' e' hm'
    cases hm' with
    | uniform _ _ hu' =>
      rw [(h r hr).unif, buildPure_patterned hb] at hu'
      simp at hu'
    | patterned _ M' p' Q' _ hb' =>
      obtain ⟨hu, -, -, -, -, -, -, zz, para, eph, Ht, n, h1, h2, -⟩ := buildPure_patterned_ok (hmu r hr) hb
      obtain ⟨-, -, -, -, -, -, -, zz', para', eph', Ht', n', h1', h2', -⟩ := buildPure_patterned_ok (hmu' r hr) hb'
      rw [if_neg (by rw [(h r hr).iso.1]; simp)] at h1
      rw [if_neg (by rw [(h r hr).iso.2]; simp)] at h1'
      obtain ⟨Nx, Ny, s1, rfl⟩ := toGrid_data h1
      obtain ⟨Nx', Ny', s1', rfl⟩ := toGrid_data h1'
      obtain ⟨nx, ny, nx', ny', q1, q2, q3, q4⟩ := (h r hr).pattern hu
      rw [s1] at q1
      rw [s1'] at q2
      simp only [List.cons.injEq, and_true] at q1 q2
      obtain ⟨rfl, rfl⟩ := q1
      obtain ⟨rfl, rfl⟩ := q2
      refine toep_cell hσ q3 ?_ h2 h2'
      intro x' y'
      obtain ⟨x, hx, y, hy, k1, k2⟩ := q4 x' x'.2 y' y'.2
      exact ⟨⟨x, hx⟩, ⟨y, hy⟩, k1, k2⟩
    | copy _ _ _ hc' => rw [hcp r hr, hc] at hc'; simp at hc'
  | copy r P e hc ho ih =>
    intro hr P' e' hm'
    obtain ⟨k, hk⟩ := List.mem_iff_getElem?.mp hr
    obtain ⟨⟨j, -, hj⟩, -⟩ := hw k r hk hc
    cases hm' with
    | uniform _ hc' => rw [hcp r hr, hc] at hc'; simp at hc'
    | patterned _ M' p' Q' hc' => rw [hcp r hr, hc] at hc'; simp at hc'
    | copy _ _ _ _ ho' =>
      rw [show (mats' r).original = (mats r).original by rw [(h r hr).same]] at ho'
      exact ih (List.mem_of_getElem? hj) _ _ ho'

end Nannos
