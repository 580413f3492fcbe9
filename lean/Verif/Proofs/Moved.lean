import Verif.Proofs.SimilarInit
import Verif.Spec.Symmetry

/-! Convolution matrices of patterns which are translated or reflected copies of each other. -/

namespace Nannos

open Matrix Spec

theorem moved_lt (e s : ℤ) {N : ℕ} (x : Fin N) : ((e * (x : ℕ) - s) % N).toNat < N := by
  have hN : (0 : ℤ) < N := by have := x.pos; omega
  have h1 := Int.emod_nonneg (e * (x : ℕ) - s) hN.ne'
  have h2 := Int.emod_lt_of_pos (e * (x : ℕ) - s) hN
  omega

/-- The pixel from which pixel `x` of the moved pattern is taken. -/
def mv (e s : ℤ) {N : ℕ} (x : Fin N) : Fin N := ⟨((e * (x : ℕ) - s) % N).toNat, moved_lt e s x⟩

theorem mv_dvd (e s : ℤ) {N : ℕ} (x : Fin N) : (N : ℤ) ∣ (e * (x : ℕ) - s) - ((mv e s x : Fin N) : ℕ) := by
  have hN : (0 : ℤ) < N := by have := x.pos; omega
  have h1 := Int.emod_nonneg (e * (x : ℕ) - s) hN.ne'
  have : (((mv e s x : Fin N) : ℕ) : ℤ) = (e * (x : ℕ) - s) % N := by
    unfold mv
    simp [Int.toNat_of_nonneg h1]
  rw [this]
  exact Int.dvd_self_sub_emod

theorem mv_bijective {e : ℤ} (he : e * e = 1) (s : ℤ) (N : ℕ) : Function.Bijective (mv e s (N := N)) := by
  rw [Finite.injective_iff_bijective.symm]
  intro x y hxy
  have h1 := mv_dvd e s x
  have h2 := mv_dvd e s y
  rw [hxy] at h1
  have h3 := dvd_sub h1 h2
  have h4 : (N : ℤ) ∣ e * ((x : ℕ) - (y : ℕ)) := by
    have e1 : e * (x : ℕ) - s - ((mv e s y : Fin N) : ℕ) - (e * (y : ℕ) - s - ((mv e s y : Fin N) : ℕ)) =
      e * (((x : ℕ) : ℤ) - (y : ℕ)) := by ring
    rwa [e1] at h3
  have h5 := Dvd.dvd.mul_left h4 e
  rw [← mul_assoc, he, one_mul] at h5
  exact fin_eq_of_dvd h5

theorem chi_mv {N : ℕ} [NeZero N] {e : ℤ} (he : e * e = 1) (s a : ℤ) (x : Fin N) :
    chi N (-(e * a)) (x : ℕ) = chi N (-a) s * chi N (-a) ((mv e s x : Fin N) : ℕ) := by
  rw [← chi_add, chi_comm (-(e * a)), chi_comm (-a)]
  have : chi N (((x : ℕ) : ℤ) * e) (-a) = chi N (((x : ℕ) : ℤ)) (-(e * a)) := by
    unfold chi
    congr 2
    push_cast
    ring
  rw [← this]
  refine chi_period ?_ _
  have h := mv_dvd e s x
  have e1 : ((x : ℕ) : ℤ) * e - (s + ((mv e s x : Fin N) : ℕ)) = e * (x : ℕ) - s - ((mv e s x : Fin N) : ℕ) := by ring
  rw [e1]
  exact h

/-- Fourier coefficients of a moved pattern. -/
theorem coeff_moved {Nx Ny : ℕ} [NeZero Nx] [NeZero Ny] (u : Grid Nx Ny) {ex ey : ℤ} (hx : ex * ex = 1) (hy : ey * ey = 1)
    (sx sy a b : ℤ) :
    coeff (fun x y => u (mv ex sx x) (mv ey sy y)) (ex * a) (ey * b) =
      chi Nx (-a) sx * chi Ny (-b) sy * coeff u a b := by
  rw [coeff_eq, coeff_eq, mul_div_assoc']
  congr 1
  rw [← (Equiv.ofBijective _ (mv_bijective hx sx Nx)).sum_comp
    (fun x => ∑ y : Fin Ny, u x y * (chi Nx (-a) (x : ℕ) * chi Ny (-b) (y : ℕ))), Finset.mul_sum]
  refine Finset.sum_congr rfl fun x _ => ?_
  rw [← (Equiv.ofBijective _ (mv_bijective hy sy Ny)).sum_comp
    (fun y => u ((Equiv.ofBijective _ (mv_bijective hx sx Nx)) x) y *
      (chi Nx (-a) ((Equiv.ofBijective _ (mv_bijective hx sx Nx)) x : Fin Nx) * chi Ny (-b) (y : ℕ))), Finset.mul_sum]
  refine Finset.sum_congr rfl fun y _ => ?_
  simp only [Equiv.ofBijective_apply]
  rw [chi_mv hx, chi_mv hy]
  ring

/-- A motion: change of the unit of length, orthogonal matrix, reversal of the lattice vectors, translation in
fractions of the lattice vectors. -/
structure Motion where
  ex : ℤ
  ey : ℤ
  hex : ex * ex = 1
  hey : ey * ey = 1
  u : ℝ
  v : ℝ
  x : ℝ
  y : ℝ
  d : ℝ
  hxy : x ^ 2 + y ^ 2 = 1
  hd : d ^ 2 = 1
  s : ℝ
  pos : 0 < s

/-- Phase of an order after a translation. -/
noncomputable def shiftPhase (u v : ℝ) (g : ℤ × ℤ) : ℂ :=
  Complex.exp (-(2 * Real.pi * Complex.I * (g.1 * u + g.2 * v)))

theorem shiftPhase_unit (u v : ℝ) (g : ℤ × ℤ) : star (shiftPhase u v g) * shiftPhase u v g = 1 := by
  unfold shiftPhase
  rw [Complex.star_def, ← Complex.exp_conj, ← Complex.exp_add]
  simp [show (starRingEnd ℂ) 2 = 2 from Complex.conj_ofNat 2]

namespace Motion

/-- Its action on the orders. -/
noncomputable def transf (m : Motion) : Transf where
  f := fun g => (m.ex * g.1, m.ey * g.2)
  inj := by
    rintro ⟨a, b⟩ ⟨a', b'⟩ h
    simp only [Prod.mk.injEq] at h ⊢
    have h1 := congrArg (m.ex * ·) h.1
    have h2 := congrArg (m.ey * ·) h.2
    simp only [← mul_assoc, m.hex, m.hey, one_mul] at h1 h2
    exact ⟨h1, h2⟩
  f0 := by simp
  p := shiftPhase m.u m.v
  hp := shiftPhase_unit m.u m.v
  p0 := by simp [shiftPhase]
  x := m.x
  y := m.y
  d := m.d
  hxy := m.hxy
  hd := m.hd
  s := m.s
  pos := m.pos

/-- A grid moved by whole pixels. -/
structure Shift (m : Motion) (Nx Ny : ℕ) (sx sy : ℤ) : Prop where
  hx : (sx : ℝ) = Nx * m.u
  hy : (sy : ℝ) = Ny * m.v

theorem Shift.phase {m : Motion} {Nx Ny : ℕ} [NeZero Nx] [NeZero Ny] {sx sy : ℤ} (h : m.Shift Nx Ny sx sy) (a b a' b' : ℤ) :
    chi Nx (-(a - a')) sx * chi Ny (-(b - b')) sy * shiftPhase m.u m.v (a', b') = shiftPhase m.u m.v (a, b) := by
  have hNx : (Nx : ℂ) ≠ 0 := by exact_mod_cast NeZero.ne Nx
  have hNy : (Ny : ℂ) ≠ 0 := by exact_mod_cast NeZero.ne Ny
  have hx : (sx : ℂ) = Nx * m.u := by exact_mod_cast congrArg (fun t : ℝ => (t : ℂ)) h.hx
  have hy : (sy : ℂ) = Ny * m.v := by exact_mod_cast congrArg (fun t : ℝ => (t : ℂ)) h.hy
  unfold shiftPhase chi
  rw [← Complex.exp_add, ← Complex.exp_add]
  congr 1
  push_cast
  rw [hx, hy]
  field_simp
  ring

end Motion

variable {c c' : Static}

/-- Convolution matrices of a pattern and of the moved pattern. -/
theorem toep_moved {m : Motion} {σ : Fin c.nh ≃ Fin c'.nh}
    (hσ : ∀ i, c'.harmonics.get (σ i) = m.transf.f (c.harmonics.get i)) {Nx Ny : ℕ} {sx sy : ℤ} (hs : m.Shift Nx Ny sx sy)
    {u u' : Grid Nx Ny} {k : ℂ} (hu : ∀ x y, u' x y = k * u (mv m.ex sx x) (mv m.ey sy y)) {A A'}
    (h : c.toep ⟨Nx, Ny, u⟩ = .ok A) (h' : c'.toep ⟨Nx, Ny, u'⟩ = .ok A') :
    A' * (m.transf.orderMap c c' σ).D = k • ((m.transf.orderMap c c' σ).D * A) := by
  rcases Nat.eq_zero_or_pos c.nh with h0 | hpos
  · ext i j
    exact absurd j.2 (by omega)
  unfold Static.toep at h h'
  dsimp only at h h'
  have i0 : Fin c.nh := ⟨0, hpos⟩
  have hb := h
  unfold toeplitz at hb
  dsimp only at hb
  split at hb
  · simp at hb
  rename_i hne
  push Not at hne
  obtain ⟨n1, n2⟩ := hne i0 i0
  have : NeZero Nx := ⟨by rintro rfl; exact n1 (by rw [pyFin_none]; omega)⟩
  have : NeZero Ny := ⟨by rintro rfl; exact n2 (by rw [pyFin_none]; omega)⟩
  obtain ⟨-, rfl⟩ := toeplitz_ok h
  obtain ⟨-, rfl⟩ := toeplitz_ok h'
  have hu' : u' = fun x y => k * (fun x y => u (mv m.ex sx x) (mv m.ey sy y)) x y + 0 * u x y := by
    funext x y
    rw [hu x y]
    ring
  rw [← Matrix.mul_smul]
  rw [OrderMap.intertwine1]
  intro i j
  have e := hσ
  simp only [Matrix.smul_apply, of_apply, smul_eq_mul]
  change shiftPhase m.u m.v (c.harmonics.get j) * coeff u' ((c'.harmonics.get (σ i)).1 - (c'.harmonics.get (σ j)).1)
    ((c'.harmonics.get (σ i)).2 - (c'.harmonics.get (σ j)).2) = shiftPhase m.u m.v (c.harmonics.get i) * _
  rw [hσ i, hσ j, hu', coeff_linear]
  change _ * (k * coeff _ (m.ex * _ - m.ex * _) (m.ey * _ - m.ey * _) + _) = _
  rw [← mul_sub, ← mul_sub, coeff_moved u m.hex m.hey, zero_mul, add_zero,
    ← hs.phase (c.harmonics.get i).1 (c.harmonics.get i).2 (c.harmonics.get j).1 (c.harmonics.get j).2]
  ring

end Nannos
