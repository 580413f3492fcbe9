import Verif.Proofs.MovedSim
import Verif.Proofs.ScaledOrders

/-! Simulations in another unit of length, with other listings of the orders, and rotated. -/

namespace Nannos

open Matrix Spec

/-- Change of the unit of length, as a motion. -/
noncomputable def scaleMotion (s : ℝ) (hs : 0 < s) : Motion where
  ex := 1
  ey := 1
  hex := rfl
  hey := rfl
  u := 0
  v := 0
  x := 1
  y := 0
  d := 1
  hxy := by norm_num
  hd := by norm_num
  s := s
  pos := hs

/-- Rotation, as a motion. -/
noncomputable def turnMotion (al : ℝ) : Motion where
  ex := 1
  ey := 1
  hex := rfl
  hey := rfl
  u := 0
  v := 0
  x := Real.cos al
  y := Real.sin al
  d := 1
  hxy := Real.cos_sq_add_sin_sq al
  hd := by norm_num
  s := 1
  pos := one_pos

theorem phase_zero (g : ℤ × ℤ) : shiftPhase 0 0 g = 1 := by simp [shiftPhase]

variable {s : ℝ} {hs : 0 < s}

theorem scale_grid {w w' : PGrid} (h : (scaleMotion s hs).GridMoved 1 w w') : w' = w := by
  obtain ⟨Nx, Ny, a, a', sx, sy, rfl, rfl, hsh, hh⟩ := h
  have e1 : sx = 0 := by
    have := hsh.hx
    rw [show (scaleMotion s hs).u = 0 from rfl, mul_zero] at this
    exact_mod_cast this
  have e2 : sy = 0 := by
    have := hsh.hy
    rw [show (scaleMotion s hs).v = 0 from rfl, mul_zero] at this
    exact_mod_cast this
  subst e1 e2
  congr 1
  funext x y
  rw [hh x y, one_mul, show (scaleMotion s hs).ex = 1 from rfl, show (scaleMotion s hs).ey = 1 from rfl, mv_id, mv_id]

theorem scale_field (t : Field2) : (scaleMotion s hs).FieldMoved t t := by
  refine ⟨t.Nx, t.Ny, t.t0, t.t1, t.t0, t.t1, 0, 0, rfl, rfl, ⟨?_, ?_⟩, fun x y => ?_⟩
  · rw [show (scaleMotion s hs).u = 0 from rfl]; simp
  · rw [show (scaleMotion s hs).v = 0 from rfl]; simp
  · rw [show (scaleMotion s hs).ex = 1 from rfl, show (scaleMotion s hs).ey = 1 from rfl, mv_id, mv_id,
      show (scaleMotion s hs).d = 1 from rfl, show (scaleMotion s hs).x = 1 from rfl, show (scaleMotion s hs).y = 0 from rfl]
    exact ⟨1, rfl, by simp, by simp⟩

theorem scale_layer (fm : String) {L L' : LayerSpec} (hn : L'.name = L.name) (hm : L'.mu = L.mu) (hc : L'.iscopy = L.iscopy)
    (ho : L'.original = L.original) (ht : L'.thickness = L.thickness.map (s * ·)) (he : L'.epsilon = L.epsilon) :
    (scaleMotion s hs).LayerMoved fm L L' := by
  refine ⟨hn, hm, hc, ho, ht, by rw [he], fun _ => he, ?_, ?_, .inr (.inl rfl), .inr (.inr ⟨⟨rfl, rfl, rfl, rfl, rfl⟩, rfl⟩), fun _ => rfl⟩
  · intro Nx Ny _ _
    refine ⟨0, 0, ⟨?_, ?_⟩, fun x y => ?_⟩
    · rw [show (scaleMotion s hs).u = 0 from rfl]; simp
    · rw [show (scaleMotion s hs).v = 0 from rfl]; simp
    · rw [show (scaleMotion s hs).ex = 1 from rfl, show (scaleMotion s hs).ey = 1 from rfl, mv_id, mv_id, he]
  · intro Nx Ny _
    refine .inl ⟨rfl, 0, 0, ⟨?_, ?_⟩, fun x y => ?_⟩
    · rw [show (scaleMotion s hs).u = 0 from rfl]; simp
    · rw [show (scaleMotion s hs).v = 0 from rfl]; simp
    · rw [show (scaleMotion s hs).ex = 1 from rfl, show (scaleMotion s hs).ey = 1 from rfl, mv_id, mv_id, he,
        show (scaleMotion s hs).d = 1 from rfl]
      simp

theorem turn_still (al : ℝ) : (turnMotion al).Still := ⟨rfl, rfl, rfl, rfl, rfl⟩

theorem turn_layer {al : ℝ} {fm : String} {L L' : LayerSpec} (h : LayerTurned al L L')
    (hq : fm = "original" ∨ Real.sin al = 0 ∨ Real.cos al = 0)
    (hsq : fm = "original" ∨ ∀ Nx Ny, L.epsilon.shape = [3, 3, Nx, Ny] → Nx = Ny) :
    (turnMotion al).LayerMoved fm L L' := by
  have hs := h.same
  refine ⟨by rw [hs], by rw [hs], by rw [hs], by rw [hs], ?_, h.shape, h.uniform, ?_, ?_, hq, hsq.imp_right .inl, fun _ => rfl⟩
  · rw [show (turnMotion al).s = 1 from rfl, hs]
    rcases L.thickness with _ | z <;> simp
  · intro Nx Ny hu hsh
    refine ⟨0, 0, ⟨?_, ?_⟩, fun x y => ?_⟩
    · rw [show (turnMotion al).u = 0 from rfl]; simp
    · rw [show (turnMotion al).v = 0 from rfl]; simp
    · rw [show (turnMotion al).ex = 1 from rfl, show (turnMotion al).ey = 1 from rfl, mv_id, mv_id]
      exact h.numbers Nx Ny hsh x x.2 y y.2
  · intro Nx Ny hsh
    refine .inr ⟨turn_still al, fun x y => ?_⟩
    obtain ⟨h0, h1⟩ := h.tensors Nx Ny hsh x x.2 y y.2
    refine ⟨h0, ?_, ?_, ?_, ?_⟩
    · have := h1 0 0
      simp only [Fin.sum_univ_two, turnMatrix, Matrix.of_apply, Matrix.cons_val', Matrix.cons_val_zero, Matrix.cons_val_one, Matrix.cons_val_fin_one,
        Fin.val_zero, Fin.val_one] at this
      rw [this]
      change _ = (Real.cos al : ℂ) ^ 2 * _ - (Real.cos al : ℂ) * (Real.sin al : ℂ) * _ + (Real.sin al : ℂ) ^ 2 * _
      push_cast
      ring
    · have := h1 0 1
      simp only [Fin.sum_univ_two, turnMatrix, Matrix.of_apply, Matrix.cons_val', Matrix.cons_val_zero, Matrix.cons_val_one, Matrix.cons_val_fin_one,
        Fin.val_zero, Fin.val_one] at this
      rw [this]
      change _ = (Real.cos al : ℂ) * (Real.sin al : ℂ) * _ + (Real.cos al : ℂ) ^ 2 * _ - (Real.sin al : ℂ) ^ 2 * _
      push_cast
      ring
    · have := h1 1 0
      simp only [Fin.sum_univ_two, turnMatrix, Matrix.of_apply, Matrix.cons_val', Matrix.cons_val_zero, Matrix.cons_val_one, Matrix.cons_val_fin_one,
        Fin.val_zero, Fin.val_one] at this
      rw [this]
      change _ = (Real.cos al : ℂ) * (Real.sin al : ℂ) * _ - (Real.sin al : ℂ) ^ 2 * _ + (Real.cos al : ℂ) ^ 2 * _
      push_cast
      ring
    · have := h1 1 1
      simp only [Fin.sum_univ_two, turnMatrix, Matrix.of_apply, Matrix.cons_val', Matrix.cons_val_zero, Matrix.cons_val_one, Matrix.cons_val_fin_one,
        Fin.val_zero, Fin.val_one] at this
      rw [this]
      change _ = (Real.sin al : ℂ) ^ 2 * _ + (Real.cos al : ℂ) * (Real.sin al : ℂ) * _ + (Real.cos al : ℂ) ^ 2 * _
      push_cast
      ring

theorem turn_field {al : ℝ} {t t' : Field2} (h : VectorsTurned al t t') : (turnMotion al).FieldMoved t t' := by
  obtain ⟨Nx, Ny, a, b, a', b', rfl, rfl, hh⟩ := h
  refine ⟨Nx, Ny, a, b, a', b', 0, 0, rfl, rfl, ⟨?_, ?_⟩, fun x y => ⟨1, rfl, ?_, ?_⟩⟩
  · rw [show (turnMotion al).u = 0 from rfl]; simp
  · rw [show (turnMotion al).v = 0 from rfl]; simp
  all_goals
    rw [show (turnMotion al).ex = 1 from rfl, show (turnMotion al).ey = 1 from rfl, mv_id, mv_id, show (turnMotion al).d = 1 from rfl,
      show (turnMotion al).x = Real.cos al from rfl, show (turnMotion al).y = Real.sin al from rfl, one_mul, one_mul]
  · exact (hh x y).1
  · exact (hh x y).2

theorem scale_transf : (scaleMotion s hs).transf.f = id ∧ (scaleMotion s hs).transf.p = (fun _ => 1) ∧
    (scaleMotion s hs).transf.R3 = 1 := by
  refine ⟨?_, ?_, ?_⟩
  · funext g
    change ((1 : ℤ) * g.1, (1 : ℤ) * g.2) = g
    simp
  · funext g
    exact phase_zero g
  · unfold Transf.R3
    change !![(1 : ℝ) * 1, -0, 0; 1 * 0, 1, 0; 0, 0, 1] = _
    ext i j
    fin_cases i <;> fin_cases j <;> simp

theorem turn_transf {al : ℝ} : (turnMotion al).transf.f = id ∧ (turnMotion al).transf.p = (fun _ => 1) ∧
    (turnMotion al).transf.R3 = !![Real.cos al, -Real.sin al, 0; Real.sin al, Real.cos al, 0; 0, 0, 1] := by
  refine ⟨?_, ?_, ?_⟩
  · funext g
    change ((1 : ℤ) * g.1, (1 : ℤ) * g.2) = g
    simp
  · funext g
    exact phase_zero g
  · unfold Transf.R3
    change !![(1 : ℝ) * Real.cos al, -Real.sin al, 0; 1 * Real.sin al, Real.cos al, 0; 0, 0, 1] = _
    rw [one_mul, one_mul]

/-- The constructor succeeds when its tests do. -/
theorem simInit_exists {E : Ext} {lats : ℕ → Lattice} {mats : ℕ → LayerSpec} {r0 : ℕ} {tl : List ℕ} {exc nh form H n r}
    (h1 : ((r0 :: tl).map fun r => (mats r).name).Nodup) (h2 : ∀ r ∈ r0 :: tl, (mats r).lattice = (mats r0).lattice)
    (h3 : form = "original" ∨ form = "tangent" ∨ form = "jones" ∨ form = "pol")
    (h4 : (lats (mats r0).lattice).is1D = true → form = "original" ∨ form = "tangent")
    (h5 : (lats (mats r0).lattice).getHarmonics E.argsort
      (effectiveNh nh ((r0 :: tl).all fun r => (mats r).isUniform)) true = .ok (H, n))
    (h6 : checkNyquist (lats (mats r0).lattice) H = .ok ()) (h7 : (mats r0).isUniform = true ∧ (mats r0).isAnisotropic = false)
    (h8 : (mats r0).epsilon.value * (mats r0).mu ≠ 0) (h9 : (lats (mats r0).lattice).reciprocal = .ok r) :
    ∃ c, simInit E lats mats (r0 :: tl) exc nh form = .ok c := by
  unfold simInit
  dsimp only
  rw [(unique_iff _).mpr h1]
  have hall : ((r0 :: tl).all fun r => decide ((mats r).lattice = (mats r0).lattice)) = true := by
    simp only [List.all_eq_true, decide_eq_true_eq]
    exact h2
  rw [hall]
  simp only [Bool.not_true, Bool.false_eq_true, if_false, h3, not_true]
  rw [if_neg (by rintro ⟨a, b⟩; exact b (h4 a)), h5]
  simp only [except_bind_ok]
  rw [h6, raiseIf_ok (u := ()).mpr (by simp [h7]), raiseIf_ok (u := ()).mpr h8, h9]
  exact ⟨_, rfl⟩

theorem mkLattice_scaled {b disc t h l l'} (h1 : mkLattice b disc t h = .ok l) (h2 : mkLattice (scaledBasis s b) disc t h = .ok l') :
    l'.truncation = l.truncation ∧ l'.is1D = l.is1D ∧ l'.discretization = l.discretization ∧ l'.harmonicsArray = l.harmonicsArray ∧
      ((l.is1D = true ∧ l.truncation = .oneD ∧ ∃ a, l.basis = ![![a, 0], ![0, 1]] ∧ l'.basis = ![![s * a, 0], ![0, 1]]) ∨
        (l.is1D = false ∧ ∀ k i, l'.basis k i = s * l.basis k i)) := by
  unfold mkLattice at h1 h2
  dsimp only at h1 h2
  split at h1
  · simp at h1
  rename_i t0 ht0
  rw [ht0] at h2
  dsimp only at h2
  cases b with
  | period a =>
    simp only [scaledBasis, Except.ok.injEq] at h1 h2
    subst h1 h2
    exact ⟨rfl, rfl, rfl, rfl, .inl ⟨rfl, rfl, a, rfl, rfl⟩⟩
  | vectors v =>
    simp only [scaledBasis, Except.ok.injEq] at h1 h2
    subst h1 h2
    exact ⟨rfl, rfl, rfl, rfl, .inr ⟨rfl, fun k i => rfl⟩⟩

end Nannos
