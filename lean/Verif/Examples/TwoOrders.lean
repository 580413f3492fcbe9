import Verif.Examples.Film
import Verif.Examples.Run

/-! Simulations with two orders, and solving stacks whose layers are solved one by one: used for the concrete cases. -/

namespace Nannos.Examples

open Matrix Nannos Spec

/-! ### Matrices with two rows -/

section two
variable {n : Type} [Fintype n] [DecidableEq n] {i0 i1 : n}

/-- There are two indices. -/
structure TwoIdx (i0 i1 : n) : Prop where
  ne : i0 ≠ i1
  all : ∀ i, i = i0 ∨ i = i1

/-- The matrix `[[a, b], [c, d]]`. -/
def mat2 (i0 : n) (a b c d : ℂ) : Matrix n n ℂ :=
  Matrix.of fun i j => if i = i0 then (if j = i0 then a else b) else (if j = i0 then c else d)

theorem TwoIdx.sum {A : Type} [AddCommMonoid A] (h : TwoIdx i0 i1) (f : n → A) : ∑ i, f i = f i0 + f i1 := by
  have : (Finset.univ : Finset n) = {i0, i1} := by
    ext i
    simpa using h.all i
  rw [this, Finset.sum_pair h.ne]

theorem TwoIdx.ext (h : TwoIdx i0 i1) {A B : Matrix n n ℂ} (h1 : A i0 i0 = B i0 i0) (h2 : A i0 i1 = B i0 i1)
    (h3 : A i1 i0 = B i1 i0) (h4 : A i1 i1 = B i1 i1) : A = B := by
  ext i j
  rcases h.all i with rfl | rfl <;> rcases h.all j with rfl | rfl <;> assumption

theorem TwoIdx.vec {A : Type} (h : TwoIdx i0 i1) {u v : n → A} (h1 : u i0 = v i0) (h2 : u i1 = v i1) : u = v := by
  funext i
  rcases h.all i with rfl | rfl <;> assumption

theorem mat2_00 (a b c d : ℂ) : mat2 i0 a b c d i0 i0 = a := by simp [mat2]
theorem TwoIdx.m01 (h : TwoIdx i0 i1) (a b c d : ℂ) : mat2 i0 a b c d i0 i1 = b := by simp [mat2, h.ne.symm]
theorem TwoIdx.m10 (h : TwoIdx i0 i1) (a b c d : ℂ) : mat2 i0 a b c d i1 i0 = c := by simp [mat2, h.ne.symm]
theorem TwoIdx.m11 (h : TwoIdx i0 i1) (a b c d : ℂ) : mat2 i0 a b c d i1 i1 = d := by simp [mat2, h.ne.symm]

theorem TwoIdx.mul (h : TwoIdx i0 i1) (a b c d a' b' c' d' : ℂ) : mat2 i0 a b c d * mat2 i0 a' b' c' d' =
    mat2 i0 (a * a' + b * c') (a * b' + b * d') (c * a' + d * c') (c * b' + d * d') := by
  apply h.ext <;> simp only [mul_apply, h.sum, mat2_00, h.m01, h.m10, h.m11]

theorem TwoIdx.one (h : TwoIdx i0 i1) : (1 : Matrix n n ℂ) = mat2 i0 1 0 0 1 := by
  apply h.ext <;> simp [mat2_00, h.m01, h.m10, h.m11, h.ne, h.ne.symm]

theorem TwoIdx.zero (h : TwoIdx i0 i1) : (0 : Matrix n n ℂ) = mat2 i0 0 0 0 0 := by
  apply h.ext <;> simp [mat2_00, h.m01, h.m10, h.m11]

theorem TwoIdx.diag (h : TwoIdx i0 i1) (f : n → ℂ) : diagonal f = mat2 i0 (f i0) 0 0 (f i1) := by
  apply h.ext <;> simp [mat2_00, h.m01, h.m10, h.m11, h.ne, h.ne.symm]

theorem TwoIdx.smul (h : TwoIdx i0 i1) (s a b c d : ℂ) : s • mat2 i0 a b c d = mat2 i0 (s * a) (s * b) (s * c) (s * d) := by
  apply h.ext <;> simp [mat2_00, h.m01, h.m10, h.m11]

theorem TwoIdx.sub (h : TwoIdx i0 i1) (a b c d a' b' c' d' : ℂ) : mat2 i0 a b c d - mat2 i0 a' b' c' d' =
    mat2 i0 (a - a') (b - b') (c - c') (d - d') := by
  apply h.ext <;> simp [mat2_00, h.m01, h.m10, h.m11]

theorem TwoIdx.inv (h : TwoIdx i0 i1) {a b c d a' b' c' d' : ℂ} (h1 : a * a' + b * c' = 1) (h2 : a * b' + b * d' = 0)
    (h3 : c * a' + d * c' = 0) (h4 : c * b' + d * d' = 1) :
    (mat2 i0 a b c d).det ≠ 0 ∧ (mat2 i0 a b c d)⁻¹ = mat2 i0 a' b' c' d' := by
  have : mat2 i0 a b c d * mat2 i0 a' b' c' d' = 1 := by rw [h.mul, h1, h2, h3, h4, h.one]
  refine ⟨fun h0 => ?_, inv_eq_right_inv this⟩
  have := congrArg Matrix.det this
  rw [det_mul, h0] at this
  simp at this

end two

/-! ### Fourier coefficients of four pixels -/

theorem coeff4 (a : Fin 4 → ℂ) : coeff (fun (x : Fin 4) (_ : Fin 4) => a x) 0 0 = (a 0 + a 1 + a 2 + a 3) / 4 ∧
    coeff (fun (x : Fin 4) (_ : Fin 4) => a x) 1 0 = (a 0 - Complex.I * a 1 - a 2 + Complex.I * a 3) / 4 ∧
    coeff (fun (x : Fin 4) (_ : Fin 4) => a x) (-1) 0 = (a 0 + Complex.I * a 1 - a 2 - Complex.I * a 3) / 4 := by
  have e1 : Complex.exp (-(2 * Real.pi * Complex.I * (1 / 4))) = -Complex.I := by
    rw [show -(2 * (Real.pi : ℂ) * Complex.I * (1 / 4)) = -(Real.pi / 2 * Complex.I) from by ring, Complex.exp_neg,
      Complex.exp_pi_div_two_mul_I, Complex.inv_I]
  have e1' : Complex.exp (-(2 * Real.pi * Complex.I * (-1 / 4))) = Complex.I := by
    rw [show -(2 * (Real.pi : ℂ) * Complex.I * (-1 / 4)) = (Real.pi / 2 * Complex.I) from by ring,
      Complex.exp_pi_div_two_mul_I]
  have e2 : Complex.exp (-(2 * Real.pi * Complex.I * (2 / 4))) = -1 := by
    rw [show -(2 * (Real.pi : ℂ) * Complex.I * (2 / 4)) = -(Real.pi * Complex.I) from by ring, Complex.exp_neg,
      Complex.exp_pi_mul_I]
    norm_num
  have e2' : Complex.exp (-(2 * Real.pi * Complex.I * (-2 / 4))) = -1 := by
    rw [show -(2 * (Real.pi : ℂ) * Complex.I * (-2 / 4)) = (Real.pi * Complex.I) from by ring,
      Complex.exp_pi_mul_I]
  have e3 : Complex.exp (-(2 * Real.pi * Complex.I * (3 / 4))) = Complex.I := by
    rw [show -(2 * (Real.pi : ℂ) * Complex.I * (3 / 4)) = -(2 * Real.pi * Complex.I * (1 / 4)) + -(2 * Real.pi * Complex.I * (2 / 4))
      from by ring, Complex.exp_add, e1, e2]
    ring
  have e3' : Complex.exp (-(2 * Real.pi * Complex.I * (-3 / 4))) = -Complex.I := by
    rw [show -(2 * (Real.pi : ℂ) * Complex.I * (-3 / 4)) = -(2 * Real.pi * Complex.I * (-1 / 4)) + -(2 * Real.pi * Complex.I * (-2 / 4))
      from by ring, Complex.exp_add, e1', e2']
    ring
  refine ⟨?_, ?_, ?_⟩ <;> unfold coeff <;>
    simp only [Fin.sum_univ_four, Fin.val_zero, Fin.val_one, Fin.val_two, Int.cast_zero, Int.cast_one, Int.cast_neg, zero_mul, zero_div, add_zero,
      mul_zero, neg_zero, Complex.exp_zero, mul_one, one_mul, Nat.cast_zero, Nat.cast_ofNat, Nat.cast_one, show ((3 : Fin 4) : ℕ) = 3 from rfl,
      show ∀ x : ℂ, -1 * x = -x from fun x => by ring]
  · ring
  · rw [e1, e2, e3]; ring
  · rw [e1', e2', e3']; ring

variable {c : Static} {i0 i1 : Fin c.nh}

/-- Convolution matrix of a pattern of four columns, orders `(0, 0)` and `(-1, 0)`. -/
theorem TwoIdx.toep (h : TwoIdx i0 i1) (h0 : c.harmonics.get i0 = (0, 0)) (h1 : c.harmonics.get i1 = (-1, 0)) (a : Fin 4 → ℂ) :
    c.toep ⟨4, 4, fun x _ => a x⟩ = .ok (mat2 i0 ((a 0 + a 1 + a 2 + a 3) / 4) ((a 0 - Complex.I * a 1 - a 2 + Complex.I * a 3) / 4)
      ((a 0 + Complex.I * a 1 - a 2 - Complex.I * a 3) / 4) ((a 0 + a 1 + a 2 + a 3) / 4)) := by
  obtain ⟨A, hA⟩ := toeplitz_exists (H := c.harmonics.get) (fun (x : Fin 4) (_ : Fin 4) => a x) (by
    intro i j
    rcases h.all i with rfl | rfl <;> rcases h.all j with rfl | rfl <;> (try rw [h0]) <;> (try rw [h1]) <;> simp)
  unfold Static.toep
  dsimp only
  rw [hA, (toeplitz_ok hA).2]
  congr 1
  obtain ⟨k0, k1, k2⟩ := coeff4 a
  apply h.ext <;> simp only [Matrix.of_apply, mat2_00, h.m01, h.m10, h.m11, h0, h1, sub_self, sub_zero, sub_neg_eq_add, zero_add]
  · exact k0
  · exact k1
  · exact k2
  · exact k0

/-! ### Solving -/

section
variable {E : Ext}

theorem solveAll_steps (ev : ℕ → (Idx c.nh → ℂ) × Matrix (Idx c.nh) (Idx c.nh) ℂ) (Q : ℕ → Matrix (Idx c.nh) (Idx c.nh) ℂ) :
    ∀ (rs : List ℕ) (d : Dyn c.nh), rs.Nodup → (∀ r ∈ rs, ∀ Ao, (stepOut E c (d.mats r) Ao).1 = .ok () ∧
      ∀ a, ((stepOut E c (d.mats r) Ao).2 a).eig = some (ev r) ∧ ((stepOut E c (d.mats r) Ao).2 a).Qeps = some (Q r)) →
    (solveAll E c rs d).1 = .ok () ∧
      ∀ r ∈ rs, ((solveAll E c rs d).2.attrs r).eig = some (ev r) ∧ ((solveAll E c rs d).2.attrs r).Qeps = some (Q r) := by
  intro rs
  induction rs with
  | nil => intro d _ _; exact ⟨rfl, by simp⟩
  | cons r rs ih =>
    intro d hnd hr
    obtain ⟨hrn, hnd'⟩ := List.nodup_cons.mp hnd
    obtain ⟨h1, h2⟩ := hr r (by simp) (d.attrs (d.mats r).original)
    rw [solveAll_cons, solveLayer_eq, h1]
    dsimp only
    obtain ⟨h3, h4⟩ := ih (d.setAttr r (stepOut E c (d.mats r) (d.attrs (d.mats r).original)).2) hnd'
      fun s hs => hr s (by simp [hs])
    refine ⟨h3, fun s hs => ?_⟩
    rcases List.mem_cons.mp hs with rfl | hs
    · obtain ⟨A, eA, hA⟩ := solveAll_frame (E := E) (c := c) rs
        (d.setAttr s (stepOut E c (d.mats s) (d.attrs (d.mats s).original)).2)
      rw [eA]
      dsimp only
      rw [hA s hrn, setAttr_same]
      exact h2 _
    · exact h4 s hs

/-- The modes of a stack whose layers are solved one by one. -/
theorem solved_steps {mats : ℕ → LayerSpec} (ev : ℕ → (Idx c.nh → ℂ) × Matrix (Idx c.nh) (Idx c.nh) ℂ)
    (Q : ℕ → Matrix (Idx c.nh) (Idx c.nh) ℂ) (hnd : c.stack.Nodup)
    (hr : ∀ r ∈ c.stack, ∀ Ao, (stepOut E c (mats r) Ao).1 = .ok () ∧
      ∀ a, ((stepOut E c (mats r) Ao).2 a).eig = some (ev r) ∧ ((stepOut E c (mats r) Ao).2 a).Qeps = some (Q r)) :
    ∃ A1, SolveSpec E c mats (unsolved c.nh) A1 (.ok ()) ∧
      (∀ i j, valS c mats A1 (.ok ()) (some (i, j)) =
        freshS (c.stack.map fun r => ⟨(ev r).1, (ev r).2, Q r, (mats r).thickness⟩) i j) ∧
      ∀ r ∈ c.stack, modesOf (mats r) (A1 r) = .ok ⟨(ev r).1, (ev r).2, Q r, (mats r).thickness⟩ := by
  obtain ⟨A1, res, hs, -⟩ := solveSpec_of_noStale (E := E) hnd (noStale_unsolved mats c.stack)
  have hrun := hs.run (Dyn.fresh mats (unsolved c.nh)) rfl (.inl rfl)
  obtain ⟨h1, h2⟩ := solveAll_steps ev Q c.stack (Dyn.fresh mats (unsolved c.nh)) hnd hr
  rw [hrun] at h1 h2
  obtain rfl : res = .ok () := h1
  have hm : ∀ r ∈ c.stack, modesD (mats r) (A1 r) = ⟨(ev r).1, (ev r).2, Q r, (mats r).thickness⟩ := by
    intro r hr
    obtain ⟨h3, h4⟩ := h2 r hr
    have h3 : (A1 r).eig = some (ev r) := h3
    have h4 : (A1 r).Qeps = some (Q r) := h4
    unfold modesD
    rw [h3, h4]
    rfl
  have hf := hs.fix hnd rfl
  refine ⟨A1, hs, fun i j => ?_, fun r hr => ?_⟩
  · rw [valS_solved hf]
    congr 1
    unfold stackModes
    exact List.map_congr_left hm
  · rw [(hf r hr).form.modesD, hm r hr]

end

end Nannos.Examples
