import Verif.Proofs.Inverse4
import Verif.Proofs.Moved

/-! Media of layers which are moved copies of each other. -/

namespace Nannos

open Matrix Spec

namespace OrderMap
variable {n n' : ℕ} (g : OrderMap n n')

theorem diag2_intertwine {A' A} (h : A' * g.D = g.D * A) : diag2 A' * g.U = g.U * diag2 A := by
  unfold diag2 U
  rw [fromBlocks_multiply, fromBlocks_multiply]
  simp [h]

theorem block_intertwine (hy : g.y = 0) {A B C F : Matrix (Fin n) (Fin n) ℂ} {A' B' C' F' : Matrix (Fin n') (Fin n') ℂ}
    (hA : A' * g.D = g.D * A) (hB : B' * g.D = (g.d : ℂ) • (g.D * B)) (hC : C' * g.D = (g.d : ℂ) • (g.D * C))
    (hF : F' * g.D = g.D * F) : fromBlocks A' B' C' F' * g.U = g.U * fromBlocks A B C F := by
  have hd := g.hdC
  unfold U
  rw [hy, fromBlocks_multiply, fromBlocks_multiply]
  simp only [Matrix.mul_smul, Matrix.smul_mul, hA, hB, hC, hF, smul_smul, Complex.ofReal_zero, mul_zero, neg_zero, zero_smul,
    add_zero, zero_add, Matrix.mul_zero, Matrix.zero_mul]
  have e1 : (g.d * g.x * g.d : ℂ) = g.x := by linear_combination (g.x : ℂ) * hd
  rw [e1, mul_comm (g.x : ℂ) (g.d : ℂ)]

theorem block_quarter (hx : g.x = 0) {A B C F : Matrix (Fin n) (Fin n) ℂ} {A' B' C' F' : Matrix (Fin n') (Fin n') ℂ}
    (hA : A' * g.D = g.D * F) (hB : B' * g.D = (-g.d : ℂ) • (g.D * C)) (hC : C' * g.D = (-g.d : ℂ) • (g.D * B))
    (hF : F' * g.D = g.D * A) : fromBlocks A' B' C' F' * g.U = g.U * fromBlocks A B C F := by
  have hd := g.hdC
  unfold U
  rw [hx, fromBlocks_multiply, fromBlocks_multiply]
  simp only [Matrix.mul_smul, Matrix.smul_mul, hA, hB, hC, hF, smul_smul, Complex.ofReal_zero, mul_zero, zero_smul,
    add_zero, zero_add, Matrix.mul_zero, Matrix.zero_mul]
  have e1 : (-(g.d * g.y) * -g.d : ℂ) = g.y := by linear_combination (g.y : ℂ) * hd
  have e2 : (g.y * -g.d : ℂ) = -(g.d * g.y) := by ring
  rw [e1, e2]

theorem block_turn (hd : g.d = 1) {A B C F : Matrix (Fin n) (Fin n) ℂ} {A' B' C' F' : Matrix (Fin n') (Fin n') ℂ}
    (hA : A' * g.D = g.D * ((g.x ^ 2 : ℂ) • A - (g.x * g.y : ℂ) • (B + C) + (g.y ^ 2 : ℂ) • F))
    (hB : B' * g.D = g.D * ((g.x * g.y : ℂ) • (A - F) + (g.x ^ 2 : ℂ) • B - (g.y ^ 2 : ℂ) • C))
    (hC : C' * g.D = g.D * ((g.x * g.y : ℂ) • (A - F) - (g.y ^ 2 : ℂ) • B + (g.x ^ 2 : ℂ) • C))
    (hF : F' * g.D = g.D * ((g.y ^ 2 : ℂ) • A + (g.x * g.y : ℂ) • (B + C) + (g.x ^ 2 : ℂ) • F)) :
    fromBlocks A' B' C' F' * g.U = g.U * fromBlocks A B C F := by
  have h1 := g.hxyC
  unfold U
  rw [hd, fromBlocks_multiply, fromBlocks_multiply]
  simp only [Matrix.mul_smul, Matrix.smul_mul, hA, hB, hC, hF, Complex.ofReal_one, one_mul, Matrix.mul_add, Matrix.mul_sub, smul_add, smul_sub,
    smul_smul]
  congr 1
  all_goals
    ext i j
    simp only [Matrix.add_apply, Matrix.sub_apply, Matrix.smul_apply, smul_eq_mul]
  · linear_combination (g.x * (g.D * A) i j - g.y * (g.D * C) i j) * h1
  · linear_combination (g.x * (g.D * B) i j - g.y * (g.D * F) i j) * h1
  · linear_combination (g.y * (g.D * A) i j + g.x * (g.D * C) i j) * h1
  · linear_combination (g.y * (g.D * B) i j + g.x * (g.D * F) i j) * h1

theorem U_inv {M' : Matrix (Idx n') (Idx n') ℂ} {M : Matrix (Idx n) (Idx n) ℂ}
    (h : M' * g.U = g.U * M) (hM' : M'.det ≠ 0) (hM : M.det ≠ 0) : M'⁻¹ * g.U = g.U * M⁻¹ := by
  have e := congrArg (fun X => M'⁻¹ * X * M⁻¹) h
  rw [← Matrix.mul_assoc, nonsing_inv_mul _ (det_unit hM'), Matrix.one_mul, Matrix.mul_assoc M'⁻¹, Matrix.mul_assoc g.U,
    mul_nonsing_inv _ (det_unit hM), Matrix.mul_one] at e
  exact e.symm

end OrderMap

namespace Motion

/-- A pattern and the moved pattern, its values multiplied by `k`. -/
def GridMoved (m : Motion) (k : ℂ) (u u' : PGrid) : Prop :=
  ∃ (Nx Ny : ℕ) (w w' : Grid Nx Ny) (sx sy : ℤ), u = ⟨Nx, Ny, w⟩ ∧ u' = ⟨Nx, Ny, w'⟩ ∧ m.Shift Nx Ny sx sy ∧
    ∀ x y, w' x y = k * w (mv m.ex sx x) (mv m.ey sy y)

/-- A vector field and the moved vector field, up to a phase at every pixel among those which `good` allows. -/
def FieldMovedUpTo (m : Motion) (good : ℂ → Prop) (t t' : Field2) : Prop :=
  ∃ (Nx Ny : ℕ) (a b a' b' : Grid Nx Ny) (sx sy : ℤ), t = ⟨Nx, Ny, a, b⟩ ∧ t' = ⟨Nx, Ny, a', b'⟩ ∧ m.Shift Nx Ny sx sy ∧
    ∀ x y, ∃ l : ℂ, good l ∧
      a' x y = l * ((m.d * m.x : ℝ) * a (mv m.ex sx x) (mv m.ey sy y) - (m.y : ℝ) * b (mv m.ex sx x) (mv m.ey sy y)) ∧
      b' x y = l * ((m.d * m.y : ℝ) * a (mv m.ex sx x) (mv m.ey sy y) + (m.x : ℝ) * b (mv m.ex sx x) (mv m.ey sy y))

/-- A vector field and the moved vector field. -/
def FieldMoved (m : Motion) (t t' : Field2) : Prop := m.FieldMovedUpTo (· = 1) t t'

/-- A motion which leaves every pixel where it is. -/
structure Still (m : Motion) : Prop where
  ex : m.ex = 1
  ey : m.ey = 1
  u : m.u = 0
  v : m.v = 0
  d : m.d = 1

/-- A layer and the moved layer. -/
structure LayerMoved (m : Motion) (fm : String) (L L' : LayerSpec) : Prop where
  name : L'.name = L.name
  mu : L'.mu = L.mu
  copy : L'.iscopy = L.iscopy
  orig : L'.original = L.original
  thick : L'.thickness = L.thickness.map (m.s * ·)
  shape : L'.epsilon.shape = L.epsilon.shape
  unif : L.isUniform = true → L'.epsilon = L.epsilon
  iso : ∀ Nx Ny, L.isUniform = false → L.epsilon.shape = [Nx, Ny] → ∃ sx sy, m.Shift Nx Ny sx sy ∧ ∀ (x : Fin Nx) (y : Fin Ny),
    L'.epsilon.data [x, y] = L.epsilon.data [(mv m.ex sx x : Fin Nx), (mv m.ey sy y : Fin Ny)]
  aniso : ∀ Nx Ny, L.epsilon.shape = [3, 3, Nx, Ny] → (m.y = 0 ∧ ∃ sx sy, m.Shift Nx Ny sx sy ∧ ∀ (x : Fin Nx) (y : Fin Ny),
    (∀ i, i < 3 → L'.epsilon.data [i, i, x, y] = L.epsilon.data [i, i, (mv m.ex sx x : Fin Nx), (mv m.ey sy y : Fin Ny)]) ∧
    L'.epsilon.data [0, 1, x, y] = (m.d : ℂ) * L.epsilon.data [0, 1, (mv m.ex sx x : Fin Nx), (mv m.ey sy y : Fin Ny)] ∧
    L'.epsilon.data [1, 0, x, y] = (m.d : ℂ) * L.epsilon.data [1, 0, (mv m.ex sx x : Fin Nx), (mv m.ey sy y : Fin Ny)]) ∨
    (m.Still ∧ ∀ (x : Fin Nx) (y : Fin Ny), L'.epsilon.data [2, 2, x, y] = L.epsilon.data [2, 2, x, y] ∧
      L'.epsilon.data [0, 0, x, y] = m.x ^ 2 * L.epsilon.data [0, 0, x, y] - m.x * m.y * (L.epsilon.data [0, 1, x, y] + L.epsilon.data [1, 0, x, y]) +
        m.y ^ 2 * L.epsilon.data [1, 1, x, y] ∧
      L'.epsilon.data [0, 1, x, y] = m.x * m.y * (L.epsilon.data [0, 0, x, y] - L.epsilon.data [1, 1, x, y]) + m.x ^ 2 * L.epsilon.data [0, 1, x, y] -
        m.y ^ 2 * L.epsilon.data [1, 0, x, y] ∧
      L'.epsilon.data [1, 0, x, y] = m.x * m.y * (L.epsilon.data [0, 0, x, y] - L.epsilon.data [1, 1, x, y]) - m.y ^ 2 * L.epsilon.data [0, 1, x, y] +
        m.x ^ 2 * L.epsilon.data [1, 0, x, y] ∧
      L'.epsilon.data [1, 1, x, y] = m.y ^ 2 * L.epsilon.data [0, 0, x, y] + m.x * m.y * (L.epsilon.data [0, 1, x, y] + L.epsilon.data [1, 0, x, y]) +
        m.x ^ 2 * L.epsilon.data [1, 1, x, y])
  form : fm = "original" ∨ m.y = 0 ∨ m.x = 0
  square : fm = "original" ∨ (∀ Nx Ny, L.epsilon.shape = [3, 3, Nx, Ny] → Nx = Ny) ∨ (m.Still ∧ m.y = 0)
  jones : fm = "jones" → m.d = 1

end Motion

variable {E E' : Ext} {c c' : Static} {m : Motion}

theorem GridMoved.toep {σ : Fin c.nh ≃ Fin c'.nh} (hσ : ∀ i, c'.harmonics.get (σ i) = m.transf.f (c.harmonics.get i))
    {k : ℂ} {u u' : PGrid} (h : m.GridMoved k u u') {A A'} (hA : c.toep u = .ok A) (hA' : c'.toep u' = .ok A') :
    A' * (m.transf.orderMap c c' σ).D = k • ((m.transf.orderMap c c' σ).D * A) := by
  obtain ⟨Nx, Ny, w, w', sx, sy, rfl, rfl, hs, hw⟩ := h
  exact toep_moved hσ hs hw hA hA'

theorem GridMoved.recip {u u' v v' : PGrid} (h : m.GridMoved 1 u u') (hv : recipGrid u = .ok v) (hv' : recipGrid u' = .ok v') :
    m.GridMoved 1 v v' := by
  obtain ⟨Nx, Ny, w, w', sx, sy, rfl, rfl, hs, hw⟩ := h
  unfold recipGrid at hv hv'
  split at hv
  · simp at hv
  split at hv'
  · simp at hv'
  simp only [Except.ok.injEq] at hv hv'
  subst hv hv'
  refine ⟨Nx, Ny, _, _, sx, sy, rfl, rfl, hs, fun x y => ?_⟩
  rw [hw x y]
  simp

theorem nuIso_moved {σ : Fin c.nh ≃ Fin c'.nh} (hσ : ∀ i, c'.harmonics.get (σ i) = m.transf.f (c.harmonics.get i))
    {u u' : PGrid} (h : m.GridMoved 1 u u') {A A'} (hA : nuHatInvIso c u = .ok A) (hA' : nuHatInvIso c' u' = .ok A') :
    A' * (m.transf.orderMap c c' σ).D = (m.transf.orderMap c c' σ).D * A := by
  unfold nuHatInvIso at hA hA'
  simp only [bind_eq_ok] at hA hA'
  obtain ⟨v, a1, B, a2, a3⟩ := hA
  obtain ⟨v', a1', B', a2', a3'⟩ := hA'
  rw [linInv_ok] at a3 a3'
  rw [a3.2, a3'.2]
  refine OrderMap.intertwine_inv _ ?_ a3'.1 a3.1
  rw [GridMoved.toep hσ (GridMoved.recip h a1 a1') a2 a2', one_smul]

/-- A transverse tensor and the moved tensor, for a motion without rotation. -/
structure TensorMoved (m : Motion) (p p' : Trans4 PGrid) : Prop where
  ex : ∃ (N : ℕ) (M : ℕ) (a b c d a' b' c' d' : Grid N M) (sx sy : ℤ), m.Shift N M sx sy ∧
    p = ⟨⟨N, M, a⟩, ⟨N, M, b⟩, ⟨N, M, c⟩, ⟨N, M, d⟩⟩ ∧ p' = ⟨⟨N, M, a'⟩, ⟨N, M, b'⟩, ⟨N, M, c'⟩, ⟨N, M, d'⟩⟩ ∧
    ∀ x y, a' x y = a (mv m.ex sx x) (mv m.ey sy y) ∧ b' x y = (m.d : ℂ) * b (mv m.ex sx x) (mv m.ey sy y) ∧
      c' x y = (m.d : ℂ) * c (mv m.ex sx x) (mv m.ey sy y) ∧ d' x y = d (mv m.ex sx x) (mv m.ey sy y)

theorem TensorMoved.grids {p p' : Trans4 PGrid} (h : TensorMoved m p p') :
    m.GridMoved 1 p.xx p'.xx ∧ m.GridMoved m.d p.xy p'.xy ∧ m.GridMoved m.d p.yx p'.yx ∧ m.GridMoved 1 p.yy p'.yy := by
  obtain ⟨N, M, a, b, c, d, a', b', c', d', sx, sy, hs, rfl, rfl, hh⟩ := h.ex
  refine ⟨⟨N, M, a, a', sx, sy, rfl, rfl, hs, fun x y => ?_⟩, ⟨N, M, b, b', sx, sy, rfl, rfl, hs, fun x y => ?_⟩,
    ⟨N, M, c, c', sx, sy, rfl, rfl, hs, fun x y => ?_⟩, ⟨N, M, d, d', sx, sy, rfl, rfl, hs, fun x y => ?_⟩⟩
  · rw [(hh x y).1, one_mul]
  · exact (hh x y).2.1
  · exact (hh x y).2.2.1
  · rw [(hh x y).2.2.2, one_mul]

theorem trans4_mapM_ok {f : PGrid → Except PyErr (Matrix (Fin c.nh) (Fin c.nh) ℂ)} {t : Trans4 PGrid} {r}
    (h : t.mapM f = .ok r) : f t.xx = .ok r.xx ∧ f t.xy = .ok r.xy ∧ f t.yx = .ok r.yx ∧ f t.yy = .ok r.yy := by
  unfold Trans4.mapM at h
  simp only [bind_eq_ok] at h
  obtain ⟨a, h1, b, h2, d, h3, e, h4, h5⟩ := h
  simp only [except_pure_eq_ok, Except.ok.injEq] at h5
  subst h5
  exact ⟨h1, h2, h3, h4⟩

theorem TensorMoved.block {σ : Fin c.nh ≃ Fin c'.nh} (hσ : ∀ i, c'.harmonics.get (σ i) = m.transf.f (c.harmonics.get i))
    (hy : m.y = 0) {p p' : Trans4 PGrid} (h : TensorMoved m p p') {B B'} (hB : p.mapM c.toep = .ok B)
    (hB' : p'.mapM c'.toep = .ok B') :
    B'.block * (m.transf.orderMap c c' σ).U = (m.transf.orderMap c c' σ).U * B.block := by
  obtain ⟨g1, g2, g3, g4⟩ := h.grids
  obtain ⟨b1, b2, b3, b4⟩ := trans4_mapM_ok hB
  obtain ⟨b1', b2', b3', b4'⟩ := trans4_mapM_ok hB'
  unfold Trans4.block
  refine OrderMap.block_intertwine _ hy ?_ ?_ ?_ ?_
  · rw [GridMoved.toep hσ g1 b1 b1', one_smul]
  · rw [GridMoved.toep hσ g2 b2 b2']; rfl
  · rw [GridMoved.toep hσ g3 b3 b3']; rfl
  · rw [GridMoved.toep hσ g4 b4 b4', one_smul]

theorem mv_id {N : ℕ} (x : Fin N) : mv 1 0 x = x := by
  refine Fin.ext ?_
  change ((1 * ((x : ℕ) : ℤ) - 0) % (N : ℤ)).toNat = x
  rw [one_mul, sub_zero, Int.emod_eq_of_lt (by positivity) (by exact_mod_cast x.2)]
  rfl

theorem TensorMoved.still (hm : m.Still) {p p' : Trans4 PGrid} (h : TensorMoved m p p') : p' = p := by
  obtain ⟨N, M, a, b, c, d, a', b', c', d', sx, sy, hs, rfl, rfl, hh⟩ := h.ex
  obtain ⟨k1, k2⟩ := hs
  rw [hm.u, mul_zero] at k1
  rw [hm.v, mul_zero] at k2
  obtain rfl : sx = 0 := by exact_mod_cast k1
  obtain rfl : sy = 0 := by exact_mod_cast k2
  simp only [hm.ex, hm.ey, hm.d, mv_id, Complex.ofReal_one, one_mul] at hh
  obtain rfl : a' = a := by funext x y; exact (hh x y).1
  obtain rfl : b' = b := by funext x y; exact (hh x y).2.1
  obtain rfl : c' = c := by funext x y; exact (hh x y).2.2.1
  obtain rfl : d' = d := by funext x y; exact (hh x y).2.2.2
  rfl

theorem TensorMoved.inv {p p' q q' : Trans4 PGrid} (h : TensorMoved m p p') (hsq : p.xx.Nx = p.xx.Ny ∨ m.Still)
    (hq : pointwiseInv p.xx p.xy p.yx p.yy = .ok q) (hq' : pointwiseInv p'.xx p'.xy p'.yx p'.yy = .ok q') :
    TensorMoved m q q' := by
  rcases hsq with hNM | hm
  · obtain ⟨N, M, a, b, c, d, a', b', c', d', sx, sy, hs, rfl, rfl, hh⟩ := h.ex
    have hd : (m.d : ℂ) ^ 2 = 1 := by exact_mod_cast congrArg (fun t : ℝ => (t : ℂ)) m.hd
    obtain rfl : N = M := hNM
    rw [pointwiseInv_square] at hq hq'
    obtain ⟨-, rfl⟩ := inv4_ok hq
    obtain ⟨-, rfl⟩ := inv4_ok hq'
    refine ⟨N, N, _, _, _, _, _, _, _, _, sx, sy, hs, rfl, rfl, fun x y => ?_⟩
    obtain ⟨h1, h2, h3, h4⟩ := hh x y
    have hdet : a' x y * d' x y - c' x y * b' x y =
        a (mv m.ex sx x) (mv m.ey sy y) * d (mv m.ex sx x) (mv m.ey sy y) -
          c (mv m.ex sx x) (mv m.ey sy y) * b (mv m.ex sx x) (mv m.ey sy y) := by
      rw [h1, h2, h3, h4]
      linear_combination -(c (mv m.ex sx x) (mv m.ey sy y) * b (mv m.ex sx x) (mv m.ey sy y)) * hd
    refine ⟨?_, ?_, ?_, ?_⟩
    · rw [hdet, h4]
    · rw [hdet, h2]; ring
    · rw [hdet, h3]; ring
    · rw [hdet, h1]
  · rw [h.still hm, hq] at hq'
    obtain rfl := Except.ok.inj hq'
    obtain ⟨N, M, a, b, c, d, -, -, -, -, -, -, -, rfl, -, -⟩ := h.ex
    obtain ⟨e, f, g, k, rfl⟩ := pointwiseInv_shape hq
    refine ⟨N, N, _, _, _, _, _, _, _, _, 0, 0, ⟨?_, ?_⟩, rfl, rfl, fun x y => ?_⟩
    · rw [hm.u]; simp
    · rw [hm.v]; simp
    · simp only [hm.ex, hm.ey, hm.d, mv_id, Complex.ofReal_one, one_mul]
      simp

theorem nuAniso_moved {σ : Fin c.nh ≃ Fin c'.nh} (hσ : ∀ i, c'.harmonics.get (σ i) = m.transf.f (c.harmonics.get i))
    (hy : m.y = 0) {p p' : Trans4 PGrid} (h : TensorMoved m p p') (hsq : p.xx.Nx = p.xx.Ny ∨ m.Still) {B B'}
    (hB : nuHatInvAniso c p = .ok B)
    (hB' : nuHatInvAniso c' p' = .ok B') :
    B' * (m.transf.orderMap c c' σ).U = (m.transf.orderMap c c' σ).U * B := by
  unfold nuHatInvAniso at hB hB'
  simp only [bind_eq_ok] at hB hB'
  obtain ⟨q, a1, C, a2, a3⟩ := hB
  obtain ⟨q', a1', C', a2', a3'⟩ := hB'
  rw [linInv_ok] at a3 a3'
  rw [a3.2, a3'.2]
  exact OrderMap.U_inv _ ((TensorMoved.inv h hsq a1 a1').block hσ hy a2 a2') a3'.1 a3.1

/-- Toeplitz matrices of sums. -/
theorem toep_sum4 {N M : ℕ} {u v w z : Grid N M} {A B C F : Matrix (Fin c.nh) (Fin c.nh) ℂ} (h1 : c.toep ⟨N, M, u⟩ = .ok A)
    (h2 : c.toep ⟨N, M, v⟩ = .ok B) (h3 : c.toep ⟨N, M, w⟩ = .ok C) (h4 : c.toep ⟨N, M, z⟩ = .ok F) (p q r s : ℂ) :
    c.toep ⟨N, M, fun x y => (p * u x y + q * v x y) + (r * w x y + s * z x y)⟩ = .ok ((p • A + q • B) + (r • C + s • F)) := by
  unfold Static.toep at *
  dsimp only at *
  rcases Nat.eq_zero_or_pos c.nh with h0 | hpos
  · obtain ⟨X, hX⟩ := toeplitz_exists (H := c.harmonics.get) (fun x y => (p * u x y + q * v x y) + (r * w x y + s * z x y)) (fun i => absurd i.2 (by
      have : c.harmonics.length = 0 := h0
      omega))
    rw [hX]
    congr 1
    ext i
    exact absurd (lt_of_lt_of_eq i.2 h0) (by omega)
  obtain ⟨n1, n2⟩ := toep_pos h1 ⟨0, hpos⟩
  haveI : NeZero N := ⟨n1⟩
  haveI : NeZero M := ⟨n2⟩
  obtain ⟨b, rfl⟩ := toeplitz_ok h1
  obtain ⟨-, rfl⟩ := toeplitz_ok h2
  obtain ⟨-, rfl⟩ := toeplitz_ok h3
  obtain ⟨-, rfl⟩ := toeplitz_ok h4
  obtain ⟨X, hX⟩ := toeplitz_exists (fun x y => (p * u x y + q * v x y) + (r * w x y + s * z x y)) b
  rw [hX]
  obtain ⟨-, rfl⟩ := toeplitz_ok hX
  congr 1
  ext i j
  simp only [of_apply, Matrix.add_apply, Matrix.smul_apply, smul_eq_mul]
  have e := coeff_linear (fun x y => p * u x y + q * v x y) (fun x y => r * w x y + s * z x y) 1 1
  simp only [one_mul] at e
  rw [e, coeff_linear, coeff_linear]

/-- A transverse tensor and the turned tensor. -/
structure TensorTurned (m : Motion) (p p' : Trans4 PGrid) : Prop where
  still : m.Still
  ex : ∃ (N : ℕ) (M : ℕ) (a b c d a' b' c' d' : Grid N M),
    p = ⟨⟨N, M, a⟩, ⟨N, M, b⟩, ⟨N, M, c⟩, ⟨N, M, d⟩⟩ ∧ p' = ⟨⟨N, M, a'⟩, ⟨N, M, b'⟩, ⟨N, M, c'⟩, ⟨N, M, d'⟩⟩ ∧
    ∀ x y, a' x y = m.x ^ 2 * a x y - m.x * m.y * (b x y + c x y) + m.y ^ 2 * d x y ∧
      b' x y = m.x * m.y * (a x y - d x y) + m.x ^ 2 * b x y - m.y ^ 2 * c x y ∧
      c' x y = m.x * m.y * (a x y - d x y) - m.y ^ 2 * b x y + m.x ^ 2 * c x y ∧
      d' x y = m.y ^ 2 * a x y + m.x * m.y * (b x y + c x y) + m.x ^ 2 * d x y

theorem Still.toep {σ : Fin c.nh ≃ Fin c'.nh} (hσ : ∀ i, c'.harmonics.get (σ i) = m.transf.f (c.harmonics.get i)) (hm : m.Still)
    {u : PGrid} {A A'} (hA : c.toep u = .ok A) (hA' : c'.toep u = .ok A') :
    A' * (m.transf.orderMap c c' σ).D = (m.transf.orderMap c c' σ).D * A := by
  rw [GridMoved.toep (k := 1) hσ ⟨u.Nx, u.Ny, u.g, u.g, 0, 0, rfl, rfl, ⟨by rw [hm.u]; simp, by rw [hm.v]; simp⟩, fun x y => by
    rw [hm.ex, hm.ey, mv_id, mv_id, one_mul]⟩ hA hA', one_smul]

theorem TensorTurned.block {σ : Fin c.nh ≃ Fin c'.nh} (hσ : ∀ i, c'.harmonics.get (σ i) = m.transf.f (c.harmonics.get i))
    {p p' : Trans4 PGrid} (h : TensorTurned m p p') {B B'} (hB : p.mapM c.toep = .ok B)
    (hB' : p'.mapM c'.toep = .ok B') :
    B'.block * (m.transf.orderMap c c' σ).U = (m.transf.orderMap c c' σ).U * B.block := by
  obtain ⟨N, M, a, b, e, d, a', b', e', d', rfl, rfl, hh⟩ := h.ex
  obtain ⟨b1, b2, b3, b4⟩ := trans4_mapM_ok hB
  obtain ⟨b1', b2', b3', b4'⟩ := trans4_mapM_ok hB'
  have hs := toep_sum4 b1 b2 b3 b4
  dsimp only at b1' b2' b3' b4'
  unfold Trans4.block
  refine OrderMap.block_turn _ h.still.d ?_ ?_ ?_ ?_
  · rw [show a' = fun x y => ((m.x : ℂ) ^ 2 * a x y + -(m.x * m.y) * b x y) + (-(m.x * m.y) * e x y + m.y ^ 2 * d x y) by
      funext x y; rw [(hh x y).1]; ring] at b1'
    rw [Still.toep hσ h.still (hs _ _ _ _) b1']
    congr 1
    ext i j
    simp only [Matrix.add_apply, Matrix.sub_apply, Matrix.smul_apply, smul_eq_mul]
    change _ = (m.x : ℂ) ^ 2 * _ - (m.x * m.y : ℂ) * _ + (m.y : ℂ) ^ 2 * _
    ring
  · rw [show b' = fun x y => ((m.x * m.y : ℂ) * a x y + m.x ^ 2 * b x y) + (-m.y ^ 2 * e x y + -(m.x * m.y) * d x y) by
      funext x y; rw [(hh x y).2.1]; ring] at b2'
    rw [Still.toep hσ h.still (hs _ _ _ _) b2']
    congr 1
    ext i j
    simp only [Matrix.add_apply, Matrix.sub_apply, Matrix.smul_apply, smul_eq_mul]
    change _ = (m.x * m.y : ℂ) * _ + (m.x : ℂ) ^ 2 * _ - (m.y : ℂ) ^ 2 * _
    ring
  · rw [show e' = fun x y => ((m.x * m.y : ℂ) * a x y + -m.y ^ 2 * b x y) + (m.x ^ 2 * e x y + -(m.x * m.y) * d x y) by
      funext x y; rw [(hh x y).2.2.1]; ring] at b3'
    rw [Still.toep hσ h.still (hs _ _ _ _) b3']
    congr 1
    ext i j
    simp only [Matrix.add_apply, Matrix.sub_apply, Matrix.smul_apply, smul_eq_mul]
    change _ = (m.x * m.y : ℂ) * _ - (m.y : ℂ) ^ 2 * _ + (m.x : ℂ) ^ 2 * _
    ring
  · rw [show d' = fun x y => ((m.y : ℂ) ^ 2 * a x y + m.x * m.y * b x y) + (m.x * m.y * e x y + m.x ^ 2 * d x y) by
      funext x y; rw [(hh x y).2.2.2]; ring] at b4'
    rw [Still.toep hσ h.still (hs _ _ _ _) b4']
    congr 1
    ext i j
    simp only [Matrix.add_apply, Matrix.smul_apply, smul_eq_mul]
    change _ = (m.y : ℂ) ^ 2 * _ + (m.x * m.y : ℂ) * _ + (m.x : ℂ) ^ 2 * _
    ring

theorem TensorTurned.inv {p p' q q' : Trans4 PGrid} (h : TensorTurned m p p') (hNM : p.xx.Nx = p.xx.Ny)
    (hq : pointwiseInv p.xx p.xy p.yx p.yy = .ok q) (hq' : pointwiseInv p'.xx p'.xy p'.yx p'.yy = .ok q') :
    TensorTurned m q q' := by
  obtain ⟨N, M, a, b, c, d, a', b', c', d', rfl, rfl, hh⟩ := h.ex
  have hxy : (m.x : ℂ) ^ 2 + (m.y : ℂ) ^ 2 = 1 := by exact_mod_cast congrArg (fun t : ℝ => (t : ℂ)) m.hxy
  obtain rfl : N = M := hNM
  rw [pointwiseInv_square] at hq hq'
  obtain ⟨-, rfl⟩ := inv4_ok hq
  obtain ⟨-, rfl⟩ := inv4_ok hq'
  refine ⟨h.still, N, N, _, _, _, _, _, _, _, _, rfl, rfl, fun x y => ?_⟩
  obtain ⟨h1, h2, h3, h4⟩ := hh x y
  have hdet : a' x y * d' x y - c' x y * b' x y = a x y * d x y - c x y * b x y := by
    rw [h1, h2, h3, h4]
    linear_combination (a x y * d x y - c x y * b x y) * ((m.x : ℂ) ^ 2 + (m.y : ℂ) ^ 2 + 1) * hxy
  refine ⟨?_, ?_, ?_, ?_⟩
  · rw [hdet, h4]; ring
  · rw [hdet, h2]; ring
  · rw [hdet, h3]; ring
  · rw [hdet, h1]; ring

theorem nuAniso_turned {σ : Fin c.nh ≃ Fin c'.nh} (hσ : ∀ i, c'.harmonics.get (σ i) = m.transf.f (c.harmonics.get i))
    {p p' : Trans4 PGrid} (h : TensorTurned m p p') (hsq : p.xx.Nx = p.xx.Ny) {B B'}
    (hB : nuHatInvAniso c p = .ok B)
    (hB' : nuHatInvAniso c' p' = .ok B') :
    B' * (m.transf.orderMap c c' σ).U = (m.transf.orderMap c c' σ).U * B := by
  unfold nuHatInvAniso at hB hB'
  simp only [bind_eq_ok] at hB hB'
  obtain ⟨q, a1, C, a2, a3⟩ := hB
  obtain ⟨q', a1', C', a2', a3'⟩ := hB'
  rw [linInv_ok] at a3 a3'
  rw [a3.2, a3'.2]
  exact OrderMap.U_inv _ ((TensorTurned.inv h hsq a1 a1').block hσ a2 a2') a3'.1 a3.1

theorem normPt_sign {a b : ℂ} {r s : ℝ} (hr : r ^ 2 = 1) (hs : s ^ 2 = 1) : normPt (r * a) (s * b) = normPt a b := by
  unfold normPt
  rw [Complex.normSq_mul, Complex.normSq_mul, Complex.normSq_ofReal, Complex.normSq_ofReal, ← pow_two, ← pow_two, hr, hs,
    one_mul, one_mul]

/-- Rotation and phase do not change the length of real multiples. -/
theorem normPt_moved {a b l : ℂ} (hl : Complex.normSq l = 1) (hxy : m.y = 0 ∨ m.x = 0) :
    normPt (l * ((m.d * m.x : ℝ) * a - (m.y : ℝ) * b)) (l * ((m.d * m.y : ℝ) * a + (m.x : ℝ) * b)) = normPt a b := by
  have hd := m.hd
  have h1 := m.hxy
  unfold normPt
  rw [Complex.normSq_mul, Complex.normSq_mul, hl, one_mul, one_mul]
  congr 2
  rcases hxy with h | h
  · have hx : m.x ^ 2 = 1 := by rw [h] at h1; linarith
    rw [h]
    simp only [mul_zero, Complex.ofReal_zero, zero_mul, sub_zero, zero_add, Complex.normSq_mul, Complex.normSq_ofReal]
    linear_combination Complex.normSq a * (hd * m.x ^ 2 + hx) + Complex.normSq b * hx
  · have hy : m.y ^ 2 = 1 := by rw [h] at h1; linarith
    rw [h]
    simp only [mul_zero, Complex.ofReal_zero, zero_mul, zero_sub, add_zero, Complex.normSq_mul, Complex.normSq_ofReal, Complex.normSq_neg]
    linear_combination Complex.normSq a * (hd * m.y ^ 2 + hy) + Complex.normSq b * hy

theorem getPeps_moved {σ : Fin c.nh ≃ Fin c'.nh} (hσ : ∀ i, c'.harmonics.get (σ i) = m.transf.f (c.harmonics.get i))
    (hxy : m.y = 0 ∨ m.x = 0) {t t' : Field2} (ht : m.FieldMovedUpTo (fun l => Complex.normSq l = 1) t t') {P N X P' N' X'}
    (hP : P' * (m.transf.orderMap c c' σ).U = (m.transf.orderMap c c' σ).U * P)
    (hN : N' * (m.transf.orderMap c c' σ).U = (m.transf.orderMap c c' σ).U * N)
    (h : getPeps c P N t = .ok X) (h' : getPeps c' P' N' t' = .ok X') :
    X' * (m.transf.orderMap c c' σ).U = (m.transf.orderMap c c' σ).U * X := by
  unfold getPeps at h h'
  simp only [bind_eq_ok] at h h'
  obtain ⟨Pxx, h1, Pyy, h2, Pxy, h3, Pyx, h4, h5⟩ := h
  obtain ⟨Pxx', h1', Pyy', h2', Pxy', h3', Pyx', h4', h5'⟩ := h'
  simp only [except_pure_eq_ok, Except.ok.injEq] at h5 h5'
  subst h5 h5'
  have hd := m.hd
  have hdC : (m.d : ℂ) ^ 2 = 1 := by exact_mod_cast congrArg (fun t : ℝ => (t : ℂ)) hd
  have key : ∀ (f g : ℂ → ℂ → ℂ) (k : ℂ), (∀ a b l : ℂ, Complex.normSq l = 1 →
      f (l * ((m.d * m.x : ℝ) * a - (m.y : ℝ) * b)) (l * ((m.d * m.y : ℝ) * a + (m.x : ℝ) * b)) = k * g a b) →
      m.GridMoved k (projField t g) (projField t' f) := by
    intro f g k hf
    obtain ⟨Nx, Ny, a, b, a', b', sx, sy, rfl, rfl, hs, hab⟩ := ht
    refine ⟨Nx, Ny, _, _, sx, sy, rfl, rfl, hs, fun x y => ?_⟩
    obtain ⟨l, hl, e1, e2⟩ := hab x y
    dsimp only
    rw [e1, e2, normPt_moved hl hxy, hf _ _ _ hl]
    ring
  have hll : ∀ l : ℂ, Complex.normSq l = 1 → l * (starRingEnd ℂ) l = 1 := fun l hl => by
    rw [Complex.mul_conj, hl]; simp
  have hPi : fromBlocks Pyy' Pyx' Pxy' Pxx' * (m.transf.orderMap c c' σ).U =
      (m.transf.orderMap c c' σ).U * fromBlocks Pyy Pyx Pxy Pxx := by
    rcases hxy with hy | hx
    · have hx : m.x ^ 2 = 1 := by have := m.hxy; rw [hy] at this; linarith
      have hxC : (m.x : ℂ) ^ 2 = 1 := by exact_mod_cast congrArg (fun t : ℝ => (t : ℂ)) hx
      simp only [hy, Complex.ofReal_zero, zero_mul, sub_zero, mul_zero, zero_add] at key
      have q1 := GridMoved.toep hσ (key (fun a _ => a * star a) (fun a _ => a * star a) 1 (by
        intro a b l hl
        simp only [star_mul', Complex.star_def, Complex.conj_ofReal]
        push_cast
        linear_combination (m.d * m.x * a * (m.d * m.x * (starRingEnd ℂ) a)) * hll l hl +
          a * (starRingEnd ℂ) a * (hxC * (m.d : ℂ) ^ 2 + hdC))) h1 h1'
      have q2 := GridMoved.toep hσ (key (fun _ b => b * star b) (fun _ b => b * star b) 1 (by
        intro a b l hl
        simp only [star_mul', Complex.star_def, Complex.conj_ofReal]
        linear_combination (m.x * b * (m.x * (starRingEnd ℂ) b)) * hll l hl + b * (starRingEnd ℂ) b * hxC)) h2 h2'
      have q3 := GridMoved.toep hσ (key (fun a b => a * star b) (fun a b => a * star b) (m.d : ℂ) (by
        intro a b l hl
        simp only [star_mul', Complex.star_def, Complex.conj_ofReal]
        push_cast
        linear_combination (m.d * m.x * a * (m.x * (starRingEnd ℂ) b)) * hll l hl + (m.d : ℂ) * a * (starRingEnd ℂ) b * hxC)) h3 h3'
      have q4 := GridMoved.toep hσ (key (fun a b => b * star a) (fun a b => b * star a) (m.d : ℂ) (by
        intro a b l hl
        simp only [star_mul', Complex.star_def, Complex.conj_ofReal]
        push_cast
        linear_combination (m.x * b * (m.d * m.x * (starRingEnd ℂ) a)) * hll l hl + (m.d : ℂ) * b * (starRingEnd ℂ) a * hxC)) h4 h4'
      rw [one_smul] at q1 q2
      exact OrderMap.block_intertwine (m.transf.orderMap c c' σ) hy q2 q4 q3 q1
    · have hy : m.y ^ 2 = 1 := by have := m.hxy; rw [hx] at this; linarith
      have hyC : (m.y : ℂ) ^ 2 = 1 := by exact_mod_cast congrArg (fun t : ℝ => (t : ℂ)) hy
      simp only [hx, Complex.ofReal_zero, zero_mul, zero_sub, mul_zero, add_zero] at key
      have q1 := GridMoved.toep hσ (key (fun a _ => a * star a) (fun _ b => b * star b) 1 (by
        intro a b l hl
        simp only [star_mul', star_neg, Complex.star_def, Complex.conj_ofReal]
        linear_combination (m.y * b * (m.y * (starRingEnd ℂ) b)) * hll l hl + b * (starRingEnd ℂ) b * hyC)) h2 h1'
      have q2 := GridMoved.toep hσ (key (fun _ b => b * star b) (fun a _ => a * star a) 1 (by
        intro a b l hl
        simp only [star_mul', Complex.star_def, Complex.conj_ofReal]
        push_cast
        linear_combination (m.d * m.y * a * (m.d * m.y * (starRingEnd ℂ) a)) * hll l hl +
          a * (starRingEnd ℂ) a * (hyC * (m.d : ℂ) ^ 2 + hdC))) h1 h2'
      have q3 := GridMoved.toep hσ (key (fun a b => a * star b) (fun a b => b * star a) (-m.d : ℂ) (by
        intro a b l hl
        simp only [star_mul', star_neg, Complex.star_def, Complex.conj_ofReal]
        push_cast
        linear_combination -(m.y * b * (m.d * m.y * (starRingEnd ℂ) a)) * hll l hl - (m.d : ℂ) * b * (starRingEnd ℂ) a * hyC)) h4 h3'
      have q4 := GridMoved.toep hσ (key (fun a b => b * star a) (fun a b => a * star b) (-m.d : ℂ) (by
        intro a b l hl
        simp only [star_mul', star_neg, Complex.star_def, Complex.conj_ofReal]
        push_cast
        linear_combination -(m.d * m.y * a * (m.y * (starRingEnd ℂ) b)) * hll l hl - (m.d : ℂ) * a * (starRingEnd ℂ) b * hyC)) h3 h4'
      rw [one_smul] at q1 q2
      exact OrderMap.block_quarter (m.transf.orderMap c c' σ) hx q2 q4 q3 q1
  rw [Matrix.sub_mul, Matrix.mul_sub, hP, Matrix.mul_assoc, hPi, ← Matrix.mul_assoc, ← Matrix.mul_assoc, Matrix.sub_mul,
    hP, hN, Matrix.mul_sub]

theorem Motion.FieldMoved.upTo {t t' : Field2} (h : m.FieldMoved t t') : m.FieldMovedUpTo (fun l => Complex.normSq l = 1) t t' := by
  obtain ⟨Nx, Ny, a, b, a', b', sx, sy, rfl, rfl, hs, hab⟩ := h
  refine ⟨Nx, Ny, a, b, a', b', sx, sy, rfl, rfl, hs, fun x y => ?_⟩
  obtain ⟨l, rfl, e⟩ := hab x y
  exact ⟨1, by simp, e⟩

theorem toGrid_data {a : NdArr} {u : PGrid} (h : a.toGrid = .ok u) :
    ∃ Nx Ny, a.shape = [Nx, Ny] ∧ u = ⟨Nx, Ny, fun x y => a.data [x, y]⟩ := by
  unfold NdArr.toGrid at h
  split at h
  · rename_i Nx Ny hs
    exact ⟨Nx, Ny, hs, (Except.ok.inj h).symm⟩
  · simp at h
  · simp at h
  · simp at h

theorem aniso_shape {L : LayerSpec} (ha : L.isAnisotropic = true) {i j : ℕ} {u : PGrid}
    (h : (L.epsilon.comp i j).toGrid = .ok u) : ∃ Nx Ny, L.epsilon.shape = [3, 3, Nx, Ny] ∧
      u = ⟨Nx, Ny, fun x y => L.epsilon.data [i, j, x, y]⟩ := by
  obtain ⟨Nx, Ny, h1, h2⟩ := toGrid_data h
  refine ⟨Nx, Ny, ?_, h2⟩
  unfold LayerSpec.isAnisotropic isAnisotropic at ha
  simp only [decide_eq_true_eq] at ha
  unfold NdArr.comp at h1
  dsimp only at h1
  rw [← List.take_append_drop 2 L.epsilon.shape, ha, h1]
  rfl

/-- The Jones vectors turn with the tangent vectors, up to a phase. -/
theorem jonesPt_turn {x y : ℝ} (hxy : x ^ 2 + y ^ 2 = 1) (a b : ℝ) :
    ∃ l : ℂ, Complex.normSq l = 1 ∧ (jonesPt (x * a - y * b) (y * a + x * b)).1 = l * (x * (jonesPt a b).1 - y * (jonesPt a b).2) ∧
      (jonesPt (x * a - y * b) (y * a + x * b)).2 = l * (y * (jonesPt a b).1 + x * (jonesPt a b).2) := by
  have hxyC : (x : ℂ) ^ 2 + (y : ℂ) ^ 2 = 1 := by exact_mod_cast congrArg (fun t : ℝ => (t : ℂ)) hxy
  have hn : normPt ((x * a - y * b : ℝ) : ℂ) ((y * a + x * b : ℝ) : ℂ) = normPt a b := by
    unfold normPt
    simp only [Complex.normSq_ofReal]
    congr 2
    linear_combination (a * a + b * b) * hxy
  by_cases hz : (a + b * Complex.I : ℂ) = 0
  · have h := Complex.ext_iff.mp hz
    simp at h
    rw [h.1, h.2]
    refine ⟨1, by simp, ?_, ?_⟩ <;> simp [jonesPt]
  have hu : (x + y * Complex.I : ℂ) * (x - y * Complex.I) = 1 := by
    linear_combination hxyC - (y : ℂ) ^ 2 * Complex.I_sq
  have hu0 : (x + y * Complex.I : ℂ) ≠ 0 := left_ne_zero_of_mul_eq_one hu
  have huinv : (x + y * Complex.I : ℂ)⁻¹ = x - y * Complex.I := inv_eq_of_mul_eq_one_right hu
  have hnorm : ‖(x + y * Complex.I : ℂ)‖ = 1 := by
    rw [Complex.norm_def, Complex.normSq_add_mul_I, hxy, Real.sqrt_one]
  have hexp : ∀ z : ℂ, z ≠ 0 → Complex.exp (Complex.I * Complex.arg z) = z / ‖z‖ := by
    intro z hz
    have h1 : (‖z‖ : ℂ) ≠ 0 := by exact_mod_cast (norm_pos_iff.mpr hz).ne'
    rw [eq_div_iff h1, mul_comm _ (‖z‖ : ℂ), mul_comm Complex.I]
    exact Complex.norm_mul_exp_arg_mul_I z
  have hz' : (((x * a - y * b : ℝ) : ℂ) + ((y * a + x * b : ℝ) : ℂ) * Complex.I) = (x + y * Complex.I) * (a + b * Complex.I) := by
    push_cast
    linear_combination -(y * b : ℂ) * Complex.I_sq
  have harg : Complex.exp (-(Complex.I * Complex.arg (((x * a - y * b : ℝ) : ℂ) + ((y * a + x * b : ℝ) : ℂ) * Complex.I))) =
      (x - y * Complex.I) * Complex.exp (-(Complex.I * Complex.arg (a + b * Complex.I))) := by
    rw [hz', Complex.exp_neg, Complex.exp_neg, hexp _ (mul_ne_zero hu0 hz), hexp _ hz, norm_mul, hnorm, one_mul, mul_div_assoc, mul_inv, huinv]
  refine ⟨x - y * Complex.I, ?_, ?_⟩
  · rw [show (x - y * Complex.I : ℂ) = (x : ℂ) + ((-y : ℝ) : ℂ) * Complex.I by push_cast; ring, Complex.normSq_add_mul_I, neg_sq, hxy]
  unfold jonesPt
  dsimp only
  rw [harg, hn]
  constructor <;> (push_cast; ring)

theorem jones_moved (hd : m.d = 1) {t t' J J' : Field2} (h : m.FieldMoved t t') (hJ : jonesField t = .ok J)
    (hJ' : jonesField t' = .ok J') : m.FieldMovedUpTo (fun l => Complex.normSq l = 1) J J' := by
  obtain ⟨Nx, Ny, a, b, a', b', sx, sy, rfl, rfl, hs, hab⟩ := h
  unfold jonesField at hJ hJ'
  split at hJ
  · simp at hJ
  split at hJ'
  · simp at hJ'
  simp only [Except.ok.injEq] at hJ hJ'
  subst hJ hJ'
  refine ⟨Nx, Ny, _, _, _, _, sx, sy, rfl, rfl, hs, fun x y => ?_⟩
  obtain ⟨l, rfl, h1, h2⟩ := hab x y
  rw [hd, one_mul, one_mul] at h1 h2
  have e1 : (a' x y).re = m.x * (a (mv m.ex sx x) (mv m.ey sy y)).re - m.y * (b (mv m.ex sx x) (mv m.ey sy y)).re := by
    rw [h1]; simp
  have e2 : (b' x y).re = m.y * (a (mv m.ex sx x) (mv m.ey sy y)).re + m.x * (b (mv m.ex sx x) (mv m.ey sy y)).re := by
    rw [h2]; simp
  dsimp only
  rw [e1, e2, hd, one_mul, one_mul]
  exact jonesPt_turn m.hxy _ _

/-- The layers of the two simulations with equal formulation contain related operators. -/
theorem peps_moved {σ : Fin c.nh ≃ Fin c'.nh} (hσ : ∀ i, c'.harmonics.get (σ i) = m.transf.f (c.harmonics.get i))
    {L L' : LayerSpec} (h : m.LayerMoved c.formulation L L') (hflat : c.formulation = "original" ∨ m.y = 0 ∨ c.lattice.is1D = false)
    (hmu : L.mu = 1) (hform : c'.formulation = c.formulation)
    (h1D : c'.lattice.is1D = c.lattice.is1D)
    (htan : ¬ (c.formulation = "original" ∨ (c.formulation = "tangent" ∧ c.lattice.is1D = true)) →
      ∀ u u' H H' k k' nrm t t', patternOf L = .ok u → patternOf L' = .ok u' →
        c.lattice.getHarmonics E.argsort c.nh true = .ok (H, k) →
        c'.lattice.getHarmonics E'.argsort c'.nh true = .ok (H', k') → m.GridMoved 1 u u' →
        getTangentField E L u H nrm = .ok t → getTangentField E' L' u' H' nrm = .ok t' → m.FieldMoved t t')
    {M p Q M' p' Q'} (hb : buildPure E c L = .ok (.patterned M p Q)) (hb' : buildPure E' c' L' = .ok (.patterned M' p' Q')) :
    p'.Peps * (m.transf.orderMap c c' σ).U = (m.transf.orderMap c c' σ).U * p.Peps ∧
      p'.epsHat * (m.transf.orderMap c c' σ).D = (m.transf.orderMap c c' σ).D * p.epsHat := by
  obtain ⟨b1, b2, b3, b4, b5, b6, b7, u, para, ph, Ht, n, c1, c2, c3, c4, c5, c6⟩ := buildPure_patterned_ok hmu hb
  obtain ⟨b1', b2', b3', b4', b5', b6', b7', u', para', ph', Ht', n', c1', c2', c3', c4', c5', c6'⟩ :=
    buildPure_patterned_ok (h.mu.trans hmu) hb'
  have hani : L'.isAnisotropic = L.isAnisotropic := by
    unfold LayerSpec.isAnisotropic
    rw [h.shape]
  have hu : m.GridMoved 1 u u' := by
    rw [hani] at c1'
    cases ha : L.isAnisotropic
    · rw [ha] at c1 c1'
      simp only [Bool.false_eq_true, if_false] at c1 c1'
      obtain ⟨Nx, Ny, e1, rfl⟩ := toGrid_data c1
      obtain ⟨Nx', Ny', e1', rfl⟩ := toGrid_data c1'
      rw [h.shape, e1] at e1'
      simp only [List.cons.injEq, and_true] at e1'
      obtain ⟨rfl, rfl⟩ := e1'
      obtain ⟨sx, sy, hs, hw⟩ := h.iso Nx Ny b1 e1
      exact ⟨Nx, Ny, _, _, sx, sy, rfl, rfl, hs, fun x y => by rw [one_mul]; exact hw x y⟩
    · rw [ha] at c1 c1'
      simp only [if_true] at c1 c1'
      obtain ⟨Nx, Ny, e1, rfl⟩ := aniso_shape ha c1
      obtain ⟨Nx', Ny', e1', rfl⟩ := aniso_shape (hani.trans ha) c1'
      rw [h.shape, e1] at e1'
      simp only [List.cons.injEq, and_true, true_and] at e1'
      obtain ⟨rfl, rfl⟩ := e1'
      rcases h.aniso Nx Ny e1 with ⟨-, sx, sy, hs, hw⟩ | ⟨hm, hw⟩
      · exact ⟨Nx, Ny, _, _, sx, sy, rfl, rfl, hs, fun x y => by rw [one_mul]; exact (hw x y).1 2 (by norm_num)⟩
      · exact ⟨Nx, Ny, _, _, 0, 0, rfl, rfl, ⟨by rw [hm.u]; simp, by rw [hm.v]; simp⟩, fun x y => by
          rw [one_mul, hm.ex, hm.ey, mv_id, mv_id]; exact (hw x y).1⟩
  have he : p'.epsHat * (m.transf.orderMap c c' σ).D = (m.transf.orderMap c c' σ).D * p.epsHat := by
    rw [GridMoved.toep hσ hu c2 c2', one_smul]
  refine ⟨?_, he⟩
  -- the operator without rules, and the inverse rule
  have main : ∃ nb nb' : Except PyErr (Matrix (Idx _) (Idx _) ℂ),
      nb = (match para with
        | some p => nuHatInvAniso c p
        | none => do
          let n ← nuHatInvIso c u
          pure (diag2 n)) ∧
      nb' = (match para' with
        | some p => nuHatInvAniso c' p
        | none => do
          let n ← nuHatInvIso c' u'
          pure (diag2 n)) ∧
      (c.formulation ≠ "original" → ∀ N N', nb = .ok N → nb' = .ok N' →
        N' * (m.transf.orderMap c c' σ).U = (m.transf.orderMap c c' σ).U * N) ∧
      ph' * (m.transf.orderMap c c' σ).U = (m.transf.orderMap c c' σ).U * ph ∧
      (para = none ↔ para' = none) := by
    refine ⟨_, _, rfl, rfl, ?_⟩
    unfold paraOf at c3 c3'
    rw [hani] at c3'
    cases ha : L.isAnisotropic
    · rw [ha] at c3 c3'
      simp only [Bool.false_eq_true, if_false, except_pure_eq_ok, Except.ok.injEq] at c3 c3'
      subst c3 c3'
      unfold epsParaHatOf at c4 c4'
      simp only [except_pure_eq_ok, Except.ok.injEq] at c4 c4'
      subst c4 c4'
      refine ⟨fun _ N N' hN hN' => ?_, OrderMap.diag2_intertwine _ he, by simp⟩
      simp only [bind_eq_ok, except_pure_eq_ok, Except.ok.injEq] at hN hN'
      obtain ⟨w, z1, rfl⟩ := hN
      obtain ⟨w', z1', rfl⟩ := hN'
      exact OrderMap.diag2_intertwine _ (nuIso_moved hσ hu z1 z1')
    · rw [ha] at c3 c3'
      simp only [if_true, bind_eq_ok, except_pure_eq_ok, Except.ok.injEq] at c3 c3'
      obtain ⟨q, q1, rfl⟩ := c3
      obtain ⟨q', q1', rfl⟩ := c3'
      unfold Trans4.mapM at q1 q1'
      simp only [bind_eq_ok, except_pure_eq_ok, Except.ok.injEq] at q1 q1'
      obtain ⟨a1, k1, a2, k2, a3, k3, a4, k4, rfl⟩ := q1
      obtain ⟨a1', k1', a2', k2', a3', k3', a4', k4', rfl⟩ := q1'
      unfold NdArr.trans at k1 k2 k3 k4 k1' k2' k3' k4'
      dsimp only at k1 k2 k3 k4 k1' k2' k3' k4'
      obtain ⟨Nx, Ny, e1, rfl⟩ := aniso_shape ha k1
      have hN : ∀ {L2 : LayerSpec}, L2.isAnisotropic = true → L2.epsilon.shape = [3, 3, Nx, Ny] → ∀ {i j : ℕ} {u : PGrid},
          (L2.epsilon.comp i j).toGrid = .ok u → u = ⟨Nx, Ny, fun x y => L2.epsilon.data [i, j, x, y]⟩ := by
        intro L2 ha2 hs2 i j u hu2
        obtain ⟨A, B, f1, rfl⟩ := aniso_shape ha2 hu2
        rw [hs2] at f1
        simp only [List.cons.injEq, and_true, true_and] at f1
        obtain ⟨rfl, rfl⟩ := f1
        rfl
      have ha' := hani.trans ha
      have e1' := h.shape.trans e1
      obtain rfl := hN ha e1 k2
      obtain rfl := hN ha e1 k3
      obtain rfl := hN ha e1 k4
      obtain rfl := hN ha' e1' k1'
      obtain rfl := hN ha' e1' k2'
      obtain rfl := hN ha' e1' k3'
      obtain rfl := hN ha' e1' k4'
      unfold epsParaHatOf at c4 c4'
      simp only [bind_eq_ok, except_pure_eq_ok, Except.ok.injEq] at c4 c4'
      obtain ⟨B, l1, rfl⟩ := c4
      obtain ⟨B', l1', rfl⟩ := c4'
      rcases h.aniso Nx Ny e1 with ⟨hy, sx, sy, hs, hw⟩ | ⟨hm, hw⟩
      · have ht : TensorMoved m ⟨⟨Nx, Ny, fun x y => L.epsilon.data [0, 0, x, y]⟩, ⟨Nx, Ny, fun x y => L.epsilon.data [0, 1, x, y]⟩,
            ⟨Nx, Ny, fun x y => L.epsilon.data [1, 0, x, y]⟩, ⟨Nx, Ny, fun x y => L.epsilon.data [1, 1, x, y]⟩⟩
            ⟨⟨Nx, Ny, fun x y => L'.epsilon.data [0, 0, x, y]⟩, ⟨Nx, Ny, fun x y => L'.epsilon.data [0, 1, x, y]⟩,
            ⟨Nx, Ny, fun x y => L'.epsilon.data [1, 0, x, y]⟩, ⟨Nx, Ny, fun x y => L'.epsilon.data [1, 1, x, y]⟩⟩ :=
          ⟨Nx, Ny, _, _, _, _, _, _, _, _, sx, sy, hs, rfl, rfl, fun x y =>
            ⟨(hw x y).1 0 (by norm_num), (hw x y).2.1, (hw x y).2.2, (hw x y).1 1 (by norm_num)⟩⟩
        exact ⟨fun ho N N' hN hN' => nuAniso_moved hσ hy ht ((h.square.resolve_left ho).imp (fun k => k Nx Ny e1) And.left) hN hN',
          ht.block hσ hy l1 l1', by simp⟩
      · have ht : TensorTurned m ⟨⟨Nx, Ny, fun x y => L.epsilon.data [0, 0, x, y]⟩, ⟨Nx, Ny, fun x y => L.epsilon.data [0, 1, x, y]⟩,
            ⟨Nx, Ny, fun x y => L.epsilon.data [1, 0, x, y]⟩, ⟨Nx, Ny, fun x y => L.epsilon.data [1, 1, x, y]⟩⟩
            ⟨⟨Nx, Ny, fun x y => L'.epsilon.data [0, 0, x, y]⟩, ⟨Nx, Ny, fun x y => L'.epsilon.data [0, 1, x, y]⟩,
            ⟨Nx, Ny, fun x y => L'.epsilon.data [1, 0, x, y]⟩, ⟨Nx, Ny, fun x y => L'.epsilon.data [1, 1, x, y]⟩⟩ :=
          ⟨hm, Nx, Ny, _, _, _, _, _, _, _, _, rfl, rfl, fun x y => (hw x y).2⟩
        refine ⟨fun ho N N' hN hN' => ?_, ht.block hσ l1 l1', by simp⟩
        rcases h.square.resolve_left ho with k | ⟨-, hy⟩
        · exact nuAniso_turned hσ ht (k Nx Ny e1) hN hN'
        · refine nuAniso_moved hσ hy ⟨Nx, Ny, _, _, _, _, _, _, _, _, 0, 0, ⟨by rw [hm.u]; simp, by rw [hm.v]; simp⟩, rfl, rfl,
            fun x y => ?_⟩ (.inr hm) hN hN'
          have hx : (m.x : ℂ) ^ 2 = 1 := by
            have : m.x ^ 2 = 1 := by have := m.hxy; rw [hy] at this; linarith
            exact_mod_cast congrArg (fun t : ℝ => (t : ℂ)) this
          obtain ⟨-, w1, w2, w3, w4⟩ := hw x y
          rw [hy] at w1 w2 w3 w4
          rw [w1, w2, w3, w4, hm.ex, hm.ey, hm.d, mv_id, mv_id, hx]
          simp
  obtain ⟨nb, nb', hnb, hnb', hnu, hph, hpara⟩ := main
  unfold pepsOf at c6 c6'
  rw [hform] at c6'
  rw [h1D] at c6'
  dsimp only at c6 c6'
  by_cases f1 : c.formulation = "original"
  · rw [if_pos f1] at c6 c6'
    simp only [except_pure_eq_ok, Except.ok.injEq] at c6 c6'
    rw [← c6, ← c6']
    exact hph
  have hxy : m.y = 0 ∨ m.x = 0 := h.form.resolve_left f1
  have hflat' := hflat.resolve_left f1
  rw [if_neg f1] at c6 c6'
  by_cases f2 : c.formulation = "tangent"
  · rw [if_pos f2] at c6 c6'
    by_cases f3 : c.lattice.is1D = true
    · rw [if_pos f3] at c6 c6'
      rcases para with _ | q
      · have hp' := hpara.mp rfl
        subst hp'
        simp only [bind_eq_ok, except_pure_eq_ok, Except.ok.injEq] at c6 c6'
        obtain ⟨w, z1, z2⟩ := c6
        obtain ⟨w', z1', z2'⟩ := c6'
        rw [← z2, ← z2']
        have hy : m.y = 0 := hflat'.resolve_right (by rw [f3]; simp)
        exact OrderMap.block_intertwine _ hy he (by simp) (by simp) (nuIso_moved hσ hu z1 z1')
      · simp only [bind_eq_ok] at c6
        obtain ⟨_, -, hh⟩ := c6
        simp at hh
    · rw [if_neg f3] at c6 c6'
      simp only [bind_eq_ok] at c6 c6'
      obtain ⟨t, z1, N, z2, z3⟩ := c6
      obtain ⟨t', z1', N', z2', z3'⟩ := c6'
      have ht := htan (by rintro (hh | hh); exacts [f1 hh, f3 hh.2]) u u' Ht Ht' n n' true t t' c1 c1' c5 c5' hu z1 z1'
      exact getPeps_moved hσ hxy ht.upTo hph (hnu f1 _ _ (hnb.trans z2) (hnb'.trans z2')) z3 z3'
  rw [if_neg f2] at c6 c6'
  have hno : ¬ (c.formulation = "original" ∨ (c.formulation = "tangent" ∧ c.lattice.is1D = true)) := by
    rintro (hh | hh)
    exacts [f1 hh, f2 hh.1]
  by_cases f3 : c.formulation = "jones"
  · rw [if_pos f3] at c6 c6'
    simp only [bind_eq_ok] at c6 c6'
    obtain ⟨t, z1, J, z2, N, z3, z4⟩ := c6
    obtain ⟨t', z1', J', z2', N', z3', z4'⟩ := c6'
    have ht := htan hno u u' Ht Ht' n n' false t t' c1 c1' c5 c5' hu z1 z1'
    exact getPeps_moved hσ hxy (jones_moved (h.jones f3) ht z2 z2') hph (hnu f1 _ _ (hnb.trans z3) (hnb'.trans z3')) z4 z4'
  · rw [if_neg f3] at c6 c6'
    simp only [bind_eq_ok] at c6 c6'
    obtain ⟨t, z1, N, z2, z3⟩ := c6
    obtain ⟨t', z1', N', z2', z3'⟩ := c6'
    have ht := htan hno u u' Ht Ht' n n' false t t' c1 c1' c5 c5' hu z1 z1'
    exact getPeps_moved hσ hxy ht.upTo hph (hnu f1 _ _ (hnb.trans z2) (hnb'.trans z2')) z3 z3'

/-- Media of the two simulations. -/
theorem medium_moved {mats mats' : ℕ → LayerSpec} {stack : List ℕ} {σ : Fin c.nh ≃ Fin c'.nh}
    (hσ : ∀ i, c'.harmonics.get (σ i) = m.transf.f (c.harmonics.get i))
    (h : ∀ r ∈ stack, m.LayerMoved c.formulation (mats r) (mats' r))
    (hflat : c.formulation = "original" ∨ m.y = 0 ∨ c.lattice.is1D = false) (hmu : ∀ r ∈ stack, (mats r).mu = 1)
    (hw : WellPlaced mats stack) (hform : c'.formulation = c.formulation) (h1D : c'.lattice.is1D = c.lattice.is1D)
    (htan : ¬ (c.formulation = "original" ∨ (c.formulation = "tangent" ∧ c.lattice.is1D = true)) → ∀ r ∈ stack,
      ∀ u u' H H' k k' nrm t t', patternOf (mats r) = .ok u → patternOf (mats' r) = .ok u' →
        c.lattice.getHarmonics E.argsort c.nh true = .ok (H, k) →
        c'.lattice.getHarmonics E'.argsort c'.nh true = .ok (H', k') → m.GridMoved 1 u u' →
        getTangentField E (mats r) u H nrm = .ok t → getTangentField E' (mats' r) u' H' nrm = .ok t' → m.FieldMoved t t')
    {r : ℕ} {P e} (hm : Medium E c mats r P e) : r ∈ stack → ∀ P' e', Medium E' c' mats' r P' e' →
      P' * (m.transf.orderMap c c' σ).U = (m.transf.orderMap c c' σ).U * P ∧
        e' * (m.transf.orderMap c c' σ).D = (m.transf.orderMap c c' σ).D * e := by
  have hun : ∀ r ∈ stack, (mats' r).isUniform = (mats r).isUniform := by
    intro r hr
    unfold LayerSpec.isUniform
    rw [(h r hr).shape]
  induction hm with
  | uniform r hc hu ha =>
    intro hr P' e' hm'
    cases hm' with
    | uniform _ =>
      rw [(h r hr).unif hu]
      constructor <;> simp
    | patterned _ M p Q _ hb =>
      have := buildPure_patterned hb
      rw [hun r hr, hu] at this
      simp at this
    | copy _ _ _ hc' => rw [(h r hr).copy, hc] at hc'; simp at hc'
  | patterned r M p Q hc hb =>
    intro hr P' e' hm'
    cases hm' with
    | uniform _ _ hu' =>
      rw [hun r hr, buildPure_patterned hb] at hu'
      simp at hu'
    | patterned _ M' p' Q' _ hb' =>
      exact peps_moved hσ (h r hr) hflat (hmu r hr) hform h1D (fun hh => htan hh r hr) hb hb'
    | copy _ _ _ hc' => rw [(h r hr).copy, hc] at hc'; simp at hc'
  | copy r P e hc ho ih =>
    intro hr P' e' hm'
    obtain ⟨k, hk⟩ := List.mem_iff_getElem?.mp hr
    obtain ⟨⟨j, -, hj⟩, -⟩ := hw k r hk hc
    cases hm' with
    | uniform _ hc' => rw [(h r hr).copy, hc] at hc'; simp at hc'
    | patterned _ M' p' Q' hc' => rw [(h r hr).copy, hc] at hc'; simp at hc'
    | copy _ _ _ _ ho' =>
      rw [(h r hr).orig] at ho'
      exact ih (List.mem_of_getElem? hj) _ _ ho'

end Nannos
