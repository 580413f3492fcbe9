import Verif.Proofs.MovedLayers

/-! Constructors of two simulations, one with the moved lattice, layers and wave of the other. -/

namespace Nannos

open Matrix Spec

/-- Reciprocal vectors of the moved lattice. -/
theorem reciprocal_moved {m : Motion} {l l' : Lattice}
    (h : ∀ i, l'.basis 0 i = m.s * m.ex * (![m.d * m.x * l.basis 0 0 - m.y * l.basis 0 1, m.d * m.y * l.basis 0 0 + m.x * l.basis 0 1] i) ∧
      l'.basis 1 i = m.s * m.ey * (![m.d * m.x * l.basis 1 0 - m.y * l.basis 1 1, m.d * m.y * l.basis 1 0 + m.x * l.basis 1 1] i))
    {r r'} (hr : l.reciprocal = .ok r) (hr' : l'.reciprocal = .ok r') (g : ℤ × ℤ) :
    m.s * (r' 0 0 * (m.transf.f g).1 + r' 0 1 * (m.transf.f g).2) =
      m.d * m.x * (r 0 0 * g.1 + r 0 1 * g.2) - m.y * (r 1 0 * g.1 + r 1 1 * g.2) ∧
    m.s * (r' 1 0 * (m.transf.f g).1 + r' 1 1 * (m.transf.f g).2) =
      m.d * m.y * (r 0 0 * g.1 + r 0 1 * g.2) + m.x * (r 1 0 * g.1 + r 1 1 * g.2) := by
  have D := reciprocal_dual hr
  have D' := reciprocal_dual hr'
  have hdet := (reciprocal_ok.mp hr').1
  rw [Lattice.matrix, det_transpose, det_fin_two] at hdet
  simp only [of_apply] at hdet
  have hex : (m.ex : ℝ) * m.ex = 1 := by exact_mod_cast m.hex
  have hey : (m.ey : ℝ) * m.ey = 1 := by exact_mod_cast m.hey
  have hxy := m.hxy
  have hd := m.hd
  have hf : m.transf.f g = (m.ex * g.1, m.ey * g.2) := rfl
  rw [hf]
  push_cast
  have a00 := D 0 0
  have a01 := D 0 1
  have a10 := D 1 0
  have a11 := D 1 1
  have b00 := D' 0 0
  have b01 := D' 0 1
  have b10 := D' 1 0
  have b11 := D' 1 1
  simp only [Fin.sum_univ_two, if_true, show ((0 : Fin 2) = 1) = False from by simp, show ((1 : Fin 2) = 0) = False from by simp, if_false] at a00 a01 a10 a11 b00 b01 b10 b11
  -- both sides have the same products with the two basis vectors
  have key : ∀ p q : ℝ, p * l'.basis 0 0 + q * l'.basis 0 1 = 0 → p * l'.basis 1 0 + q * l'.basis 1 1 = 0 → p = 0 ∧ q = 0 := by
    intro p q h1 h2
    constructor
    · refine (mul_eq_zero.mp (?_ : p * (l'.basis 0 0 * l'.basis 1 1 - l'.basis 0 1 * l'.basis 1 0) = 0)).resolve_right hdet
      linear_combination l'.basis 1 1 * h1 - l'.basis 0 1 * h2
    · refine (mul_eq_zero.mp (?_ : q * (l'.basis 0 0 * l'.basis 1 1 - l'.basis 0 1 * l'.basis 1 0) = 0)).resolve_right hdet
      linear_combination l'.basis 0 0 * h2 - l'.basis 1 0 * h1
  obtain ⟨h1, h2⟩ := key
    (m.s * (r' 0 0 * (m.ex * g.1) + r' 0 1 * (m.ey * g.2)) -
      (m.d * m.x * (r 0 0 * g.1 + r 0 1 * g.2) - m.y * (r 1 0 * g.1 + r 1 1 * g.2)))
    (m.s * (r' 1 0 * (m.ex * g.1) + r' 1 1 * (m.ey * g.2)) -
      (m.d * m.y * (r 0 0 * g.1 + r 0 1 * g.2) + m.x * (r 1 0 * g.1 + r 1 1 * g.2)))
    (by
      have e : ∀ A B : ℝ, (m.d * m.x * A - m.y * B) * l'.basis 0 0 + (m.d * m.y * A + m.x * B) * l'.basis 0 1 =
          m.s * m.ex * (A * l.basis 0 0 + B * l.basis 0 1) := by
        intro A B
        rw [(h 0).1, (h 1).1]
        simp only [cons_val_zero, cons_val_one, cons_val_fin_one]
        linear_combination m.s * m.ex * (m.d ^ 2 * A * l.basis 0 0 + B * l.basis 0 1) * hxy +
          m.s * m.ex * A * l.basis 0 0 * hd
      have := e (r 0 0 * g.1 + r 0 1 * g.2) (r 1 0 * g.1 + r 1 1 * g.2)
      linear_combination -this + m.s * m.ex * g.1 * b00 + m.s * m.ey * g.2 * b10 - m.s * m.ex * g.1 * a00 - m.s * m.ex * g.2 * a10)
    (by
      have e : ∀ A B : ℝ, (m.d * m.x * A - m.y * B) * l'.basis 1 0 + (m.d * m.y * A + m.x * B) * l'.basis 1 1 =
          m.s * m.ey * (A * l.basis 1 0 + B * l.basis 1 1) := by
        intro A B
        rw [(h 0).2, (h 1).2]
        simp only [cons_val_zero, cons_val_one, cons_val_fin_one]
        linear_combination m.s * m.ey * (m.d ^ 2 * A * l.basis 1 0 + B * l.basis 1 1) * hxy +
          m.s * m.ey * A * l.basis 1 0 * hd
      have := e (r 0 0 * g.1 + r 0 1 * g.2) (r 1 0 * g.1 + r 1 1 * g.2)
      linear_combination -this + m.s * m.ex * g.1 * b01 + m.s * m.ey * g.2 * b11 - m.s * m.ey * g.1 * a01 - m.s * m.ey * g.2 * a11)
  exact ⟨sub_eq_zero.mp h1, sub_eq_zero.mp h2⟩

/-- The same for a one-dimensional lattice. -/
theorem reciprocal_moved1 {m : Motion} {l l' : Lattice} {a : ℝ} (hy : m.y = 0) (h : l.basis = ![![a, 0], ![0, 1]])
    (h' : l'.basis = ![![m.s * m.ex * (m.d * m.x) * a, 0], ![0, 1]])
    {r r'} (hr : l.reciprocal = .ok r) (hr' : l'.reciprocal = .ok r') (g : ℤ × ℤ) (hg : g.2 = 0) :
    m.s * (r' 0 0 * (m.transf.f g).1 + r' 0 1 * (m.transf.f g).2) =
      m.d * m.x * (r 0 0 * g.1 + r 0 1 * g.2) - m.y * (r 1 0 * g.1 + r 1 1 * g.2) ∧
    m.s * (r' 1 0 * (m.transf.f g).1 + r' 1 1 * (m.transf.f g).2) =
      m.d * m.y * (r 0 0 * g.1 + r 0 1 * g.2) + m.x * (r 1 0 * g.1 + r 1 1 * g.2) := by
  have D := reciprocal_dual hr
  have D' := reciprocal_dual hr'
  have hex : (m.ex : ℝ) * m.ex = 1 := by exact_mod_cast m.hex
  have hx : m.x ^ 2 = 1 := by have := m.hxy; rw [hy] at this; linarith
  have hd := m.hd
  have hf : m.transf.f g = (m.ex * g.1, m.ey * g.2) := rfl
  rw [hf, hg, hy]
  push_cast
  have a00 := D 0 0
  have a01 := D 0 1
  have b00 := D' 0 0
  have b01 := D' 0 1
  rw [h] at a00 a01
  rw [h'] at b00 b01
  simp only [Fin.sum_univ_two, if_true, cons_val_zero, cons_val_one, cons_val_fin_one,
    show ((0 : Fin 2) = 1) = False from by simp, if_false, mul_zero, add_zero, mul_one, zero_add] at a00 a01 b00 b01
  have ha : a ≠ 0 := by
    rintro rfl
    rw [mul_zero] at a00
    exact Real.two_pi_pos.ne a00
  constructor
  · refine mul_right_cancel₀ ha ?_
    have e : m.s * r' 0 0 * (m.ex * a) = m.d * m.x * (2 * Real.pi) := by
      linear_combination (m.d * m.x) * b00 - (m.s * r' 0 0 * m.ex * a) * (m.x ^ 2 * hd + hx)
    linear_combination g.1 * e - m.d * m.x * g.1 * a00
  · rw [b01, a01]
    ring

/-- What two constructors need to have in common. -/
structure Motion.Setup (m : Motion) (E E' : Ext) (lats lats' : ℕ → Lattice) (mats mats' : ℕ → LayerSpec)
    (stack : List ℕ) (exc exc' : PlaneWave) (nh nh' : ℤ) (fm : String) (c c' : Static) : Prop where
  init : simInit E lats mats stack exc nh fm = .ok c
  init' : simInit E' lats' mats' stack exc' nh' fm = .ok c'
  eigc : EigContract E
  eigc' : EigContract E'
  placed : WellPlaced mats stack
  placed' : WellPlaced mats' stack
  mu : ∀ r ∈ stack, (mats r).mu = 1
  nodup : c.harmonics.Nodup
  nodup' : c'.harmonics.Nodup
  zero : ((0 : ℤ), (0 : ℤ)) ∈ c.harmonics
  orders : OrdersAlong m.transf.f c c'
  wave : ∃ wl th ph ps ph' ps', planeWave wl (th, ph, ps) = .ok exc ∧ planeWave (m.s * wl) (th, ph', ps') = .ok exc' ∧
    Real.cos (ph' * (Real.pi / 180)) =
      m.d * m.x * Real.cos (ph * (Real.pi / 180)) - m.y * Real.sin (ph * (Real.pi / 180)) ∧
    Real.sin (ph' * (Real.pi / 180)) =
      m.d * m.y * Real.cos (ph * (Real.pi / 180)) + m.x * Real.sin (ph * (Real.pi / 180)) ∧
    Real.cos (ps' * (Real.pi / 180)) = Real.cos (ps * (Real.pi / 180)) ∧
    Real.sin (ps' * (Real.pi / 180)) = m.d * Real.sin (ps * (Real.pi / 180))
  oneD : c'.lattice.is1D = c.lattice.is1D
  lattice : (∀ i, c'.lattice.basis 0 i = m.s * m.ex * (![m.d * m.x * c.lattice.basis 0 0 - m.y * c.lattice.basis 0 1,
        m.d * m.y * c.lattice.basis 0 0 + m.x * c.lattice.basis 0 1] i) ∧
      c'.lattice.basis 1 i = m.s * m.ey * (![m.d * m.x * c.lattice.basis 1 0 - m.y * c.lattice.basis 1 1,
        m.d * m.y * c.lattice.basis 1 0 + m.x * c.lattice.basis 1 1] i)) ∨
    (m.y = 0 ∧ (∀ g ∈ c.harmonics, g.2 = 0) ∧ ∃ a, c.lattice.basis = ![![a, 0], ![0, 1]] ∧
      c'.lattice.basis = ![![m.s * m.ex * (m.d * m.x) * a, 0], ![0, 1]])
  layers : ∀ r ∈ stack, m.LayerMoved fm (mats r) (mats' r)
  flat : fm = "original" ∨ m.y = 0 ∨ c.lattice.is1D = false
  tan : ¬ (fm = "original" ∨ (fm = "tangent" ∧ c.lattice.is1D = true)) → ∀ r ∈ stack,
    ∀ u u' H H' k k' nrm t t', patternOf (mats r) = .ok u → patternOf (mats' r) = .ok u' → c.lattice.getHarmonics E.argsort c.nh true = .ok (H, k) →
      c'.lattice.getHarmonics E'.argsort c'.nh true = .ok (H', k') → m.GridMoved 1 u u' →
      getTangentField E (mats r) u H nrm = .ok t → getTangentField E' (mats' r) u' H' nrm = .ok t' → m.FieldMoved t t'

theorem Motion.Setup.pair {m : Motion} {E E' lats lats' mats mats' stack exc exc' nh nh' fm c c'}
    (h : m.Setup E E' lats lats' mats mats' stack exc exc' nh nh' fm c c') :
    InitPair m.transf E E' lats lats' mats mats' stack exc exc' nh nh' fm fm c c' := by
  have hf := (simInit_ok h.init).form_eq
  have hf' := (simInit_ok h.init').form_eq
  have hun : ∀ r ∈ stack, (mats' r).isUniform = (mats r).isUniform := by
    intro r hr
    unfold LayerSpec.isUniform
    rw [(h.layers r hr).shape]
  refine ⟨h.init, h.init', h.eigc, h.eigc', h.placed, h.placed', h.mu, fun r hr => (h.layers r hr).mu.trans (h.mu r hr), h.nodup, h.nodup', h.zero,
    h.orders, h.wave, ?_, fun r hr => (h.layers r hr).name, fun r hr => (h.layers r hr).thick, hun, ?_, ?_⟩
  · intro r r' hr hr' g hg
    rcases h.lattice with hl | ⟨hy, h1, a, ha, ha'⟩
    · exact reciprocal_moved hl hr hr' g
    · exact reciprocal_moved1 hy ha ha' hr hr' g (h1 g hg)
  · intro r hr hu
    rw [(h.layers r hr).unif hu]
  · intro σ hσ r hr P e P' e' hm hm'
    exact medium_moved hσ (fun r hr => by rw [hf]; exact h.layers r hr) (by rw [hf]; exact h.flat) h.mu h.placed (hf'.trans hf.symm) h.oneD
      (by rw [hf]; exact h.tan) hm hr P' e' hm'

end Nannos
