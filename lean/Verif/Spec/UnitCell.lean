import Verif.Spec.Symmetry

/-! Vocabulary for two descriptions of one structure: other lattice vectors, other axes, another origin. -/

namespace Nannos.Spec

open Nannos Matrix

/-- The lattice vectors of `l'` are the combinations with coefficients `A` of the vectors of `l`, turned by `R`. -/
def CellChanged (A : Matrix (Fin 2) (Fin 2) ℤ) (R : Matrix (Fin 2) (Fin 2) ℝ) (l l' : Lattice) : Prop :=
  ∀ k, l'.basis k = ∑ m, (A k m : ℝ) • R *ᵥ l.basis m

/-- Numbers, for the second cell, of the order with numbers `g` for the first. -/
def changedOrder (A : Matrix (Fin 2) (Fin 2) ℤ) (g : ℤ × ℤ) : ℤ × ℤ :=
  (A 0 0 * g.1 + A 0 1 * g.2, A 1 0 * g.1 + A 1 1 * g.2)

/-- Two real numbers differ by an integer. -/
def SameMod1 (a b : ℝ) : Prop := ∃ n : ℤ, a = b + n

/-- The point with fractional coordinates `a`, `b` in the second cell has, in the first cell, the fractional coordinates
`x + u`, `y + v`, up to lattice vectors. -/
def SamePoint (A : Matrix (Fin 2) (Fin 2) ℤ) (u v a b x y : ℝ) : Prop :=
  SameMod1 (A 0 0 * a + A 1 0 * b) (x + u) ∧ SameMod1 (A 0 1 * a + A 1 1 * b) (y + v)

/-- Two layers with isotropic materials which differ by the sampling of the permittivity: each pixel of the second lies on
a pixel of the first and has its value. -/
structure CellPattern (A : Matrix (Fin 2) (Fin 2) ℤ) (u v : ℝ) (L L' : LayerSpec) : Prop where
  same : L' = { L with epsilon := L'.epsilon }
  iso : L.isAnisotropic = false ∧ L'.isAnisotropic = false
  unif : L'.isUniform = L.isUniform
  uniform : L.isUniform = true → L'.epsilon = L.epsilon
  pattern : L.isUniform = false → ∃ Nx Ny Nx' Ny' : ℕ, L.epsilon.shape = [Nx, Ny] ∧ L'.epsilon.shape = [Nx', Ny'] ∧
    Nx' * Ny' = Nx * Ny ∧ ∀ x' < Nx', ∀ y' < Ny', ∃ x < Nx, ∃ y < Ny,
      SamePoint A u v ((x' : ℝ) / Nx') ((y' : ℝ) / Ny') ((x : ℝ) / Nx) ((y : ℝ) / Ny) ∧
      L'.epsilon.data [x', y'] = L.epsilon.data [x, y]

/-- The azimuth and the polarisation angle (in degrees) of the wave turned by `R`. -/
def AnglesTurned (R : Matrix (Fin 2) (Fin 2) ℝ) (phi psi phi' psi' : ℝ) : Prop :=
  ![Real.cos (phi' * (Real.pi / 180)), Real.sin (phi' * (Real.pi / 180))] =
    R *ᵥ ![Real.cos (phi * (Real.pi / 180)), Real.sin (phi * (Real.pi / 180))] ∧
  Real.cos (psi' * (Real.pi / 180)) = Real.cos (psi * (Real.pi / 180)) ∧
  Real.sin (psi' * (Real.pi / 180)) = R.det * Real.sin (psi * (Real.pi / 180))

/-- `R` about the normal of the layers. -/
def inSpace (R : Matrix (Fin 2) (Fin 2) ℝ) : Matrix (Fin 3) (Fin 3) ℝ := !![R 0 0, R 0 1, 0; R 1 0, R 1 1, 0; 0, 0, 1]

/-- Rotation by `al` degrees. -/
noncomputable def turned (al : ℝ) : Matrix (Fin 2) (Fin 2) ℝ :=
  !![Real.cos (al * (Real.pi / 180)), -Real.sin (al * (Real.pi / 180));
    Real.sin (al * (Real.pi / 180)), Real.cos (al * (Real.pi / 180))]

/-- The structure is unchanged by a rotation of `al` degrees about a point of the cell: the rotation carries the lattice
vectors to their integer combinations `A`, the pattern of every layer is unchanged (the centre of the rotation being given
by `u`, `v`), and so is the set of retained orders. -/
structure RotationSymmetric (A : Matrix (Fin 2) (Fin 2) ℤ) (u v al : ℝ) (E : Ext) (lats : ℕ → Lattice) (mats : ℕ → LayerSpec)
    (stack : List ℕ) (nh : ℤ) : Prop where
  det : A.det = 1 ∨ A.det = -1
  lattice : ∀ r ∈ stack, CellChanged A (turned al) (lats (mats r).lattice) (lats (mats r).lattice)
  layers : ∀ r ∈ stack, CellPattern A u v (mats r) (mats r)
  orders : ∀ exc c, simInit E lats mats stack exc nh "original" = .ok c →
    ((0 : ℤ), (0 : ℤ)) ∈ c.harmonics ∧ ∀ g ∈ c.harmonics, changedOrder A g ∈ c.harmonics

end Nannos.Spec
