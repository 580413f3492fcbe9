import Verif.Model.Sim

/-! Vocabulary for comparing two simulations related by a change of the unit of length, a lateral
translation, a rotation or a reflection. -/

namespace Nannos.Spec

open Nannos Matrix

/-- The orders of the second simulation are the images under `f` of the orders of the first. -/
def OrdersAlong (f : ℤ × ℤ → ℤ × ℤ) (c c' : Static) : Prop :=
  ∀ g', g' ∈ c'.harmonics ↔ ∃ g ∈ c.harmonics, g' = f g

/-- Each order of the second simulation has the efficiencies of the corresponding order of the first. -/
def EfficienciesAlong (f : ℤ × ℤ → ℤ × ℤ) (c c' : Static) : Efficiencies c.nh → Efficiencies c'.nh → Prop
  | .byOrder R T, .byOrder R' T' =>
    ∀ i j, c'.harmonics.get j = f (c.harmonics.get i) → R' j = R i ∧ T' j = T i
  | .total R T, .total R' T' => R' = R ∧ T' = T
  | _, _ => False

/-- Electric field of an order. -/
def eVec {nh : ℕ} (F : FieldF nh) (i : Fin nh) : Fin 3 → ℂ := ![F.ex i, F.ey i, F.ez i]

/-- Magnetic field of an order. -/
def hVec {nh : ℕ} (F : FieldF nh) (i : Fin nh) : Fin 3 → ℂ := ![F.hx i, F.hy i, F.hz i]

/-- The fields of each order of the second simulation are those of the corresponding order of the first, turned by
the orthogonal matrix `R` (the magnetic field is a pseudovector) and multiplied by the phase factor `p` of the
order. -/
def FieldsAlong (f : ℤ × ℤ → ℤ × ℤ) (p : ℤ × ℤ → ℂ) (R : Matrix (Fin 3) (Fin 3) ℝ) (c c' : Static)
    (F : FieldF c.nh) (F' : FieldF c'.nh) : Prop :=
  ∀ i j, c'.harmonics.get j = f (c.harmonics.get i) →
    eVec F' j = p (c.harmonics.get i) • (R.map Complex.ofReal) *ᵥ eVec F i ∧
    hVec F' j = (p (c.harmonics.get i) * R.det) • (R.map Complex.ofReal) *ᵥ hVec F i

/-- The tensors of the anisotropic patterns are given on square arrays of pixels, in the formulations which
invert them pixel by pixel. -/
def SquareTensors (form : String) (mats : ℕ → LayerSpec) (stack : List ℕ) : Prop :=
  form = "original" ∨ ∀ r ∈ stack, ∀ Nx Ny, (mats r).epsilon.shape = [3, 3, Nx, Ny] → Nx = Ny

/-! ### Patterns moved on the pixel grid -/

/-- The pixel with number `a` on an axis of `N` pixels, continued periodically. -/
def pixel (N : ℕ) (a : ℤ) : ℕ := (a % N).toNat

/-- The fractions `u`, `v` of the two periods are whole numbers of pixels: `sx` and `sy`. -/
def WholePixels (u v : ℝ) (Nx Ny : ℕ) (sx sy : ℤ) : Prop := (sx : ℝ) = Nx * u ∧ (sy : ℝ) = Ny * v

/-- A pattern of numbers after reversal of the axes with negative sign and displacement by the fractions `u`, `v` of the
periods. -/
def GridMoved (e1 e2 : ℤ) (u v : ℝ) (w w' : PGrid) : Prop :=
  ∃ (Nx Ny : ℕ) (a a' : Grid Nx Ny) (sx sy : ℤ), w = ⟨Nx, Ny, a⟩ ∧ w' = ⟨Nx, Ny, a'⟩ ∧ WholePixels u v Nx Ny sx sy ∧
    ∀ (x : Fin Nx) (y : Fin Ny) (x' : Fin Nx) (y' : Fin Ny), (x' : ℕ) = pixel Nx (e1 * (x : ℕ) - sx) →
      (y' : ℕ) = pixel Ny (e2 * (y : ℕ) - sy) → a' x y = a x' y'

/-- A pattern of vectors, whose components change sign with the axes. -/
def VectorsMoved (e1 e2 : ℤ) (u v : ℝ) (t t' : Field2) : Prop :=
  ∃ (Nx Ny : ℕ) (a b a' b' : Grid Nx Ny) (sx sy : ℤ), t = ⟨Nx, Ny, a, b⟩ ∧ t' = ⟨Nx, Ny, a', b'⟩ ∧
    WholePixels u v Nx Ny sx sy ∧
    ∀ (x : Fin Nx) (y : Fin Ny) (x' : Fin Nx) (y' : Fin Ny), (x' : ℕ) = pixel Nx (e1 * (x : ℕ) - sx) →
      (y' : ℕ) = pixel Ny (e2 * (y : ℕ) - sy) → a' x y = e1 * a x' y' ∧ b' x y = e2 * b x' y'

/-- A layer whose pattern (numbers or tensors) and tangent vectors, if it was given some, are moved. -/
structure PatternMoved (e1 e2 : ℤ) (u v : ℝ) (L L' : LayerSpec) : Prop where
  same : L' = { L with epsilon := L'.epsilon, tangentField := L'.tangentField }
  shape : L'.epsilon.shape = L.epsilon.shape
  uniform : L.isUniform = true → L'.epsilon = L.epsilon
  numbers : ∀ Nx Ny, L.isUniform = false → L.epsilon.shape = [Nx, Ny] → ∃ sx sy, WholePixels u v Nx Ny sx sy ∧
    ∀ x < Nx, ∀ y < Ny,
      L'.epsilon.data [x, y] = L.epsilon.data [pixel Nx (e1 * x - sx), pixel Ny (e2 * y - sy)]
  tensors : ∀ Nx Ny, L.epsilon.shape = [3, 3, Nx, Ny] → ∃ sx sy, WholePixels u v Nx Ny sx sy ∧
    ∀ x < Nx, ∀ y < Ny, ∀ i < 3, ∀ j < 3,
      L'.epsilon.data [i, j, x, y] = ([e1, e2, 1].getD i 0 * [e1, e2, 1].getD j 0 : ℤ) *
        L.epsilon.data [i, j, pixel Nx (e1 * x - sx), pixel Ny (e2 * y - sy)]
  vectors : (L.tangentField = none ∧ L'.tangentField = none) ∨
    ∃ t t', L.tangentField = some t ∧ L'.tangentField = some t' ∧ VectorsMoved e1 e2 u v t t'

/-- Rotation by an angle (radians) of the plane of the layers. -/
noncomputable def turnMatrix (al : ℝ) : Matrix (Fin 2) (Fin 2) ℝ := !![Real.cos al, -Real.sin al; Real.sin al, Real.cos al]

/-- A vector field and the field with the same pixels and turned vectors. -/
def VectorsTurned (al : ℝ) (t t' : Field2) : Prop :=
  ∃ (Nx Ny : ℕ) (a b a' b' : Grid Nx Ny), t = ⟨Nx, Ny, a, b⟩ ∧ t' = ⟨Nx, Ny, a', b'⟩ ∧
    ∀ x y, a' x y = Real.cos al * a x y - Real.sin al * b x y ∧ b' x y = Real.sin al * a x y + Real.cos al * b x y

/-- A layer turned with its lattice: an array of numbers has the same entries, the transverse part of every tensor and the tangent
vectors which the user gave are turned. -/
structure LayerTurned (al : ℝ) (L L' : LayerSpec) : Prop where
  same : L' = { L with epsilon := L'.epsilon, tangentField := L'.tangentField }
  shape : L'.epsilon.shape = L.epsilon.shape
  uniform : L.isUniform = true → L'.epsilon = L.epsilon
  numbers : ∀ Nx Ny, L.epsilon.shape = [Nx, Ny] → ∀ x < Nx, ∀ y < Ny, L'.epsilon.data [x, y] = L.epsilon.data [x, y]
  tensors : ∀ Nx Ny, L.epsilon.shape = [3, 3, Nx, Ny] → ∀ x < Nx, ∀ y < Ny, L'.epsilon.data [2, 2, x, y] = L.epsilon.data [2, 2, x, y] ∧
    ∀ i j : Fin 2, L'.epsilon.data [i, j, x, y] =
      ∑ k : Fin 2, ∑ l : Fin 2, (turnMatrix al i k : ℂ) * L.epsilon.data [k, l, x, y] * (turnMatrix al j l : ℂ)
  vectors : (L.tangentField = none ∧ L'.tangentField = none) ∨
    ∃ t t', L.tangentField = some t ∧ L'.tangentField = some t' ∧ VectorsTurned al t t'

/-- The simulation asks a generator for tangent vectors. -/
def UsesGenerator (form : String) (oneD : Bool) (mats : ℕ → LayerSpec) (stack : List ℕ) : Prop :=
  form ≠ "original" ∧ ¬ (form = "tangent" ∧ oneD = true) ∧ ∃ r ∈ stack, (mats r).tangentField = none

/-- The pattern which a layer hands to the generator of tangent vectors: its permittivity, or the `zz` component of it. -/
def patternOf (L : LayerSpec) : Except PyErr PGrid := (if L.isAnisotropic then L.epsilon.comp 2 2 else L.epsilon).toGrid

/-- For the patterns of these layers, the generator returns moved vectors for the moved pattern. -/
def GeneratorMoves (e1 e2 : ℤ) (u v : ℝ) (E : Ext) (mats mats' : ℕ → LayerSpec) (stack : List ℕ) : Prop :=
  ∀ r ∈ stack, (mats r).tangentField = none → ∀ w w' H nrm t t', patternOf (mats r) = .ok w →
    patternOf (mats' r) = .ok w' → GridMoved e1 e2 u v w w' → E.tangent (mats r).tangentFieldType w H nrm = .ok t →
    E.tangent (mats r).tangentFieldType w' H nrm = .ok t' → VectorsMoved e1 e2 u v t t'

/-- One of the first two or of the last two of `N` pixels. -/
def NearEnd (N k : ℕ) : Prop := k < 2 ∨ N ≤ k + 2

/-- The pattern does not reach the border of the cell: along each axis it takes the same value at the first two and at the
last two pixels. -/
def ClearOfBorder {Nx Ny : ℕ} (a : Grid Nx Ny) : Prop :=
  (∀ x x' y, NearEnd Nx (x : Fin Nx) → NearEnd Nx (x' : Fin Nx) → a x y = a x' y) ∧
  (∀ x y y', NearEnd Ny (y : Fin Ny) → NearEnd Ny (y' : Fin Ny) → a x y = a x y')

/-- The azimuth and the polarisation angle (in degrees) of the reflected wave. -/
def AnglesReflected (e1 e2 : ℤ) (phi psi phi' psi' : ℝ) : Prop :=
  Real.cos (phi' * (Real.pi / 180)) = e1 * Real.cos (phi * (Real.pi / 180)) ∧
  Real.sin (phi' * (Real.pi / 180)) = e2 * Real.sin (phi * (Real.pi / 180)) ∧
  Real.cos (psi' * (Real.pi / 180)) = Real.cos (psi * (Real.pi / 180)) ∧
  Real.sin (psi' * (Real.pi / 180)) = e1 * e2 * Real.sin (psi * (Real.pi / 180))

/-- Phase of an order after displacement by the fractions `u`, `v` of the periods. -/
noncomputable def displacementPhase (u v : ℝ) (g : ℤ × ℤ) : ℂ :=
  Complex.exp (-(2 * Real.pi * Complex.I * (g.1 * u + g.2 * v)))

/-- Reflection of the coordinate axes with negative sign. -/
def reflection (e1 e2 : ℤ) : Matrix (Fin 3) (Fin 3) ℝ := Matrix.diagonal ![(e1 : ℝ), e2, 1]

/-! ### Change of the unit of length -/

/-- Basis vectors in another unit of length. -/
def scaledBasis (s : ℝ) : BasisArg → BasisArg
  | .period a => .period (s * a)
  | .vectors b => .vectors fun k i => s * b k i

/-- A layer in another unit of length. -/
noncomputable def scaledLayer (s : ℝ) (L : LayerSpec) : LayerSpec := { L with thickness := L.thickness.map (s * ·) }

/-- A sort based on comparisons of the keys. -/
def ComparisonSort (argsort : List ℝ → List ℕ) : Prop :=
  ∀ l l' : List ℝ, l.length = l'.length → (∀ i j, l.getD i 0 ≤ l.getD j 0 ↔ l'.getD i 0 ≤ l'.getD j 0) →
    argsort l = argsort l'

end Nannos.Spec
