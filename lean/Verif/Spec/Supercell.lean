import Verif.Spec.Symmetry

/-! Vocabulary for one structure described with a larger cell: several cells taken together, or a lamellar grating on a
lattice with a second period. -/

namespace Nannos.Spec

open Nannos

/-- The cell of `l'` consists of `n1` times `n2` cells of `l`. -/
def Supercell (n1 n2 : ℕ) (l l' : Lattice) : Prop :=
  (∀ i, l'.basis 0 i = n1 * l.basis 0 i) ∧ ∀ i, l'.basis 1 i = n2 * l.basis 1 i

/-- Numbers, for the larger cell, of the order with numbers `g` for the smaller cell. -/
def supercellOrder (n1 n2 : ℕ) (g : ℤ × ℤ) : ℤ × ℤ := (n1 * g.1, n2 * g.2)

/-- A pattern of numbers repeated `n1` times along the first and `n2` times along the second direction. -/
def GridTiled (n1 n2 : ℕ) (w w' : PGrid) : Prop :=
  ∃ (Nx Ny : ℕ) (a : Grid Nx Ny) (a' : Grid (n1 * Nx) (n2 * Ny)), w = ⟨Nx, Ny, a⟩ ∧ w' = ⟨n1 * Nx, n2 * Ny, a'⟩ ∧
    ∀ (x : Fin Nx) (y : Fin Ny) (x' : Fin (n1 * Nx)) (y' : Fin (n2 * Ny)), (x : ℕ) = (x' : ℕ) % Nx →
      (y : ℕ) = (y' : ℕ) % Ny → a' x' y' = a x y

/-- A pattern of vectors, repeated. -/
def VectorsTiled (n1 n2 : ℕ) (t t' : Field2) : Prop :=
  ∃ (Nx Ny : ℕ) (a b : Grid Nx Ny) (a' b' : Grid (n1 * Nx) (n2 * Ny)), t = ⟨Nx, Ny, a, b⟩ ∧
    t' = ⟨n1 * Nx, n2 * Ny, a', b'⟩ ∧
    ∀ (x : Fin Nx) (y : Fin Ny) (x' : Fin (n1 * Nx)) (y' : Fin (n2 * Ny)), (x : ℕ) = (x' : ℕ) % Nx →
      (y : ℕ) = (y' : ℕ) % Ny → a' x' y' = a x y ∧ b' x' y' = b x y

/-- A layer whose pattern (numbers or tensors) is repeated. -/
structure PatternTiled (n1 n2 : ℕ) (L L' : LayerSpec) : Prop where
  same : L' = { L with epsilon := L'.epsilon, tangentField := L'.tangentField }
  unif : L'.isUniform = L.isUniform
  uniform : L.isUniform = true → L'.epsilon = L.epsilon
  pattern : L.isUniform = false →
    (∃ Nx Ny : ℕ, L.epsilon.shape = [Nx, Ny] ∧ L'.epsilon.shape = [n1 * Nx, n2 * Ny] ∧
      ∀ x < n1 * Nx, ∀ y < n2 * Ny, L'.epsilon.data [x, y] = L.epsilon.data [x % Nx, y % Ny]) ∨
    (∃ Nx Ny : ℕ, L.epsilon.shape = [3, 3, Nx, Ny] ∧ L'.epsilon.shape = [3, 3, n1 * Nx, n2 * Ny] ∧
      ∀ x < n1 * Nx, ∀ y < n2 * Ny, ∀ i < 3, ∀ j < 3,
        L'.epsilon.data [i, j, x, y] = L.epsilon.data [i, j, x % Nx, y % Ny])

/-- The tangent vectors of a layer, if it was given some, are repeated. -/
def TangentsTiled (n1 n2 : ℕ) (L L' : LayerSpec) : Prop :=
  (L.tangentField = none ∧ L'.tangentField = none) ∨
    ∃ t t', L.tangentField = some t ∧ L'.tangentField = some t' ∧ VectorsTiled n1 n2 t t'

/-- For the patterns of these layers, the generators return repeated vectors for the repeated pattern. -/
def GeneratorTiles (n1 n2 : ℕ) (E E' : Ext) (mats mats' : ℕ → LayerSpec) (stack : List ℕ) : Prop :=
  ∀ r ∈ stack, (mats r).tangentField = none → ∀ w w' H H' nrm t t', patternOf (mats r) = .ok w →
    patternOf (mats' r) = .ok w' → GridTiled n1 n2 w w' → E.tangent (mats r).tangentFieldType w H nrm = .ok t →
    E'.tangent (mats r).tangentFieldType w' H' nrm = .ok t' → VectorsTiled n1 n2 t t'

/-- A layer of a lamellar grating, described by a column of pixels and by a pattern which does not depend on `y`. -/
structure Lamellar (L L' : LayerSpec) : Prop where
  same : L' = { L with epsilon := L'.epsilon, tangentField := L'.tangentField }
  unif : L'.isUniform = L.isUniform
  uniform : L.isUniform = true → L'.epsilon = L.epsilon
  pattern : L.isUniform = false →
    (∃ Nx Ny : ℕ, L.epsilon.shape = [Nx, 1] ∧ L'.epsilon.shape = [Nx, Ny] ∧
      ∀ x < Nx, ∀ y < Ny, L'.epsilon.data [x, y] = L.epsilon.data [x, 0]) ∨
    (∃ Nx Ny : ℕ, L.epsilon.shape = [3, 3, Nx, 1] ∧ L'.epsilon.shape = [3, 3, Nx, Ny] ∧
      ∀ x < Nx, ∀ y < Ny, ∀ i < 3, ∀ j < 3, L'.epsilon.data [i, j, x, y] = L.epsilon.data [i, j, x, 0])

/-- The second lattice has the first period of the first lattice; its second period has the same direction and any
length. -/
def SamePeriod (l l' : Lattice) : Prop :=
  (∀ i, l'.basis 0 i = l.basis 0 i) ∧ ∃ b : ℝ, ∀ i, l'.basis 1 i = b * l.basis 1 i

/-- The efficiencies of the orders of the first simulation are found at their images under `f`; the efficiencies of all
other orders of the second simulation vanish. -/
def EfficienciesAmong (f : ℤ × ℤ → ℤ × ℤ) (c c' : Static) : Efficiencies c.nh → Efficiencies c'.nh → Prop
  | .byOrder R T, .byOrder R' T' =>
    (∀ i j, c'.harmonics.get j = f (c.harmonics.get i) → R' j = R i ∧ T' j = T i) ∧
    ∀ j, (∀ g ∈ c.harmonics, c'.harmonics.get j ≠ f g) → R' j = 0 ∧ T' j = 0
  | .total R T, .total R' T' => R' = R ∧ T' = T
  | _, _ => False

/-- The same for the fields. -/
def FieldsAmong (f : ℤ × ℤ → ℤ × ℤ) (c c' : Static) (F : FieldF c.nh) (F' : FieldF c'.nh) : Prop :=
  (∀ i j, c'.harmonics.get j = f (c.harmonics.get i) → eVec F' j = eVec F i ∧ hVec F' j = hVec F i) ∧
  ∀ j, (∀ g ∈ c.harmonics, c'.harmonics.get j ≠ f g) → eVec F' j = 0 ∧ hVec F' j = 0

end Nannos.Spec
