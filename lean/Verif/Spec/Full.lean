import Verif.Spec.Coefficients

/-! Simulations with as many orders as the patterns have pixels (C105). -/

namespace Nannos.Spec

open Nannos

/-- The retained orders are as many as the pixels of an `Nx × Ny` array, and no two of them are the same frequency on it. -/
def AsManyOrdersAsPixels (c : Static) (Nx Ny : ℕ) : Prop :=
  0 < Nx ∧ 0 < Ny ∧ c.nh = Nx * Ny ∧
    ∀ i j : Fin c.nh, (Nx : ℤ) ∣ (c.harmonics.get i).1 - (c.harmonics.get j).1 →
      (Ny : ℤ) ∣ (c.harmonics.get i).2 - (c.harmonics.get j).2 → i = j

/-- A vector field on the pixels of the pattern, with real components. -/
def RealField (t : Field2) (Nx Ny : ℕ) : Prop :=
  t.Nx = Nx ∧ t.Ny = Ny ∧ ∀ x y, (t.t0 x y).im = 0 ∧ (t.t1 x y).im = 0

/-- The vector field of a pattern with (`zz` component of the) permittivity `u` is given by the user or comes from a
generator that succeeds: any real field on the pixels of the pattern. -/
def VectorFieldOn (E : Ext) (L : LayerSpec) (u : PGrid) : Prop :=
  (∃ t, L.tangentField = some t ∧ RealField t u.Nx u.Ny) ∨
  (L.tangentField = none ∧ (L.tangentFieldType = "fft" ∨ L.tangentFieldType = "opt") ∧
    ∀ H normalize, ∃ t, E.tangent L.tangentFieldType u H normalize = .ok t ∧ RealField t u.Nx u.Ny)

/-- The layer `L` is a pattern of tensors on `N × N` pixels; `e i j` holds the entries `(i, j)`. -/
def HasTensorPixels (L : LayerSpec) (N : ℕ) (e : Fin 3 → Fin 3 → Grid N N) : Prop :=
  L.isUniform = false ∧ L.isAnisotropic = true ∧ ∀ i j : Fin 3, (L.epsilon.comp i j).toGrid = .ok ⟨N, N, e i j⟩

/-- What C105 asks of a layer: it is homogeneous, or an isotropic pattern with as many pixels as there are orders, or (on a
lattice with two periods) a pattern of tensors on a square array of as many pixels, whose transverse parts can be inverted;
on a lattice with two periods the vector field lies on the pixels. -/
def FullyResolved (E : Ext) (c : Static) (L : LayerSpec) : Prop :=
  L.isUniform = true ∨
  (∃ u, HasPixels L u ∧ AsManyOrdersAsPixels c u.Nx u.Ny ∧ (c.lattice.is1D = true ∨ VectorFieldOn E L u)) ∨
  (∃ N e, HasTensorPixels L N e ∧ AsManyOrdersAsPixels c N N ∧ c.lattice.is1D = false ∧
    VectorFieldOn E L ⟨N, N, e 2 2⟩ ∧ ∀ x y, e 0 0 x y * e 1 1 x y - e 1 0 x y * e 0 1 x y ≠ 0)

end Nannos.Spec
