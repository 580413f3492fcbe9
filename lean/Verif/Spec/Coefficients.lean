import Verif.Spec.Fourier
import Verif.Spec.Calls

/-! What the formulations without vector fields know of a pattern: some of its Fourier coefficients (C93). -/

namespace Nannos.Spec

open Nannos

/-- Two pixel arrays, of any resolutions, whose Fourier coefficients agree at the differences of the retained orders; the
differences are frequencies of both arrays. -/
def SameCoefficients (H : List (ℤ × ℤ)) (u u' : PGrid) : Prop :=
  ∀ g ∈ H, ∀ h ∈ H, (|g.1 - h.1| < u.Nx ∧ |g.1 - h.1| < u'.Nx ∧ |g.2 - h.2| < u.Ny ∧ |g.2 - h.2| < u'.Ny) ∧
    coeff u.g (g.1 - h.1) (g.2 - h.2) = coeff u'.g (g.1 - h.1) (g.2 - h.2)

/-- The pixel array of inverse permittivities. -/
noncomputable def inverseGrid (u : PGrid) : PGrid := ⟨u.Nx, u.Ny, fun x y => 1 / u.g x y⟩

/-- The layer `L` is a pattern with the pixel array `u` of isotropic permittivities. -/
def HasPixels (L : LayerSpec) (u : PGrid) : Prop :=
  L.isUniform = false ∧ L.isAnisotropic = false ∧ L.epsilon.toGrid = .ok u

/-- `L'` is `L` with other pixels, and possibly another tangent field or generator. -/
def SameButPixels (L L' : LayerSpec) : Prop :=
  L' = { L with epsilon := L'.epsilon, tangentField := L'.tangentField, tangentFieldType := L'.tangentFieldType }

/-- The formulation does not use vector fields: the original one, or the tangent one for mono-periodic lattices. -/
def NoVectorFields (c : Static) : Prop := c.formulation = "original" ∨ (c.formulation = "tangent" ∧ c.lattice.is1D = true)

/-- Each layer of the second structure is that of the first one, or a pattern with other pixels, possibly at another
resolution, with the same Fourier coefficients of the permittivity at the differences of the orders; in the tangent
formulation, of the inverse permittivity too. -/
def SamePatterns (c : Static) (mats mats' : ℕ → LayerSpec) : Prop :=
  ∀ r ∈ c.stack, mats' r = mats r ∨ (SameButPixels (mats r) (mats' r) ∧
    ∃ u u', HasPixels (mats r) u ∧ HasPixels (mats' r) u' ∧ SameCoefficients c.harmonics u u' ∧
      (c.formulation = "tangent" → (∀ x y, u.g x y ≠ 0) ∧ (∀ x y, u'.g x y ≠ 0) ∧
        SameCoefficients c.harmonics (inverseGrid u) (inverseGrid u')))

end Nannos.Spec
