import Verif.Spec.Absorbing
import Verif.Spec.Full

/-! Layers which can be solved in any formulation (C86). -/

namespace Nannos.Spec

open Nannos

/-- The pattern `w` of the layer gets real vectors on its pixels: given with the layer, or returned by its generator for the orders
it is asked for. -/
def VectorsMade (E : Ext) (c : Static) (L : LayerSpec) (w : PGrid) : Prop :=
  (∃ t, L.tangentField = some t ∧ RealField t w.Nx w.Ny) ∨
  (L.tangentField = none ∧ (L.tangentFieldType = "fft" ∨ L.tangentFieldType = "opt") ∧
    ∀ H n, c.lattice.getHarmonics E.argsort c.nh true = .ok (H, n) →
      ∃ t, E.tangent L.tangentFieldType w H (c.formulation == "tangent") = .ok t ∧ RealField t w.Nx w.Ny)

/-- An isotropic pattern of `Nx × Ny` pixels with permittivities in one open half plane; in a formulation which needs vectors, it gets
some. -/
def SolvablePattern (E : Ext) (c : Static) (L : LayerSpec) (Nx Ny : ℕ) : Prop :=
  ∃ g : Grid Nx Ny, HasPixels L ⟨Nx, Ny, g⟩ ∧ (∃ s : ℂ, ∀ x y, 0 < (s * g x y).im) ∧
    (c.formulation = "original" ∨ (c.formulation = "tangent" ∧ c.lattice.is1D = true) ∨ VectorsMade E c L ⟨Nx, Ny, g⟩)

/-- A pattern of `Nx × Ny` tensors `e`, with the entries `zz` in one open half plane.  In a formulation with vectors: the lattice has two
periods, the array is square, there are vectors, and the transverse parts have their numerical ranges in one open half
plane, as have positive and lossy materials. -/
def SolvableTensors (E : Ext) (c : Static) (L : LayerSpec) (Nx Ny : ℕ) : Prop :=
  ∃ e : Fin 3 → Fin 3 → Grid Nx Ny, L.isUniform = false ∧ L.isAnisotropic = true ∧
    (∀ i j : Fin 3, (L.epsilon.comp i j).toGrid = .ok ⟨Nx, Ny, e i j⟩) ∧ (∃ s : ℂ, ∀ x y, 0 < (s * e 2 2 x y).im) ∧
    (c.formulation = "original" ∨ (c.lattice.is1D = false ∧ Nx = Ny ∧ VectorsMade E c L ⟨Nx, Ny, e 2 2⟩ ∧
      ∃ s : ℂ, ∀ x y, ∀ p q : ℂ, (p ≠ 0 ∨ q ≠ 0) →
        0 < (s * (star p * e 0 0 x y * p + star p * e 0 1 x y * q + star q * e 1 0 x y * p + star q * e 1 1 x y * q)).im))

end Nannos.Spec
