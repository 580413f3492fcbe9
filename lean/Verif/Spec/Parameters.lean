import Verif.Spec.Smooth
import Verif.Spec.Results
import Verif.Spec.Maxwell

/-! Structures whose materials and thicknesses are parameters (C89). -/

namespace Nannos.Spec

/-- The layers `mats` with other thicknesses and other entries of their permittivity arrays. A layer whose thickness is
`None` keeps it, and the shapes of the arrays do not change. -/
def withMaterials (mats : ℕ → LayerSpec) (th : ℕ → ℝ) (eps : ℕ → List ℕ → ℂ) : ℕ → LayerSpec :=
  fun r => { mats r with
    thickness := (mats r).thickness.map fun _ => th r
    epsilon := ⟨(mats r).epsilon.shape, eps r⟩ }

/-- Wavelength, angles, thicknesses and permittivities depend on parameters `x`, `n` times continuously differentiably at
`x0`. Around `x0` the superstrate is transparent and the last layer has no gain. The patterned layers are treated with the
formulation "original", or with "tangent" on a lattice with one period, or with tangent fields given by the user. -/
structure SmoothStructure {V : Type} [NormedAddCommGroup V] [NormedSpace ℝ V] (n : WithTop ℕ∞) (x0 : V)
    (lats : ℕ → Lattice) (mats : ℕ → LayerSpec) (stack : List ℕ) (form : String) (wl : V → ℝ) (ang : V → ℝ × ℝ × ℝ)
    (th : V → ℕ → ℝ) (eps : V → ℕ → List ℕ → ℂ) : Prop where
  wavelength : ContDiffAt ℝ n wl x0
  angles : ContDiffAt ℝ n ang x0
  thickness : ∀ r ∈ stack, ContDiffAt ℝ n (fun x => th x r) x0
  permittivity : ∀ r ∈ stack, ∀ idx, ContDiffAt ℝ n (fun x => eps x r idx) x0
  mu : ∀ r ∈ stack, (mats r).mu = 1
  placed : ∀ᶠ x in nhds x0, WellPlaced (withMaterials mats (th x) (eps x)) stack
  superstrate : ∀ r, stack.head? = some r → (mats r).isUniform = true ∧ ∀ᶠ x in nhds x0,
    (withMaterials mats (th x) (eps x) r).epsilon.value.im = 0 ∧ 0 < (withMaterials mats (th x) (eps x) r).epsilon.value.re
  substrate : ∀ r, stack.getLast? = some r → (mats r).isUniform = true ∧ ∀ᶠ x in nhds x0,
    0 ≤ (withMaterials mats (th x) (eps x) r).epsilon.value.im
  pattern : form = "original" ∨
    ((∀ r, stack.head? = some r → (lats (mats r).lattice).is1D = true) ∧ form = "tangent") ∨
    ∀ r ∈ stack, (mats r).isUniform = false → (mats r).tangentField ≠ none

end Nannos.Spec
