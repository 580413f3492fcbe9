import Verif.Spec.Maxwell

/-! Lossless and passive materials, in terms of the permittivity array given by the user. -/

namespace Nannos.Spec

open Nannos Matrix

/-- The dissipated power density of a material (up to a positive factor) lies in `S`, for every electric
field and at every pixel: `Im (conj(w) . eps w)` for a tensor (`(3,3)` or `(3,3,Nx,Ny)` arrays),
`Im eps` (times `|w|^2`) for a number or an `(Nx,Ny)` grid. -/
def LossIn (S : Set ℝ) (L : LayerSpec) : Prop :=
  if L.isAnisotropic then
    ∀ idx, List.Forall₂ (· < ·) idx (L.epsilon.shape.drop 2) → ∀ w : Fin 3 → ℂ,
      (∑ i : Fin 3, ∑ j : Fin 3, star (w i) * L.epsilon.data ((i : ℕ) :: (j : ℕ) :: idx) * w j).im ∈ S
  else ∀ idx, List.Forall₂ (· < ·) idx L.epsilon.shape → (L.epsilon.data idx).im ∈ S

/-- A material that does not dissipate: real permittivity, Hermitian tensors. -/
def Lossless (L : LayerSpec) : Prop := LossIn {0} L

/-- A material that does not amplify: permittivity with non-negative imaginary part. -/
def Passive (L : LayerSpec) : Prop := LossIn (Set.Ici 0) L

end Nannos.Spec
