import Verif.Spec.Energy

/-! Materials which absorb at every point, in terms of the permittivity array given by the user. -/

namespace Nannos.Spec

open Nannos

/-- Every electric field dissipates at every pixel: `Im (conj(w) . eps w) > 0` for `w ≠ 0` for a tensor (`(3,3)` or
`(3,3,Nx,Ny)` arrays), `Im eps > 0` for a number or an `(Nx,Ny)` grid. -/
def Absorbing (L : LayerSpec) : Prop :=
  if L.isAnisotropic then
    ∀ idx, List.Forall₂ (· < ·) idx (L.epsilon.shape.drop 2) → ∀ w : Fin 3 → ℂ, w ≠ 0 →
      0 < (∑ i : Fin 3, ∑ j : Fin 3, star (w i) * L.epsilon.data ((i : ℕ) :: (j : ℕ) :: idx) * w j).im
  else ∀ idx, List.Forall₂ (· < ·) idx L.epsilon.shape → 0 < (L.epsilon.data idx).im

/-- The permittivities of all pixels lie in one open half plane bounded by a line through zero: all positive, all
negative, all with a positive imaginary part... -/
def OneHalfPlane (L : LayerSpec) : Prop :=
  ∃ s : ℂ, ∀ idx, List.Forall₂ (· < ·) idx L.epsilon.shape → 0 < (s * L.epsilon.data idx).im

end Nannos.Spec
