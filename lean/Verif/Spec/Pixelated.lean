import Verif.Model.Sim

/-! Two descriptions of a homogeneous slab. -/

namespace Nannos.Spec

open Nannos

/-- The same layer with its permittivity `v` given as an `(Nx, Ny)` array all of whose pixels are `v`. -/
def pixelated (Nx Ny : ℕ) (L : LayerSpec) : LayerSpec :=
  { L with epsilon := NdArr.ofGrid (Nx := Nx) (Ny := Ny) fun _ _ => L.epsilon.value }

/-- `mats'` are the layers `mats` of a stack, some of the homogeneous isotropic ones of which are described
by constant pixel arrays (not 3 by 3, which would be taken for a tensor, see C53). -/
def PixelatedSome (mats mats' : ℕ → LayerSpec) (stack : List ℕ) : Prop :=
  ∀ r ∈ stack, mats' r = mats r ∨
    ((mats r).isUniform = true ∧ (mats r).isAnisotropic = false ∧ (mats r).iscopy = false ∧
      ∃ Nx Ny, ¬ (Nx = 3 ∧ Ny = 3) ∧ mats' r = pixelated Nx Ny (mats r))

end Nannos.Spec
