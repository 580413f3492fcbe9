import Verif.Spec.Energy

/-! Magnetic layers: Maxwell's equations with a relative permeability, magnetic losses. -/

namespace Nannos.Spec

open Nannos Matrix

variable {nh : ℕ}

/-- `curl E = i omega B`, `B = mu H`, and `curl H = -i omega D`, in the truncated Fourier basis (see
`Maxwell`, which is the case `mu = 1`). -/
structure MagneticMaxwell (omega : ℝ) (kx ky : Fin nh → ℂ) (mu : ℂ) (P : Matrix (Idx nh) (Idx nh) ℂ)
    (epsz : Matrix (Fin nh) (Fin nh) ℂ) (F : ℝ → FieldF nh) : Prop where
  curlEx : ∀ z i, HasDerivAt (fun z => (F z).ey i)
    (Complex.I * ky i * (F z).ez i - Complex.I * omega * (mu * (F z).hx i)) z
  curlEy : ∀ z i, HasDerivAt (fun z => (F z).ex i)
    (Complex.I * kx i * (F z).ez i + Complex.I * omega * (mu * (F z).hy i)) z
  curlEz : ∀ z i, kx i * (F z).ey i - ky i * (F z).ex i = omega * (mu * (F z).hz i)
  curlHx : ∀ z i, HasDerivAt (fun z => (F z).hy i)
    (Complex.I * ky i * (F z).hz i + Complex.I * omega * dispX P (F z).ex (F z).ey i) z
  curlHy : ∀ z i, HasDerivAt (fun z => (F z).hx i)
    (Complex.I * kx i * (F z).hz i - Complex.I * omega * dispY P (F z).ex (F z).ey i) z
  curlHz : ∀ z i, kx i * (F z).hy i - ky i * (F z).hx i = -omega * (epsz *ᵥ (F z).ez) i

/-- The same fields with the normal magnetic field divided by `mu`. -/
noncomputable def FieldF.divHz (mu : ℂ) (F : FieldF nh) : FieldF nh := { F with hz := fun i => F.hz i / mu }

/-- The permeabilities of the layers do not vanish, and copies have kept that of their original. -/
def Magnetic (mats : ℕ → LayerSpec) (stack : List ℕ) : Prop :=
  ∀ r ∈ stack, (mats r).mu ≠ 0 ∧ ((mats r).iscopy = true → (mats r).mu = (mats (mats r).original).mu)

end Nannos.Spec
