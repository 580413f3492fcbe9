import Verif.Spec.Fourier
import Verif.Spec.Maxwell

/-! Constitutive laws in the truncated Fourier basis. -/

namespace Nannos.Spec

open Nannos Matrix

variable {Nx Ny : ℕ}

/-- Product with the pattern `u`, truncated to the harmonics of the simulation (Laurent's rule): entry `(i, j)` is the Fourier
coefficient of `u` for the difference of the harmonics `i` and `j`. -/
noncomputable def conv (c : Static) (u : Grid Nx Ny) : Matrix (Fin c.nh) (Fin c.nh) ℂ :=
  Matrix.of fun i j => coeff u ((c.harmonics.get i).1 - (c.harmonics.get j).1) ((c.harmonics.get i).2 - (c.harmonics.get j).2)

/-- A law giving the transverse displacement produced by the transverse electric field. -/
abbrev Law (nh : ℕ) := (Fin nh → ℂ) → (Fin nh → ℂ) → (Fin nh → ℂ) × (Fin nh → ℂ)

/-- The law contained in the operator `P` of a layer. -/
def lawOf {nh : ℕ} (P : Matrix (Idx nh) (Idx nh) ℂ) : Law nh := fun ex ey => (dispX P ex ey, dispY P ex ey)

/-- `dx = exx Ex + exy Ey`, `dy = eyx Ex + eyy Ey`, all products by Laurent's rule. -/
noncomputable def tensorLaw (c : Static) (exx exy eyx eyy : Grid Nx Ny) : Law c.nh := fun ex ey =>
  (conv c exx *ᵥ ex + conv c exy *ᵥ ey, conv c eyx *ᵥ ex + conv c eyy *ᵥ ey)

/-- Li's rules for a real field `t` of tangent vectors, of which `pxx = tx tx`, `pxy = tx ty` and `pyy = ty ty` (divided by
the square of the length): `A` for the component along `t`, `B` for the component across `t`, that is
`D = A E - (A - B) N E` with the projector `N = [[pyy, -pxy], [-pxy, pxx]]` on the normal. -/
noncomputable def normalLaw (c : Static) (A B : Matrix (Fin c.nh) (Fin c.nh) ℂ) (pxx pxy pyy : Grid Nx Ny) : Law c.nh := fun ex ey =>
  (A *ᵥ ex - (A - B) *ᵥ (conv c pyy *ᵥ ex - conv c pxy *ᵥ ey), A *ᵥ ey - (A - B) *ᵥ (conv c pxx *ᵥ ey - conv c pxy *ᵥ ex))

/-- `ta tb / (|t| + eps)^2` for real `t`. -/
noncomputable def dyad (t0 t1 a b : Fin Nx → Fin Ny → ℝ) : Grid Nx Ny := fun x y =>
  (((a x y * b x y) / (Real.sqrt (t0 x y ^ 2 + t1 x y ^ 2) + 1 / 2 ^ 52) ^ 2 : ℝ) : ℂ)

end Nannos.Spec
