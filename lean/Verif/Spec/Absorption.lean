import Verif.Spec.Maxwell
import Verif.Spec.Fourier

/-! Power dissipated by the materials, in terms of the fields. -/

namespace Nannos.Spec

open Nannos Matrix

variable {nh : ℕ}

/-- `Im (conj(E) . D)` integrated over the unit cell (Parseval), for fields in a medium with transverse permittivity
operator `P` and normal permittivity operator `e`. The power dissipated per unit depth is `omega` times this. -/
noncomputable def dissipation (P : Matrix (Idx nh) (Idx nh) ℂ) (e : Matrix (Fin nh) (Fin nh) ℂ) (F : FieldF nh) : ℝ :=
  (∑ i, (star (F.ex i) * dispX P F.ex F.ey i + star (F.ey i) * dispY P F.ex F.ey i + star (F.ez i) * (e *ᵥ F.ez) i)).im

/-- `Im eps |E|^2` averaged over the pixels of the layer, in terms of the permittivity array given by the user and of the
electric field in real space. (Arrays of other shapes are not accepted by the simulation.) -/
noncomputable def lossDensity (H : Fin nh → ℤ × ℤ) (L : LayerSpec) (F : FieldF nh) : ℝ :=
  if L.isUniform then
    L.epsilon.value.im * ∑ i, (Complex.normSq (F.ex i) + Complex.normSq (F.ey i) + Complex.normSq (F.ez i))
  else match L.epsilon.shape with
    | [Nx, Ny] => ((Nx : ℝ) * Ny)⁻¹ * ∑ x : Fin Nx, ∑ y : Fin Ny, (L.epsilon.data [(x : ℕ), (y : ℕ)]).im *
        (Complex.normSq (series H F.ex Nx Ny x y) + Complex.normSq (series H F.ey Nx Ny x y) +
          Complex.normSq (series H F.ez Nx Ny x y))
    | _ => 0

end Nannos.Spec
