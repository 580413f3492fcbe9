import Verif.Model.Prelude
import Mathlib.LinearAlgebra.Matrix.NonsingularInverse
import Mathlib.Analysis.SpecialFunctions.Trigonometric.Basic

/-! Model of `nannos/excitation.py`. -/

namespace Nannos

open Matrix

/-- The attributes of a `PlaneWave` (`nannos/excitation.py:34-71`). -/
structure PlaneWave where
  wavelength : ℝ
  theta : ℝ
  phi : ℝ
  psi : ℝ
  wavenumber : ℝ
  wavevector : Fin 3 → ℝ
  amplitude : Fin 3 → ℝ
  a0 : Fin 2 → ℝ

/-- Real 2x2 `bk.linalg.inv` (`nannos/excitation.py:69`, `nannos/lattice.py:100`): `LinAlgError` when
singular. -/
noncomputable def inv2 (A : Matrix (Fin 2) (Fin 2) ℝ) : Except PyErr (Matrix (Fin 2) (Fin 2) ℝ) :=
  open Classical in
  if A.det = 0 then .error .linAlgError else .ok A⁻¹

/-- Real `x ** 0.5` (`nannos/excitation.py:68`): `nan` for negative `x`. -/
noncomputable def powHalf (x : ℝ) : Except PyErr ℝ :=
  if x < 0 then .error .nonfinite else .ok (Real.sqrt x)

/-- `PlaneWave.__init__` (`nannos/excitation.py:34-71`); `angles` are in degrees.  A zero wavelength
makes `1 / self.wavelength` infinite. -/
noncomputable def planeWave (wavelength : ℝ) (angles : ℝ × ℝ × ℝ) : Except PyErr PlaneWave :=
  open Classical in do
  let deg2rad := Real.pi / 180
  let theta := angles.1 * deg2rad
  let phi := angles.2.1 * deg2rad
  let psi := angles.2.2 * deg2rad
  if wavelength = 0 then .error .nonfinite
  let k0 := 2 * Real.pi * (1 / wavelength)
  let kt : Fin 3 → ℝ := fun i => k0 *
    ![Real.sin theta * Real.cos phi, Real.sin theta * Real.sin phi, Real.cos theta] i
  let cpsi := Real.cos psi
  let spsi := Real.sin psi
  let cx := cpsi * Real.cos theta * Real.cos phi - spsi * Real.sin phi
  let cy := cpsi * Real.cos theta * Real.sin phi + spsi * Real.cos phi
  let cz := -cpsi * Real.sin theta
  let K : Matrix (Fin 2) (Fin 2) ℝ := !![kt 1 ^ 2, -kt 0 * kt 1; -kt 0 * kt 1, kt 0 ^ 2]
  let Q := k0 ^ 2 • (1 : Matrix (Fin 2) (Fin 2) ℝ) - K
  let q ← powHalf (k0 ^ 2 - kt 0 ^ 2 - kt 1 ^ 2)
  let Qinv ← inv2 Q
  let C := (k0 * q) • Qinv
  let et : Fin 2 → ℝ := ![-cy, cx]
  pure { wavelength := wavelength, theta := theta, phi := phi, psi := psi, wavenumber := k0,
         wavevector := kt, amplitude := ![cx, cy, cz], a0 := C *ᵥ et }

end Nannos
