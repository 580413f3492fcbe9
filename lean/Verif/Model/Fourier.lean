import Verif.Model.Lattice
import Verif.Model.SMatrix

/-! Model of `nannos/formulations/fft.py` and of the Fourier-space helpers of `nannos/simulation.py`. -/

namespace Nannos

open Matrix

/-- A complex `(Nx, Ny)` array (`nannos/formulations/fft.py:21-42`). -/
abbrev Grid (Nx Ny : ℕ) := Fin Nx → Fin Ny → ℂ

variable {Nx Ny : ℕ}

/-- `bk.fft.fft2` (external kernel, its defining sum): no normalisation, negative exponent
(`nannos/formulations/fft.py:27`). -/
noncomputable def fft2 (u : Grid Nx Ny) : Grid Nx Ny := fun p q =>
  ∑ x : Fin Nx, ∑ y : Fin Ny, u x y *
    Complex.exp (-(2 * Real.pi * Complex.I * (p * x / Nx + q * y / Ny)))

/-- `bk.fft.ifft2` (external kernel, its defining sum): normalised, positive exponent
(`nannos/formulations/fft.py:38`). -/
noncomputable def ifft2 (U : Grid Nx Ny) : Grid Nx Ny := fun x y =>
  1 / ((Nx : ℂ) * Ny) * ∑ p : Fin Nx, ∑ q : Fin Ny, U p q *
    Complex.exp (2 * Real.pi * Complex.I * (p * x / Nx + q * y / Ny))

/-- `fourier_transform(u)` (`nannos/formulations/fft.py:21-29`), transform over the two axes of a
two-dimensional array. -/
noncomputable def fourierTransform (u : Grid Nx Ny) : Grid Nx Ny := fun p q =>
  fft2 u p q / ((Nx : ℂ) * Ny)

/-- `inverse_fourier_transform(uft)` (`nannos/formulations/fft.py:32-40`). -/
noncomputable def inverseFourierTransform (U : Grid Nx Ny) : Grid Nx Ny := fun x y =>
  ifft2 U x y * ((Nx : ℂ) * Ny)

/-- Position designated by the Python index `i` along an axis of length `n`, `none` for
`IndexError`: `pyIdx` with its bound (`nannos/simulation.py:577-586`). -/
def pyFin (n : ℕ) (i : ℤ) : Option (Fin n) :=
  if h : 0 ≤ i ∧ i < n then some ⟨i.toNat, by omega⟩
  else if h : i < 0 ∧ 0 ≤ i + n then some ⟨(i + n).toNat, by omega⟩
  else none

/-- `Simulation._get_toeplitz_matrix(u)` (`nannos/simulation.py:577-586`): entry `(i, j)` is
`uft[delta[0], delta[1]]` with `delta = harmonics[:, i] - harmonics[:, j]` and Python's negative
indices. -/
noncomputable def toeplitz {nh : ℕ} (H : Fin nh → ℤ × ℤ) (u : Grid Nx Ny) :
    Except PyErr (Matrix (Fin nh) (Fin nh) ℂ) :=
  let uft := fourierTransform u
  if ∃ i j, pyFin Nx ((H i).1 - (H j).1) = none ∨ pyFin Ny ((H i).2 - (H j).2) = none then
    .error .indexError
  else .ok (Matrix.of fun i j =>
    match pyFin Nx ((H i).1 - (H j).1), pyFin Ny ((H i).2 - (H j).2) with
    | some p, some q => uft p q
    | _, _ => 0)

/-- `Simulation.get_ifft(u, shape)` (`nannos/simulation.py:335-343`): sums the arrays that are `u[i]` at
position `harmonics[:, i]` and zero elsewhere, then transforms.  Without harmonics `s` is the integer
`0` and `ifft2` raises `ValueError`. -/
noncomputable def getIfft {nh : ℕ} (H : Fin nh → ℤ × ℤ) (u : Fin nh → ℂ) (Nx Ny : ℕ) :
    Except PyErr (Grid Nx Ny) :=
  if ∃ i, pyFin Nx (H i).1 = none ∨ pyFin Ny (H i).2 = none then .error .indexError
  else if nh = 0 then .error .valueError
  else .ok (inverseFourierTransform fun p q => ∑ i, u i *
    (if pyFin Nx (H i).1 = some p ∧ pyFin Ny (H i).2 = some q then 1 else 0))

/-- `Simulation.get_epsilon` of a patterned layer with (`zz` component of the) permittivity `eps`
(`nannos/simulation.py:717-725`); `i0` is `self.index_zeroth_order`, `(Mx, My)` the lattice
discretisation. -/
noncomputable def getEpsilon {nh : ℕ} (H : Fin nh → ℤ × ℤ) (i0 : Fin nh) (eps : Grid Nx Ny)
    (Mx My : ℕ) : Except PyErr (Grid Mx My) := do
  let epsHat ← toeplitz H eps
  getIfft H (fun i => epsHat i i0) Mx My

/-- `bk.max(self.harmonics)` (`nannos/simulation.py:98`): the largest entry of the `(2, nh)` array;
`ValueError` for an empty array. -/
def maxHarmonic (H : List (ℤ × ℤ)) : Except PyErr ℤ :=
  match H.flatMap fun g => [g.1, g.2] with
  | [] => .error .valueError
  | x :: xs => .ok (xs.foldl max x)

/-- The Nyquist check of the constructor (`nannos/simulation.py:98-102`). -/
def checkNyquist (l : Lattice) (H : List (ℤ × ℤ)) : Except PyErr Unit := do
  let maxN ← maxHarmonic H
  if (l.discretization.1 : ℤ) ≤ 2 * maxN ∨ ((l.discretization.2 : ℤ) ≤ 2 * maxN ∧ !l.is1D) then
    .error .valueError
  else pure ()

end Nannos
