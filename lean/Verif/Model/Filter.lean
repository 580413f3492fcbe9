import Verif.Model.Fourier

/-! Model of the density filter of `nannos/utils/helpers.py`. -/

namespace Nannos

/-- `bk.linspace(-l / 2, l / 2, n)` (`nannos/utils/helpers.py:144-149`). -/
noncomputable def linspaceSym (l : ℝ) (n : ℕ) (i : Fin n) : ℝ := -l / 2 + i * (l / ((n - 1 : ℕ) : ℝ))

/-- `bk.trapz(b)` with unit spacing (`nannos/utils/helpers.py:151,153`). -/
noncomputable def trapz {n : ℕ} (b : Fin n → ℝ) : ℝ :=
  ∑ i : Fin (n - 1), (b ⟨i, by omega⟩ + b ⟨i + 1, by omega⟩) / 2

/-- `bump = exp(-t**2 / r**2); bump /= trapz(bump)` (`nannos/utils/helpers.py:150-153`); dividing by zero gives
`inf` or `nan`. -/
noncomputable def bump {n : ℕ} (l r : ℝ) : Except PyErr (Fin n → ℝ) :=
  open Classical in
  let b : Fin n → ℝ := fun i => Real.exp (-(linspaceSym l n i ^ 2) / r ^ 2)
  if r = 0 ∨ trapz b = 0 then .error .nonfinite
  else .ok fun i => b i / trapz b

/-- Source of entry `i` in `bk.fft.fftshift` along an axis of length `n`: `(i - n // 2) % n`
(`nannos/utils/helpers.py:161`). -/
def shiftIdx {n : ℕ} (i : Fin n) : Fin n := ⟨(i + (n - n / 2)) % n, Nat.mod_lt _ (by have := i.isLt; omega)⟩

/-- `_apply_filter(x, rfilt, vectors)` (`nannos/utils/helpers.py:135-161`), for a pair `rfilt` (a number stands for
the pair with equal entries, 136-137).  The transform of an empty array raises `ValueError`. -/
noncomputable def applyFilter {Nx Ny : ℕ} (x : Grid Nx Ny) (rfilt : ℝ × ℝ) (vectors : Option (Fin 2 → Fin 2 → ℝ)) :
    Except PyErr (Grid Nx Ny) :=
  open Classical in
  if rfilt = (0, 0) then .ok x
  else if Nx = 0 ∨ Ny = 0 then .error .valueError
  else do
    let (lx, ly) := match vectors with
      | none => ((Nx : ℝ), (Ny : ℝ))
      | some v => (v 0 0, v 1 1)
    let bumpx ← bump (n := Nx) lx rfilt.1
    let bumpy ← bump (n := Ny) ly rfilt.2
    let kernel : Grid Nx Ny := fun i j => ((bumpx i * bumpy j : ℝ) : ℂ)
    let kernelFt := fourierTransform kernel
    let imgFt := fourierTransform x
    let out := inverseFourierTransform fun p q => kernelFt p q * imgFt p q
    pure fun i j => (((out (shiftIdx i) (shiftIdx j)).re : ℝ) : ℂ) * ((Nx : ℂ) * Ny)

end Nannos
