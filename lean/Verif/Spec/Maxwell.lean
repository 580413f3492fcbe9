import Verif.Model.Sim

/-! Maxwell's equations for one layer in the truncated Fourier basis, independent of the solver.
Time dependence `exp(-i omega t)`, units with `eps0 = mu0 = 1`, `mu = 1`; `kx i`, `ky i` are the transverse
wave vectors of the harmonics. -/

namespace Nannos.Spec

open Nannos Matrix

variable {nh : ℕ}

/-- Second-order operator acting on the transverse magnetic field `(hx, hy)`:
`omega^2 P - P K_eps - K_mu`, where `P` is the transverse permittivity acting on `(-ey, ex)`, `eta` the
inverse of the normal permittivity,
`K_eps = [[ky eta ky, -ky eta kx], [-kx eta ky, kx eta kx]]` and
`K_mu = [[kx kx, kx ky], [ky kx, ky ky]]`. -/
def kEps (kx ky : Fin nh → ℂ) (eta : Matrix (Fin nh) (Fin nh) ℂ) : Matrix (Idx nh) (Idx nh) ℂ :=
  Matrix.of fun a b => match a, b with
    | .inl i, .inl j => ky i * eta i j * ky j
    | .inl i, .inr j => -(ky i * eta i j * kx j)
    | .inr i, .inl j => -(kx i * eta i j * ky j)
    | .inr i, .inr j => kx i * eta i j * kx j

/-- See `kEps`. -/
def kMu (kx ky : Fin nh → ℂ) : Matrix (Idx nh) (Idx nh) ℂ :=
  Matrix.of fun a b => match a, b with
    | .inl i, .inl j => if i = j then kx i * kx j else 0
    | .inl i, .inr j => if i = j then kx i * ky j else 0
    | .inr i, .inl j => if i = j then ky i * kx j else 0
    | .inr i, .inr j => if i = j then ky i * ky j else 0

/-- See `kEps`. -/
noncomputable def waveMatrix (omega : ℝ) (kx ky : Fin nh → ℂ) (P : Matrix (Idx nh) (Idx nh) ℂ)
    (eta : Matrix (Fin nh) (Fin nh) ℂ) : Matrix (Idx nh) (Idx nh) ℂ :=
  (omega : ℂ) ^ 2 • P - P * kEps kx ky eta - kMu kx ky

/-- The transverse displacement `(dx, dy)` produced by `(ex, ey)`: `P (-ey, ex) = (-dy, dx)`. -/
def dispX (P : Matrix (Idx nh) (Idx nh) ℂ) (ex ey : Fin nh → ℂ) (i : Fin nh) : ℂ :=
  ∑ j, (P (.inr i) (.inl j) * (-ey j) + P (.inr i) (.inr j) * ex j)

/-- See `dispX`. -/
def dispY (P : Matrix (Idx nh) (Idx nh) ℂ) (ex ey : Fin nh → ℂ) (i : Fin nh) : ℂ :=
  -∑ j, (P (.inl i) (.inl j) * (-ey j) + P (.inl i) (.inr j) * ex j)

/-- `curl E = i omega H` and `curl H = -i omega D` for fields `F z` depending on the depth `z`, with
`D` given by the transverse operator `P` and the normal permittivity `epsz`. -/
structure Maxwell (omega : ℝ) (kx ky : Fin nh → ℂ) (P : Matrix (Idx nh) (Idx nh) ℂ)
    (epsz : Matrix (Fin nh) (Fin nh) ℂ) (F : ℝ → FieldF nh) : Prop where
  curlEx : ∀ z i, HasDerivAt (fun z => (F z).ey i)
    (Complex.I * ky i * (F z).ez i - Complex.I * omega * (F z).hx i) z
  curlEy : ∀ z i, HasDerivAt (fun z => (F z).ex i)
    (Complex.I * kx i * (F z).ez i + Complex.I * omega * (F z).hy i) z
  curlEz : ∀ z i, kx i * (F z).ey i - ky i * (F z).ex i = omega * (F z).hz i
  curlHx : ∀ z i, HasDerivAt (fun z => (F z).hy i)
    (Complex.I * ky i * (F z).hz i + Complex.I * omega * dispX P (F z).ex (F z).ey i) z
  curlHy : ∀ z i, HasDerivAt (fun z => (F z).hx i)
    (Complex.I * kx i * (F z).hz i - Complex.I * omega * dispY P (F z).ex (F z).ey i) z
  curlHz : ∀ z i, kx i * (F z).hy i - ky i * (F z).hx i = -omega * (epsz *ᵥ (F z).ez) i

/-- Contract of the eigenvalue solver: the columns of `v` are eigenvectors of `A` for the eigenvalues
`w` and none of them vanishes. -/
def EigContract (E : Ext) : Prop := ∀ n (A : Matrix (Idx n) (Idx n) ℂ) w v, E.eig n A = .ok (w, v) →
  ∀ j, (∀ i, ∑ k, A i k * v k j = w j * v i j) ∧ ∃ i, v i j ≠ 0

end Nannos.Spec

namespace Nannos.Spec

open Nannos Matrix

/-- Every copy in the stack comes after its original, has kept its material, and is not uniform (copies
of uniform layers cannot be solved, see C36). -/
def WellPlaced (mats : ℕ → LayerSpec) (stack : List ℕ) : Prop :=
  ∀ (k r : ℕ), stack[k]? = some r → (mats r).iscopy = true →
    (∃ j : ℕ, j < k ∧ stack[j]? = some (mats r).original) ∧ (mats r).isUniform = false ∧
      (mats r).epsilon = (mats (mats r).original).epsilon

/-- The transverse permittivity operator `P` and the normal permittivity `epsz` of a layer: the
permittivity itself for a uniform layer, the operators built from the pattern by `build_matrix` (`P`
depends on the formulation, `epsz` is the convolution matrix of the pattern) otherwise; a copy has those
of its original. -/
inductive Medium (E : Ext) (c : Static) (mats : ℕ → LayerSpec) :
    ℕ → Matrix (Idx c.nh) (Idx c.nh) ℂ → Matrix (Fin c.nh) (Fin c.nh) ℂ → Prop
  | uniform (r : ℕ) (hc : (mats r).iscopy = false) (hu : (mats r).isUniform = true)
      (ha : (mats r).isAnisotropic = false) :
      Medium E c mats r ((mats r).epsilon.value • 1) ((mats r).epsilon.value • 1)
  | patterned (r : ℕ) (M p Q) (hc : (mats r).iscopy = false)
      (hb : buildPure E c (mats r) = .ok (.patterned M p Q)) : Medium E c mats r p.Peps p.epsHat
  | copy (r : ℕ) (P e) (hc : (mats r).iscopy = true) (ho : Medium E c mats (mats r).original P e) :
      Medium E c mats r P e

/-- Copies that still have the material and the tangent field of their original. -/
def FaithfulCopies (mats : ℕ → LayerSpec) (stack : List ℕ) : Prop :=
  ∀ r ∈ stack, (mats r).iscopy = true →
    (mats r).epsilon = (mats (mats r).original).epsilon ∧ (mats r).mu = (mats (mats r).original).mu ∧
      (mats r).tangentField = (mats (mats r).original).tangentField ∧
      (mats r).tangentFieldType = (mats (mats r).original).tangentFieldType

/-- The same layers, none of them a copy: what `Layer(...)` with the same arguments gives. -/
def independent (mats : ℕ → LayerSpec) : ℕ → LayerSpec := fun r => { mats r with iscopy := false, original := r }

end Nannos.Spec
