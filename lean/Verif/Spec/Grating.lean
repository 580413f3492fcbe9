import Verif.Spec.Maxwell
import Mathlib.LinearAlgebra.Matrix.Charpoly.Coeff

/-! Mono-periodic gratings and what is asked of the eigenvalue routine (C100, C101). -/

namespace Nannos.Spec

open Nannos Matrix Polynomial

/-- A mono-periodic lattice, `Lattice(a, ...)`, with the orders chosen by the code. -/
def MonoPeriodic (l : Lattice) : Prop := ∃ a d t, mkLattice (.period a) d t none = .ok l

/-- A material whose permittivity is a real positive number at every pixel. -/
def Dielectric (L : LayerSpec) : Prop :=
  L.isAnisotropic = false ∧
    ∀ idx, List.Forall₂ (· < ·) idx L.epsilon.shape → (L.epsilon.data idx).im = 0 ∧ 0 < (L.epsilon.data idx).re

/-- A matrix with a basis of eigenvectors, the columns of `V`. -/
def Diagonalisable {m : Type} [Fintype m] [DecidableEq m] (A : Matrix m m ℂ) : Prop :=
  ∃ (V : Matrix m m ℂ) (d : m → ℂ), V.det ≠ 0 ∧ A * V = V * diagonal d

/-- The eigenvalue routine returns all the eigenvalues, with their multiplicities. -/
def EigSpectrum (E : Ext) : Prop := ∀ n (A : Matrix (Idx n) (Idx n) ℂ) w v, E.eig n A = .ok (w, v) →
  A.charpoly = ∏ j, (X - C (w j))

/-- When there is a basis of eigenvectors, the eigenvectors returned form one. -/
def EigBasis (E : Ext) : Prop := ∀ n (A : Matrix (Idx n) (Idx n) ℂ) w v, E.eig n A = .ok (w, v) →
  Diagonalisable A → v.det ≠ 0

end Nannos.Spec
