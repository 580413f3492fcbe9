import Verif.Spec.Calls

/-! Refractive indices and wavelength multiplied by one number (C103). -/

namespace Nannos.Spec

open Nannos

/-- The layer with every refractive index multiplied by `p`. -/
noncomputable def denser (p : ℝ) (L : LayerSpec) : LayerSpec :=
  { L with epsilon := ⟨L.epsilon.shape, fun idx => (p : ℂ) ^ 2 * L.epsilon.data idx⟩ }

/-- The same array times a number. -/
noncomputable def timesGrid (a : ℂ) (u : PGrid) : PGrid := ⟨u.Nx, u.Ny, fun x y => a * u.g x y⟩

/-- The formulation needs no generated vectors for the layer, or the generator it asks does not see a common factor. -/
def FactorUnseen (E : Ext) (p : ℝ) (lat : Lattice) (form : String) (L : LayerSpec) : Prop :=
  form = "original" ∨ lat.is1D = true ∨ L.tangentField ≠ none ∨
    ∀ u H b, E.tangent L.tangentFieldType (timesGrid ((p : ℂ) ^ 2) u) H b = E.tangent L.tangentFieldType u H b

/-- What a call returns with the indices multiplied by `p`: electric fields and fluxes are divided by `p`, magnetic fields,
scattering matrices, efficiencies and amplitudes are the same. -/
noncomputable def divided (p : ℝ) {nh : ℕ} : Outcome nh → Outcome nh
  | .nothing => .nothing
  | .smatrix S => .smatrix S
  | .fields F => .fields (F.map fun f =>
      ⟨fun i => f.ex i / p, fun i => f.ey i / p, fun i => f.ez i / p, f.hx, f.hy, f.hz⟩)
  | .flux f => .flux (fun i => f.1 i / p, fun i => f.2 i / p)
  | .efficiencies e => .efficiencies e
  | .orders o => .orders o

end Nannos.Spec

namespace Nannos

/-- The simulation with another incident wave, frequency and incident flux; orders, wavevectors along the layers,
incident amplitudes, layers and everything else are the same. -/
noncomputable abbrev Static.slow (c : Static) (p : ℝ) (exc : PlaneWave) : Static :=
  { c with excitation := exc, omega := c.omega / p, incidentFlux := c.incidentFlux / p }

end Nannos
