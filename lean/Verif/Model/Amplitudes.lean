import Verif.Model.Sim

/-! Mode amplitudes at a depth of a layer. -/

namespace Nannos

/-- `Simulation._get_amplitudes(layer_index, z, translate=True)` (`nannos/simulation.py:731-749`).  The layer
which is translated has its eigenvalues since the amplitudes were found; `layerModes` also reads its eigenvectors and
`Qeps`, which are set together with them (`nannos/simulation.py:588-708`). -/
noncomputable def getAmplitudesAt (E : Ext) (c : Static) (i : ℤ) (z : ℝ) :
    PyM (Dyn c.nh) ((Idx c.nh → ℂ) × (Idx c.nh → ℂ)) := do
  let ab ← getAmplitudes E c i
  let d ← PyM.get
  let M ← PyM.lift (layerModes c d i)
  PyM.lift (translateAmplitudes M z ab.1 ab.2)

end Nannos
