import Verif.Model.Layer

/-! Model of the `Simulation` object of `nannos/simulation.py`: construction and its methods as a state
machine. -/

namespace Nannos

open Matrix

/-! ### Construction -/

/-- `unique(x)` (`nannos/utils/helpers.py:46-48`). -/
def unique (l : List String) : Bool :=
  let rec go : List String → List String → Bool
    | _, [] => true
    | seen, x :: xs => if x ∈ seen then false else go (seen ++ [x]) xs
  go [] l

/-- `index_zeroth_order` after the loop (`nannos/simulation.py:136-138`): the first column `(0, 0)`, or
the last column when there is none. -/
def zerothIndex (H : List (ℤ × ℤ)) : ℕ :=
  match H.findIdx? (· = (0, 0)) with
  | some i => i
  | none => H.length - 1

/-- The number of harmonics asked of the lattice (`nannos/simulation.py:65-73`). -/
def effectiveNh (nh : ℤ) (allUniform : Bool) : ℤ :=
  let nh0 := if allUniform = true ∧ nh ≠ 1 then 1 else nh
  if nh0 = 1 then 2 else nh0

/-- `Simulation.__init__` (`nannos/simulation.py:44-157`).  `lats` are the lattice objects, `mats` the
layer objects, `stack` the identities of the layers.  A patterned or anisotropic superstrate makes the
wave vectors arrays of an unexpected shape and is not modelled. -/
noncomputable def simInit (E : Ext) (lats : ℕ → Lattice) (mats : ℕ → LayerSpec) (stack : List ℕ)
    (exc : PlaneWave) (nh : ℤ) (formulation : String) : Except PyErr Static :=
  open Classical in
  let names := stack.map fun r => (mats r).name
  if !unique names then .error .valueError
  else match stack with
  | [] => .error .indexError
  | r0 :: _ =>
    let l0 := (mats r0).lattice
    if !stack.all (fun r => (mats r).lattice = l0) then .error .assertionError
    else
      let lat := lats l0
      let nh0 := effectiveNh nh (stack.all fun r => (mats r).isUniform)
      if ¬ (formulation = "original" ∨ formulation = "tangent" ∨ formulation = "jones" ∨
          formulation = "pol") then .error .valueError
      else if lat.is1D = true ∧ ¬ (formulation = "original" ∨ formulation = "tangent") then
        .error .valueError
      else do
        let (H, _) ← lat.getHarmonics E.argsort nh0 true
        checkNyquist lat H
        let S0 := mats r0
        raiseIf (¬ (S0.isUniform = true ∧ S0.isAnisotropic = false)) .unmodelled
        raiseIf (S0.epsilon.value * S0.mu = 0) .nonfinite
        let k0 := k0para exc.wavevector (csqrt (S0.epsilon.value * S0.mu))
        let r ← lat.reciprocal
        let i0 := zerothIndex H
        pure {
          lattice := lat
          formulation := formulation
          harmonics := H
          excitation := exc
          omega := 2 * Real.pi * (1 / exc.wavelength)
          incidentFlux := ((Real.cos exc.theta : ℂ) / csqrt (S0.epsilon.value * S0.mu)).re
          k0para := k0
          kx := fun i => kxOf r k0 (H.get i)
          ky := fun i => kyOf r k0 (H.get i)
          indexZerothOrder := i0
          a0 := Sum.elim (fun i => if (i : ℕ) = i0 then (exc.a0 0 : ℂ) else 0)
            (fun i => if (i : ℕ) = i0 then (exc.a0 1 : ℂ) else 0)
          stack := stack
          layerNames := names }

/-! ### State and exceptions -/

/-- Mutable state: layer objects, solved flag, cache of partial scattering matrices (keyed by the first
and last interface, the string `"{first},{last}"` in the code) and the attribute `S`
(`nannos/simulation.py:44-217`). -/
structure Dyn (nh : ℕ) where
  mats : ℕ → LayerSpec
  attrs : ℕ → LayerAttr nh
  isSolved : Bool
  inter : ℤ × ℤ → Option (SMat (Idx nh))
  S : Option (SMat (Idx nh))

/-- State right after construction (`nannos/simulation.py:44-157`). -/
def Dyn.fresh {nh : ℕ} (mats : ℕ → LayerSpec) (attrs : ℕ → LayerAttr nh) : Dyn nh :=
  ⟨mats, attrs, false, fun _ => none, none⟩

/-! ### `get_layer` -/

/-- Argument of `get_layer`: a string, an integer, an object with a name, or anything else
(`nannos/layers.py:280-312`). -/
inductive LayerId where
  | name (s : String)
  | idx (i : ℤ)
  | named (s : String)
  | other

/-- `_get_layer(id, layers, layer_names)` (`nannos/layers.py:280-312`): the layer object and the index.
Layer names do not change after construction. -/
def getLayer (c : Static) (id : LayerId) : Except PyErr (ℕ × ℤ) :=
  let byName (s : String) : Except PyErr (ℕ × ℤ) :=
    match c.layerNames.findIdx? (· = s) with
    | none => .error .valueError
    | some i => match c.stack[i]? with
      | some r => .ok (r, i)
      | none => .error .indexError
  match id with
  | .name s => byName s
  | .idx i => do
    let r ← pyGet c.stack i
    pure (r, i)
  | .named s => byName s
  | .other => .error .valueError

/-! ### `solve` -/

variable (E : Ext) (c : Static)

/-- Update the attributes of one layer object (`nannos/simulation.py:588-708`). -/
def Dyn.setAttr {nh : ℕ} (d : Dyn nh) (r : ℕ) (f : LayerAttr nh → LayerAttr nh) : Dyn nh :=
  { d with attrs := fun s => if s = r then f (d.attrs r) else d.attrs s }

/-- `build_matrix(layer)` (`nannos/simulation.py:588-708`) on the layer object `r`.  A copy takes the
attributes of its original. -/
noncomputable def buildMatrix (r : ℕ) : PyM (Dyn c.nh) Unit := fun d =>
  let L := d.mats r
  if L.iscopy then
    match (d.attrs L.original).matrix, (d.attrs L.original).pat, (d.attrs L.original).Qeps with
    | some M, some p, some Q =>
      (.ok (), d.setAttr r fun a => { a with matrix := some M, pat := some p, Qeps := some Q })
    | _, _, _ => (.error .attributeError, d)
  else match buildPure E c L with
    | .error e => (.error e, d)
    | .ok (.uniform Q) => (.ok (), d.setAttr r fun a => { a with Qeps := some Q })
    | .ok (.patterned M p Q) =>
      (.ok (), d.setAttr r fun a => { a with matrix := some M, pat := some p, Qeps := some Q })

/-- The eigenmodes of the layer object `r` (`nannos/simulation.py:188-191`,
`nannos/layers.py:119-213`). -/
noncomputable def solveModes (r : ℕ) : PyM (Dyn c.nh) Unit := fun d =>
  let L := d.mats r
  let res := if L.isUniform then solveUniform L c.omega c.kx c.ky
    else if L.iscopy then attr (d.attrs L.original).eig
    else do
      let M ← attr (d.attrs r).matrix
      solveEigenproblem E M
  match res with
  | .error e => (.error e, d)
  | .ok ev => (.ok (), d.setAttr r fun a => { a with eig := some ev })

/-- One iteration of the loop of `solve` (`nannos/simulation.py:184-203`).  `build_matrix` looks the
layer up by its name, which is unique. -/
noncomputable def solveLayer (r : ℕ) : PyM (Dyn c.nh) Unit := do
  buildMatrix E c r
  solveModes E c r

/-- The loop of `solve` over the layers (`nannos/simulation.py:179-207`). -/
noncomputable def solveAll : List ℕ → PyM (Dyn c.nh) Unit
  | [] => pure ()
  | r :: rs => do
    solveLayer E c r
    solveAll rs

/-- `Simulation.solve` (`nannos/simulation.py:179-207`). -/
noncomputable def solve : PyM (Dyn c.nh) Unit := do
  solveAll E c c.stack
  PyM.modify fun d => { d with isSolved := true }

/-- `if not self.is_solved: self.solve()` (`nannos/simulation.py:219-333`). -/
noncomputable def ensureSolved : PyM (Dyn c.nh) Unit := fun d =>
  if d.isSolved then (.ok (), d) else solve E c d

/-- `Simulation.reset(param)` (`nannos/simulation.py:209-217`). -/
def simReset {nh : ℕ} (param : String) : PyM (Dyn nh) Unit := fun d =>
  let d1 := if param = "S" then { d with S := none, inter := fun _ => none } else d
  let d2 := if param = "solve" then { d1 with isSolved := false } else d1
  let d3 := if param = "all" then { d2 with S := none, inter := fun _ => none, isSolved := false } else d2
  (.ok (), d3)

/-! ### `get_S_matrix` -/

/-- The attributes of a layer object read by the scattering-matrix loop (`nannos/simulation.py:255-263`). -/
def modesOf {nh : ℕ} (L : LayerSpec) (a : LayerAttr nh) : Except PyErr (Modes (Idx nh)) := do
  let ev ← attr a.eig
  let Q ← attr a.Qeps
  pure ⟨ev.1, ev.2, Q, L.thickness⟩

/-- Modes of the `i`-th layer of the stack (Python indexing) (`nannos/simulation.py:255-263`). -/
def layerModes (d : Dyn c.nh) (i : ℤ) : Except PyErr (Modes (Idx c.nh)) := do
  let r ← pyGet c.stack i
  modesOf (d.mats r) (d.attrs r)

/-- Body of the loop of `get_S_matrix` at `i`, including the update of the cache
(`nannos/simulation.py:256-277`). -/
noncomputable def sBody (first : ℤ) (i : ℤ) (S : SMat (Idx c.nh)) : PyM (Dyn c.nh) (SMat (Idx c.nh)) :=
  fun d =>
    match (do
      let L ← layerModes c d i
      let L' ← layerModes c d (i + 1)
      stepS S L L') with
    | .error e => (.error e, d)
    | .ok S' => (.ok S', { d with inter := fun k => if k = (first, i) then some S' else d.inter k })

/-- The loop of `get_S_matrix` (`nannos/simulation.py:245-280`). -/
noncomputable def sLoop (first : ℤ) : List ℤ → SMat (Idx c.nh) → PyM (Dyn c.nh) (SMat (Idx c.nh))
  | [], S => pure S
  | i :: is, S => do
    let S' ← sBody c first i S
    sLoop first is S'

/-- The `range` of interfaces (`nannos/simulation.py:243-250`). -/
def interfaces (indices : Option (ℤ × ℤ)) : List ℤ := match indices with
  | none => pyRange 0 ((c.stack.length : ℤ) - 1)
  | some (i, j) => pyRange i j

/-- The cache lookup, or the loop if it fails (`nannos/simulation.py:252-277`).  With an empty `range`
the lookup raises, the loop does nothing and the name `S` is unbound. -/
noncomputable def cachedLoop (rng : List ℤ) : PyM (Dyn c.nh) (SMat (Idx c.nh)) := fun d =>
  match rng.head?, rng.getLast? with
  | some a, some b => match d.inter (a, b) with
    | some S => (.ok S, d)
    | none => sLoop c a rng SMat.one d
  | _, _ => (.error .unboundLocal, d)

/-- `Simulation.get_S_matrix(indices)` (`nannos/simulation.py:219-284`). -/
noncomputable def getS (indices : Option (ℤ × ℤ)) : PyM (Dyn c.nh) (SMat (Idx c.nh)) := do
  ensureSolved E c
  let S ← cachedLoop c (interfaces c indices)
  if indices.isNone then PyM.modify fun d => { d with S := some S } else pure ()
  pure S

/-! ### Amplitudes, fields and fluxes -/

/-- `Simulation._solve_ext` (`nannos/simulation.py:763-768`): `(aN, b0)`; `bN` is zero
(`nannos/simulation.py:149`). -/
noncomputable def solveExt : PyM (Dyn c.nh) ((Idx c.nh → ℂ) × (Idx c.nh → ℂ)) := do
  let d ← PyM.get
  let S ← match d.S with
    | some S => pure S
    | none => getS E c none
  let bN : Idx c.nh → ℂ := 0
  pure (S.s11 *ᵥ c.a0 + S.s12 *ᵥ bN, S.s21 *ᵥ c.a0 + S.s22 *ᵥ bN)

/-- `Simulation._solve_int(layer_index)` (`nannos/simulation.py:751-761`). -/
noncomputable def solveInt (i : ℤ) : PyM (Dyn c.nh) ((Idx c.nh → ℂ) × (Idx c.nh → ℂ)) := do
  let _ ← PyM.lift (pyGet c.stack i)
  let n := (c.stack.length : ℤ) - 1
  let S ← getS E c (some (0, i))
  let P ← getS E c (some (i, n))
  let Q := 1 - S.s12 * P.s21
  let ai ← PyM.lift (linSolveVec Q (S.s11 *ᵥ c.a0))
  pure (ai, P.s21 *ᵥ ai)

/-- `Simulation._get_amplitudes(layer_index, translate=False)` (`nannos/simulation.py:731-749`). -/
noncomputable def getAmplitudes (i : ℤ) : PyM (Dyn c.nh) ((Idx c.nh → ℂ) × (Idx c.nh → ℂ)) := do
  let _ ← PyM.lift (pyGet c.stack i)
  let n := (c.stack.length : ℤ) - 1
  if i = 0 then do
    let ab ← solveExt E c
    pure (c.a0, ab.2)
  else if i = n ∨ i = -1 then do
    let ab ← solveExt E c
    pure (ab.1, 0)
  else solveInt E c i

/-- `_translate_amplitudes(layer, z, ai, bi)` (`nannos/simulation.py:923-927`); `None - z` raises
`TypeError`. -/
noncomputable def translateAmplitudes {m : Type} (L : Modes m) (z : ℝ) (ai bi : m → ℂ) :
    Except PyErr ((m → ℂ) × (m → ℂ)) :=
  match L.thickness with
  | none => .error .typeError
  | some d => .ok (fun k => ai k * phasor L.q z k, fun k => bi k * phasor L.q (d - z) k)

/-- Fourier components of the fields at one depth: `e i`, `h i` are the components `x, y, z`
(`nannos/simulation.py:300-333`). -/
structure FieldF (nh : ℕ) where
  ex : Fin nh → ℂ
  ey : Fin nh → ℂ
  ez : Fin nh → ℂ
  hx : Fin nh → ℂ
  hy : Fin nh → ℂ
  hz : Fin nh → ℂ

/-- Division of the normal displacement by the permittivity (`nannos/simulation.py:321-325`). -/
noncomputable def normalE {nh : ℕ} (L : LayerSpec) (a : LayerAttr nh) (dz : Fin nh → ℂ) :
    Except PyErr (Fin nh → ℂ) :=
  open Classical in
  if L.isUniform then
    if L.epsilon.value = 0 then .error .nonfinite
    else .ok fun i => dz i / L.epsilon.value
  else do
    let p ← attr a.pat
    linSolveVec p.epsHat dz

/-- Body of the loop over `z` of `get_field_fourier` (`nannos/simulation.py:310-329`). -/
noncomputable def fieldAt (L : LayerSpec) (a : LayerAttr c.nh) (ai0 bi0 : Idx c.nh → ℂ) (z : ℝ) :
    Except PyErr (FieldF c.nh) :=
  open Classical in do
  let M ← modesOf L a
  let (ai, bi) ← translateAmplitudes M z ai0 bi0
  let ht := M.phi *ᵥ (ai + bi)
  let hx : Fin c.nh → ℂ := fun i => ht (Sum.inl i)
  let hy : Fin c.nh → ℂ := fun i => ht (Sum.inr i)
  raiseIf (∃ k, (c.omega : ℂ) * M.q k = 0) .nonfinite
  let A : Idx c.nh → ℂ := fun k => (ai k - bi k) / ((c.omega : ℂ) * M.q k)
  let B := M.phi *ᵥ A
  let et := M.Q *ᵥ B
  let ey : Fin c.nh → ℂ := fun i => -et (Sum.inl i)
  let ex : Fin c.nh → ℂ := fun i => et (Sum.inr i)
  let hz : Fin c.nh → ℂ := fun i => (c.kx i * ey i - c.ky i * ex i) / (c.omega : ℂ)
  let ez : Fin c.nh → ℂ := fun i => (c.ky i * hx i - c.kx i * hy i) / (c.omega : ℂ)
  let ez' ← normalE L a ez
  pure ⟨ex, ey, ez', hx, hy, hz⟩

/-- `Simulation.get_field_fourier(layer_index, z)` (`nannos/simulation.py:300-333`) for a sequence of
depths. -/
noncomputable def getFieldFourier (id : LayerId) (zs : List ℝ) : PyM (Dyn c.nh) (List (FieldF c.nh)) := do
  let (r, i) ← PyM.lift (getLayer c id)
  ensureSolved E c
  let (ai0, bi0) ← getAmplitudes E c i
  let d ← PyM.get
  PyM.lift (zs.mapM (fieldAt c (d.mats r) (d.attrs r) ai0 bi0))

/-- `Simulation.get_z_poynting_flux(layer, an, bn)` (`nannos/simulation.py:286-298`) of a solved layer:
forward and backward flux of every order. -/
noncomputable def poyntingFlux (M : Modes (Idx c.nh)) (an bn : Idx c.nh → ℂ) :
    Except PyErr ((Fin c.nh → ℝ) × (Fin c.nh → ℝ)) :=
  open Classical in
  if ∃ k, (c.omega : ℂ) * M.q k = 0 then .error .nonfinite
  else
    let A := M.Q * M.phi * diagonal fun k => 1 / ((c.omega : ℂ) * M.q k)
    let phia := M.phi *ᵥ an
    let phib := M.phi *ᵥ bn
    let Aa := A *ᵥ an
    let Ab := A *ᵥ bn
    let cross : Idx c.nh → ℂ := fun k => (1 / 2) * (star (phib k) * Aa k - star (Ab k) * phia k)
    let fwd : Idx c.nh → ℂ := fun k => ((star (Aa k) * phia k).re : ℂ) + cross k
    let bwd : Idx c.nh → ℂ := fun k => -((star (Ab k) * phib k).re : ℂ) + star (cross k)
    .ok (fun i => (fwd (Sum.inl i) + fwd (Sum.inr i)).re,
         fun i => (bwd (Sum.inl i) + bwd (Sum.inr i)).re)

/-- `get_z_poynting_flux` on the layer at index `i` of the stack (`nannos/simulation.py:286-298`). -/
noncomputable def getZPoyntingFlux (i : ℤ) (an bn : Idx c.nh → ℂ) :
    PyM (Dyn c.nh) ((Fin c.nh → ℝ) × (Fin c.nh → ℝ)) := do
  ensureSolved E c
  let d ← PyM.get
  let M ← PyM.lift (layerModes c d i)
  PyM.lift (poyntingFlux c M an bn)

/-- `if not hasattr(self, "S"): self.get_S_matrix()` (`nannos/simulation.py:463-464`). -/
noncomputable def ensureS : PyM (Dyn c.nh) Unit := do
  let d ← PyM.get
  match d.S with
  | some _ => pure ()
  | none => do
    let _ ← getS E c none
    pure ()

/-- The real-valued part of `diffraction_efficiencies(orders=True)` (`nannos/simulation.py:463-476`). -/
noncomputable def efficienciesByOrder : PyM (Dyn c.nh) ((Fin c.nh → ℝ) × (Fin c.nh → ℝ)) :=
  open Classical in do
  ensureS E c
  let (aN, b0) ← solveExt E c
  let fin ← getZPoyntingFlux E c 0 c.a0 b0
  let fout ← getZPoyntingFlux E c (-1) aN 0
  PyM.lift (raiseIf (c.incidentFlux = 0) .nonfinite)
  pure (fun i => -fin.2 i / c.incidentFlux, fun i => fout.1 i / c.incidentFlux)

/-- Result of `diffraction_efficiencies` (`nannos/simulation.py:441-492`). -/
inductive Efficiencies (nh : ℕ) where
  | byOrder (R T : Fin nh → ℝ)
  | total (R T : ℝ)

/-- `diffraction_efficiencies(orders)` (`nannos/simulation.py:441-492`), real-valued, without
`return_dict`. -/
noncomputable def diffractionEfficiencies (orders : Bool) : PyM (Dyn c.nh) (Efficiencies c.nh) := do
  let (R, T) ← efficienciesByOrder E c
  if orders then pure (.byOrder R T) else pure (.total (∑ i, R i) (∑ i, T i))

/-- Complex amplitudes by order: three components each (`nannos/simulation.py:494-516`). -/
structure ComplexOrders (nh : ℕ) where
  r : Fin 3 → Fin nh → ℂ
  t : Fin 3 → Fin nh → ℂ

/-- `x.real ** 0.5` of every entry; it is `nan` for a negative real part (`nannos/simulation.py:508-509`). -/
noncomputable def realSqrts {n : ℕ} (z : Fin n → ℂ) : Except PyErr (Fin n → ℝ) :=
  open Classical in
  if ∃ i, (z i).re < 0 then .error .nonfinite else .ok fun i => Real.sqrt (z i).re

/-- `Simulation._get_complex_orders()` (`nannos/simulation.py:494-516`), for uniform isotropic first and
last layers; the layers are looked up by the names `"Substrate"` and `"Superstrate"`. -/
noncomputable def complexOrders : PyM (Dyn c.nh) (ComplexOrders c.nh) :=
  open Classical in do
  let d ← PyM.get
  let r0 ← PyM.lift (pyGet c.stack 0)
  let rN ← PyM.lift (pyGet c.stack (-1))
  let S0 := d.mats r0
  let SN := d.mats rN
  PyM.lift (raiseIf (¬ (S0.isUniform = true ∧ S0.isAnisotropic = false ∧ SN.isUniform = true ∧
      SN.isAnisotropic = false)) .unmodelled)
  let nin := csqrt (S0.epsilon.value * S0.mu)
  let nout := csqrt (SN.epsilon.value * SN.mu)
  let om2 : ℂ := (c.omega : ℂ) ^ 2
  let gin0 := csqrt (om2 * nin ^ 2 - c.k0para.1 ^ 2 - c.k0para.2 ^ 2)
  let gin : Fin c.nh → ℂ := fun i => csqrt (om2 * nin ^ 2 - c.kx i ^ 2 - c.ky i ^ 2)
  let gout : Fin c.nh → ℂ := fun i => csqrt (om2 * nout ^ 2 - c.kx i ^ 2 - c.ky i ^ 2)
  PyM.lift (raiseIf (gin0 = 0) .nonfinite)
  let nt ← PyM.lift (realSqrts fun i => nin ^ 2 * (gout i / gin0))
  let nr ← PyM.lift (realSqrts fun i => nin ^ 2 * (gin i / gin0))
  let fsub ← getFieldFourier E c (.name "Substrate") [0]
  let fsup ← getFieldFourier E c (.name "Superstrate") [0]
  match fsub, fsup with
  | [ft], [fr] =>
    let t : Fin 3 → Fin c.nh → ℂ := fun k i => (![ft.ex, ft.ey, ft.ez] k) i * (nt i : ℂ)
    let bx0 : Fin 3 → Fin c.nh → ℂ := fun k i => (![fr.ex, fr.ey, fr.ez] k) i * (nr i : ℂ)
    let o0 : Fin c.nh → ℂ := fun i => if (i : ℕ) = c.indexZerothOrder then 1 else 0
    pure ⟨fun k i => bx0 k i - o0 i * (c.excitation.amplitude k : ℂ), t⟩
  | _, _ => PyM.lift (.error .indexError)

/-- `diffraction_efficiencies(orders=True, complex=True)` (`nannos/simulation.py:463-469`). -/
noncomputable def complexEfficiencies : PyM (Dyn c.nh) (ComplexOrders c.nh) := do
  ensureS E c
  complexOrders E c

end Nannos
