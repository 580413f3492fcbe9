import Verif.Model.SMatrix
import Verif.Model.Fourier
import Verif.Model.Blocks
import Mathlib.Analysis.SpecialFunctions.Pow.Complex

/-! Model of `nannos/layers.py`, of the material classification of `nannos/utils/helpers.py` and of
`Simulation.build_matrix`. -/

namespace Nannos

open Matrix

/-! ### Arrays of any rank and their classification -/

/-- A numpy array: its shape and its entries (indexed by lists of indices) (`nannos/layers.py:48-74`). -/
structure NdArr where
  shape : List ℕ
  data : List ℕ → ℂ

/-- `is_anisotropic(x)` of an array of shape `s` (`nannos/utils/helpers.py:55-56`).  Arrays, also
zero-dimensional ones, have a `__len__` attribute, so `is_scalar` is `False` for them. -/
def isAnisotropic (s : List ℕ) : Bool := s.take 2 = [3, 3]

/-- `is_uniform(x)` of an array of shape `s` (`nannos/utils/helpers.py:59-65`). -/
def isUniform (s : List ℕ) : Bool :=
  if isAnisotropic s then s = [3, 3]
  else if s.length = 1 then s[0]? = some 1 else s = []

/-- The single value of an array of shape `()` or `(1,)` (numpy broadcasting) (`nannos/layers.py:160-172`). -/
def NdArr.value (a : NdArr) : ℂ := match a.shape with
  | [] => a.data []
  | s => a.data (s.map fun _ => 0)

/-- `x[i, j]` of an array of rank at least two (`nannos/simulation.py:588-708`). -/
def NdArr.comp (a : NdArr) (i j : ℕ) : NdArr := ⟨a.shape.drop 2, fun idx => a.data (i :: j :: idx)⟩

/-- Zero-dimensional array: `bk.array(c)` for a number `c` (`nannos/layers.py:48-74`). -/
def NdArr.scalar (c : ℂ) : NdArr := ⟨[], fun _ => c⟩

/-- `bk.array(grid)` for an `(Nx, Ny)` grid (`nannos/layers.py:48-74`). -/
def NdArr.ofGrid {Nx Ny : ℕ} (u : Grid Nx Ny) : NdArr :=
  ⟨[Nx, Ny], fun idx => match idx with
    | [x, y] => if h : x < Nx ∧ y < Ny then u ⟨x, h.1⟩ ⟨y, h.2⟩ else 0
    | _ => 0⟩

/-- A two-dimensional array with its shape (`nannos/simulation.py:577-586`). -/
structure PGrid where
  Nx : ℕ
  Ny : ℕ
  g : Grid Nx Ny

/-- View of an array as the two-dimensional array handed to `fft2`; other ranks are not modelled
(`fft2` raises below rank two) (`nannos/simulation.py:577-586`). -/
def NdArr.toGrid (a : NdArr) : Except PyErr PGrid := match a.shape with
  | [Nx, Ny] => .ok ⟨Nx, Ny, fun x y => a.data [x, y]⟩
  | [] => .error .valueError
  | [_] => .error .valueError
  | _ => .error .unmodelled

/-- `z ** 0.5` and `bk.sqrt(z)` of a complex number: the principal square root. Signed zeros are not
modelled: on the negative real axis the result is `+i sqrt(|z|)`
(`nannos/simulation.py:109,115`, `nannos/layers.py:169,210`). -/
noncomputable def csqrt (z : ℂ) : ℂ := z ^ (1 / 2 : ℂ)

/-! ### Layer objects -/

/-- A pair of two-dimensional arrays (tangent or Jones vector field) (`nannos/layers.py:261-274`). -/
structure Field2 where
  Nx : ℕ
  Ny : ℕ
  t0 : Grid Nx Ny
  t1 : Grid Nx Ny

/-- User-level attributes of a `Layer` (`nannos/layers.py:48-74`).  `lattice` and `original` are object
identities.  `mu` is a number: the constructor rejects everything but `1`. -/
structure LayerSpec where
  name : String
  thickness : Option ℝ
  epsilon : NdArr
  mu : ℂ
  lattice : ℕ
  tangentField : Option Field2
  tangentFieldType : String
  iscopy : Bool
  original : ℕ

/-- `Layer.is_uniform` (`nannos/layers.py:241-251`); `mu` is uniform. -/
def LayerSpec.isUniform (L : LayerSpec) : Bool := Nannos.isUniform L.epsilon.shape

/-- `Layer.is_epsilon_anisotropic` (`nannos/layers.py:233-235`). -/
def LayerSpec.isAnisotropic (L : LayerSpec) : Bool := Nannos.isAnisotropic L.epsilon.shape

/-- `Layer.__init__` (`nannos/layers.py:48-74`); `self` is the identity of the new object.
An array-valued `mu` with more than one entry makes `if self.mu != 1` raise `ValueError`. -/
noncomputable def mkLayer (self : ℕ) (name : String) (thickness : Option ℝ) (epsilon mu : NdArr)
    (lattice : ℕ) (tangentField : Option Field2) (tangentFieldType : String) :
    Except PyErr LayerSpec :=
  open Classical in
  match (match thickness with
    | some d => if d < 0 then some PyErr.valueError else none
    | none => none) with
  | some e => .error e
  | none =>
    if mu.shape.prod ≠ 1 then .error .valueError
    else if mu.value ≠ 1 then .error .notImplemented
    else .ok { name, thickness, epsilon, mu := mu.value, lattice, tangentField, tangentFieldType,
               iscopy := false, original := self }

/-- `Layer.copy` (`nannos/layers.py:215-231`) of the layer object `self`: a shallow copy. -/
def copyLayer (self : ℕ) (L : LayerSpec) (name : Option String) : LayerSpec :=
  { L with
    iscopy := true
    original := self
    name := match name with
      | none => L.name ++ " (copy)"
      | some n => n }

/-! ### External kernels -/

/-- Index of the `2 nh` tangential components (`nannos/simulation.py:534`). -/
abbrev Idx (nh : ℕ) := Fin nh ⊕ Fin nh

/-- Numerical kernels outside the code base: the eigenvalue solver (`nannos/layers.py:26-28`), `argsort`
and the tangent-field generators (`nannos/formulations/tangent.py:233-241`), deterministic functions
which may fail. -/
structure Ext where
  eig : (n : ℕ) → Matrix (Idx n) (Idx n) ℂ →
    Except PyErr ((Idx n → ℂ) × Matrix (Idx n) (Idx n) ℂ)
  argsort : List ℝ → List ℕ
  tangent : String → PGrid → List (ℤ × ℤ) → Bool → Except PyErr Field2

/-- Attributes of a patterned layer set by `build_matrix` (`nannos/simulation.py:689-698`) apart from
`matrix` and `Qeps`. -/
structure PatAttrs (nh : ℕ) where
  Kmu : Matrix (Idx nh) (Idx nh) ℂ
  epsHat : Matrix (Fin nh) (Fin nh) ℂ
  epsHatInv : Matrix (Fin nh) (Fin nh) ℂ
  muHat : Matrix (Fin nh) (Fin nh) ℂ
  muHatInv : Matrix (Fin nh) (Fin nh) ℂ
  Keps : Matrix (Idx nh) (Idx nh) ℂ
  Peps : Matrix (Idx nh) (Idx nh) ℂ

/-- Solver attributes of a layer object; `none` is a missing attribute (`nannos/simulation.py:588-708`). -/
structure LayerAttr (nh : ℕ) where
  matrix : Option (Matrix (Idx nh) (Idx nh) ℂ)
  pat : Option (PatAttrs nh)
  Qeps : Option (Matrix (Idx nh) (Idx nh) ℂ)
  eig : Option ((Idx nh → ℂ) × Matrix (Idx nh) (Idx nh) ℂ)

/-- A layer that was never built (`nannos/layers.py:48-74`). -/
def LayerAttr.empty {nh : ℕ} : LayerAttr nh := ⟨none, none, none, none⟩

/-- `Layer.reset(param)` (`nannos/layers.py:109-117`). -/
def LayerAttr.reset {nh : ℕ} (a : LayerAttr nh) (param : String) : LayerAttr nh :=
  let a := if param = "eig" then { a with eig := none } else a
  let a := if param = "matrix" then { a with matrix := none } else a
  if param = "all" then { a with eig := none, matrix := none } else a

/-! ### Eigenmodes -/

/-- `Layer.solve_uniform` (`nannos/layers.py:119-174`), applied to a layer with isotropic uniform
material: eigenvalues and eigenvectors. -/
noncomputable def solveUniform {nh : ℕ} (L : LayerSpec) (omega : ℝ) (kx ky : Fin nh → ℂ) :
    Except PyErr ((Idx nh → ℂ) × Matrix (Idx nh) (Idx nh) ℂ) :=
  if L.isAnisotropic then .error .notImplemented
  else
    let q : Fin nh → ℂ := fun i =>
      csqrt (L.epsilon.value * L.mu * (omega : ℂ) ^ 2 - kx i ^ 2 - ky i ^ 2)
    .ok (Sum.elim q q, 1)

/-- `q = w ** 0.5; q = where(imag(q) < 0, -q, q)` (`nannos/layers.py:210-211`). -/
noncomputable def modeSqrt (w : ℂ) : ℂ := if (csqrt w).im < 0 then -csqrt w else csqrt w

/-- `Layer.solve_eigenproblem` of a layer that is not a copy (`nannos/layers.py:197-213`). -/
noncomputable def solveEigenproblem (E : Ext) {nh : ℕ} (matrix : Matrix (Idx nh) (Idx nh) ℂ) :
    Except PyErr ((Idx nh → ℂ) × Matrix (Idx nh) (Idx nh) ℂ) := do
  let (w, v) ← E.eig nh matrix
  pure (fun i => modeSqrt (w i), v)

/-! ### `build_matrix` -/

/-- What a `Simulation` fixes at construction (`nannos/simulation.py:44-157`). -/
structure Static where
  lattice : Lattice
  formulation : String
  /-- `self.harmonics`, as the list of its columns; `self.nh` is its length. -/
  harmonics : List (ℤ × ℤ)
  excitation : PlaneWave
  omega : ℝ
  incidentFlux : ℝ
  k0para : ℂ × ℂ
  kx : Fin harmonics.length → ℂ
  ky : Fin harmonics.length → ℂ
  indexZerothOrder : ℕ
  a0 : Idx harmonics.length → ℂ
  /-- identities of the layer objects of the stack, and their names -/
  stack : List ℕ
  layerNames : List String

/-- `self.nh` (`nannos/simulation.py:86-87`). -/
abbrev Static.nh (c : Static) : ℕ := c.harmonics.length

/-- Index type of the tangential components (`nannos/simulation.py:534`). -/
abbrev Static.m (c : Static) : Type := Idx c.nh

/-- `[[A, 0], [0, A]]` (`nannos/simulation.py:588-708`). -/
def diag2 {nh : ℕ} (A : Matrix (Fin nh) (Fin nh) ℂ) : Matrix (Idx nh) (Idx nh) ℂ := fromBlocks A 0 0 A

/-- Reciprocal of every entry of a grid, `1 / epsilon`: zero entries give `inf` (`nannos/simulation.py:770-785`). -/
noncomputable def recipGrid (e : PGrid) : Except PyErr PGrid :=
  open Classical in
  if ∃ x y, e.g x y = 0 then .error .nonfinite
  else .ok ⟨e.Nx, e.Ny, fun x y => 1 / e.g x y⟩

/-- `_get_toeplitz_matrix(u)` for an array with its shape (`nannos/simulation.py:577-586`). -/
noncomputable def Static.toep (c : Static) (u : PGrid) : Except PyErr (Matrix (Fin c.nh) (Fin c.nh) ℂ) :=
  toeplitz c.harmonics.get u.g

/-- The four transverse components `epsilon[i, j]`, `i, j < 2`, of an anisotropic pattern
(`nannos/simulation.py:588-708`). -/
structure Trans4 (α : Type) where
  xx : α
  xy : α
  yx : α
  yy : α

/-- `[[f(u[i, j]) for j in range(2)] for i in range(2)]` evaluated in row order (`nannos/simulation.py:588-708`). -/
def Trans4.mapM {α β : Type} (f : α → Except PyErr β) (t : Trans4 α) : Except PyErr (Trans4 β) := do
  let a ← f t.xx
  let b ← f t.xy
  let c ← f t.yx
  let d ← f t.yy
  pure ⟨a, b, c, d⟩

/-- `block([[xx, xy], [yx, yy]])` (`nannos/simulation.py:588-708`). -/
def Trans4.block {nh : ℕ} (t : Trans4 (Matrix (Fin nh) (Fin nh) ℂ)) : Matrix (Idx nh) (Idx nh) ℂ :=
  fromBlocks t.xx t.xy t.yx t.yy

/-- The transverse components of the permittivity (`nannos/simulation.py:588-708`). -/
def NdArr.trans (a : NdArr) : Trans4 NdArr := ⟨a.comp 0 0, a.comp 0 1, a.comp 1 0, a.comp 1 1⟩

/-- Entry of row `x` and column `k` of `hstack([a, b])` (`nannos/utils/helpers.py:91-94`). -/
def beside {Nx Ny : ℕ} (a b : Grid Nx Ny) (x : Fin Nx) (k : ℕ) : ℂ :=
  if h : k < Ny then a x ⟨k, h⟩ else if h : k - Ny < Ny then b x ⟨k - Ny, h⟩ else 0

/-- The formula of `inv2by2block`, entry by entry, on four blocks of the same shape
(`nannos/utils/helpers.py:114-122`). -/
noncomputable def inv4 {Nx Ny : ℕ} (a b c d : Grid Nx Ny) : Except PyErr (Trans4 PGrid) :=
  open Classical in
  let det : Grid Nx Ny := fun x y => a x y * d x y - c x y * b x y
  if ∃ x y, det x y = 0 then .error .nonfinite
  else .ok ⟨⟨_, _, fun x y => d x y / det x y⟩, ⟨_, _, fun x y => -b x y / det x y⟩,
    ⟨_, _, fun x y => -c x y / det x y⟩, ⟨_, _, fun x y => a x y / det x y⟩⟩

/-- `inv2by2block(block(epsilon[:2, :2]), N)` split again, with `N` the number of rows, for arrays which are not
square (`nannos/simulation.py:773-777`, `nannos/utils/helpers.py:91-122`).  The blocks are cut after `Nx` columns
whatever the number `Ny` of columns of the components.  With `Nx < Ny` the cut is inside the first component.  With
`Ny < Nx` the second block has `max(0, 2 * Ny - Nx)` columns, and cannot be multiplied with the first one unless
this is one column, which is broadcast. -/
noncomputable def mixedInv {Nx Ny : ℕ} (xx xy yx yy : Grid Nx Ny) : Except PyErr (Trans4 PGrid) :=
  if Ny < Nx ∧ Nx + 1 ≠ 2 * Ny then .error .valueError
  else
    let k (y : Fin Nx) : ℕ := if Ny < Nx then Nx else Nx + y
    inv4 (Nx := Nx) (Ny := Nx) (fun x y => beside xx xy x y) (fun x y => beside xx xy x (k y))
      (fun x y => beside yx yy x y) (fun x y => beside yx yy x (k y))

/-- `inv2by2block(block(epsilon[:2, :2]), N)` split again (`nannos/simulation.py:773-777`): the pointwise
inverse for square grids (`C17_pointwise_inverse`).  On other grids the slices mix the components.  Components of
different shapes, which cannot be stacked, do not occur. -/
noncomputable def pointwiseInv (xx xy yx yy : PGrid) : Except PyErr (Trans4 PGrid) :=
  if h : xy.Nx = xx.Nx ∧ xy.Ny = xx.Ny ∧ yx.Nx = xx.Nx ∧ yx.Ny = xx.Ny ∧ yy.Nx = xx.Nx ∧
      yy.Ny = xx.Ny then
    let a : Grid xx.Nx xx.Ny := xx.g
    let b : Grid xx.Nx xx.Ny := fun x y => xy.g (x.cast h.1.symm) (y.cast h.2.1.symm)
    let c : Grid xx.Nx xx.Ny := fun x y => yx.g (x.cast h.2.2.1.symm) (y.cast h.2.2.2.1.symm)
    let d : Grid xx.Nx xx.Ny := fun x y =>
      yy.g (x.cast h.2.2.2.2.1.symm) (y.cast h.2.2.2.2.2.symm)
    if xx.Nx = xx.Ny then inv4 a b c d else mixedInv a b c d
  else .error .valueError

/-- `_get_nu_hat_inv(layer)` for an isotropic pattern (`nannos/simulation.py:781-784`). -/
noncomputable def nuHatInvIso (c : Static) (eps : PGrid) :
    Except PyErr (Matrix (Fin c.nh) (Fin c.nh) ℂ) := do
  let nu ← recipGrid eps
  let nuhat ← c.toep nu
  linInv nuhat

/-- `block(nuhat_inv)` of `_get_nu_hat_inv(layer)` for an anisotropic pattern
(`nannos/simulation.py:772-779`). -/
noncomputable def nuHatInvAniso (c : Static) (eps : Trans4 PGrid) :
    Except PyErr (Matrix (Idx c.nh) (Idx c.nh) ℂ) := do
  let nu ← pointwiseInv eps.xx eps.xy eps.yx eps.yy
  let nuhat ← nu.mapM c.toep
  linInv nuhat.block

/-- `norm(v)` (`nannos/utils/helpers.py:81-88`) at one pixel; `eps = 2^-52`. -/
noncomputable def normPt (a b : ℂ) : ℝ :=
  (1 / 2 ^ 52 : ℝ) + Real.sqrt (Complex.normSq a + Complex.normSq b)

/-- `t[a] * conj(t[b]) / norm(t)^2` (`nannos/simulation.py:825-830`). -/
noncomputable def projField (t : Field2) (f : ℂ → ℂ → ℂ) : PGrid :=
  ⟨t.Nx, t.Ny, fun x y =>
    f (t.t0 x y) (t.t1 x y) / (((|normPt (t.t0 x y) (t.t1 x y)| ^ 2 : ℝ)) : ℂ)⟩

/-- `_get_Peps(layer, eps_hat, t, direct=False)` (`nannos/simulation.py:787-788,823-847`);
`epsParaHat = block(eps_hat)` and `nuhatInv` the block matrix subtracted from it. -/
noncomputable def getPeps (c : Static) (epsParaHat nuhatInv : Matrix (Idx c.nh) (Idx c.nh) ℂ)
    (t : Field2) : Except PyErr (Matrix (Idx c.nh) (Idx c.nh) ℂ) := do
  let Pxx ← c.toep (projField t fun a _ => a * star a)
  let Pyy ← c.toep (projField t fun _ b => b * star b)
  let Pxy ← c.toep (projField t fun a b => a * star b)
  let Pyx ← c.toep (projField t fun a b => b * star a)
  let Pi := fromBlocks Pyy Pyx Pxy Pxx
  let D := epsParaHat - nuhatInv
  pure (epsParaHat - D * Pi)

/-- `get_jones_field(t)` at one pixel (`nannos/formulations/jones.py:17-25`), for real `t`. -/
noncomputable def jonesPt (t0 t1 : ℝ) : ℂ × ℂ :=
  let n := normPt t0 t1
  let theta := Complex.arg (t0 + t1 * Complex.I)
  let phi := Real.pi / 8 * (1 + Real.cos (Real.pi * n))
  let expo := Complex.exp (-(Complex.I * theta))
  (expo / n * (t0 * Real.cos phi - Complex.I * (-t1) * Real.sin phi),
   expo / n * (t1 * Real.cos phi - Complex.I * t0 * Real.sin phi))

/-- `get_jones_field(t)` (`nannos/formulations/jones.py:17-25`); `arctan2` of complex arrays raises
`TypeError`. -/
noncomputable def jonesField (t : Field2) : Except PyErr Field2 :=
  open Classical in
  if ∃ x y, (t.t0 x y).im ≠ 0 ∨ (t.t1 x y).im ≠ 0 then .error .typeError
  else .ok ⟨t.Nx, t.Ny, fun x y => (jonesPt (t.t0 x y).re (t.t1 x y).re).1,
    fun x y => (jonesPt (t.t0 x y).re (t.t1 x y).re).2⟩

/-- `Layer.get_tangent_field(harmonics, normalize)` of a patterned layer (`nannos/layers.py:261-274`);
the generators accept `'fft'` and `'opt'` (`nannos/formulations/tangent.py:233-241`). -/
def getTangentField (E : Ext) (L : LayerSpec) (epszz : PGrid) (H : List (ℤ × ℤ)) (normalize : Bool) :
    Except PyErr Field2 :=
  match L.tangentField with
  | some t => .ok t
  | none =>
    if L.tangentFieldType = "fft" ∨ L.tangentFieldType = "opt" then
      E.tangent L.tangentFieldType epszz H normalize
    else .error .valueError

/-- `Peps` of a patterned layer in the formulation of the simulation
(`nannos/simulation.py:653-675`).  `epsHat` is the convolution matrix of `epszz`; `para` holds the four
transverse components for an anisotropic material. -/
noncomputable def pepsOf (E : Ext) (c : Static) (L : LayerSpec) (epszz : PGrid)
    (para : Option (Trans4 PGrid)) (epsHat : Matrix (Fin c.nh) (Fin c.nh) ℂ)
    (epsParaHat : Matrix (Idx c.nh) (Idx c.nh) ℂ) (harmonicsTan : List (ℤ × ℤ)) :
    Except PyErr (Matrix (Idx c.nh) (Idx c.nh) ℂ) := do
  let nuBlock : Except PyErr (Matrix (Idx c.nh) (Idx c.nh) ℂ) := match para with
    | some p => nuHatInvAniso c p
    | none => do
      let n ← nuHatInvIso c epszz
      pure (diag2 n)
  if c.formulation = "original" then pure epsParaHat
  else if c.formulation = "tangent" then
    if c.lattice.is1D then
      match para with
      | some p => do
        -- `nuhat_inv` is a nested list here: `hstack` of arrays of different rank
        let _ ← nuHatInvAniso c p
        .error .valueError
      | none => do
        let n ← nuHatInvIso c epszz
        pure (fromBlocks epsHat 0 0 n)
    else do
      let t ← getTangentField E L epszz harmonicsTan true
      let nu ← nuBlock
      getPeps c epsParaHat nu t
  else if c.formulation = "jones" then do
    let t ← getTangentField E L epszz harmonicsTan false
    let J ← jonesField t
    let nu ← nuBlock
    getPeps c epsParaHat nu J
  else do
    let t ← getTangentField E L epszz harmonicsTan false
    let nu ← nuBlock
    getPeps c epsParaHat nu t

/-- `epsilon[i, j]`, `i, j < 2`, for an anisotropic pattern; `none` for an isotropic one
(`nannos/simulation.py:642-643`). -/
def paraOf (L : LayerSpec) : Except PyErr (Option (Trans4 PGrid)) :=
  if L.isAnisotropic then do
    let p ← L.epsilon.trans.mapM NdArr.toGrid
    pure (some p)
  else pure none

/-- `block(eps_para_hat)` (`nannos/simulation.py:642-645`). -/
noncomputable def epsParaHatOf (c : Static) (para : Option (Trans4 PGrid))
    (epsHat : Matrix (Fin c.nh) (Fin c.nh) ℂ) : Except PyErr (Matrix (Idx c.nh) (Idx c.nh) ℂ) :=
  match para with
  | some p => do
    let t ← p.mapM c.toep
    pure t.block
  | none => pure (diag2 epsHat)

/-- Outcome of `build_matrix` (`nannos/simulation.py:588-708`). -/
inductive BuiltLayer (nh : ℕ) where
  | uniform (Qeps : Matrix (Idx nh) (Idx nh) ℂ)
  | patterned (matrix : Matrix (Idx nh) (Idx nh) ℂ) (pat : PatAttrs nh) (Qeps : Matrix (Idx nh) (Idx nh) ℂ)

/-- `build_matrix` of a layer that is not a copy (`nannos/simulation.py:603-708`).  For a uniform
anisotropic tensor, `1 / epsilon * IdG` has shape `(3, 3)` if `nh` is 1 or 3 and cannot be broadcast
otherwise; with `nh = 1` the later subtraction fails, with `nh = 3` the failure comes from
`solve_uniform`. -/
noncomputable def buildPure (E : Ext) (c : Static) (L : LayerSpec) : Except PyErr (BuiltLayer c.nh) :=
  open Classical in
  let Kx : Matrix (Fin c.nh) (Fin c.nh) ℂ := diagonal c.kx
  let Ky : Matrix (Fin c.nh) (Fin c.nh) ℂ := diagonal c.ky
  let om2 : ℂ := (c.omega : ℂ) ^ 2
  if L.isUniform then
    if L.isAnisotropic then
      if c.nh = 3 then .error .notImplemented else .error .valueError
    else if L.epsilon.value = 0 then .error .nonfinite
    else
      let Keps := buildK ((1 / L.epsilon.value) • 1) Ky (-Kx)
      let Pmu := diag2 (L.mu • 1)
      .ok (.uniform (om2 • Pmu - Keps))
  else do
    let epszz ← (if L.isAnisotropic then L.epsilon.comp 2 2 else L.epsilon).toGrid
    let epsHat ← c.toep epszz
    let epsHatInv ← linInv epsHat
    let muHat : Matrix (Fin c.nh) (Fin c.nh) ℂ := L.mu • 1
    raiseIf (L.mu = 0) .nonfinite
    let muHatInv : Matrix (Fin c.nh) (Fin c.nh) ℂ := (1 / L.mu) • 1
    let para ← paraOf L
    let epsParaHat ← epsParaHatOf c para epsHat
    let Keps := buildK epsHatInv Ky (-Kx)
    let Kmu := buildK muHatInv Kx Ky
    let (harmonicsTan, _) ← c.lattice.getHarmonics E.argsort c.nh true
    let Peps ← pepsOf E c L epszz para epsHat epsParaHat harmonicsTan
    let Pmu := diag2 muHat
    let matrix := om2 • (Peps * Pmu) - (Peps * Keps + Kmu * Pmu)
    pure (.patterned matrix ⟨Kmu, epsHat, epsHatInv, muHat, muHatInv, Keps, Peps⟩
      (om2 • Pmu - Keps))

end Nannos
