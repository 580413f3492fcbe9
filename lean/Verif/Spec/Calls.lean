import Verif.Model.Sim

/-! Histories of calls on a `Simulation` object. -/

namespace Nannos.Spec

open Nannos

/-- A call of a public method of a `Simulation`. -/
inductive Call (nh : ℕ) where
  | getSMatrix (indices : Option (ℤ × ℤ))
  | solve
  | reset (param : String)
  | getFieldFourier (layer : LayerId) (z : List ℝ)
  | getZPoyntingFlux (layer : ℤ) (an bn : Idx nh → ℂ)
  | diffractionEfficiencies (orders : Bool)
  | complexEfficiencies

/-- State of the object after a call, whether it returned or raised. -/
noncomputable def Call.after (E : Ext) (c : Static) : Call c.nh → Dyn c.nh → Dyn c.nh
  | .getSMatrix idx, d => (getS E c idx d).2
  | .solve, d => (Nannos.solve E c d).2
  | .reset p, d => (simReset p d).2
  | .getFieldFourier l z, d => (Nannos.getFieldFourier E c l z d).2
  | .getZPoyntingFlux l a b, d => (Nannos.getZPoyntingFlux E c l a b d).2
  | .diffractionEfficiencies o, d => (Nannos.diffractionEfficiencies E c o d).2
  | .complexEfficiencies, d => (Nannos.complexEfficiencies E c d).2

/-- State after a history of calls. -/
noncomputable def afterCalls (E : Ext) (c : Static) (h : List (Call c.nh)) (d : Dyn c.nh) : Dyn c.nh :=
  h.foldl (fun d call => call.after E c d) d

/-- Layer objects that no simulation has solved yet. -/
def unsolved (nh : ℕ) : ℕ → LayerAttr nh := fun _ => LayerAttr.empty

/-- What a call returns. -/
inductive Outcome (nh : ℕ) where
  | nothing
  | smatrix (S : SMat (Idx nh))
  | fields (F : List (FieldF nh))
  | flux (f : (Fin nh → ℝ) × (Fin nh → ℝ))
  | efficiencies (e : Efficiencies nh)
  | orders (o : ComplexOrders nh)

/-- What a call returns or raises. -/
noncomputable def Call.result (E : Ext) (c : Static) :
    Call c.nh → Dyn c.nh → Except PyErr (Outcome c.nh)
  | .getSMatrix idx, d => (getS E c idx d).1.map .smatrix
  | .solve, d => (Nannos.solve E c d).1.map fun _ => .nothing
  | .reset p, d => (simReset p d).1.map fun _ => .nothing
  | .getFieldFourier l z, d => (Nannos.getFieldFourier E c l z d).1.map .fields
  | .getZPoyntingFlux l a b, d => (Nannos.getZPoyntingFlux E c l a b d).1.map .flux
  | .diffractionEfficiencies o, d => (Nannos.diffractionEfficiencies E c o d).1.map .efficiencies
  | .complexEfficiencies, d => (Nannos.complexEfficiencies E c d).1.map .orders

/-- A call, or an assignment to attributes of a layer object by the user. -/
inductive Event (nh : ℕ) where
  | call (a : Call nh)
  | setThickness (r : ℕ) (t : Option ℝ)
  | setLayer (r : ℕ) (L : LayerSpec)

/-- State of the objects after an event. -/
noncomputable def Event.after (E : Ext) (c : Static) : Event c.nh → Dyn c.nh → Dyn c.nh
  | .call a, d => a.after E c d
  | .setThickness r t, d =>
    { d with mats := fun s => if s = r then { d.mats r with thickness := t } else d.mats s }
  | .setLayer r L, d => { d with mats := fun s => if s = r then L else d.mats s }

/-- State after a sequence of events. -/
noncomputable def afterEvents (E : Ext) (c : Static) (l : List (Event c.nh)) (d : Dyn c.nh) : Dyn c.nh :=
  l.foldl (fun d e => e.after E c d) d

/-- The event is a call or a change of a thickness. -/
def Event.KeepsMaterials {nh : ℕ} : Event nh → Prop
  | .call _ => True
  | .setThickness _ _ => True
  | .setLayer _ _ => False

/-- A call on a simulation, or a use of its layer objects elsewhere (by other simulations, or `Layer.reset`),
which may leave anything in the attributes that solving stores in the layers. -/
inductive SharedEvent (nh : ℕ) where
  | call (a : Call nh)
  | elsewhere (A : ℕ → LayerAttr nh)

/-- State of the objects after such an event. -/
noncomputable def SharedEvent.after (E : Ext) (c : Static) : SharedEvent c.nh → Dyn c.nh → Dyn c.nh
  | .call a, d => a.after E c d
  | .elsewhere A, d => { d with attrs := A }

/-- State after a sequence of such events. -/
noncomputable def afterShared (E : Ext) (c : Static) (l : List (SharedEvent c.nh)) (d : Dyn c.nh) : Dyn c.nh :=
  l.foldl (fun d e => e.after E c d) d

/-- Each use elsewhere happens while the simulation is not solved (it was not used since its construction or its
last reset), or leaves the layers of the simulation as they are. -/
def Undisturbed (E : Ext) (c : Static) : List (SharedEvent c.nh) → Dyn c.nh → Prop
  | [], _ => True
  | .call a :: l, d => Undisturbed E c l (a.after E c d)
  | .elsewhere A :: l, d =>
    (d.isSolved = false ∨ ∀ r ∈ c.stack, A r = d.attrs r) ∧ Undisturbed E c l { d with attrs := A }

/-- Two simulation objects on the same layer objects. -/
structure TwoSims (nh : ℕ) where
  first : Dyn nh
  second : Dyn nh

/-- A call on the first (`true`) or second of two simulations that share their layers: the other one finds what
it leaves in the layers. -/
noncomputable def TwoSims.after (E : Ext) (c : Static) (p : TwoSims c.nh) (ev : Bool × Call c.nh) : TwoSims c.nh :=
  if ev.1 then
    let d := ev.2.after E c p.first
    ⟨d, { p.second with attrs := d.attrs }⟩
  else
    let d := ev.2.after E c p.second
    ⟨{ p.first with attrs := d.attrs }, d⟩

/-- The same for a sequence of calls. -/
noncomputable def TwoSims.afterAll (E : Ext) (c : Static) (l : List (Bool × Call c.nh)) (p : TwoSims c.nh) :
    TwoSims c.nh := l.foldl (TwoSims.after E c) p

end Nannos.Spec
