import Verif.Props.Sim

/-! Property C68: layer objects, their construction, their copies and `Layer.reset`. -/

namespace Nannos

open Spec Examples

variable {E : Ext} {lats : ℕ → Lattice} {mats : ℕ → LayerSpec} {stack : List ℕ} {exc : PlaneWave} {nh : ℤ}
  {form : String} {c : Static}

/-- **C68**, construction. `Layer(...)` succeeds exactly for a thickness that is absent or not negative and a
permeability that is a single number equal to one (zero thickness is allowed); a negative thickness raises
`ValueError` whatever the other arguments; another single permeability raises `NotImplementedError`.  The new
layer has the attributes that were given and is its own original. -/
theorem C68_layer_construction (self : ℕ) (name : String) (thickness : Option ℝ) (epsilon mu : NdArr)
    (lattice : ℕ) (tf : Option Field2) (ty : String) :
    ((∃ L, mkLayer self name thickness epsilon mu lattice tf ty = .ok L) ↔
      (∀ d, thickness = some d → 0 ≤ d) ∧ mu.shape.prod = 1 ∧ mu.value = 1) ∧
    ((∃ d, thickness = some d ∧ d < 0) → mkLayer self name thickness epsilon mu lattice tf ty = .error .valueError) ∧
    ((∀ d, thickness = some d → 0 ≤ d) → mu.shape.prod = 1 → mu.value ≠ 1 →
      mkLayer self name thickness epsilon mu lattice tf ty = .error .notImplemented) ∧
    (∀ L, mkLayer self name thickness epsilon mu lattice tf ty = .ok L →
      L.name = name ∧ L.thickness = thickness ∧ L.epsilon = epsilon ∧ L.mu = 1 ∧ L.lattice = lattice ∧
      L.tangentField = tf ∧ L.tangentFieldType = ty ∧ L.iscopy = false ∧ L.original = self) := by
  have key : mkLayer self name thickness epsilon mu lattice tf ty =
      open Classical in
      if (∃ d, thickness = some d ∧ d < 0) then .error .valueError
      else if mu.shape.prod ≠ 1 then .error .valueError
      else if mu.value ≠ 1 then .error .notImplemented
      else .ok ⟨name, thickness, epsilon, mu.value, lattice, tf, ty, false, self⟩ := by
    unfold mkLayer
    rcases thickness with _ | d
    · simp
    · by_cases hd : d < 0 <;> simp [hd]
  have hiff : (∀ d, thickness = some d → 0 ≤ d) ↔ ¬ ∃ d, thickness = some d ∧ d < 0 := by
    push Not; rfl
  rw [key, hiff]
  refine ⟨⟨fun ⟨L, h⟩ => ?_, fun ⟨h1, h2, h3⟩ => ?_⟩, fun h => if_pos h, fun h1 h2 h3 => ?_, fun L h => ?_⟩
  · by_cases h1 : ∃ d, thickness = some d ∧ d < 0
    · rw [if_pos h1] at h; cases h
    rw [if_neg h1] at h
    by_cases h2 : mu.shape.prod ≠ 1
    · rw [if_pos h2] at h; cases h
    rw [if_neg h2] at h
    by_cases h3 : mu.value ≠ 1
    · rw [if_pos h3] at h; cases h
    exact ⟨h1, not_not.mp h2, not_not.mp h3⟩
  · exact ⟨_, by rw [if_neg h1, if_neg (by simpa using h2), if_neg (by simpa using h3)]⟩
  · rw [if_neg h1, if_neg (by simpa using h2), if_pos h3]
  · by_cases h1 : ∃ d, thickness = some d ∧ d < 0
    · rw [if_pos h1] at h; cases h
    rw [if_neg h1] at h
    by_cases h2 : mu.shape.prod ≠ 1
    · rw [if_pos h2] at h; cases h
    rw [if_neg h2] at h
    by_cases h3 : mu.value ≠ 1
    · rw [if_pos h3] at h; cases h
    rw [if_neg h3] at h
    cases h
    exact ⟨rfl, rfl, rfl, not_not.mp h3, rfl, rfl, rfl, rfl, rfl⟩

/-- A thickness of zero is allowed, `-1` is not, and `None` is allowed. -/
example (eps : NdArr) :
    (∃ L, mkLayer 0 "Film" (some 0) eps (NdArr.scalar 1) 0 none "opt" = .ok L) ∧
    (∃ L, mkLayer 0 "Film" none eps (NdArr.scalar 1) 0 none "opt" = .ok L) ∧
    mkLayer 0 "Film" (some (-1)) eps (NdArr.scalar 1) 0 none "opt" = .error .valueError ∧
    mkLayer 0 "Film" (some 1) eps (NdArr.scalar 2) 0 none "opt" = .error .notImplemented := by
  refine ⟨(C68_layer_construction 0 "Film" (some 0) eps _ 0 none "opt").1.mpr ⟨?_, rfl, rfl⟩,
    (C68_layer_construction 0 "Film" none eps _ 0 none "opt").1.mpr ⟨?_, rfl, rfl⟩,
    (C68_layer_construction 0 "Film" (some (-1)) eps _ 0 none "opt").2.1 ⟨-1, rfl, by norm_num⟩,
    (C68_layer_construction 0 "Film" (some 1) eps _ 0 none "opt").2.2.1 ?_ rfl ?_⟩
  · intro d h; cases h; exact le_rfl
  · intro d h; cases h
  · intro d h; cases h; norm_num
  · simp [NdArr.scalar, NdArr.value]

/-- **C68**, copies. A copy has the material, thickness, lattice and tangent field of its original, is marked
as a copy of that very object, and has the given name, or the name of the original followed by `" (copy)"`,
which is a different name. -/
theorem C68_copy (self : ℕ) (L : LayerSpec) :
    (∀ name, (copyLayer self L name).epsilon = L.epsilon ∧ (copyLayer self L name).mu = L.mu ∧
      (copyLayer self L name).thickness = L.thickness ∧ (copyLayer self L name).lattice = L.lattice ∧
      (copyLayer self L name).tangentField = L.tangentField ∧
      (copyLayer self L name).tangentFieldType = L.tangentFieldType ∧
      (copyLayer self L name).iscopy = true ∧ (copyLayer self L name).original = self) ∧
    (∀ n, (copyLayer self L (some n)).name = n) ∧
    (copyLayer self L none).name = L.name ++ " (copy)" ∧ (copyLayer self L none).name ≠ L.name := by
  refine ⟨fun name => ⟨rfl, rfl, rfl, rfl, rfl, rfl, rfl, rfl⟩, fun n => rfl, rfl, fun h => ?_⟩
  have h' : L.name ++ " (copy)" = L.name := h
  have := congrArg String.length h'
  rw [String.length_append] at this
  have h7 : " (copy)".length = 7 := by decide
  omega

/-- **C68**, two unnamed copies. Two copies of the same layer made without a name have the same name, so a
stack with both is refused with `ValueError`, whatever the rest of the arguments. -/
theorem C68_two_unnamed_copies_are_refused (L : LayerSpec) (o i j : ℕ) (hij : i ≠ j) (hi : i ∈ stack) (hj : j ∈ stack)
    (h1 : mats i = copyLayer o L none) (h2 : mats j = copyLayer o L none) :
    simInit E lats mats stack exc nh form = .error .valueError := by
  have hu : unique (stack.map fun r => (mats r).name) = false := by
    rw [Bool.eq_false_iff, ne_eq, unique_iff]
    intro hnd
    exact hij (List.inj_on_of_nodup_map hnd hi hj (by rw [h1, h2]))
  unfold simInit
  simp [hu]

/-- A stack in which object `1` is a layer and objects `2`, `3` are unnamed copies of it. -/
example : simInit exE (fun _ => exLat) (fun r => if r = 2 ∨ r = 3 then copyLayer 1 (slabMats 1) none else slabMats r)
    [0, 1, 2, 3] exExc 1 "original" = .error .valueError :=
  C68_two_unnamed_copies_are_refused (slabMats 1) 1 2 3 (by decide) (by decide) (by decide) rfl rfl

/-- **C68**, `Layer.reset`. `"all"` drops the modes and the matrix of the layer; `"eig"` and `"matrix"` drop only
the one named; any other argument changes nothing; what the fields need besides is never dropped. -/
theorem C68_layer_reset {nh : ℕ} (a : LayerAttr nh) :
    ((a.reset "all").eig = none ∧ (a.reset "all").matrix = none) ∧
    ((a.reset "eig").eig = none ∧ (a.reset "eig").matrix = a.matrix) ∧
    ((a.reset "matrix").matrix = none ∧ (a.reset "matrix").eig = a.eig) ∧
    (∀ p, p ≠ "all" → p ≠ "eig" → p ≠ "matrix" → a.reset p = a) ∧
    (∀ p, (a.reset p).pat = a.pat ∧ (a.reset p).Qeps = a.Qeps) := by
  refine ⟨⟨rfl, rfl⟩, ⟨rfl, rfl⟩, ⟨rfl, rfl⟩, fun p h1 h2 h3 => ?_, fun p => ?_⟩
  · simp [LayerAttr.reset, h1, h2, h3]
  · unfold LayerAttr.reset
    split_ifs <;> exact ⟨rfl, rfl⟩

/-- **C68**, resetting layers and the simulation. In any state of the simulation and of its layers, resetting any
of the layers with any arguments, any number of times, and then the simulation, makes every call return what a
new `Simulation` on the current layers returns (with the conditions of C28). -/
theorem C68_reset_layers_then_simulation (hinit : simInit E lats mats stack exc nh form = .ok c) (d : Dyn c.nh)
    (hk : KeepsStatic mats d.mats stack) (hw : WellPlaced d.mats stack) (params : ℕ → List String) (a : Call c.nh) :
    a.result E c (simReset "all" { d with attrs := fun r => (params r).foldl LayerAttr.reset (d.attrs r) }).2 =
      a.result E c (Dyn.fresh d.mats (unsolved c.nh)) := by
  have hi : simInit E lats d.mats stack exc nh form = .ok c := by rw [simInit_keeps hk, hinit]
  rw [reset_all]
  exact C27_leftovers_in_layers_do_not_matter hi hw _ a

/-- The slab of the examples after any calls, every layer reset, then the simulation: every call returns what it
returns on a new simulation. -/
example : ∃ c, simInit exE (fun _ => exLat) slabMats [0, 1, 2] exExc 1 "original" = .ok c ∧
    ∀ (hist : List (Call c.nh)) (a : Call c.nh) (d : Dyn c.nh),
      d = afterCalls exE c hist (Dyn.fresh slabMats (unsolved c.nh)) →
      a.result exE c (simReset "all" { d with attrs := fun r => (d.attrs r).reset "all" }).2 =
        a.result exE c (Dyn.fresh slabMats (unsolved c.nh)) := by
  obtain ⟨c, h, -⟩ := slab_init
  refine ⟨c, h, fun hist a d hd => ?_⟩
  obtain ⟨A1, res, -, -, h1, -⟩ :=
    history_inv (E := exE) (simInit_ok h).nodup (noStale_unsolved slabMats c.stack) hist
  rw [← hd] at h1
  have hm := h1.mats_eq
  have := C68_reset_layers_then_simulation h d ⟨fun _ _ => by rw [hm], fun _ _ => by rw [hm],
    fun _ _ => by rw [hm], fun _ _ => by rw [hm]; exact ⟨rfl, rfl⟩⟩ (by rw [hm]; exact slab_placed) (fun _ => ["all"]) a
  exact this.trans (by rw [hm])

end Nannos
