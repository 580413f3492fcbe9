import Verif.Spec.Symmetry

/-! Vocabulary for one structure described by different lists of layers. -/

namespace Nannos.Spec

open Nannos

/-- What a layer is made of: the permittivity and the tangent vectors given to `Layer`. -/
structure Material where
  epsilon : NdArr
  tangentField : Option Field2
  tangentFieldType : String

/-- The material of a layer. -/
def materialOf (L : LayerSpec) : Material := ⟨L.epsilon, L.tangentField, L.tangentFieldType⟩

/-- The thickness of a layer; a layer without thickness counts as infinitely thin. -/
noncomputable def thicknessOf (L : LayerSpec) : ℝ := L.thickness.getD 0

/-- What is found at the depth `z` below the top of slabs with these contents and thicknesses; `none` below the last. -/
noncomputable def foundAt {α : Type} : List (α × ℝ) → ℝ → Option α
  | [], _ => none
  | (x, d) :: t, z => if z < d then some x else foundAt t (z - d)

/-- The slabs between the superstrate and the substrate. -/
noncomputable def slabs (mats : ℕ → LayerSpec) (stack : List ℕ) : List (Material × ℝ) :=
  stack.tail.dropLast.map fun r => (materialOf (mats r), thicknessOf (mats r))

/-- Two stacks describe one structure: superstrates of one material and thickness, substrates of one material, and in
between the same material at every depth. -/
structure SameStructure (mats : ℕ → LayerSpec) (stack : List ℕ) (mats' : ℕ → LayerSpec) (stack' : List ℕ) : Prop where
  superstrate : ∀ r r', stack.head? = some r → stack'.head? = some r' →
    materialOf (mats' r') = materialOf (mats r) ∧ thicknessOf (mats' r') = thicknessOf (mats r)
  substrate : ∀ r r', stack.getLast? = some r → stack'.getLast? = some r' → materialOf (mats' r') = materialOf (mats r)
  inside : ∀ z, 0 ≤ z → foundAt (slabs mats' stack') z = foundAt (slabs mats stack) z

/-- Two stacks describe one structure, up to the thickness of the superstrate. -/
structure SameBelow (mats : ℕ → LayerSpec) (stack : List ℕ) (mats' : ℕ → LayerSpec) (stack' : List ℕ) : Prop where
  superstrate : ∀ r r', stack.head? = some r → stack'.head? = some r' → materialOf (mats' r') = materialOf (mats r)
  substrate : ∀ r r', stack.getLast? = some r → stack'.getLast? = some r' → materialOf (mats' r') = materialOf (mats r)
  inside : ∀ z, 0 ≤ z → foundAt (slabs mats' stack') z = foundAt (slabs mats stack) z

/-- The thickness given to the superstrate. -/
noncomputable def superstrateThickness (mats : ℕ → LayerSpec) (stack : List ℕ) : ℝ :=
  (stack.head?.map fun r => thicknessOf (mats r)).getD 0

/-- Depth, below the top of the superstrate, of the point at `z` below the top of layer number `k`. -/
noncomputable def depthOf (mats : ℕ → LayerSpec) (stack : List ℕ) (k : ℕ) (z : ℝ) : ℝ :=
  ((stack.take k).map fun r => thicknessOf (mats r)).sum + z

/-- The point at `z` below the top of layer number `k` belongs to this layer; superstrate and substrate are
semi-infinite. -/
def InsideLayer (mats : ℕ → LayerSpec) (stack : List ℕ) (k : ℕ) (z : ℝ) : Prop :=
  ∃ r, stack[k]? = some r ∧ (k = 0 ∨ 0 ≤ z) ∧ (k + 1 = stack.length ∨ z ≤ thicknessOf (mats r))

/-- Equal efficiencies, order by order in the order of the lists, or in total. -/
def EqualEfficiencies {n n' : ℕ} : Efficiencies n → Efficiencies n' → Prop
  | .byOrder R T, .byOrder R' T' => ∀ (i : Fin n) (j : Fin n'), (i : ℕ) = j → R' j = R i ∧ T' j = T i
  | .total R T, .total R' T' => R' = R ∧ T' = T
  | _, _ => False

/-- Equal fields, order by order. -/
def EqualFields {n n' : ℕ} (F : FieldF n) (F' : FieldF n') : Prop :=
  ∀ (i : Fin n) (j : Fin n'), (i : ℕ) = j → eVec F' j = eVec F i ∧ hVec F' j = hVec F i

/-- The second field is the first one multiplied by `lam`, order by order. -/
def MultipliedFields {n n' : ℕ} (lam : ℂ) (F : FieldF n) (F' : FieldF n') : Prop :=
  ∀ (i : Fin n) (j : Fin n'), (i : ℕ) = j → eVec F' j = lam • eVec F i ∧ hVec F' j = lam • hVec F i

end Nannos.Spec
