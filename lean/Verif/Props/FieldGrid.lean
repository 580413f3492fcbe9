import Verif.Spec.FieldGrid
import Verif.Props.Fields
import Verif.Props.Fourier
import Verif.Proofs.Optimize

/-! C54: fields on a grid. -/

namespace Nannos

open Spec

theorem getIfftAmplitudes_ok {nh Nx Ny : ℕ} {H : Fin nh → ℤ × ℤ} (hnh : nh ≠ 0)
    (h : ∀ i, -(Nx : ℤ) ≤ (H i).1 ∧ (H i).1 < Nx ∧ -(Ny : ℤ) ≤ (H i).2 ∧ (H i).2 < Ny) (us : List (Fin nh → ℂ)) :
    getIfftAmplitudes H us Nx Ny = .ok (us.map fun u => series H u Nx Ny) := by
  obtain ⟨i0⟩ : Nonempty (Fin nh) := ⟨⟨0, by omega⟩⟩
  have : NeZero Nx := ⟨by have := h i0; omega⟩
  have : NeZero Ny := ⟨by have := h i0; omega⟩
  have key : ∀ u : Fin nh → ℂ, (inverseFourierTransform fun (p : Fin Nx) (q : Fin Ny) => ∑ i, u i *
      (if pyFin Nx (H i).1 = some p ∧ pyFin Ny (H i).2 = some q then 1 else 0)) = series H u Nx Ny := by
    intro u
    obtain ⟨g, hg⟩ := getIfft_exists u hnh h
    rw [← (getIfft_ok hg).2.2]
    unfold getIfft at hg
    split_ifs at hg
    exact Except.ok.inj hg
  unfold getIfftAmplitudes
  rw [if_neg, if_neg hnh]
  · simp only [key]
  · rintro ⟨i, hi⟩
    obtain ⟨a1, a2, a3, a4⟩ := h i
    obtain ⟨p, hp⟩ := pyFin_isSome a1 a2
    obtain ⟨q, hq⟩ := pyFin_isSome a3 a4
    rw [hp, hq] at hi
    simp at hi

theorem selectFields_ok {A F : Type} {getField : F → ℕ → Except PyErr A} {g : F → Fin 3 → A}
    (hg : ∀ (f : F) (i : Fin 3), getField f i = .ok (g f i)) (fe fh : F) {field component : String}
    (hf : field ∈ ["all", "E", "H"]) (hc : component ∈ ["all", "x", "y", "z"]) :
    ∃ s, selectFields getField fe fh field component = .ok s ∧ pick field component (g fe) (g fh) = some s := by
  have h0 : ∀ f, getField f 0 = .ok (g f 0) := fun f => hg f 0
  have h1 : ∀ f, getField f 1 = .ok (g f 1) := fun f => hg f 1
  have h2 : ∀ f, getField f 2 = .ok (g f 2) := fun f => hg f 2
  simp only [List.mem_cons, List.not_mem_nil, or_false] at hf hc
  rcases hf with rfl | rfl | rfl <;> rcases hc with rfl | rfl | rfl | rfl <;>
    simp [selectFields, h0, h1, h2, pick, pickComponent] <;> exact ⟨_, rfl, rfl⟩

theorem selectFields_err {A F : Type} {getField : F → ℕ → Except PyErr A} {e : PyErr}
    (hg : ∀ (f : F) (i : ℕ), getField f i = .error e) (fe fh : F) {field component : String}
    (hf : field ∈ ["all", "E", "H"]) (hc : component ∈ ["all", "x", "y", "z"]) :
    selectFields getField fe fh field component = .error e := by
  simp only [List.mem_cons, List.not_mem_nil, or_false] at hf hc
  rcases hf with rfl | rfl | rfl <;> rcases hc with rfl | rfl | rfl | rfl <;> simp [selectFields, hg] <;> rfl

theorem getLayer_idx {c : Static} {id : LayerId} {r : ℕ} {i : ℤ} (h : getLayer c id = .ok (r, i)) :
    getLayer c (.idx i) = .ok (r, i) := by
  have byName : ∀ s : String, (match c.layerNames.findIdx? (· = s) with
      | none => .error .valueError
      | some i => match c.stack[i]? with
        | some r => .ok (r, (i : ℤ))
        | none => .error .indexError : Except PyErr (ℕ × ℤ)) = .ok (r, i) → getLayer c (.idx i) = .ok (r, i) := by
    intro s hs
    split at hs
    · cases hs
    · rename_i k hk
      split at hs
      · rename_i r' hr
        cases hs
        unfold getLayer
        dsimp only
        have hlt : k < c.stack.length := by
          by_contra hc
          rw [List.getElem?_eq_none (by omega)] at hr
          cases hr
        have : pyGet c.stack (k : ℤ) = .ok r := by
          unfold pyGet pyIdx
          rw [if_pos (by omega), if_pos (by omega)]
          dsimp only
          rw [Int.toNat_natCast, hr]
        rw [this]
        rfl
      · cases hs
  cases id with
  | name s => exact byName s h
  | named s => exact byName s h
  | other => cases h
  | idx j =>
    unfold getLayer at h
    dsimp only at h
    cases hp : pyGet c.stack j with
    | error e =>
      rw [hp] at h
      cases h
    | ok r' =>
      rw [hp] at h
      cases h
      unfold getLayer
      dsimp only
      rw [hp]
      rfl

variable {E : Ext} {c : Static}

/-- Retrieval by the index of the layer is retrieval by its name. -/
theorem getFieldFourier_idx {id : LayerId} {r : ℕ} {i : ℤ} (h : getLayer c id = .ok (r, i)) (zs : List ℝ) (d : Dyn c.nh) :
    getFieldFourier E c (.idx i) zs d = getFieldFourier E c id zs d := by
  unfold getFieldFourier
  rw [h, getLayer_idx h]

/-- **C54**, names: a wrong name of a field or of a component raises `ValueError` and has no effect. -/
theorem C54_wrong_names (id : LayerId) (zs : List ℝ) (shape : Option (ℕ × ℕ)) (field component : String)
    (h : field ∉ ["all", "E", "H"] ∨ component ∉ ["all", "x", "y", "z"]) (d : Dyn c.nh) :
    getFieldGrid E c id zs shape field component d = (.error .valueError, d) := by
  unfold getFieldGrid
  by_cases hf : field ∉ ["all", "E", "H"]
  · have h1 : raiseIf (field ∉ ["all", "E", "H"]) PyErr.valueError = .error .valueError := by
      unfold raiseIf
      rw [if_pos hf]
    rw [h1]
    rfl
  · have hc := h.resolve_left hf
    have h1 : raiseIf (field ∉ ["all", "E", "H"]) PyErr.valueError = .ok () := by
      unfold raiseIf
      rw [if_neg hf]
    have h2 : raiseIf (component ∉ ["all", "x", "y", "z"]) PyErr.valueError = .error .valueError := by
      unfold raiseIf
      rw [if_pos hc]
    rw [h1, h2]
    rfl

/-- `get_field_grid` after its checks. -/
theorem getFieldGrid_eq {id : LayerId} {r : ℕ} {i : ℤ} (hl : getLayer c id = .ok (r, i)) {field component : String}
    (hf : field ∈ ["all", "E", "H"]) (hc : component ∈ ["all", "x", "y", "z"]) (zs : List ℝ) (shape : Option (ℕ × ℕ)) (d : Dyn c.nh) :
    getFieldGrid E c id zs shape field component d =
      match getFieldFourier E c id zs d with
      | (.error e, d') => (.error e, d')
      | (.ok ff, d') => ((match (match shape with
          | some (a, b) => [a, b]
          | none => (d.mats r).epsilon.shape) with
        | [Nx, Ny] => PyM.lift (do
            let out ← selectFields (fun f i => getIfftAmplitudes c.harmonics.get (partAt f i) Nx Ny) (eParts ff) (hParts ff) field component
            pure ⟨Nx, Ny, out⟩)
        | [] => PyM.lift (.error .indexError)
        | _ => PyM.lift (.error .unmodelled)) : PyM (Dyn c.nh) GridOut) d' := by
  have h1 : raiseIf (field ∉ ["all", "E", "H"]) PyErr.valueError = .ok () := by
    unfold raiseIf
    rw [if_neg (not_not.2 hf)]
  have h2 : raiseIf (component ∉ ["all", "x", "y", "z"]) PyErr.valueError = .ok () := by
    unfold raiseIf
    rw [if_neg (not_not.2 hc)]
  unfold getFieldGrid
  rw [h1, h2, hl, ← getFieldFourier_idx hl]
  simp only [PyM.bind_apply, PyM.lift, PyM.get]
  rcases getFieldFourier E c (.idx i) zs d with ⟨_ | _, d'⟩ <;> rfl

/-- **C54.**  Whenever the Fourier components of the fields are returned, and the harmonics fit in the shape asked for,
`get_field_grid` returns, for every valid pair of names, what these names select from the six real-space components,
each of them the Fourier series of the corresponding Fourier components at every depth; and it has the same effect on the
simulation as the retrieval of the Fourier components. -/
theorem C54_selection (id : LayerId) (zs : List ℝ) (Nx Ny : ℕ) (field component : String)
    (hf : field ∈ ["all", "E", "H"]) (hc : component ∈ ["all", "x", "y", "z"])
    (hfit : ∀ g ∈ c.harmonics, -(Nx : ℤ) ≤ g.1 ∧ g.1 < Nx ∧ -(Ny : ℤ) ≤ g.2 ∧ g.2 < Ny) (hnh : c.harmonics ≠ [])
    (d d' : Dyn c.nh) (ff : List (FieldF c.nh)) (h : getFieldFourier E c id zs d = (.ok ff, d')) :
    ∃ s, getFieldGrid E c id zs (some (Nx, Ny)) field component d = (.ok ⟨Nx, Ny, s⟩, d') ∧
      pick field component (fun i => ff.map fun f => series c.harmonics.get (eComp f i) Nx Ny)
        (fun i => ff.map fun f => series c.harmonics.get (hComp f i) Nx Ny) = some s := by
  obtain ⟨r, i, hl⟩ : ∃ r i, getLayer c id = .ok (r, i) := by
    cases hl : getLayer c id with
    | ok p => exact ⟨p.1, p.2, rfl⟩
    | error e =>
      unfold getFieldFourier at h
      rw [hl] at h
      cases h
  have hfit' : ∀ i, -(Nx : ℤ) ≤ (c.harmonics.get i).1 ∧ (c.harmonics.get i).1 < Nx ∧ -(Ny : ℤ) ≤ (c.harmonics.get i).2 ∧ (c.harmonics.get i).2 < Ny :=
    fun i => hfit _ (List.get_mem _ _)
  have hn : c.nh ≠ 0 := fun h0 => hnh (List.length_eq_zero_iff.1 h0)
  obtain ⟨s, hs, hp⟩ := selectFields_ok (A := List (Grid Nx Ny)) (F := List (Fin 3 → Fin c.nh → ℂ))
    (getField := fun f i => getIfftAmplitudes c.harmonics.get (partAt f i) Nx Ny)
    (g := fun f i => (partAt f i).map fun u => series c.harmonics.get u Nx Ny)
    (fun f i => getIfftAmplitudes_ok hn hfit' _) (eParts ff) (hParts ff) hf hc
  refine ⟨s, ?_, ?_⟩
  · rw [getFieldGrid_eq hl hf hc, h]
    dsimp only
    rw [hs]
    rfl
  · rw [← hp]
    congr 1
    · funext i
      simp only [eParts, partAt, List.map_map]
      apply List.map_congr_left
      intro f _
      simp only [Function.comp_apply, i.isLt, dif_pos]
      rfl
    · funext i
      simp only [hParts, partAt, List.map_map]
      apply List.map_congr_left
      intro f _
      simp only [Function.comp_apply, i.isLt, dif_pos]
      rfl

/-- **C54**, the other outcomes: an exception of the retrieval is passed on; harmonics that do not fit in the shape raise
`IndexError`, and so does the default shape of a layer whose permittivity is a number. -/
theorem C54_other_outcomes (id : LayerId) (zs : List ℝ) (shape : Option (ℕ × ℕ)) (field component : String)
    (hf : field ∈ ["all", "E", "H"]) (hc : component ∈ ["all", "x", "y", "z"]) (d d' : Dyn c.nh) :
    (∀ e, getFieldFourier E c id zs d = (.error e, d') → getFieldGrid E c id zs shape field component d = (.error e, d')) ∧
    (∀ ff Nx Ny, getFieldFourier E c id zs d = (.ok ff, d') → shape = some (Nx, Ny) →
      (∃ g ∈ c.harmonics, ¬ (-(Nx : ℤ) ≤ g.1 ∧ g.1 < Nx ∧ -(Ny : ℤ) ≤ g.2 ∧ g.2 < Ny)) →
      getFieldGrid E c id zs shape field component d = (.error .indexError, d')) ∧
    (∀ ff r i, getFieldFourier E c id zs d = (.ok ff, d') → shape = none → getLayer c id = .ok (r, i) →
      (d.mats r).epsilon.shape = [] →
      getFieldGrid E c id zs shape field component d = (.error .indexError, d')) := by
  refine ⟨?_, ?_, ?_⟩
  · intro e h
    cases hl : getLayer c id with
    | ok p =>
      rw [getFieldGrid_eq (r := p.1) (i := p.2) hl hf hc, h]
    | error e' =>
      have h' : getFieldFourier E c id zs d = (.error e', d) := by
        unfold getFieldFourier
        rw [hl]
        rfl
      rw [h] at h'
      cases h'
      have h1 : raiseIf (field ∉ ["all", "E", "H"]) PyErr.valueError = .ok () := by
        unfold raiseIf
        rw [if_neg (not_not.2 hf)]
      have h2 : raiseIf (component ∉ ["all", "x", "y", "z"]) PyErr.valueError = .ok () := by
        unfold raiseIf
        rw [if_neg (not_not.2 hc)]
      unfold getFieldGrid
      rw [h1, h2, hl]
      rfl
  · rintro ff Nx Ny h rfl ⟨g, hg, hn⟩
    obtain ⟨r, i, hl⟩ : ∃ r i, getLayer c id = .ok (r, i) := by
      cases hl : getLayer c id with
      | ok p => exact ⟨p.1, p.2, rfl⟩
      | error e =>
        unfold getFieldFourier at h
        rw [hl] at h
        cases h
    rw [getFieldGrid_eq hl hf hc, h]
    dsimp only
    have hb : ∃ i, pyFin Nx (c.harmonics.get i).1 = none ∨ pyFin Ny (c.harmonics.get i).2 = none := by
      obtain ⟨k, rfl⟩ := List.mem_iff_get.1 hg
      refine ⟨k, ?_⟩
      rw [pyFin_none, pyFin_none]
      by_contra hcc
      push Not at hcc
      exact hn ⟨hcc.1.1, hcc.1.2, hcc.2.1, hcc.2.2⟩
    rw [selectFields_err (e := .indexError) (fun f i => by unfold getIfftAmplitudes; rw [if_pos hb]) _ _ hf hc]
    rfl
  · rintro ff r i h rfl hl hs
    rw [getFieldGrid_eq hl hf hc, h]
    dsimp only
    rw [hs]
    rfl

/-- **C54**, default shape: in a layer with a patterned permittivity the grid is the grid of the permittivity. -/
theorem C54_default_shape (id : LayerId) (zs : List ℝ) (field component : String)
    (hf : field ∈ ["all", "E", "H"]) (hc : component ∈ ["all", "x", "y", "z"]) (d : Dyn c.nh) (r : ℕ) (i : ℤ)
    (hl : getLayer c id = .ok (r, i)) (Nx Ny : ℕ) (hs : (d.mats r).epsilon.shape = [Nx, Ny]) :
    getFieldGrid E c id zs none field component d = getFieldGrid E c id zs (some (Nx, Ny)) field component d := by
  rw [getFieldGrid_eq hl hf hc, getFieldGrid_eq hl hf hc]
  dsimp only
  rw [hs]

/-- **C54**, `get_Efield_grid` and `get_Hfield_grid` select one of the two fields. -/
theorem C54_one_field (id : LayerId) (zs : List ℝ) (shape : Option (ℕ × ℕ)) (component : String) :
    getEfieldGrid E c id zs shape component = getFieldGrid E c id zs shape "E" component ∧
    getHfieldGrid E c id zs shape component = getFieldGrid E c id zs shape "H" component := ⟨rfl, rfl⟩

/-- C54 on the grating: the second component of the magnetic field on the default grid, the four by one pixels of the
pattern. -/
example : ∃ (c : Static) (u : List (Grid 4 1)), (getFieldGrid Examples.exE c (.idx (1 : ℕ)) [0, 1 / 16] none "H" "y"
      (afterCalls Examples.exE c [] (Dyn.fresh Examples.slabMats (unsolved c.nh)))).1 = .ok ⟨4, 1, .single (.one u)⟩ ∧
    u.length = 2 := by
  obtain ⟨c, h1, h2, h3, h4, h5⟩ := Examples.slab_init
  obtain ⟨c', F, h1', -, -, -, hF⟩ := Examples.slab_retrieval (fun _ => []) 1 (by norm_num)
  obtain rfl : c = c' := Except.ok.inj (h1.symm.trans h1')
  have hFs := hF [0, 1 / 16]
  rcases hd : getFieldFourier Examples.exE c (.idx (1 : ℕ)) [0, 1 / 16]
    (afterCalls Examples.exE c [] (Dyn.fresh Examples.slabMats (unsolved c.nh))) with ⟨o, d'⟩
  rw [hd] at hFs
  dsimp only at hFs
  subst hFs
  have hH : c.harmonics = [(0, 0)] := h2.harm
  obtain ⟨s, hs, hp⟩ := C54_selection (.idx (1 : ℕ)) [0, 1 / 16] 4 1 "H" "y" (by simp) (by simp) (by rw [hH]; simp) (by rw [hH]; simp)
    _ _ _ hd
  have hg : getLayer c (.idx (1 : ℕ)) = .ok (1, 1) := by
    unfold getLayer
    dsimp only
    rw [h3]
    rfl
  simp only [pick, pickComponent, String.reduceEq, if_false, if_true, Option.some.injEq] at hp
  refine ⟨c, [0, 1 / 16].map fun z => series c.harmonics.get (hComp (F z) 1) 4 1, ?_, rfl⟩
  rw [C54_default_shape (.idx (1 : ℕ)) [0, 1 / 16] "H" "y" (by simp) (by simp) _ 1 1 hg 4 1 rfl, hs, ← hp]
  rfl

end Nannos
