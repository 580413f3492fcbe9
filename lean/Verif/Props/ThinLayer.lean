import Verif.Props.Profile
import Verif.Props.Smooth

/-! **C94**: the limit of a thin layer. -/

namespace Nannos

open Matrix Spec Topology

section thin
variable {E : Ext} {lats : ℕ → Lattice} {mats : ℕ → LayerSpec} {wl : ℝ}
  {angles : ℝ × ℝ × ℝ} {exc : PlaneWave} {nh : ℤ} {form : String} {c c' : Static}

/-- The layers `mats`, with the thickness `d` for the layer `f`. -/
noncomputable def withFilm (mats : ℕ → LayerSpec) (f : ℕ) (d : ℝ) : ℕ → LayerSpec :=
  Function.update mats f { mats f with thickness := some d }

theorem withFilm_eq (f : ℕ) (hf : (mats f).thickness ≠ none) (d : ℝ) :
    withFilm mats f d = withThicknesses mats (fun r => if r = f then d else thicknessOf (mats r)) := by
  funext r
  unfold withFilm withThicknesses
  by_cases h : r = f
  · subst h
    obtain ⟨t, ht⟩ := Option.ne_none_iff_exists'.mp hf
    simp [ht]
  · rw [Function.update_of_ne h]
    have : (mats r).thickness.map (fun _ => if r = f then d else thicknessOf (mats r)) = (mats r).thickness := by
      rw [if_neg h]
      unfold thicknessOf
      cases (mats r).thickness <;> rfl
    rw [this]

theorem withFilm_other {f r : ℕ} (h : r ≠ f) (d : ℝ) : withFilm mats f d r = mats r := Function.update_of_ne h _ _

/-- Every field but the thickness is that of `mats`. -/
theorem withFilm_fields (f r : ℕ) (d : ℝ) : (withFilm mats f d r).epsilon = (mats r).epsilon ∧
    (withFilm mats f d r).mu = (mats r).mu ∧ (withFilm mats f d r).lattice = (mats r).lattice ∧
    (withFilm mats f d r).iscopy = (mats r).iscopy ∧ (withFilm mats f d r).original = (mats r).original ∧
    (withFilm mats f d r).tangentField = (mats r).tangentField ∧
    (withFilm mats f d r).tangentFieldType = (mats r).tangentFieldType ∧
    (withFilm mats f d r).isUniform = (mats r).isUniform := by
  by_cases h : r = f
  · subst h; simp [withFilm, LayerSpec.isUniform]
  · rw [withFilm_other h]; simp

theorem mem_of_split {pre post : List ℕ} {f r : ℕ} (h : r ∈ pre ++ post) : r ∈ pre ++ f :: post := by
  simp only [List.mem_append, List.mem_cons] at h ⊢; tauto

/-- A film of no thickness inside the stack does not change the structure. -/
theorem film_structure {pre post : List ℕ} {f : ℕ} (hpre : pre ≠ []) (hpost : post ≠ []) (hf : f ∉ pre ++ post)
    (hpos : ∀ r ∈ pre ++ post, 0 ≤ thicknessOf (mats r)) :
    SameStructure mats (pre ++ post) (withFilm mats f 0) (pre ++ f :: post) := by
  obtain ⟨a, pre, rfl⟩ := List.exists_cons_of_ne_nil hpre
  obtain ⟨post, b, rfl⟩ : ∃ q b, post = q ++ [b] := ⟨post.dropLast, post.getLast hpost, (List.dropLast_append_getLast hpost).symm⟩
  have ha : a ≠ f := by rintro rfl; exact hf (by simp)
  have hb : b ≠ f := by rintro rfl; exact hf (by simp)
  refine ⟨fun r r' h h' => ?_, fun r r' h h' => ?_, fun z hz => ?_⟩
  · simp at h h'
    subst h h'
    rw [withFilm_other ha]; exact ⟨rfl, rfl⟩
  · have e1 : (a :: pre ++ (post ++ [b])).getLast? = some b := by
      rw [← List.append_assoc]; exact List.getLast?_concat
    have e2 : (a :: pre ++ f :: (post ++ [b])).getLast? = some b := by
      rw [show a :: pre ++ f :: (post ++ [b]) = (a :: pre ++ f :: post) ++ [b] by simp]; exact List.getLast?_concat
    rw [e1] at h; rw [e2] at h'
    cases h; cases h'
    rw [withFilm_other hb]
  · have e1 : (a :: pre ++ (post ++ [b])).tail.dropLast = pre ++ post := by
      simp [← List.append_assoc]
    have e2 : (a :: pre ++ f :: (post ++ [b])).tail.dropLast = pre ++ f :: post := by
      rw [show a :: pre ++ f :: (post ++ [b]) = a :: ((pre ++ f :: post) ++ [b]) by simp]
      exact List.dropLast_concat
    have k1 : ∀ l : List ℕ, f ∉ l → l.map (fun r => (materialOf (withFilm mats f 0 r), thicknessOf (withFilm mats f 0 r))) =
        l.map fun r => (materialOf (mats r), thicknessOf (mats r)) := fun l hl =>
      List.map_congr_left fun r hr => by rw [withFilm_other (by rintro rfl; exact hl hr)]
    have h1 : f ∉ pre := fun h => hf (by simp [h])
    have h2 : f ∉ post := fun h => hf (by simp [h])
    unfold slabs
    rw [e1, e2, List.map_append, List.map_append, List.map_cons, k1 _ h1, k1 _ h2]
    have e0 : thicknessOf (withFilm mats f 0 f) = 0 := by simp [withFilm, thicknessOf]
    rw [e0]
    refine foundAt_film _ _ (fun y hy => ?_) _ hz
    obtain ⟨r, hr, rfl⟩ := List.mem_map.mp hy
    exact hpos r (by simp [hr])

/-- A film of no thickness inside the stack changes neither efficiencies nor fields. -/
theorem film_core (hE : EigContract E) (hexc : planeWave wl angles = .ok exc) {pre post : List ℕ} {f : ℕ}
    (hpre : pre ≠ []) (hpost : post ≠ [])
    (hinit : simInit E lats mats (pre ++ post) exc nh form = .ok c)
    (hinit' : simInit E lats mats (pre ++ f :: post) exc nh form = .ok c')
    (hall : simInit E lats (withFilm mats f 0) (pre ++ f :: post) exc nh form = .ok c')
    (huni : (mats f).isUniform = true ∨ ∃ r ∈ pre ++ post, (mats r).isUniform = false)
    (hpos : ∀ r ∈ pre ++ post, 0 ≤ thicknessOf (mats r)) (hmu : ∀ r ∈ pre ++ f :: post, (mats r).mu = 1)
    (hw : WellPlaced mats (pre ++ post)) (hw' : WellPlaced mats (pre ++ f :: post))
    (hfc : FaithfulCopies mats (pre ++ f :: post)) (hist : List (Call c.nh)) (hist' : List (Call c'.nh)) :
    c'.harmonics = c.harmonics ∧
    (∀ orders X X',
      (diffractionEfficiencies E c orders (afterCalls E c hist (Dyn.fresh mats (unsolved c.nh)))).1 = .ok X →
      (diffractionEfficiencies E c' orders
        (afterCalls E c' hist' (Dyn.fresh (withFilm mats f 0) (unsolved c'.nh)))).1 = .ok X' → EqualEfficiencies X X') ∧
    ∀ (k : ℕ) zs Fs Fs', k < (pre ++ post).length →
      (getFieldFourier E c (.idx k) zs (afterCalls E c hist (Dyn.fresh mats (unsolved c.nh)))).1 = .ok Fs →
      (getFieldFourier E c' (.idx (if k < pre.length then k else k + 1 : ℕ)) zs
        (afterCalls E c' hist' (Dyn.fresh (withFilm mats f 0) (unsolved c'.nh)))).1 = .ok Fs' →
      ∀ (n : ℕ) z F F', zs[n]? = some z → Fs[n]? = some F → Fs'[n]? = some F' → InsideLayer mats (pre ++ post) k z →
        EqualFields F F' := by
  have hi := simInit_ok hinit
  have hi' := simInit_ok hinit'
  have hnd : (pre ++ f :: post).Nodup := hi'.stack_eq ▸ hi'.nodup
  have hf : f ∉ pre ++ post := by
    have := List.nodup_middle.mp hnd
    exact (List.nodup_cons.mp this).1
  have hlat : ∀ r ∈ pre ++ post, ∀ r' ∈ pre ++ f :: post, (withFilm mats f 0 r').lattice = (mats r).lattice := by
    intro r hr r' hr'
    obtain ⟨r0, t, e⟩ := List.exists_cons_of_ne_nil hi'.ne
    rw [(withFilm_fields f r' 0).2.2.1, hi'.lat r' hr' r0 (by rw [e]; rfl), hi'.lat r (mem_of_split hr) r0 (by rw [e]; rfl)]
  have hU : ((pre ++ f :: post).all fun r => (withFilm mats f 0 r).isUniform) = (pre ++ post).all fun r => (mats r).isUniform := by
    have : (fun r => (withFilm mats f 0 r).isUniform) = fun r => (mats r).isUniform :=
      funext fun r => (withFilm_fields f r 0).2.2.2.2.2.2.2
    rw [this]
    rcases huni with h | ⟨r, hr, h⟩
    · simp [h]
    · have a1 : ((pre ++ f :: post).all fun r => (mats r).isUniform) = false :=
        List.all_eq_false.mpr ⟨r, mem_of_split hr, by simp [h]⟩
      have a2 : ((pre ++ post).all fun r => (mats r).isUniform) = false := List.all_eq_false.mpr ⟨r, hr, by simp [h]⟩
      rw [a1, a2]
  obtain ⟨g1, g2, g3⟩ := C83_structure hE hE rfl rfl hexc hinit hall hlat hU (film_structure hpre hpost hf hpos) hpos
    (fun r hr => by
      by_cases h : r = f
      · subst h; simp [withFilm, thicknessOf]
      · rw [withFilm_other h]
        refine hpos r ?_
        simp only [List.mem_append, List.mem_cons] at hr ⊢; tauto)
    (fun r hr => hmu r (mem_of_split hr)) (fun r hr => by rw [(withFilm_fields f r 0).2.1]; exact hmu r hr) hw
    (fun k r hk hcp => by
      obtain ⟨e1, -, -, e4, e5, -, -, e8⟩ := withFilm_fields (mats := mats) f r 0
      rw [e4] at hcp
      rw [e1, e5, e8, (withFilm_fields f _ 0).1]
      exact hw' k r hk hcp)
    (fun r hr hcp => hfc r (mem_of_split hr) hcp)
    (fun r hr hcp => by
      obtain ⟨e1, e2, -, e4, e5, e6, e7, -⟩ := withFilm_fields (mats := mats) f r 0
      obtain ⟨f1, f2, -, -, -, f6, f7, -⟩ := withFilm_fields (mats := mats) f (mats r).original 0
      rw [e4] at hcp
      rw [e5, e1, e2, e6, e7, f1, f2, f6, f7]
      exact hfc r hr hcp) hist hist'
  refine ⟨g1, g2, fun k zs Fs Fs' hk hF hF' n z F F' a1 a2 a3 hin => ?_⟩
  obtain ⟨r, hr⟩ : ∃ r, (pre ++ post)[k]? = some r := ⟨_, List.getElem?_eq_getElem hk⟩
  have hrf : r ≠ f := by rintro rfl; exact hf (List.mem_of_getElem? hr)
  have hr' : (pre ++ f :: post)[if k < pre.length then k else k + 1]? = some r := by
    split_ifs with h
    · rw [List.getElem?_append_left h] at hr ⊢; exact hr
    · rw [List.getElem?_append_right (by omega)] at hr ⊢
      rw [show k + 1 - pre.length = (k - pre.length) + 1 by omega, List.getElem?_cons_succ]; exact hr
  refine g3 k _ zs zs Fs Fs' hF hF' r r hr hr' (by rw [withFilm_other hrf]) n n z z F F' a1 a2 a1 a3 hin ?_ ?_
  · obtain ⟨r1, b1, b2, b3⟩ := hin
    obtain rfl : r1 = r := by rw [hr] at b1; exact (Option.some.inj b1).symm
    have hp := List.length_pos_iff.mpr hpre
    refine ⟨r1, hr', b2.imp_left fun h => by rw [if_pos (by omega)]; exact h, ?_⟩
    rw [withFilm_other hrf]
    refine b3.imp_left fun h => ?_
    have hq := List.length_pos_iff.mpr hpost
    simp only [List.length_append, List.length_cons] at h ⊢
    rw [if_neg (by omega)]; omega
  · have k1 : ∀ l : List ℕ, f ∉ l → l.map (fun r => thicknessOf (withFilm mats f 0 r)) =
        l.map fun r => thicknessOf (mats r) := fun l hl =>
      List.map_congr_left fun r hr => by rw [withFilm_other (by rintro rfl; exact hl hr)]
    have e0 : thicknessOf (withFilm mats f 0 f) = 0 := by simp [withFilm, thicknessOf]
    have h1 : f ∉ pre := fun h => hf (by simp [h])
    have h2 : f ∉ post := fun h => hf (by simp [h])
    unfold depthOf
    congr 1
    split_ifs with h
    · rw [List.take_append_of_le_length (by omega), List.take_append_of_le_length (by omega),
        k1 _ fun h => h1 (List.mem_of_mem_take h)]
    · have t1 : (pre ++ post).take k = pre ++ post.take (k - pre.length) := by
        rw [List.take_append, List.take_of_length_le (by omega)]
      have t2 : (pre ++ f :: post).take (k + 1) = pre ++ f :: post.take (k - pre.length) := by
        rw [List.take_append, List.take_of_length_le (by omega), show k + 1 - pre.length = (k - pre.length) + 1 by omega,
          List.take_succ_cons]
      rw [t1, t2, List.map_append, List.map_append, List.map_cons, k1 _ h1, k1 _ fun h => h2 (List.mem_of_mem_take h), e0]
      simp

/-- **C94**: a film `f` inside a stack, of thickness `d`. If results are returned for the stack without the film, and for
the film of no thickness, then they are returned for all `d` near zero, whatever was called before, and as `d` tends to
zero the efficiencies tend to those of the stack without film. -/
theorem C94_thin_layer (hE : EigContract E) (hexc : planeWave wl angles = .ok exc) (pre post : List ℕ) (f : ℕ)
    (hpre : pre ≠ []) (hpost : post ≠ [])
    (hinit : simInit E lats mats (pre ++ post) exc nh form = .ok c)
    (hinit' : simInit E lats mats (pre ++ f :: post) exc nh form = .ok c')
    (hth : (mats f).thickness ≠ none)
    (huni : (mats f).isUniform = true ∨ ∃ r ∈ pre ++ post, (mats r).isUniform = false)
    (hpos : ∀ r ∈ pre ++ post, 0 ≤ thicknessOf (mats r)) (hmu : ∀ r ∈ pre ++ f :: post, (mats r).mu = 1)
    (hw : WellPlaced mats (pre ++ post)) (hw' : WellPlaced mats (pre ++ f :: post))
    (hfc : FaithfulCopies mats (pre ++ f :: post))
    (hist : List (Call c.nh)) (hist' : ℝ → List (Call c'.nh)) {R T : Fin c.nh → ℝ} {X0}
    (hX : (diffractionEfficiencies E c true (afterCalls E c hist (Dyn.fresh mats (unsolved c.nh)))).1 = .ok (.byOrder R T))
    (hX0 : (diffractionEfficiencies E c' true
      (afterCalls E c' (hist' 0) (Dyn.fresh (withFilm mats f 0) (unsolved c'.nh)))).1 = .ok X0) :
    c'.harmonics = c.harmonics ∧
    (∀ d, simInit E lats (withFilm mats f d) (pre ++ f :: post) exc nh form = .ok c') ∧
    ∃ R' T' : Fin c'.nh → ℝ → ℝ,
      (∀ᶠ d in 𝓝 0, (diffractionEfficiencies E c' true
          (afterCalls E c' (hist' d) (Dyn.fresh (withFilm mats f d) (unsolved c'.nh)))).1 =
        .ok (.byOrder (fun j => R' j d) (fun j => T' j d))) ∧
      ∀ (i : Fin c.nh) (j : Fin c'.nh), (i : ℕ) = j →
        Filter.Tendsto (R' j) (𝓝 0) (𝓝 (R i)) ∧ Filter.Tendsto (T' j) (𝓝 0) (𝓝 (T i)) := by
  have hsm := C87_thickness_derivatives (V := ℝ) (n := 1) hinit' 0
    (fun d r => if r = f then d else thicknessOf (mats r)) (fun r _ => by
      by_cases h : r = f
      · simp only [h, if_true]; exact contDiffAt_id
      · simp only [h, if_false]; exact contDiffAt_const) hist'
  simp only [← withFilm_eq f hth] at hsm
  obtain ⟨hall, heff, -⟩ := hsm
  obtain ⟨R', T', hcd, hev⟩ := heff X0 hX0
  obtain ⟨g1, g2, -⟩ := film_core hE hexc hpre hpost hinit hinit' (hall 0) huni hpos hmu hw hw' hfc hist (hist' 0)
  refine ⟨g1, hall, R', T', hev.mono fun d h => h.1, fun i j hij => ?_⟩
  obtain ⟨a, b⟩ := g2 true _ _ hX hev.self_of_nhds.1 i j hij
  rw [← a, ← b]
  exact ⟨(hcd j).1.continuousAt, (hcd j).2.continuousAt⟩

/-- **C94**, fields: as the thickness of the film tends to zero, the fields in every other layer tend to those without the
film. -/
theorem C94_thin_layer_fields (hE : EigContract E) (hexc : planeWave wl angles = .ok exc) (pre post : List ℕ) (f : ℕ)
    (hpre : pre ≠ []) (hpost : post ≠ [])
    (hinit : simInit E lats mats (pre ++ post) exc nh form = .ok c)
    (hinit' : simInit E lats mats (pre ++ f :: post) exc nh form = .ok c')
    (hth : (mats f).thickness ≠ none)
    (huni : (mats f).isUniform = true ∨ ∃ r ∈ pre ++ post, (mats r).isUniform = false)
    (hpos : ∀ r ∈ pre ++ post, 0 ≤ thicknessOf (mats r)) (hmu : ∀ r ∈ pre ++ f :: post, (mats r).mu = 1)
    (hw : WellPlaced mats (pre ++ post)) (hw' : WellPlaced mats (pre ++ f :: post))
    (hfc : FaithfulCopies mats (pre ++ f :: post))
    (hist : List (Call c.nh)) (hist' : ℝ → List (Call c'.nh))
    -- layer number `k` without the film has the number `k'` with the film
    (k k' : ℕ) (hk : k < (pre ++ post).length) (hk' : k' = if k < pre.length then k else k + 1)
    (z : ℝ) (hz : InsideLayer mats (pre ++ post) k z) {F : FieldF c.nh} {F0}
    (hF : (getFieldFourier E c (.idx k) [z] (afterCalls E c hist (Dyn.fresh mats (unsolved c.nh)))).1 = .ok [F])
    (hF0 : (getFieldFourier E c' (.idx k') [z]
      (afterCalls E c' (hist' 0) (Dyn.fresh (withFilm mats f 0) (unsolved c'.nh)))).1 = .ok F0) :
    ∃ G : ℝ → FieldF c'.nh,
      (∀ᶠ d in 𝓝 0, (getFieldFourier E c' (.idx k') [z]
          (afterCalls E c' (hist' d) (Dyn.fresh (withFilm mats f d) (unsolved c'.nh)))).1 = .ok [G d]) ∧
      ∀ (i : Fin c.nh) (j : Fin c'.nh), (i : ℕ) = j →
        Filter.Tendsto (fun d => eVec (G d) j) (𝓝 0) (𝓝 (eVec F i)) ∧
        Filter.Tendsto (fun d => hVec (G d) j) (𝓝 0) (𝓝 (hVec F i)) := by
  subst hk'
  have hsm := C87_thickness_derivatives (V := ℝ) (n := 1) hinit' 0
    (fun d r => if r = f then d else thicknessOf (mats r)) (fun r _ => by
      by_cases h : r = f
      · simp only [h, if_true]; exact contDiffAt_id
      · simp only [h, if_false]; exact contDiffAt_const) hist'
  simp only [← withFilm_eq f hth] at hsm
  obtain ⟨hall, -, hfld⟩ := hsm
  obtain ⟨G, hlen, hG, hev⟩ := hfld _ [fun _ => z] (by simpa using contDiffAt_const) F0 hF0
  obtain ⟨G, rfl⟩ : ∃ g, G = [g] := List.length_eq_one_iff.mp hlen
  obtain ⟨-, -, g3⟩ := film_core hE hexc hpre hpost hinit hinit' (hall 0) huni hpos hmu hw hw' hfc hist (hist' 0)
  refine ⟨G, hev, fun i j hij => ?_⟩
  obtain ⟨a, b⟩ := g3 k [z] [F] _ hk hF hev.self_of_nhds 0 z F (G 0) rfl rfl rfl hz i j hij
  rw [← a, ← b]
  obtain ⟨s1, s2, s3, s4, s5, s6⟩ := hG G (by simp) j
  refine ⟨tendsto_pi_nhds.mpr fun l => ?_, tendsto_pi_nhds.mpr fun l => ?_⟩
  · fin_cases l
    · exact s1.continuousAt
    · exact s2.continuousAt
    · exact s3.continuousAt
  · fin_cases l
    · exact s4.continuousAt
    · exact s5.continuousAt
    · exact s6.continuousAt

end thin

namespace Examples

/-- The grating `slabMats`, and a film of permittivity 16. -/
noncomputable def coatMats : ℕ → LayerSpec := fun r =>
  if r = 3 then exLayer "Film" (1 / 10) (NdArr.scalar (((4 : ℝ) ^ 2 : ℝ) : ℂ)) else slabMats r

noncomputable def coatN : ℕ → ℝ := fun r => if r = 3 then 4 else slabN r

theorem coat_index (d : ℝ) (r : ℕ) : 0 < coatN r ∧ HasIndex (withFilm coatMats 3 d r) (coatN r) := by
  unfold coatN
  by_cases h : r = 3
  · subst h
    exact ⟨by norm_num, rfl, rfl, .inl (by simp [withFilm, coatMats, exLayer])⟩
  · rw [withFilm_other h, if_neg h]
    unfold coatMats
    rw [if_neg h]
    exact slab_index r

theorem coat_steps {m : Type} [Fintype m] [DecidableEq m] :
    freshS ([scal ((2 * Real.pi : ℝ) : ℂ) 1 (some 1), scal ((2 * Real.pi : ℝ) : ℂ) 2 (some (1 / 8)),
        scal ((2 * Real.pi : ℝ) : ℂ) 4 (some 0), scal ((2 * Real.pi : ℝ) : ℂ) 1 (some 1)] : List (Modes m)) (0 : ℕ) (3 : ℕ) =
      .ok (sscal (4 * Complex.I / 5) (3 / 5) (3 / 5) (4 * Complex.I / 5)) := by
  have hI : Complex.I * Complex.I = -1 := Complex.I_mul_I
  have st2 : stepS (sscal (4 / 3) (-(Complex.I / 3)) (1 / 3) (2 * Complex.I / 3))
      (scal ((2 * Real.pi : ℝ) : ℂ) 2 (some (1 / 8)) : Modes m) (scal ((2 * Real.pi : ℝ) : ℂ) 4 (some 0)) =
      .ok (sscal (2 * Complex.I) 0 0 (Complex.I / 2)) := by
    rw [scal_step (f := Complex.I) (f' := 1) two_pi_ne two_ne_zero (by norm_num) (some (1 / 8)) (some 0) _ _ _ _ exp_quarter
      (by simp) (2 / 3) (by linear_combination (-1 / 12 : ℂ) * hI) (by norm_num) (2 * Complex.I) 0 (by ring)
      (by linear_combination (1 / 4 : ℂ) * hI)]
    congr 1
    unfold sscal
    congr 2
    · linear_combination (1 / 3 : ℂ) * hI
    · ring
  have st3 : stepS (sscal (2 * Complex.I) 0 0 (Complex.I / 2))
      (scal ((2 * Real.pi : ℝ) : ℂ) 4 (some 0) : Modes m) (scal ((2 * Real.pi : ℝ) : ℂ) 1 (some 1)) =
      .ok (sscal (4 * Complex.I / 5) (3 / 5) (3 / 5) (4 * Complex.I / 5)) := by
    rw [scal_step (f := 1) (f' := 1) two_pi_ne (by norm_num) one_ne_zero (some 0) (some 1) _ _ _ _ (by simp)
      exp_two_pi (5 / 2) (by norm_num) (by norm_num) (4 * Complex.I / 5) (3 / 5) (by ring) (by norm_num)]
    congr 1
    unfold sscal
    congr 2
    · linear_combination (-3 / 5 : ℂ) * hI
    · ring
  refine freshS_ok.mpr ⟨by omega, ?_⟩
  have e3 : ((3 : ℕ) : ℤ) = ((2 : ℕ) : ℤ) + 1 := rfl
  have e2 : ((2 : ℕ) : ℤ) = ((1 : ℕ) : ℤ) + 1 := rfl
  rw [e3, loopS_succ _ 0 2 (by omega), e2, loopS_succ _ 0 1 (by omega)]
  have h1 := loop_one (m := m) (l := [scal ((2 * Real.pi : ℝ) : ℂ) 1 (some 1), scal ((2 * Real.pi : ℝ) : ℂ) 2 (some (1 / 8)),
    scal ((2 * Real.pi : ℝ) : ℂ) 4 (some 0), scal ((2 * Real.pi : ℝ) : ℂ) 1 (some 1)]) (i := 0) rfl rfl slab_step1
  rw [h1, except_bind_ok, stepAt_ok.mpr ⟨_, _, rfl, rfl, st2⟩, except_bind_ok]
  exact stepAt_ok.mpr ⟨_, _, rfl, rfl, st3⟩

theorem byOrder_of {E : Ext} {c : Static} {d : Dyn c.nh} {R T : Fin c.nh → ℝ} (h : (efficienciesByOrder E c d).1 = .ok (R, T)) :
    (diffractionEfficiencies E c true d).1 = .ok (.byOrder R T) := by
  unfold diffractionEfficiencies
  rw [PyM.bind_ok (Prod.ext_iff.mpr ⟨h, rfl⟩)]
  rfl

/-- C94: a film below the grating, and the grating without it. -/
example : ∃ c c' R T X0, simInit exE (fun _ => exLat) coatMats ([0, 1] ++ [2]) exExc 1 "original" = .ok c ∧
    simInit exE (fun _ => exLat) coatMats ([0, 1] ++ 3 :: [2]) exExc 1 "original" = .ok c' ∧ EigContract exE ∧
    planeWave 1 (0, 0, 0) = .ok exExc ∧ (coatMats 3).thickness ≠ none ∧
    (diffractionEfficiencies exE c true (Dyn.fresh coatMats (unsolved c.nh))).1 = .ok (.byOrder R T) ∧
    (diffractionEfficiencies exE c' true (Dyn.fresh (withFilm coatMats 3 0) (unsolved c'.nh))).1 = .ok X0 ∧
    -- the conclusion, for this case: the reflectance tends to 9/25
    ∃ R' : Fin c'.nh → ℝ → ℝ, ∀ j, Filter.Tendsto (R' j) (𝓝 0) (𝓝 (9 / 25)) ∧ ∀ᶠ d in 𝓝 0, ∃ T',
      (diffractionEfficiencies exE c' true (Dyn.fresh (withFilm coatMats 3 d) (unsolved c'.nh))).1 =
        .ok (.byOrder (fun j => R' j d) T') := by
  have e0 : ∀ r, r ≠ 3 → coatMats r = slabMats r := fun r h => if_neg h
  obtain ⟨c, h1, h2, h3, -, h5⟩ := exInit coatMats 0 [1, 2] 1 one_pos (by decide) (by decide) rfl rfl
  obtain ⟨c', k1, k2, k3, -, k5⟩ := exInit coatMats 0 [1, 3, 2] 1 one_pos (by decide) (by decide) rfl rfl
  have hfl : c.incidentFlux = 1 := by rw [h5]; norm_num
  have kfl : c'.incidentFlux = 1 := by rw [k5]; norm_num
  have q1 := ex_efficiencies h2 (mats := coatMats) slabN (by rw [h3]; decide) (fun r hr => by
      rw [e0 r (by rw [h3] at hr; rintro rfl; simp at hr)]; exact slab_index r)
    (t := 4 * Complex.I / 5) (x := 3 / 5) (r := 3 / 5) (y := 4 * Complex.I / 5) (r0 := 0) (rN := 2) (by
      rw [h3, h2.omega]
      have h2 := slab_02 (m := Idx c.nh)
      simp only [slabModes] at h2
      simp [slabN, coatMats, slabMats, exLayer]
      norm_num at h2 ⊢
      rw [h2]) (by rw [h3]; rfl) (by rw [h3]; rfl) (by rw [hfl]; norm_num)
  have q2 := ex_efficiencies k2 (mats := withFilm coatMats 3 0) coatN (by rw [k3]; decide) (fun r _ => coat_index 0 r)
    (t := 4 * Complex.I / 5) (x := 3 / 5) (r := 3 / 5) (y := 4 * Complex.I / 5) (r0 := 0) (rN := 2) (by
      rw [k3, k2.omega]
      have h2 := coat_steps (m := Idx c'.nh)
      simp [coatN, slabN, withFilm, coatMats, slabMats, exLayer]
      norm_num at h2 ⊢
      rw [h2]) (by rw [k3]; rfl) (by rw [k3]; rfl) (by rw [kfl]; norm_num)
  have q1 : (diffractionEfficiencies exE c false (Dyn.fresh coatMats (unsolved c.nh))).1 = .ok (.total (9 / 25) (16 / 25)) := by
    rw [q1, hfl]; norm_num [slabN]
  obtain ⟨R, T, e1, e2, e3⟩ := efficiencies_total q1
  obtain ⟨R', T', e1', e2', e3'⟩ := efficiencies_total q2
  have e1 := byOrder_of e1
  have e1' := byOrder_of e1'
  have hcp : ∀ r, (coatMats r).iscopy = false := fun r => by
    have := (coat_index 0 r).2.1
    rwa [(withFilm_fields 3 r 0).2.2.2.1] at this
  have hth : (coatMats 3).thickness ≠ none := by simp [coatMats, exLayer]
  obtain ⟨-, -, R'', T'', g1, g2⟩ := C94_thin_layer exE_eig exExc_mk [0, 1] [2] 3 (by simp) (by simp) h1 k1 hth
    (.inl (by simp [coatMats, exLayer, LayerSpec.isUniform, NdArr.scalar, isUniform, isAnisotropic])) (by
      intro r hr
      simp at hr
      rcases hr with rfl | rfl | rfl <;> norm_num [coatMats, slabMats, exLayer, thicknessOf])
    (fun r _ => by have := (coat_index 0 r).2.2.1; rwa [(withFilm_fields 3 r 0).2.1] at this)
    (fun k r _ h => by rw [hcp] at h; cases h) (fun k r _ h => by rw [hcp] at h; cases h)
    (fun r _ h => by rw [hcp] at h; cases h) [] (fun _ => []) e1 e1'
  refine ⟨c, c', R, T, _, h1, k1, exE_eig, exExc_mk, hth, e1, e1', R'', fun j => ⟨?_, g1.mono fun d h => ⟨_, h⟩⟩⟩
  have hn1 : c.nh = 1 := h2.nh
  have hn1' : c'.nh = 1 := k2.nh
  have hR : ∀ i, R i = 9 / 25 := by
    intro i
    have : Subsingleton (Fin c.nh) := by rw [hn1]; infer_instance
    rw [Fintype.sum_subsingleton _ i] at e2
    exact e2.symm
  rw [← hR ⟨0, by omega⟩]
  exact (g2 ⟨0, by omega⟩ j (by have := j.2; show 0 = (j : ℕ); omega)).1

end Examples

end Nannos
