import Verif.Proofs.ProfileCore

/-! **C83**: results depend on the structure, not on how it is cut into layers. -/

namespace Nannos

open Matrix Spec

section structure_
variable {E E' : Ext} {lats : ℕ → Lattice} {mats mats' : ℕ → LayerSpec} {stack stack' : List ℕ} {wl : ℝ}
  {angles : ℝ × ℝ × ℝ} {exc : PlaneWave} {nh : ℤ} {form : String} {c c' : Static}

/-- **C83**: two stacks which describe the same structure (superstrate of one material and thickness, substrate of one
material, and the same material at every depth in between, whatever the number of layers, their names, and whether they
are copies) give the same orders, the same efficiencies and, at points of one depth, the same fields. -/
theorem C83_structure (hE : EigContract E) (hE' : EigContract E') (hsort : E'.argsort = E.argsort)
    (htan : E'.tangent = E.tangent) (hexc : planeWave wl angles = .ok exc)
    (hinit : simInit E lats mats stack exc nh form = .ok c)
    (hinit' : simInit E' lats mats' stack' exc nh form = .ok c')
    (hlat : ∀ r ∈ stack, ∀ r' ∈ stack', (mats' r').lattice = (mats r).lattice)
    (huni : (stack'.all fun r => (mats' r).isUniform) = stack.all fun r => (mats r).isUniform)
    (hsame : SameStructure mats stack mats' stack')
    (hpos : ∀ r ∈ stack, 0 ≤ thicknessOf (mats r)) (hpos' : ∀ r ∈ stack', 0 ≤ thicknessOf (mats' r))
    (hmu : ∀ r ∈ stack, (mats r).mu = 1) (hmu' : ∀ r ∈ stack', (mats' r).mu = 1)
    (hw : WellPlaced mats stack) (hw' : WellPlaced mats' stack')
    (hfc : FaithfulCopies mats stack) (hfc' : FaithfulCopies mats' stack')
    (hist : List (Call c.nh)) (hist' : List (Call c'.nh)) :
    c'.harmonics = c.harmonics ∧
    (∀ orders X X',
      (diffractionEfficiencies E c orders (afterCalls E c hist (Dyn.fresh mats (unsolved c.nh)))).1 = .ok X →
      (diffractionEfficiencies E' c' orders (afterCalls E' c' hist' (Dyn.fresh mats' (unsolved c'.nh)))).1 = .ok X' →
      EqualEfficiencies X X') ∧
    ∀ (k k' : ℕ) zs zs' Fs Fs',
      (getFieldFourier E c (.idx k) zs (afterCalls E c hist (Dyn.fresh mats (unsolved c.nh)))).1 = .ok Fs →
      (getFieldFourier E' c' (.idx k') zs' (afterCalls E' c' hist' (Dyn.fresh mats' (unsolved c'.nh)))).1 = .ok Fs' →
      ∀ r r', stack[k]? = some r → stack'[k']? = some r' → materialOf (mats' r') = materialOf (mats r) →
      ∀ (n n' : ℕ) z z' F F', zs[n]? = some z → Fs[n]? = some F → zs'[n']? = some z' → Fs'[n']? = some F' →
        InsideLayer mats stack k z → InsideLayer mats' stack' k' z' →
        depthOf mats stack k z = depthOf mats' stack' k' z' → EqualFields F F' := by
  have hst := (simInit_ok hinit).stack_eq
  have hth : superstrateThickness mats' stack' = superstrateThickness mats stack := by
    obtain ⟨r, t, e⟩ := List.exists_cons_of_ne_nil (simInit_ok hinit).ne
    obtain ⟨r', t', e'⟩ := List.exists_cons_of_ne_nil (simInit_ok hinit').ne
    have := (hsame.superstrate r r' (by rw [e]; rfl) (by rw [e']; rfl)).2
    simp [superstrateThickness, e, e', this]
  obtain ⟨h1, h2, h3⟩ := structure_core hE hE' hsort htan hexc hinit hinit' hlat huni
    ⟨fun r r' h h' => (hsame.superstrate r r' h h').1, hsame.substrate, hsame.inside⟩ hpos hpos' hmu hmu' hw hw' hfc hfc' 1
    (by
      intro r0 A h0 hfx i
      rw [hth, modesD_z, show superstrateThickness mats stack = thicknessOf (mats r0) by simp [superstrateThickness, h0], one_mul])
    hist hist'
  refine ⟨h1, h2 fun r0 A _ _ => ⟨fun b f g hf hg => ?_, by simp⟩, ?_⟩
  · rw [one_smul, hf] at hg
    rw [Except.ok.inj hg]
  · intro k k' zs zs' Fs Fs' hF hF' r r' hr hr' hm n n' z z' F F' z1 z2 z3 z4 i1 i2 hd
    have := h3 k k' zs zs' Fs Fs' hF hF' r r' hr hr' hm n n' z z' F F' z1 z2 z3 z4 i1 i2 (by rw [hd, hth])
    intro a b hab
    have := this a b hab
    rwa [one_smul, one_smul] at this

end structure_

section cutting
variable {α : Type}

/-- Cutting a slab in two changes nothing. -/
theorem foundAt_cut (a b : List (α × ℝ)) (x : α) {d1 d2 : ℝ} (h2 : 0 ≤ d2) (z : ℝ) :
    foundAt (a ++ (x, d1) :: (x, d2) :: b) z = foundAt (a ++ (x, d1 + d2) :: b) z := by
  induction a generalizing z with
  | nil =>
    simp only [List.nil_append, foundAt]
    rw [show z - d1 - d2 = z - (d1 + d2) by ring]
    by_cases h : z < d1
    · rw [if_pos h, if_pos (by linarith)]
    · rw [if_neg h]
      by_cases h' : z - d1 < d2
      · rw [if_pos h', if_pos (by linarith)]
      · rw [if_neg h', if_neg (by intro hh; exact h' (by linarith))]
  | cons y a ih =>
    simp only [List.cons_append, foundAt]
    rw [ih]

/-- A slab of no thickness changes nothing. -/
theorem foundAt_film (a b : List (α × ℝ)) (ha : ∀ y ∈ a, 0 ≤ y.2) (x : α) {z : ℝ} (hz : 0 ≤ z) :
    foundAt (a ++ (x, 0) :: b) z = foundAt (a ++ b) z := by
  induction a generalizing z with
  | nil =>
    simp only [List.nil_append, foundAt, sub_zero]
    rw [if_neg (not_lt.mpr hz)]
  | cons y a ih =>
    simp only [List.cons_append, foundAt]
    split_ifs with h
    · rfl
    · exact ih (fun y hy => ha y (List.mem_cons_of_mem _ hy)) (by linarith)

end cutting

namespace Examples

/-- The layers of `gridMats "fft" g` with the patterned layer cut in two, the lower half being a copy of the upper one,
with a film of no thickness above the substrate, and with another thickness of the substrate. -/
noncomputable def cutMats {Nx Ny : ℕ} (g : Grid Nx Ny) : ℕ → LayerSpec := fun r =>
  if r = 1 then exLayer "Upper" (1 / 16) (NdArr.ofGrid g)
  else if r = 2 then { exLayer "Lower" (1 / 16) (NdArr.ofGrid g) with iscopy := true, original := 1 }
  else if r = 3 then exLayer "Film" 0 (NdArr.scalar 4)
  else if r = 0 then exLayer "Superstrate" 1 (NdArr.scalar 1)
  else exLayer "Substrate" 7 (NdArr.scalar 1)

/-- C83: a patterned layer in one piece, and cut in two pieces. -/
example (g : Grid 4 2) : ∃ exc c c', planeWave 1 (60, 30, 45) = .ok exc ∧
    simInit exE (fun _ => single3) (gridMats "fft" g) [0, 1, 2] exc 3 "pol" = .ok c ∧
    simInit exE (fun _ => single3) (cutMats g) [0, 1, 2, 3, 4] exc 3 "pol" = .ok c' ∧
    SameStructure (gridMats "fft" g) [0, 1, 2] (cutMats g) [0, 1, 2, 3, 4] ∧
    WellPlaced (cutMats g) [0, 1, 2, 3, 4] ∧ FaithfulCopies (cutMats g) [0, 1, 2, 3, 4] ∧
    ((([0, 1, 2, 3, 4] : List ℕ).all fun r => (cutMats g r).isUniform) =
      ([0, 1, 2] : List ℕ).all fun r => (gridMats "fft" g r).isUniform) ∧
    -- a point of the upper half, and one of the lower half
    (InsideLayer (gridMats "fft" g) [0, 1, 2] 1 (1 / 32) ∧ InsideLayer (cutMats g) [0, 1, 2, 3, 4] 1 (1 / 32) ∧
      depthOf (gridMats "fft" g) [0, 1, 2] 1 (1 / 32) = depthOf (cutMats g) [0, 1, 2, 3, 4] 1 (1 / 32)) ∧
    (InsideLayer (gridMats "fft" g) [0, 1, 2] 1 (3 / 32) ∧ InsideLayer (cutMats g) [0, 1, 2, 3, 4] 2 (1 / 32) ∧
      depthOf (gridMats "fft" g) [0, 1, 2] 1 (3 / 32) = depthOf (cutMats g) [0, 1, 2, 3, 4] 2 (1 / 32)) := by
  obtain ⟨exc, h1⟩ := oblique 1 30 45 one_pos
  obtain ⟨c, hc, hp, hl⟩ := listed_init (E := exE) exSort_spec (l := single3) rfl rfl rfl
    (by simp [single3, Lattice.matrix, det_fin_two]) (by simp) (by simp) "fft" g exc 3 "pol" (by simp)
  have hu : ((([0, 1, 2, 3, 4] : List ℕ).all fun r => (cutMats g r).isUniform) =
      ([0, 1, 2] : List ℕ).all fun r => (gridMats "fft" g r).isUniform) := by
    simp [cutMats, gridMats, exLayer, LayerSpec.isUniform, NdArr.ofGrid, NdArr.scalar, isUniform, isAnisotropic]
  have hi := simInit_ok hc
  obtain ⟨n, hH⟩ := hi.harm
  obtain ⟨r, hr, -⟩ := hi.recip
  have hny := hi.nyquist
  rw [hl] at hH hr hny
  obtain ⟨c', hc'⟩ := simInit_exists (E := exE) (lats := fun _ => single3) (mats := cutMats g)
    (r0 := 0) (tl := [1, 2, 3, 4]) (exc := exc) (nh := 3) (form := "pol") (H := c.harmonics) (n := n) (r := r)
    (by simp [cutMats, exLayer]) (by
      intro r hr
      simp only [List.mem_cons, List.not_mem_nil, or_false] at hr
      rcases hr with rfl | rfl | rfl | rfl | rfl <;> rfl)
    (by simp) (fun h => by cases h) (by rw [hu]; exact hH) hny ⟨rfl, rfl⟩
    (by simp [cutMats, exLayer, NdArr.scalar, NdArr.value]) hr
  refine ⟨exc, c, c', h1, hc, hc', ⟨?_, ?_, ?_⟩, ?_, ?_, hu, ⟨?_, ?_, ?_⟩, ?_, ?_, ?_⟩
  · intro r r' h h'
    obtain rfl : 0 = r := by simpa using h
    obtain rfl : 0 = r' := by simpa using h'
    exact ⟨rfl, rfl⟩
  · intro r r' h h'
    obtain rfl : 2 = r := by simpa using h
    obtain rfl : 4 = r' := by simpa using h'
    rfl
  · intro z hz
    have e1 : slabs (gridMats "fft" g) [0, 1, 2] = [(⟨NdArr.ofGrid g, none, "fft"⟩, 1 / 16 + 1 / 16)] := by
      norm_num [slabs, gridMats, exLayer, materialOf, thicknessOf]
    have e2 : slabs (cutMats g) [0, 1, 2, 3, 4] = [(⟨NdArr.ofGrid g, none, "fft"⟩, 1 / 16),
        (⟨NdArr.ofGrid g, none, "fft"⟩, 1 / 16), (⟨NdArr.scalar 4, none, "fft"⟩, 0)] := by
      simp [slabs, cutMats, exLayer, materialOf, thicknessOf]
    rw [e1, e2]
    have f1 := foundAt_film [((⟨NdArr.ofGrid g, none, "fft"⟩ : Material), (1 / 16 : ℝ)), (⟨NdArr.ofGrid g, none, "fft"⟩, 1 / 16)] []
      (by simp) ⟨NdArr.scalar 4, none, "fft"⟩ hz
    exact f1.trans (foundAt_cut [] [] _ (by norm_num) z)
  · intro k r hk hcp
    rcases k with _ | _ | _ | _ | _ | k <;> simp at hk <;> subst hk <;>
      simp [cutMats, exLayer] at hcp
    exact ⟨⟨1, by omega, rfl⟩, by
      simp [cutMats, exLayer, LayerSpec.isUniform, NdArr.ofGrid, isUniform, isAnisotropic], rfl⟩
  · intro r hr hcp
    simp only [List.mem_cons, List.not_mem_nil, or_false] at hr
    rcases hr with rfl | rfl | rfl | rfl | rfl <;> simp [cutMats, exLayer] at hcp
    exact ⟨rfl, rfl, rfl, rfl⟩
  · exact ⟨1, rfl, .inr (by norm_num), .inr (by norm_num [thicknessOf, gridMats, exLayer])⟩
  · exact ⟨1, rfl, .inr (by norm_num), .inr (by norm_num [thicknessOf, cutMats, exLayer])⟩
  · norm_num [depthOf, thicknessOf, gridMats, cutMats, exLayer]
  · exact ⟨1, rfl, .inr (by norm_num), .inr (by norm_num [thicknessOf, gridMats, exLayer])⟩
  · exact ⟨2, rfl, .inr (by norm_num), .inr (by norm_num [thicknessOf, cutMats, exLayer])⟩
  · norm_num [depthOf, thicknessOf, gridMats, cutMats, exLayer]

end Examples

end Nannos
