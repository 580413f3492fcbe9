import Verif.Props.Profile
import Verif.Proofs.ReciprocityWaves
import Verif.Examples.Planar

/-! **C84**: the thickness given to the superstrate. -/

namespace Nannos

open Matrix Spec

section superstrate
variable {E E' : Ext} {lats : ℕ → Lattice} {mats mats' : ℕ → LayerSpec} {stack stack' : List ℕ} {wl : ℝ}
  {angles : ℝ × ℝ × ℝ} {exc : PlaneWave} {nh : ℤ} {form : String} {c c' : Static}

/-- **C84**: the thickness given to a lossless superstrate of index `n` does not change the efficiencies. At points at
the same distance from the first interface it multiplies all fields, in all layers and all orders, by one phase factor:
that of the incident wave over the difference of the two thicknesses. -/
theorem C84_superstrate_thickness (hE : EigContract E) (hE' : EigContract E') (hsort : E'.argsort = E.argsort)
    (htan : E'.tangent = E.tangent) (hexc : planeWave wl angles = .ok exc) (hwl : 0 < wl)
    (hcos : 0 < Real.cos exc.theta)
    (hinit : simInit E lats mats stack exc nh form = .ok c)
    (hinit' : simInit E' lats mats' stack' exc nh form = .ok c') (h00 : ((0 : ℤ), (0 : ℤ)) ∈ c.harmonics)
    (n : ℝ) (hn : 0 < n) (hsup : ∀ r0, stack.head? = some r0 → (mats r0).epsilon.value = ((n ^ 2 : ℝ) : ℂ))
    (hlat : ∀ r ∈ stack, ∀ r' ∈ stack', (mats' r').lattice = (mats r).lattice)
    (huni : (stack'.all fun r => (mats' r).isUniform) = stack.all fun r => (mats r).isUniform)
    (hsame : SameBelow mats stack mats' stack')
    (hpos : ∀ r ∈ stack, 0 ≤ thicknessOf (mats r)) (hpos' : ∀ r ∈ stack', 0 ≤ thicknessOf (mats' r))
    (hmu : ∀ r ∈ stack, (mats r).mu = 1) (hmu' : ∀ r ∈ stack', (mats' r).mu = 1)
    (hw : WellPlaced mats stack) (hw' : WellPlaced mats' stack')
    (hfc : FaithfulCopies mats stack) (hfc' : FaithfulCopies mats' stack')
    (hist : List (Call c.nh)) (hist' : List (Call c'.nh)) :
    c'.harmonics = c.harmonics ∧
    (∀ orders X X',
      (diffractionEfficiencies E c orders (afterCalls E c hist (Dyn.fresh mats (unsolved c.nh)))).1 = .ok X →
      (diffractionEfficiencies E' c' orders (afterCalls E' c' hist' (Dyn.fresh mats' (unsolved c'.nh)))).1 = .ok X' →
      EqualEfficiencies X X') ∧
    ∀ (k k' : ℕ) zs zs' Fs Fs',
      (getFieldFourier E c (.idx k) zs (afterCalls E c hist (Dyn.fresh mats (unsolved c.nh)))).1 = .ok Fs →
      (getFieldFourier E' c' (.idx k') zs' (afterCalls E' c' hist' (Dyn.fresh mats' (unsolved c'.nh)))).1 = .ok Fs' →
      ∀ r r', stack[k]? = some r → stack'[k']? = some r' → materialOf (mats' r') = materialOf (mats r) →
      ∀ (m m' : ℕ) z z' F F', zs[m]? = some z → Fs[m]? = some F → zs'[m']? = some z' → Fs'[m']? = some F' →
        InsideLayer mats stack k z → InsideLayer mats' stack' k' z' →
        depthOf mats stack k z - superstrateThickness mats stack =
          depthOf mats' stack' k' z' - superstrateThickness mats' stack' →
        MultipliedFields (Complex.exp (Complex.I * (((2 * Real.pi / wl * n * Real.cos exc.theta) *
          (superstrateThickness mats' stack' - superstrateThickness mats stack) : ℝ) : ℂ))) F F' := by
  have hi := simInit_ok hinit
  obtain ⟨r0, tl, hrt⟩ := List.exists_cons_of_ne_nil hi.ne
  have hhead : stack.head? = some r0 := by rw [hrt]; rfl
  have hm0 : r0 ∈ stack := List.mem_of_mem_head? hhead
  have hn2 : 0 < n ^ 2 := by positivity
  have hp := planeWave_ok hexc
  have hg := good_sup hi (by rw [hp.2.1]; exact hwl) hhead (hmu r0 hm0) (hsup r0 hhead) hn2 h00
  rw [Real.sqrt_sq hn.le] at hg
  have hc0 : (mats r0).iscopy = false := by
    by_contra hcon
    obtain ⟨⟨j, hj, -⟩, -⟩ := hw 0 r0 (by rw [hrt]; rfl) (by simpa using hcon)
    omega
  have hflux : ∀ A : ℕ → LayerAttr c.nh, LayerFix E c mats A r0 →
      ∃ g, UniformFlux c ((n ^ 2 : ℝ) : ℂ) (modesD (mats r0) (A r0)) g := by
    intro A hfx
    obtain ⟨-, g, hu⟩ := uniform_flux hfx hc0 (hi.sup r0 hhead).1 (hmu r0 hm0) hfx.form.modesD
    rw [hsup r0 hhead] at hu
    exact ⟨g, hu⟩
  have hth : superstrateThickness mats stack = thicknessOf (mats r0) := by simp [superstrateThickness, hhead]
  have hk : exc.wavenumber = 2 * Real.pi / wl := by
    obtain ⟨-, -, -, -, -, h, -⟩ := hp
    rw [h]; ring
  generalize hlam : Complex.exp (Complex.I * (((2 * Real.pi / wl * n * Real.cos exc.theta) *
          (superstrateThickness mats' stack' - superstrateThickness mats stack) : ℝ) : ℂ)) = lam
  have hnorm : ‖lam‖ = 1 := by rw [← hlam, mul_comm, Complex.norm_exp_ofReal_mul_I]
  obtain ⟨h1, h2, h3⟩ := structure_core hE hE' hsort htan hexc hinit hinit' hlat huni hsame hpos hpos' hmu hmu' hw hw'
    hfc hfc' lam
    (by
      intro r A hr hfx k
      obtain rfl := Option.some.inj (hhead.symm.trans hr)
      obtain ⟨g, hu⟩ := hflux A hfx
      have on : ∀ i : Fin c.nh, ∀ a : ℂ, ((i : ℕ) ≠ c.indexZerothOrder → a = 0) →
          a * Complex.exp (Complex.I * g i * superstrateThickness mats' stack') =
            lam * (a * Complex.exp (Complex.I * g i * (modesD (mats r0) (A r0)).z)) := by
        intro i a ha
        by_cases hz : (i : ℕ) = c.indexZerothOrder
        · rw [(incident_on hg hexc hcos hu hz).1, modesD_z, ← hth, ← hlam, hk, mul_left_comm, ← Complex.exp_add]
          congr 2
          push_cast
          ring
        · rw [ha hz]; simp
      rw [hu.q]
      rcases k with i | i
      · exact on i _ fun hz => (hg.a0_off i hz).1
      · exact on i _ fun hz => (hg.a0_off i hz).2)
    hist hist'
  refine ⟨h1, h2 fun r A hr hfx => ⟨fun b f g hf hgf => ?_, hnorm⟩, h3⟩
  obtain rfl := Option.some.inj (hhead.symm.trans hr)
  obtain ⟨gz, hu⟩ := hflux A hfx
  obtain ⟨hev, -⟩ := incident_flux hg hexc hcos hwl hu (poyntingFlux_ok hf)
  funext i
  have e1 := flux_backward hu hg.kxr hg.kyr hf hev i
  have e2 := flux_backward hu hg.kxr hg.kyr hgf hev i
  rw [orderFlux_smul, hnorm, one_pow, one_mul, ← e1] at e2
  linarith

end superstrate

namespace Examples

/-- The layers of `gridMats "fft" g` below a superstrate three times as thick. -/
noncomputable def thickMats {Nx Ny : ℕ} (g : Grid Nx Ny) : ℕ → LayerSpec := fun r =>
  if r = 0 then exLayer "Superstrate" 3 (NdArr.scalar 1) else gridMats "fft" g r

/-- C84: a patterned layer below superstrates of two thicknesses. -/
example (g : Grid 4 2) : ∃ exc c c', planeWave 1 (60, 30, 45) = .ok exc ∧ 0 < Real.cos exc.theta ∧
    simInit exE (fun _ => single3) (gridMats "fft" g) [0, 1, 2] exc 3 "pol" = .ok c ∧
    simInit exE (fun _ => single3) (thickMats g) [0, 1, 2] exc 3 "pol" = .ok c' ∧ ((0 : ℤ), (0 : ℤ)) ∈ c.harmonics ∧
    (∀ r0, ([0, 1, 2] : List ℕ).head? = some r0 → (gridMats "fft" g r0).epsilon.value = (((1 : ℝ) ^ 2 : ℝ) : ℂ)) ∧
    SameBelow (gridMats "fft" g) [0, 1, 2] (thickMats g) [0, 1, 2] ∧
    ((([0, 1, 2] : List ℕ).all fun r => (thickMats g r).isUniform) =
      ([0, 1, 2] : List ℕ).all fun r => (gridMats "fft" g r).isUniform) ∧
    WellPlaced (thickMats g) [0, 1, 2] ∧ FaithfulCopies (thickMats g) [0, 1, 2] ∧
    superstrateThickness (thickMats g) [0, 1, 2] - superstrateThickness (gridMats "fft" g) [0, 1, 2] = 2 ∧
    -- points in the patterned layer, and in the superstrate
    (InsideLayer (gridMats "fft" g) [0, 1, 2] 1 (1 / 32) ∧ InsideLayer (thickMats g) [0, 1, 2] 1 (1 / 32) ∧
      depthOf (gridMats "fft" g) [0, 1, 2] 1 (1 / 32) - superstrateThickness (gridMats "fft" g) [0, 1, 2] =
        depthOf (thickMats g) [0, 1, 2] 1 (1 / 32) - superstrateThickness (thickMats g) [0, 1, 2]) ∧
    (InsideLayer (gridMats "fft" g) [0, 1, 2] 0 (1 / 2) ∧ InsideLayer (thickMats g) [0, 1, 2] 0 (5 / 2) ∧
      depthOf (gridMats "fft" g) [0, 1, 2] 0 (1 / 2) - superstrateThickness (gridMats "fft" g) [0, 1, 2] =
        depthOf (thickMats g) [0, 1, 2] 0 (5 / 2) - superstrateThickness (thickMats g) [0, 1, 2]) := by
  obtain ⟨exc, h1, -, hcs, -⟩ := oblique_wave 1 30 45 one_pos
  obtain ⟨c, hc, hp, hl⟩ := listed_init (E := exE) exSort_spec (l := single3) rfl rfl rfl
    (by simp [single3, Lattice.matrix, det_fin_two]) (by simp) (by simp) "fft" g exc 3 "pol" (by simp)
  have hu : ((([0, 1, 2] : List ℕ).all fun r => (thickMats g r).isUniform) =
      ([0, 1, 2] : List ℕ).all fun r => (gridMats "fft" g r).isUniform) := by
    simp [thickMats, gridMats, exLayer, LayerSpec.isUniform, NdArr.ofGrid, NdArr.scalar, isUniform, isAnisotropic]
  have hi := simInit_ok hc
  obtain ⟨n, hH⟩ := hi.harm
  obtain ⟨r, hr, -⟩ := hi.recip
  have hny := hi.nyquist
  rw [hl] at hH hr hny
  obtain ⟨c', hc'⟩ := simInit_exists (E := exE) (lats := fun _ => single3) (mats := thickMats g)
    (r0 := 0) (tl := [1, 2]) (exc := exc) (nh := 3) (form := "pol") (H := c.harmonics) (n := n) (r := r)
    (by simp [thickMats, gridMats, exLayer]) (by
      intro r hr
      simp only [List.mem_cons, List.not_mem_nil, or_false] at hr
      rcases hr with rfl | rfl | rfl <;> rfl)
    (by simp) (fun h => by cases h) (by rw [hu]; exact hH) hny ⟨rfl, rfl⟩
    (by simp [thickMats, exLayer, NdArr.scalar, NdArr.value]) hr
  refine ⟨exc, c, c', h1, by rw [hcs]; norm_num, hc, hc', hp.mem_iff.mpr (by simp), ?_, ⟨?_, ?_, ?_⟩, hu, ?_, ?_, ?_,
    ⟨?_, ?_, ?_⟩, ?_, ?_, ?_⟩
  · intro r0 h
    obtain rfl : 0 = r0 := by simpa using h
    simp [gridMats, exLayer, NdArr.scalar, NdArr.value]
  · intro r r' h h'
    obtain rfl : 0 = r := by simpa using h
    obtain rfl : 0 = r' := by simpa using h'
    rfl
  · intro r r' h h'
    obtain rfl : 2 = r := by simpa using h
    obtain rfl : 2 = r' := by simpa using h'
    rfl
  · intro z _
    rfl
  · intro k r hk hcp
    rcases k with _ | _ | _ | k <;> simp at hk <;> subst hk <;> simp [thickMats, gridMats, exLayer] at hcp
  · intro r hr hcp
    simp only [List.mem_cons, List.not_mem_nil, or_false] at hr
    rcases hr with rfl | rfl | rfl <;> simp [thickMats, gridMats, exLayer] at hcp
  · norm_num [superstrateThickness, thicknessOf, thickMats, gridMats, exLayer]
  · exact ⟨1, rfl, .inr (by norm_num), .inr (by norm_num [thicknessOf, gridMats, exLayer])⟩
  · exact ⟨1, rfl, .inr (by norm_num), .inr (by norm_num [thicknessOf, thickMats, gridMats, exLayer])⟩
  · norm_num [superstrateThickness, depthOf, thicknessOf, thickMats, gridMats, exLayer]
  · exact ⟨0, rfl, .inl rfl, .inr (by norm_num [thicknessOf, gridMats, exLayer])⟩
  · exact ⟨0, rfl, .inl rfl, .inr (by norm_num [thicknessOf, thickMats, gridMats, exLayer])⟩
  · norm_num [superstrateThickness, depthOf, thicknessOf, thickMats, gridMats, exLayer]

end Examples

end Nannos
