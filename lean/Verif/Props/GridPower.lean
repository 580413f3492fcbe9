import Verif.Spec.RealSpace
import Verif.Proofs.Opt
import Verif.Props.FieldGrid
import Verif.Props.Absorption
import Verif.Proofs.Pixelated

/-! **C113**: the power carried by the fields on a grid. -/

namespace Nannos

open Spec

theorem parseval {nh Nx Ny : ℕ} [NeZero Nx] [NeZero Ny] {H : Fin nh → ℤ × ℤ} (hH : Resolved H Nx Ny) (u v : Fin nh → ℂ) :
    ∑ x : Fin Nx, ∑ y : Fin Ny, star (series H u Nx Ny x y) * series H v Nx Ny x y = (Nx : ℂ) * Ny * ∑ i, star (u i) * v i := by
  have hs : ∀ w : Fin nh → ℂ, ∀ x y, series H w Nx Ny x y = ∑ k, w k * (chi Nx (H k).1 (x : ℕ) * chi Ny (H k).2 (y : ℕ)) := by
    intro w x y
    unfold series chi
    refine Finset.sum_congr rfl fun k _ => ?_
    rw [← Complex.exp_add]
    congr 2
    push_cast
    ring
  have e : ∀ x y, star (series H u Nx Ny x y) * series H v Nx Ny x y = ∑ i, ∑ j, star (u i) * v j *
      ((chi Nx (-(H i).1) (x : ℕ) * chi Ny (-(H i).2) (y : ℕ)) * (chi Nx (H j).1 (x : ℕ) * chi Ny (H j).2 (y : ℕ))) := by
    intro x y
    rw [hs, hs, star_sum, Finset.sum_mul_sum]
    refine Finset.sum_congr rfl fun i _ => Finset.sum_congr rfl fun j _ => ?_
    rw [star_mul', star_mul', ← chi_conj, ← chi_conj]
    simp only [starRingEnd_apply]
    ring
  simp only [e]
  have sw : ∀ G : Fin nh → Fin nh → Fin Nx → Fin Ny → ℂ, ∑ x, ∑ y, ∑ i, ∑ j, G i j x y = ∑ i, ∑ j, ∑ x, ∑ y, G i j x y := by
    intro G
    have h1 : ∀ x, ∑ y, ∑ i, ∑ j, G i j x y = ∑ i, ∑ j, ∑ y, G i j x y := by
      intro x
      rw [Finset.sum_comm]
      exact Finset.sum_congr rfl fun i _ => Finset.sum_comm
    simp only [h1]
    rw [Finset.sum_comm]
    exact Finset.sum_congr rfl fun i _ => Finset.sum_comm
  rw [sw, Finset.mul_sum]
  refine Finset.sum_congr rfl fun i _ => ?_
  rw [Finset.sum_eq_single i]
  · simp only [← Finset.mul_sum]
    rw [waves_orthogonal (-(H i).1, -(H i).2) (H i), if_pos (by simp)]
    ring
  · intro j _ hj
    simp only [← Finset.mul_sum]
    rw [waves_orthogonal (-(H i).1, -(H i).2) (H j), if_neg, mul_zero]
    rintro ⟨h1, h2⟩
    exact hj (hH j i (by convert h1 using 1; ring) (by convert h2 using 1; ring))
  · simp

theorem gridPower_series {nh Nx Ny : ℕ} [NeZero Nx] [NeZero Ny] {H : Fin nh → ℤ × ℤ} (hH : Resolved H Nx Ny) (F : FieldF nh) :
    gridPower (series H F.ex Nx Ny) (series H F.ey Nx Ny) (series H F.hx Nx Ny) (series H F.hy Nx Ny) = ∑ i, Spec.orderFlux F i := by
  unfold gridPower Spec.orderFlux
  have h := congrArg Complex.re (congrArg₂ (· - ·) (parseval hH F.ex F.hy) (parseval hH F.ey F.hx))
  simp only [← Finset.sum_sub_distrib, ← mul_sub, Complex.re_sum] at h
  rw [h, div_eq_iff (by
    have := NeZero.ne Nx
    have := NeZero.ne Ny
    positivity), show ((Nx : ℂ) * Ny) = ((Nx * Ny : ℝ) : ℂ) from by push_cast; rfl, Complex.re_ofReal_mul,
    Complex.re_sum, mul_comm]

section
variable {E : Ext} {c : Static}

/-- **C113**, every layer and depth.  If the pixels tell the orders apart, the mean over the pixels of the component of
`Re(conj(E) x H)` across the layers, from the fields `get_field_grid` returns, is the sum over the orders of that from the
Fourier components `get_field_fourier` returns, for every depth asked for and in every state of the simulation. -/
theorem C113_mean_over_pixels (id : LayerId) (zs : List ℝ) (Nx Ny : ℕ) (hH : Resolved c.harmonics.get Nx Ny)
    (d d' d'' : Dyn c.nh) (ff : List (FieldF c.nh)) (h : getFieldFourier E c id zs d = (.ok ff, d')) (o : GridOut)
    (hg : getFieldGrid E c id zs (some (Nx, Ny)) "all" "all" d = (.ok o, d'')) :
    ∃ exs eys ezs hxs hys hzs : List (Grid Nx Ny), o = ⟨Nx, Ny, .both (.all exs eys ezs) (.all hxs hys hzs)⟩ ∧
      ∀ (k : ℕ) (F : FieldF c.nh), ff[k]? = some F → ∃ ex ey hx hy, exs[k]? = some ex ∧ eys[k]? = some ey ∧
        hxs[k]? = some hx ∧ hys[k]? = some hy ∧ gridPower ex ey hx hy = ∑ i, Spec.orderFlux F i := by
  have hfit : ∀ g ∈ c.harmonics, -(Nx : ℤ) ≤ g.1 ∧ g.1 < Nx ∧ -(Ny : ℤ) ≤ g.2 ∧ g.2 < Ny := by
    by_contra hn
    push Not at hn
    obtain ⟨g, h1, h2⟩ := hn
    have := (C54_other_outcomes (E := E) id zs (some (Nx, Ny)) "all" "all" (by simp) (by simp) d d').2.1 ff Nx Ny h rfl
      ⟨g, h1, by rintro ⟨a1, a2, a3, a4⟩; exact absurd a4 (by simpa using h2 a1 a2 a3)⟩
    rw [hg] at this
    cases this
  have hnh : c.harmonics ≠ [] := by
    intro h0
    obtain ⟨r, i, hl⟩ : ∃ r i, getLayer c id = .ok (r, i) := by
      cases hl : getLayer c id with
      | ok p => exact ⟨p.1, p.2, rfl⟩
      | error e =>
        unfold getFieldFourier at h
        rw [hl] at h
        cases h
    have hn0 : c.nh = 0 := by show c.harmonics.length = 0; rw [h0]; rfl
    rw [getFieldGrid_eq hl (by simp) (by simp), h] at hg
    dsimp only at hg
    rw [selectFields_err (e := .valueError) (fun f i => by
      unfold getIfftAmplitudes
      rw [if_neg (by rintro ⟨i, -⟩; have := i.isLt; have : c.harmonics.length = 0 := hn0; omega), if_pos hn0]) _ _ (by simp) (by simp)] at hg
    cases hg
  obtain ⟨s, hs, hpick⟩ := C54_selection (E := E) id zs Nx Ny "all" "all" (by simp) (by simp) hfit hnh d d' ff h
  rw [hg] at hs
  obtain rfl := Except.ok.inj (Prod.mk.inj hs).1
  have hg0 := hfit _ (List.head_mem hnh)
  have : NeZero Nx := ⟨by omega⟩
  have : NeZero Ny := ⟨by omega⟩
  simp only [pick, pickComponent, if_true, Option.some.injEq] at hpick
  refine ⟨_, _, _, _, _, _, by rw [← hpick], fun k F hk => ?_⟩
  refine ⟨series c.harmonics.get F.ex Nx Ny, series c.harmonics.get F.ey Nx Ny, series c.harmonics.get F.hx Nx Ny,
    series c.harmonics.get F.hy Nx Ny, ?_, ?_, ?_, ?_, gridPower_series hH F⟩ <;>
  · rw [List.getElem?_map, hk]
    rfl

/-- The flux of the fields at the ends of the stack. -/
theorem end_flux {lats : ℕ → Lattice} {mats : ℕ → LayerSpec} {stack : List ℕ} {exc : PlaneWave} {nh : ℤ} {form : String}
    (hinit : simInit E lats mats stack exc nh form = .ok c) (hw : WellPlaced mats stack) (hmu : ∀ r ∈ stack, (mats r).mu = 1)
    {wl : ℝ} {ang : ℝ × ℝ × ℝ} (hp : planeWave wl ang = .ok exc) (hwl : 0 < wl)
    (hcos : 0 < Real.cos exc.theta) (h00 : ((0 : ℤ), (0 : ℤ)) ∈ c.harmonics) {n : ℝ} (hpos : 0 < n)
    (hsup : ∀ r0, stack.head? = some r0 → (mats r0).epsilon.value = ((n ^ 2 : ℝ) : ℂ))
    (hist hist' : List (Call c.nh)) {R T : ℝ}
    (h : (diffractionEfficiencies E c false (afterCalls E c hist (Dyn.fresh mats (unsolved c.nh)))).1 = .ok (.total R T))
    {id : LayerId} {z : ℝ} {F : FieldF c.nh}
    (hF : (getFieldFourier E c id [z] (afterCalls E c hist' (Dyn.fresh mats (unsolved c.nh)))).1 = .ok [F]) :
    ∃ r i k, getLayer c id = .ok (r, i) ∧ pyIdx stack.length i = some k ∧
      (k = stack.length - 1 → z = 0 → ∑ i, Spec.orderFlux F i = Real.cos exc.theta / n * T) ∧
      (k = 0 → (mats r).thickness = some z → ∑ i, Spec.orderFlux F i = Real.cos exc.theta / n * (1 - R)) := by
  have hi := simInit_ok hinit
  have hst : c.stack = stack := hi.stack_eq
  obtain ⟨R', T', h1, rfl, rfl⟩ := efficiencies_total h
  obtain ⟨A1, res, hs, hA⟩ := fields_of_history_raw (E := E) hinit
  obtain ⟨hg, hfix, hlt, amp, M0, MN, hsol, hM0, hMN, hqs, p0, pN⟩ := flux_balance hinit hw hmu hp hwl hcos h00
    (e := n ^ 2) (by positivity) hsup hs hist (R', T') h1
  rw [Real.sqrt_sq hpos.le] at hg
  have hom := hg.omega
  obtain ⟨-, r, i, ab, q1, q2, M, t, G, q5, q6, q7, q8, q9, q10⟩ := hA hist' id [z] _ (by simp) hF
  obtain rfl : F = G z := by simpa using q10
  obtain ⟨k, u1, amp', v1, v2, v3⟩ := ampV_solution hfix q2
  have hkr : c.stack[k]? = some r := by
    have hr := getLayer_pyGet q1
    unfold pyGet at hr
    rw [u1] at hr
    dsimp only at hr
    cases hx : c.stack[k]? with
    | none => rw [hx] at hr; cases hr
    | some x => rw [hx] at hr; exact congrArg some (Except.ok.inj hr)
  have hk : k < c.stack.length := by
    have := List.getElem?_eq_some_iff.mp hkr
    exact this.1
  have hab : amp k = ab := by rw [v3 amp hsol k hk, v2]
  have hMk : (stackModes c mats A1)[k]? = some M := by
    have hs' := hfix r (List.mem_of_getElem? hkr)
    rw [hs'.form.modesD] at q5
    unfold stackModes
    rw [List.getElem?_map, hkr, ← Except.ok.inj q5]
    rfl
  have hth : M.thickness = (mats r).thickness := by
    unfold modesOf at q5
    rw [bind_eq_ok] at q5
    obtain ⟨ev, -, q5⟩ := q5
    rw [bind_eq_ok] at q5
    obtain ⟨Q, -, q5⟩ := q5
    simp only [except_pure_eq_ok, Except.ok.injEq] at q5
    rw [← q5]
  have pf := power_flux hom.ne' (q8 z)
  refine ⟨r, i, k, q1, hst ▸ u1, ?_, ?_⟩
  · rintro hkl rfl
    rw [hst] at pN hMN
    rw [← hkl, hMk] at hMN
    obtain rfl := Option.some.inj hMN
    rw [← hkl, hab, pf, mul_assoc] at pN
    have := mul_left_cancel₀ hom.ne' pN
    rw [hg.flux] at this
    exact this
  · rintro rfl ht
    rw [hMk] at hM0
    obtain rfl := Option.some.inj hM0
    have hz : M.z = z := by simp [Modes.z, hth, ht]
    rw [hab, hz, pf, mul_assoc] at p0
    have := mul_left_cancel₀ hom.ne' p0
    rw [hg.flux] at this
    exact this

/-- Fields on a grid at one depth, and their Fourier components. -/
theorem grid_of_fourier {lats : ℕ → Lattice} {mats : ℕ → LayerSpec} {stack : List ℕ} {exc : PlaneWave} {nh : ℤ} {form : String}
    (hinit : simInit E lats mats stack exc nh form = .ok c) {hist : List (Call c.nh)} {id : LayerId} {z : ℝ} {Nx Ny : ℕ}
    (hH : Resolved c.harmonics.get Nx Ny) {ex ey ez hx hy hz : Grid Nx Ny}
    (hg : (getFieldGrid E c id [z] (some (Nx, Ny)) "all" "all" (afterCalls E c hist (Dyn.fresh mats (unsolved c.nh)))).1 =
      .ok ⟨Nx, Ny, .both (.all [ex] [ey] [ez]) (.all [hx] [hy] [hz])⟩) :
    ∃ F, (getFieldFourier E c id [z] (afterCalls E c hist (Dyn.fresh mats (unsolved c.nh)))).1 = .ok [F] ∧
      gridPower ex ey hx hy = ∑ i, Spec.orderFlux F i := by
  rcases hd : getFieldFourier E c id [z] (afterCalls E c hist (Dyn.fresh mats (unsolved c.nh))) with ⟨e | ff, d'⟩
  · have := (C54_other_outcomes (E := E) id [z] (some (Nx, Ny)) "all" "all" (by simp) (by simp) _ d').1 e hd
    rw [this] at hg
    cases hg
  obtain ⟨A1, res, hs, hA⟩ := fields_of_history_raw (E := E) hinit
  obtain ⟨-, r, i, ab, q1, q2, M, t, G, q5, q6, q7, q8, q9, rfl⟩ := hA hist id [z] ff (by simp) (by rw [hd])
  obtain ⟨exs, eys, ezs, hxs, hys, hzs, ho, hk⟩ := C113_mean_over_pixels id [z] Nx Ny hH _ _ _ _ hd _ (Prod.ext hg rfl)
  obtain ⟨ex', ey', hx', hy', k1, k2, k3, k4, k5⟩ := hk 0 (G z) rfl
  simp only [GridOut.mk.injEq, heq_eq_eq, true_and, Selected.both.injEq, Part.all.injEq] at ho
  obtain ⟨⟨rfl, rfl, -⟩, rfl, rfl, -⟩ := ho
  obtain rfl := Option.some.inj k1
  obtain rfl := Option.some.inj k2
  obtain rfl := Option.some.inj k3
  obtain rfl := Option.some.inj k4
  exact ⟨G z, rfl, k5⟩

/-- **C113**, transmission.  The mean over the pixels of `Re(conj(E) x H)` at the top of the last layer, divided by that of the
incident wave, is the total transmission returned. -/
theorem C113_transmitted_power {lats : ℕ → Lattice} {mats : ℕ → LayerSpec} {stack : List ℕ} {exc : PlaneWave} {nh : ℤ} {form : String}
    (hinit : simInit E lats mats stack exc nh form = .ok c) (hw : WellPlaced mats stack) (hmu : ∀ r ∈ stack, (mats r).mu = 1)
    {wl : ℝ} {ang : ℝ × ℝ × ℝ} (hp : planeWave wl ang = .ok exc) (hwl : 0 < wl)
    (hcos : 0 < Real.cos exc.theta) (h00 : ((0 : ℤ), (0 : ℤ)) ∈ c.harmonics) {n : ℝ} (hpos : 0 < n)
    (hsup : ∀ r0, stack.head? = some r0 → (mats r0).epsilon.value = ((n ^ 2 : ℝ) : ℂ))
    (hist hist' : List (Call c.nh)) (R T : ℝ)
    (h : (diffractionEfficiencies E c false (afterCalls E c hist (Dyn.fresh mats (unsolved c.nh)))).1 = .ok (.total R T))
    (id : LayerId) (r : ℕ) (j : ℤ) (hid : getLayer c id = .ok (r, j)) (hj : j = (stack.length : ℤ) - 1 ∨ j = -1)
    (Nx Ny : ℕ) (hH : Resolved c.harmonics.get Nx Ny) (ex ey ez hx hy hz : Grid Nx Ny)
    (hg : (getFieldGrid E c id [0] (some (Nx, Ny)) "all" "all" (afterCalls E c hist' (Dyn.fresh mats (unsolved c.nh)))).1 =
      .ok ⟨Nx, Ny, .both (.all [ex] [ey] [ez]) (.all [hx] [hy] [hz])⟩) :
    T = gridPower ex ey hx hy / (Real.cos exc.theta / n) := by
  obtain ⟨F, hF, hP⟩ := grid_of_fourier hinit hH hg
  obtain ⟨r', i, k, e1, e2, e3, -⟩ := end_flux hinit hw hmu hp hwl hcos h00 hpos hsup hist hist' h hF
  rw [hid] at e1
  obtain ⟨rfl, rfl⟩ := Prod.mk.inj (Except.ok.inj e1)
  have hne : stack ≠ [] := (simInit_ok hinit).ne
  have hl : 0 < stack.length := List.length_pos_iff.mpr hne
  have hk : k = stack.length - 1 := by
    unfold pyIdx at e2
    split_ifs at e2 <;> have := Option.some.inj e2 <;> omega
  rw [hP, e3 hk rfl]
  field_simp

/-- **C113**, reflection.  The mean over the pixels of `Re(conj(E) x H)` at the bottom of the first layer, divided by that of the
incident wave, is one minus the total reflection returned. -/
theorem C113_reflected_power {lats : ℕ → Lattice} {mats : ℕ → LayerSpec} {stack : List ℕ} {exc : PlaneWave} {nh : ℤ} {form : String}
    (hinit : simInit E lats mats stack exc nh form = .ok c) (hw : WellPlaced mats stack) (hmu : ∀ r ∈ stack, (mats r).mu = 1)
    {wl : ℝ} {ang : ℝ × ℝ × ℝ} (hp : planeWave wl ang = .ok exc) (hwl : 0 < wl)
    (hcos : 0 < Real.cos exc.theta) (h00 : ((0 : ℤ), (0 : ℤ)) ∈ c.harmonics) {n : ℝ} (hpos : 0 < n)
    (hsup : ∀ r0, stack.head? = some r0 → (mats r0).epsilon.value = ((n ^ 2 : ℝ) : ℂ))
    (hist hist' : List (Call c.nh)) (R T : ℝ)
    (h : (diffractionEfficiencies E c false (afterCalls E c hist (Dyn.fresh mats (unsolved c.nh)))).1 = .ok (.total R T))
    (id : LayerId) (r : ℕ) (hid : getLayer c id = .ok (r, 0)) (z : ℝ) (hz0 : (mats r).thickness = some z)
    (Nx Ny : ℕ) (hH : Resolved c.harmonics.get Nx Ny) (ex ey ez hx hy hz : Grid Nx Ny)
    (hg : (getFieldGrid E c id [z] (some (Nx, Ny)) "all" "all" (afterCalls E c hist' (Dyn.fresh mats (unsolved c.nh)))).1 =
      .ok ⟨Nx, Ny, .both (.all [ex] [ey] [ez]) (.all [hx] [hy] [hz])⟩) :
    1 - R = gridPower ex ey hx hy / (Real.cos exc.theta / n) := by
  obtain ⟨F, hF, hP⟩ := grid_of_fourier hinit hH hg
  obtain ⟨r', i, k, e1, e2, -, e3⟩ := end_flux hinit hw hmu hp hwl hcos h00 hpos hsup hist hist' h hF
  rw [hid] at e1
  obtain ⟨rfl, rfl⟩ := Prod.mk.inj (Except.ok.inj e1)
  have hl : 0 < stack.length := List.length_pos_iff.mpr (simInit_ok hinit).ne
  have hk : k = 0 := by
    unfold pyIdx at e2
    rw [if_pos le_rfl, if_pos (by omega)] at e2
    have := Option.some.inj e2
    omega
  rw [hP, e3 hk hz0]
  field_simp

end

open Examples in
/-- C113 on the grating in air, five pixels: below the grating the mean power on the grid is 16/25, and above it the same. -/
example : ∃ (c : Static) (e e' h h' : Fin 3 → Grid 5 1),
    (getFieldGrid exE c (.idx (2 : ℕ)) [0] (some (5, 1)) "all" "all" (afterCalls exE c [] (Dyn.fresh slabMats (unsolved c.nh)))).1 =
      .ok ⟨5, 1, .both (.all [e 0] [e 1] [e 2]) (.all [h 0] [h 1] [h 2])⟩ ∧ gridPower (e 0) (e 1) (h 0) (h 1) = 16 / 25 ∧
    (getFieldGrid exE c (.idx (0 : ℕ)) [1] (some (5, 1)) "all" "all" (afterCalls exE c [.solve] (Dyn.fresh slabMats (unsolved c.nh)))).1 =
      .ok ⟨5, 1, .both (.all [e' 0] [e' 1] [e' 2]) (.all [h' 0] [h' 1] [h' 2])⟩ ∧ gridPower (e' 0) (e' 1) (h' 0) (h' 1) = 16 / 25 := by
  classical
  obtain ⟨c, hc, hn, hst, -, hfl⟩ := slab_init
  have hH : c.harmonics = [(0, 0)] := hn.harm
  have h00 : ((0 : ℤ), (0 : ℤ)) ∈ c.harmonics := by rw [hH]; simp
  have hres : Resolved c.harmonics.get 5 1 := by
    intro i j _ _
    have hl : c.harmonics.length = 1 := by rw [hH]; rfl
    exact Fin.ext (by omega)
  have ht := slab_total hn hst hfl
  have gl : ∀ k : ℕ, k < 3 → getLayer c (.idx (k : ℕ)) = .ok (k, k) := by
    intro k hk
    unfold getLayer
    dsimp only
    rw [hst]
    interval_cases k <;> rfl
  have grid : ∀ (hist : List (Call c.nh)) (k : ℕ) (z : ℝ), k < 3 → ∃ e h : Fin 3 → Grid 5 1,
      (getFieldGrid exE c (.idx k) [z] (some (5, 1)) "all" "all" (afterCalls exE c hist (Dyn.fresh slabMats (unsolved c.nh)))).1 =
        .ok ⟨5, 1, .both (.all [e 0] [e 1] [e 2]) (.all [h 0] [h 1] [h 2])⟩ := by
    intro hist k z hk
    have hr : ∃ F, (getFieldFourier exE c (.idx k) [z] (afterCalls exE c hist (Dyn.fresh slabMats (unsolved c.nh)))).1 = .ok [F] := by
      obtain ⟨c', F, h1, -, -, -, h5⟩ := slab_retrieval (fun c' => if h : c = c' then h ▸ hist else []) k hk
      obtain rfl : c = c' := Except.ok.inj (hc.symm.trans h1)
      have := h5 [z]
      rw [dif_pos rfl] at this
      exact ⟨F z, this⟩
    obtain ⟨F, hF⟩ := hr
    obtain ⟨s, hs, hp⟩ := C54_selection (E := exE) (.idx k) [z] 5 1 "all" "all" (by simp) (by simp) (by rw [hH]; simp) (by rw [hH]; simp)
      _ _ _ (Prod.ext hF rfl)
    simp only [pick, pickComponent, if_true, Option.some.injEq, List.map_cons, List.map_nil] at hp
    exact ⟨fun i => series c.harmonics.get (eComp F i) 5 1, fun i => series c.harmonics.get (hComp F i) 5 1, by rw [hs, ← hp]⟩
  obtain ⟨e, h, hg⟩ := grid [] 2 0 (by norm_num)
  obtain ⟨e', h', hg'⟩ := grid [.solve] 0 1 (by norm_num)
  have hsup : ∀ r0, [0, 1, 2].head? = some r0 → (slabMats r0).epsilon.value = (((1 : ℝ) ^ 2 : ℝ) : ℂ) := by
    intro r0 hr
    obtain rfl : 0 = r0 := by simpa using hr
    simp [slabMats, exLayer, NdArr.scalar, NdArr.value]
  have hT := C113_transmitted_power hc slab_placed (fun r _ => slab_mu r) exExc_mk one_pos (by simp [exExc]) h00 one_pos hsup [] [] _ _ ht
    (.idx (2 : ℕ)) 2 2 (gl 2 (by norm_num)) (.inl rfl) 5 1 hres _ _ _ _ _ _ hg
  have hR := C113_reflected_power hc slab_placed (fun r _ => slab_mu r) exExc_mk one_pos (by simp [exExc]) h00 one_pos hsup [] [.solve] _ _ ht
    (.idx (0 : ℕ)) 0 (gl 0 (by norm_num)) 1 (by simp [slabMats, exLayer]) 5 1 hres _ _ _ _ _ _ hg'
  simp only [exExc, Real.cos_zero, div_one] at hT hR
  exact ⟨c, e, e', h, h', hg, hT.symm, hg', by rw [← hR]; norm_num⟩

end Nannos
