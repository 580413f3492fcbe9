import Verif.Props.GridPower
import Verif.Props.FluxBalance
import Verif.Proofs.AllForms

/-! **C114**: power at every depth of the stack. -/

namespace Nannos

open Matrix Spec

section
variable {E : Ext} {lats : ℕ → Lattice} {mats : ℕ → LayerSpec} {stack : List ℕ} {exc : PlaneWave} {nh : ℤ}
  {form : String} {c : Static}

/-- The fields of a layer seen from the depth `z`. -/
theorem power_shift {m : Type} [Fintype m] (M : Modes m) (a b : m → ℂ) (z s : ℝ) :
    power M (fun j => a j * Complex.exp (Complex.I * M.q j * z)) (fun j => b j * Complex.exp (-(Complex.I * M.q j * z))) s =
      power M a b (z + s) := by
  have h1 : ∀ j, a j * Complex.exp (Complex.I * M.q j * z) * Complex.exp (Complex.I * M.q j * s) =
      a j * Complex.exp (Complex.I * M.q j * ((z + s : ℝ) : ℂ)) := by
    intro j
    rw [mul_assoc, ← Complex.exp_add]
    congr 2
    push_cast
    ring
  have h2 : ∀ j, b j * Complex.exp (-(Complex.I * M.q j * z)) * Complex.exp (Complex.I * M.q j * ((M.z - s : ℝ) : ℂ)) =
      b j * Complex.exp (Complex.I * M.q j * ((M.z - (z + s) : ℝ) : ℂ)) := by
    intro j
    rw [mul_assoc, ← Complex.exp_add]
    congr 2
    push_cast
    ring
  unfold power tanE tanH
  simp only [h1, h2]

/-- Power between the bottom of any layer and the top of a later one. -/
theorem stack_loss_from {S : Set ℝ} {D : ℝ → Prop} (hS : LossCone S D) {layers : List (Modes (Idx c.nh))}
    {amp : ℕ → (Idx c.nh → ℂ) × (Idx c.nh → ℂ)} {k n : ℕ} {L : Modes (Idx c.nh)} (hL : layers[k]? = some L)
    (hn : k + n + 1 < layers.length) (hc : Consistent layers 0 (k + n + 1) amp)
    (hp : ∀ j L, k < j → j ≤ k + n → layers[j]? = some L →
      power L (amp j).1 (amp j).2 0 - power L (amp j).1 (amp j).2 L.z ∈ S)
    {L' : Modes (Idx c.nh)} (hL' : layers[k + n + 1]? = some L') :
    power L (amp k).1 (amp k).2 L.z - power L' (amp (k + n + 1)).1 (amp (k + n + 1)).2 0 ∈ S := by
  refine stack_loss (layers := layers.drop k) (amp := fun j => amp (k + j)) hS (L0 := L) (by simpa using hL) n
    (by rw [List.length_drop]; omega) ?_ ?_ L' (by rw [List.getElem?_drop]; exact hL')
  · intro j A B h1 h2 hA hB
    rw [List.getElem?_drop] at hA hB
    exact hc (k + j) A B (by omega) (by omega) hA hB
  · intro j A h1 h2 hA
    rw [List.getElem?_drop] at hA
    exact hp (k + j) A (by omega) (by omega) hA

/-- Power lost above and below the depth where the fields are retrieved. -/
theorem depth_power {S : Set ℝ} {D : ℝ → Prop} (hS : LossCone S D) (hinit : simInit E lats mats stack exc nh form = .ok c)
    (hE : EigContract E) (hw : WellPlaced mats stack) (hmu : ∀ r ∈ stack, (mats r).mu = 1)
    {wl : ℝ} {ang : ℝ × ℝ × ℝ} (hp : planeWave wl ang = .ok exc) (hwl : 0 < wl)
    (hcos : 0 < Real.cos exc.theta) (h00 : ((0 : ℤ), (0 : ℤ)) ∈ c.harmonics)
    (hform : form = "original" ∨ c.lattice.is1D = true ∨ (c.harmonics.Nodup ∧ ∀ r ∈ stack, (mats r).isUniform = false →
      (mats r).isAnisotropic = false ∧ ConstantVectorsUsed E c (mats r))) {n : ℝ} (hpos : 0 < n)
    (hsup : ∀ r0, stack.head? = some r0 → (mats r0).epsilon.value = ((n ^ 2 : ℝ) : ℂ))
    (hin : ∀ r ∈ stack, LossIn S (mats r) ∧ ∀ t, (mats r).thickness = some t → D t)
    (hist hist' : List (Call c.nh)) {R T : ℝ}
    (h : (diffractionEfficiencies E c false (afterCalls E c hist (Dyn.fresh mats (unsolved c.nh)))).1 = .ok (.total R T))
    {id : LayerId} {zs : List ℝ} (hzs : zs ≠ []) {Fs : List (FieldF c.nh)}
    (hF : (getFieldFourier E c id zs (afterCalls E c hist' (Dyn.fresh mats (unsolved c.nh)))).1 = .ok Fs) :
    0 < c.omega ∧ ∃ r i k, getLayer c id = .ok (r, i) ∧ pyIdx stack.length i = some k ∧ k < stack.length ∧
      c.omega * (Real.cos exc.theta / n * (1 - R) - Real.cos exc.theta / n * T) ∈ S ∧ ∃ G, Fs = zs.map G ∧ ∀ z,
      (∀ z', D (z' - z) → c.omega * (∑ i, Spec.orderFlux (G z) i - ∑ i, Spec.orderFlux (G z') i) ∈ S) ∧
      (0 < k → D z → c.omega * (Real.cos exc.theta / n * (1 - R) - ∑ i, Spec.orderFlux (G z) i) ∈ S) ∧
      (k + 1 < stack.length → D ((mats r).thickness.getD 0 - z) →
        c.omega * (∑ i, Spec.orderFlux (G z) i - Real.cos exc.theta / n * T) ∈ S) := by
  have hi := simInit_ok hinit
  have hst : c.stack = stack := hi.stack_eq
  obtain ⟨R', T', h1, rfl, rfl⟩ := efficiencies_total h
  obtain ⟨A1, res, hs, hA⟩ := fields_of_history_raw (E := E) hinit
  obtain ⟨hg, hfix, hlt, amp, M0, MN, hsol, hM0, hMN, hqs, p0, pN⟩ := flux_balance hinit hw hmu hp hwl hcos h00
    (e := n ^ 2) (by positivity) hsup hs hist (R', T') h1
  rw [Real.sqrt_sq hpos.le] at hg
  have hom := hg.omega
  have hlen := stackModes_length c mats A1
  obtain ⟨-, r, i, ab, q1, q2, M, t, G, q5, q6, q7, q8, q9, q10⟩ := hA hist' id zs _ hzs hF
  obtain ⟨k, u1, amp', v1, v2, v3⟩ := ampV_solution hfix q2
  have hkr : c.stack[k]? = some r := by
    have hr := getLayer_pyGet q1
    unfold pyGet at hr
    rw [u1] at hr
    dsimp only at hr
    cases hx : c.stack[k]? with
    | none => rw [hx] at hr; cases hr
    | some x => rw [hx] at hr; exact congrArg some (Except.ok.inj hr)
  have hk : k < c.stack.length := (List.getElem?_eq_some_iff.mp hkr).1
  have hab : amp k = ab := by rw [v3 amp hsol k hk, v2]
  have hmd : ∀ (k r : ℕ) M, c.stack[k]? = some r → modesOf (mats r) (A1 r) = .ok M → (stackModes c mats A1)[k]? = some M := by
    intro k r M hkr q5
    have hs' := hfix r (List.mem_of_getElem? hkr)
    rw [hs'.form.modesD] at q5
    unfold stackModes
    rw [List.getElem?_map, hkr, ← Except.ok.inj q5]
    rfl
  have hMk := hmd k r M hkr q5
  have hth : ∀ (r : ℕ) M, modesOf (mats r) (A1 r) = .ok M → M.thickness = (mats r).thickness := by
    intro r M q5
    unfold modesOf at q5
    rw [bind_eq_ok] at q5
    obtain ⟨ev, -, q5⟩ := q5
    rw [bind_eq_ok] at q5
    obtain ⟨Q, -, q5⟩ := q5
    simp only [except_pure_eq_ok, Except.ok.injEq] at q5
    rw [← q5]
  have hmed := solved_medium (stack := c.stack) (by rw [hst]; exact hmu) hE (by rw [hst]; exact hw) hfix
  -- loss inside one layer
  have hloc : ∀ (k r : ℕ) M, c.stack[k]? = some r → modesOf (mats r) (A1 r) = .ok M → ∀ a b d, D d →
      power M a b 0 - power M a b d ∈ S := by
    intro k r M hkr hM a b d hd
    obtain ⟨P, ee, m1, m2⟩ := hmed k r hkr
    have hrm : r ∈ stack := hst ▸ List.mem_of_getElem? hkr
    obtain ⟨FP, Fe⟩ := all_forms hS hinit hw hform hrm (hin r hrm).1 m1
    exact power_loss hS hom.ne' hg.kxr hg.kyr m2 FP Fe hM
      (hqs k M (by have := (List.getElem?_eq_some_iff.mp hkr).1; omega) (hmd k r M hkr hM)) a b hd
  have hlay : ∀ j L, j < c.stack.length → (stackModes c mats A1)[j]? = some L →
      power L (amp j).1 (amp j).2 0 - power L (amp j).1 (amp j).2 L.z ∈ S := by
    intro j L hj hL
    obtain ⟨r, hr⟩ : ∃ r, c.stack[j]? = some r := ⟨_, List.getElem?_eq_getElem hj⟩
    have hMj := (hfix r (List.mem_of_getElem? hr)).form.modesD
    have hLj := hmd j r _ hr hMj
    rw [hL] at hLj
    obtain rfl := Option.some.inj hLj
    refine hloc j r _ hr hMj _ _ _ ?_
    unfold Modes.z modesD
    dsimp only
    rcases ht : (mats r).thickness with _ | t
    · exact hS.zeroD
    · exact (hin r (hst ▸ List.mem_of_getElem? hr)).2 t ht
  have hcons := hsol.1
  rw [hlen] at hcons
  have hshift : ∀ z d, D (d - z) → power M (amp k).1 (amp k).2 z - power M (amp k).1 (amp k).2 d ∈ S := by
    intro z d hd
    have := hloc k r M hkr q5 (fun j => (amp k).1 j * Complex.exp (Complex.I * M.q j * z))
      (fun j => (amp k).2 j * Complex.exp (-(Complex.I * M.q j * z))) (d - z) hd
    rw [power_shift, power_shift, add_zero, add_sub_cancel] at this
    exact this
  have pf := fun z => power_flux hom.ne' (q8 z)
  rw [← hab] at pf
  rw [hg.flux] at p0 pN
  dsimp only at p0 pN
  refine ⟨hom, r, i, k, q1, hst ▸ u1, hst ▸ hk, ?_, G, q10, fun z => ⟨?_, ?_, ?_⟩⟩
  · obtain ⟨m, hm⟩ : ∃ m, c.stack.length - 1 = m + 1 := ⟨c.stack.length - 2, by omega⟩
    have := stack_loss hS (amp := amp) hM0 m (by rw [hlen]; omega) (by rw [← hm]; exact hcons)
      (fun j L _ hj hL => hlay j L (by omega) hL) MN (by rw [← hm]; exact hMN)
    rw [p0, ← hm, pN] at this
    convert this using 1
    ring
  · intro z' hd
    have := hshift z z' hd
    rw [pf, pf, ← mul_sub] at this
    exact this
  · intro hk0 hd
    obtain ⟨m, rfl⟩ : ∃ m, k = m + 1 := ⟨k - 1, by omega⟩
    have e1 := stack_loss hS (amp := amp) hM0 m (by rw [hlen]; omega) (consistent_mono (by omega) hcons)
      (fun j L _ hj hL => hlay j L (by omega) hL) M hMk
    have e2 := hloc _ r M hkr q5 (amp (m + 1)).1 (amp (m + 1)).2 z hd
    have := hS.add e1 e2
    rw [p0, pf z] at this
    convert this using 1
    unfold flux
    ring
  · intro hk1 hd
    rw [← hst] at hk1
    obtain ⟨m, hm⟩ : ∃ m, c.stack.length - 1 = k + m + 1 := ⟨c.stack.length - 2 - k, by omega⟩
    have e1 := hshift z M.z (by
      unfold Modes.z
      rw [hth r M q5]
      rcases ht : (mats r).thickness with _ | t
      · rw [ht] at hd; simpa using hd
      · rw [ht] at hd; simpa using hd)
    have e2 := stack_loss_from hS (amp := amp) hMk (n := m) (by rw [hlen]; omega) (by rw [← hm]; exact hcons)
      (fun j L _ hj hL => hlay j L (by omega) hL) (L' := MN) (by rw [← hm]; exact hMN)
    have := hS.add e1 e2
    rw [← hm, pN, pf z] at this
    convert this using 1
    unfold flux
    ring

/-- A depth and the fields retrieved there. -/
theorem mem_zip_map {α β : Type} {zs : List α} {G : α → β} {z : α} {F : β} (h : (z, F) ∈ zs.zip (zs.map G)) : F = G z := by
  induction zs with
  | nil => simp at h
  | cons a l ih =>
    rw [List.map_cons, List.zip_cons_cons, List.mem_cons] at h
    rcases h with h | h
    · obtain ⟨rfl, rfl⟩ := Prod.mk.inj h
      rfl
    · exact ih h

/-- **C114**, lossless stack.  Wherever the fields are retrieved, in whichever layer and at whichever depth, the flux they carry
is the transmitted part of the incident one. -/
theorem C114_lossless (hinit : simInit E lats mats stack exc nh form = .ok c)
    (hE : EigContract E) (hw : WellPlaced mats stack) (hmu : ∀ r ∈ stack, (mats r).mu = 1)
    {wl : ℝ} {ang : ℝ × ℝ × ℝ} (hp : planeWave wl ang = .ok exc) (hwl : 0 < wl)
    (hcos : 0 < Real.cos exc.theta) (h00 : ((0 : ℤ), (0 : ℤ)) ∈ c.harmonics)
    (hform : form = "original" ∨ c.lattice.is1D = true ∨ (c.harmonics.Nodup ∧ ∀ r ∈ stack, (mats r).isUniform = false →
      (mats r).isAnisotropic = false ∧ ConstantVectorsUsed E c (mats r))) {n : ℝ} (hpos : 0 < n)
    (hsup : ∀ r0, stack.head? = some r0 → (mats r0).epsilon.value = ((n ^ 2 : ℝ) : ℂ))
    (hin : ∀ r ∈ stack, Lossless (mats r)) (hist hist' : List (Call c.nh)) (R T : ℝ)
    (h : (diffractionEfficiencies E c false (afterCalls E c hist (Dyn.fresh mats (unsolved c.nh)))).1 = .ok (.total R T))
    (id : LayerId) (zs : List ℝ) (hzs : zs ≠ []) (Fs : List (FieldF c.nh))
    (hF : (getFieldFourier E c id zs (afterCalls E c hist' (Dyn.fresh mats (unsolved c.nh)))).1 = .ok Fs) :
    ∀ F ∈ Fs, ∑ i, Spec.orderFlux F i = Real.cos exc.theta / n * T := by
  obtain ⟨hom, r, i, k, -, -, hk, hRT, G, rfl, hG⟩ := depth_power lossCone_zero hinit hE hw hmu hp hwl hcos h00 hform hpos hsup
    (fun r hr => ⟨hin r hr, fun _ _ => trivial⟩) hist hist' h hzs hF
  intro F hFm
  obtain ⟨z, -, rfl⟩ := List.mem_map.mp hFm
  obtain ⟨-, g1, g2⟩ := hG z
  have aux : ∀ x : ℝ, c.omega * x ∈ ({0} : Set ℝ) → x = 0 := fun x hx =>
    (mul_eq_zero.mp (Set.mem_singleton_iff.mp hx)).resolve_left hom.ne'
  have e0 := aux _ hRT
  rcases Nat.eq_zero_or_pos k with rfl | hk0
  · by_cases h2 : 0 + 1 < stack.length
    · have := aux _ (g2 h2 trivial)
      linarith
    · exfalso
      obtain ⟨R', T', h1, rfl, rfl⟩ := efficiencies_total h
      obtain ⟨A1, res, hs, hA⟩ := fields_of_history_raw (E := E) hinit
      obtain ⟨-, -, hlt, -⟩ := flux_balance hinit hw hmu hp hwl hcos h00 (e := n ^ 2) (by positivity) hsup hs hist (R', T') h1
      rw [(simInit_ok hinit).stack_eq] at hlt
      omega
  · have := aux _ (g1 hk0 trivial)
    linarith

/-- **C114**, passive stack.  In a layer of a stack of passive layers of non-negative thickness, the flux decreases with the depth;
below the first layer it is at most what is not reflected, above the last one at least what is transmitted. -/
theorem C114_passive (hinit : simInit E lats mats stack exc nh form = .ok c)
    (hE : EigContract E) (hw : WellPlaced mats stack) (hmu : ∀ r ∈ stack, (mats r).mu = 1)
    {wl : ℝ} {ang : ℝ × ℝ × ℝ} (hp : planeWave wl ang = .ok exc) (hwl : 0 < wl)
    (hcos : 0 < Real.cos exc.theta) (h00 : ((0 : ℤ), (0 : ℤ)) ∈ c.harmonics)
    (hform : form = "original" ∨ c.lattice.is1D = true ∨ (c.harmonics.Nodup ∧ ∀ r ∈ stack, (mats r).isUniform = false →
      (mats r).isAnisotropic = false ∧ ConstantVectorsUsed E c (mats r))) {n : ℝ} (hpos : 0 < n)
    (hsup : ∀ r0, stack.head? = some r0 → (mats r0).epsilon.value = ((n ^ 2 : ℝ) : ℂ))
    (hin : ∀ r ∈ stack, Passive (mats r) ∧ ∀ t, (mats r).thickness = some t → 0 ≤ t) (hist hist' : List (Call c.nh)) (R T : ℝ)
    (h : (diffractionEfficiencies E c false (afterCalls E c hist (Dyn.fresh mats (unsolved c.nh)))).1 = .ok (.total R T))
    (id : LayerId) (zs : List ℝ) (hzs : zs ≠ []) (Fs : List (FieldF c.nh))
    (hF : (getFieldFourier E c id zs (afterCalls E c hist' (Dyn.fresh mats (unsolved c.nh)))).1 = .ok Fs) :
    ∃ (k r : ℕ) (j : ℤ), getLayer c id = .ok (r, j) ∧ stack[k]? = some r ∧ Fs.length = zs.length ∧
      (∀ p ∈ zs.zip Fs, ∀ p' ∈ zs.zip Fs, p.1 ≤ p'.1 → ∑ i, Spec.orderFlux p'.2 i ≤ ∑ i, Spec.orderFlux p.2 i) ∧
      (0 < k → ∀ p ∈ zs.zip Fs, 0 ≤ p.1 → ∑ i, Spec.orderFlux p.2 i ≤ Real.cos exc.theta / n * (1 - R)) ∧
      (k + 1 < stack.length → ∀ p ∈ zs.zip Fs, p.1 ≤ (mats r).thickness.getD 0 →
        Real.cos exc.theta / n * T ≤ ∑ i, Spec.orderFlux p.2 i) := by
  obtain ⟨hom, r, i, k, hid, hi, hk, hRT, G, rfl, hG⟩ := depth_power lossCone_nonneg hinit hE hw hmu hp hwl hcos h00 hform hpos hsup
    hin hist hist' h hzs hF
  have aux : ∀ x y : ℝ, c.omega * (x - y) ∈ Set.Ici (0 : ℝ) → y ≤ x := fun x y hx =>
    sub_nonneg.mp (nonneg_of_mul_nonneg_right (Set.mem_Ici.mp hx) hom)
  have hkr : stack[k]? = some r := by
    have hr := getLayer_pyGet hid
    rw [(simInit_ok hinit).stack_eq] at hr
    unfold pyGet at hr
    rw [hi] at hr
    dsimp only at hr
    cases hx : stack[k]? with
    | none => rw [hx] at hr; cases hr
    | some x => rw [hx] at hr; exact congrArg some (Except.ok.inj hr)
  refine ⟨k, r, i, hid, hkr, by simp, ?_, ?_, ?_⟩
  · rintro ⟨z, F⟩ hp1 ⟨z', F'⟩ hp2 hle
    rw [mem_zip_map hp1, mem_zip_map hp2]
    exact aux _ _ ((hG z).1 z' (sub_nonneg.mpr hle))
  · rintro hk0 ⟨z, F⟩ hp1 hle
    rw [mem_zip_map hp1]
    exact aux _ _ ((hG z).2.1 hk0 hle)
  · rintro hk1 ⟨z, F⟩ hp1 hle
    rw [mem_zip_map hp1]
    exact aux _ _ ((hG z).2.2 hk1 (sub_nonneg.mpr hle))

/-- **C114**, on a grid: in a lossless stack the mean of `Re(conj(E) x H)` over the pixels does not depend on the layer and on the
depth, and is the transmitted part of the incident power. -/
theorem C114_grid (hinit : simInit E lats mats stack exc nh form = .ok c)
    (hE : EigContract E) (hw : WellPlaced mats stack) (hmu : ∀ r ∈ stack, (mats r).mu = 1)
    {wl : ℝ} {ang : ℝ × ℝ × ℝ} (hp : planeWave wl ang = .ok exc) (hwl : 0 < wl)
    (hcos : 0 < Real.cos exc.theta) (h00 : ((0 : ℤ), (0 : ℤ)) ∈ c.harmonics)
    (hform : form = "original" ∨ c.lattice.is1D = true ∨ (c.harmonics.Nodup ∧ ∀ r ∈ stack, (mats r).isUniform = false →
      (mats r).isAnisotropic = false ∧ ConstantVectorsUsed E c (mats r))) {n : ℝ} (hpos : 0 < n)
    (hsup : ∀ r0, stack.head? = some r0 → (mats r0).epsilon.value = ((n ^ 2 : ℝ) : ℂ))
    (hin : ∀ r ∈ stack, Lossless (mats r)) (hist hist' : List (Call c.nh)) (R T : ℝ)
    (h : (diffractionEfficiencies E c false (afterCalls E c hist (Dyn.fresh mats (unsolved c.nh)))).1 = .ok (.total R T))
    (id : LayerId) (z : ℝ) (Nx Ny : ℕ) (hH : Resolved c.harmonics.get Nx Ny) (ex ey ez hx hy hz : Grid Nx Ny)
    (hg : (getFieldGrid E c id [z] (some (Nx, Ny)) "all" "all" (afterCalls E c hist' (Dyn.fresh mats (unsolved c.nh)))).1 =
      .ok ⟨Nx, Ny, .both (.all [ex] [ey] [ez]) (.all [hx] [hy] [hz])⟩) :
    gridPower ex ey hx hy = Real.cos exc.theta / n * T := by
  obtain ⟨F, hF, hP⟩ := grid_of_fourier hinit hH hg
  rw [hP]
  exact C114_lossless hinit hE hw hmu hp hwl hcos h00 hform hpos hsup hin hist hist' R T h id [z] (by simp) [F] hF F (by simp)

end

open Examples in
theorem slab_all_lossless (S : Set ℝ) (hS : (0 : ℝ) ∈ S) (r : ℕ) (hr : r ∈ ([0, 1, 2] : List ℕ)) :
    LossIn S (slabMats r) ∧ ∀ t, (slabMats r).thickness = some t → 0 ≤ t := by
  have hr' : r = 0 ∨ r = 1 ∨ r = 2 := by simpa using hr
  rcases hr' with rfl | rfl | rfl
  · constructor
    · unfold LossIn
      rw [if_neg (by simp [slabMats, exLayer, LayerSpec.isAnisotropic, NdArr.scalar, isAnisotropic])]
      intro idx _
      simpa [slabMats, exLayer, NdArr.scalar] using hS
    · intro t ht
      simp [slabMats, exLayer] at ht
      rw [← ht]; norm_num
  · exact slab_lossless S hS 1 1 (by norm_num) (by simp) rfl
  · constructor
    · unfold LossIn
      rw [if_neg (by simp [slabMats, exLayer, LayerSpec.isAnisotropic, NdArr.scalar, isAnisotropic])]
      intro idx _
      simpa [slabMats, exLayer, NdArr.scalar] using hS
    · intro t ht
      simp [slabMats, exLayer] at ht
      rw [← ht]; norm_num

open Examples in
/-- C114 on the grating in air: inside the grating, whose fields are retrieved at two depths, and whatever was called before, the
flux is 16/25 of the incident one. -/
example : ∃ (c : Static) (F F' : FieldF c.nh),
    (getFieldFourier exE c (.idx (1 : ℕ)) [1 / 32, 1 / 16] (afterCalls exE c [.solve] (Dyn.fresh slabMats (unsolved c.nh)))).1 =
      .ok [F, F'] ∧ ∑ i, Spec.orderFlux F i = 16 / 25 ∧ ∑ i, Spec.orderFlux F' i = 16 / 25 := by
  obtain ⟨c, hc, hn, hst, -, hfl⟩ := slab_init
  have h00 : ((0 : ℤ), (0 : ℤ)) ∈ c.harmonics := by rw [hn.harm]; simp
  obtain ⟨c', F, h1, h2, h3, h4, h5⟩ := slab_retrieval (fun _ => [.solve]) 1 (by norm_num)
  obtain rfl : c = c' := Except.ok.inj (hc.symm.trans h1)
  have ht := slab_total hn hst hfl
  have hsup : ∀ r0, [0, 1, 2].head? = some r0 → (slabMats r0).epsilon.value = (((1 : ℝ) ^ 2 : ℝ) : ℂ) := by
    intro r0 hr
    obtain rfl : 0 = r0 := by simpa using hr
    simp [slabMats, exLayer, NdArr.scalar, NdArr.value]
  have hflux := C114_lossless hc h2 h3 h4 exExc_mk one_pos (by simp [exExc]) h00 (.inl rfl) one_pos hsup
    (fun r hr => (slab_all_lossless {0} rfl r hr).1) [] [.solve] _ _ ht (.idx (1 : ℕ)) [1 / 32, 1 / 16] (by simp) _ (h5 _)
  simp only [exExc, Real.cos_zero, div_one, one_mul] at hflux
  exact ⟨c, F (1 / 32), F (1 / 16), h5 [1 / 32, 1 / 16], hflux _ (by simp), hflux _ (by simp)⟩

open Examples in
/-- C114, passive layers: the same stack. -/
example : ∃ (c : Static) (F F' : FieldF c.nh),
    (getFieldFourier exE c (.idx (1 : ℕ)) [1 / 32, 1 / 16] (afterCalls exE c [.solve] (Dyn.fresh slabMats (unsolved c.nh)))).1 =
      .ok [F, F'] ∧ ∃ (k r : ℕ) (j : ℤ), getLayer c (.idx (1 : ℕ)) = .ok (r, j) ∧ ([0, 1, 2] : List ℕ)[k]? = some r := by
  obtain ⟨c, hc, hn, hst, -, hfl⟩ := slab_init
  have h00 : ((0 : ℤ), (0 : ℤ)) ∈ c.harmonics := by rw [hn.harm]; simp
  obtain ⟨c', F, h1, h2, h3, h4, h5⟩ := slab_retrieval (fun _ => [.solve]) 1 (by norm_num)
  obtain rfl : c = c' := Except.ok.inj (hc.symm.trans h1)
  have ht := slab_total hn hst hfl
  have hsup : ∀ r0, [0, 1, 2].head? = some r0 → (slabMats r0).epsilon.value = (((1 : ℝ) ^ 2 : ℝ) : ℂ) := by
    intro r0 hr
    obtain rfl : 0 = r0 := by simpa using hr
    simp [slabMats, exLayer, NdArr.scalar, NdArr.value]
  obtain ⟨k, r, j, a1, a2, -⟩ := C114_passive hc h2 h3 h4 exExc_mk one_pos (by simp [exExc]) h00 (.inl rfl) one_pos hsup
    (fun r hr => slab_all_lossless (Set.Ici 0) (Set.mem_Ici.mpr le_rfl) r hr) [] [.solve] _ _ ht (.idx (1 : ℕ)) [1 / 32, 1 / 16]
    (by simp) _ (h5 _)
  exact ⟨c, F (1 / 32), F (1 / 16), h5 [1 / 32, 1 / 16], k, r, j, a1, a2⟩

end Nannos
