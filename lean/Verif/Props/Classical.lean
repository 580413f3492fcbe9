import Verif.Proofs.ClassicalRun
import Verif.Props.Fields
import Verif.Props.Energy

/-! **C90**: the efficiencies are the textbook ones, computed from the returned electric fields. -/

namespace Nannos

open Matrix Spec

section
variable {E : Ext} {lats : ℕ → Lattice} {mats : ℕ → LayerSpec} {stack : List ℕ} {wl : ℝ} {ang : ℝ × ℝ × ℝ}
  {exc : PlaneWave} {nh : ℤ} {form : String} {c : Static}

/-- **C90**: transmission. The wave comes from a lossless superstrate of index `n`; the last layer is homogeneous with a
real permittivity `e`, and what is in between is arbitrary, with any formulation. The efficiency of each transmitted order
is the ratio of the normal wave vectors, times the ratio of the squared moduli of the electric fields: the one returned in
the last layer, at any depth, and the incident one, of modulus `1 / n`. Each result may be asked for after any calls. -/
theorem C90_transmitted_orders (hinit : simInit E lats mats stack exc nh form = .ok c) (hw : WellPlaced mats stack)
    (hp : planeWave wl ang = .ok exc) (hwl : 0 < wl) (hcos : 0 < Real.cos exc.theta)
    (h00 : ((0 : ℤ), (0 : ℤ)) ∈ c.harmonics) {n e : ℝ} (hn : 0 < n)
    (hsup : ∀ r, stack.head? = some r → (mats r).epsilon.value = ((n ^ 2 : ℝ) : ℂ) ∧ (mats r).mu = 1)
    (hlast : ∀ r, stack.getLast? = some r →
      (mats r).isUniform = true ∧ (mats r).epsilon.value = (e : ℂ) ∧ (mats r).mu = 1)
    (hist hist' : List (Call c.nh)) (R T : Fin c.nh → ℝ) (id : LayerId) (r : ℕ) (j : ℤ) (z : ℝ) (F : FieldF c.nh)
    (hRT : (diffractionEfficiencies E c true (afterCalls E c hist (Dyn.fresh mats (unsolved c.nh)))).1 = .ok (.byOrder R T))
    (hid : getLayer c id = .ok (r, j)) (hj : j = (stack.length : ℤ) - 1 ∨ j = -1)
    (hF : (getFieldFourier E c id [z] (afterCalls E c hist' (Dyn.fresh mats (unsolved c.nh)))).1 = .ok [F]) (i : Fin c.nh) :
    T i = normalWavenumber c wl e i / (n * (2 * Real.pi / wl) * Real.cos exc.theta) * (intensity F i / (1 / n) ^ 2) :=
  transmitted hinit hw hp hwl hcos h00 hn hsup hlast (efficiencies_by_order hRT) hid hj hF i

/-- **C90**: reflection. The efficiency of each reflected order is the ratio of the normal wave vectors, times the ratio of
the squared moduli of the reflected field, which is the one returned in the superstrate minus the incident wave, and of the
incident field. The substrate is arbitrary. -/
theorem C90_reflected_orders (hA : ArgsortContract E.argsort) (hd : DistinctOrders lats) (hnh : 1 ≤ nh)
    (hinit : simInit E lats mats stack exc nh form = .ok c) (hw : WellPlaced mats stack)
    (hp : planeWave wl ang = .ok exc) (hwl : 0 < wl) (hcos : 0 < Real.cos exc.theta)
    (h00 : ((0 : ℤ), (0 : ℤ)) ∈ c.harmonics) {n : ℝ} (hn : 0 < n)
    (hsup : ∀ r, stack.head? = some r → (mats r).epsilon.value = ((n ^ 2 : ℝ) : ℂ) ∧ (mats r).mu = 1)
    (hist hist' : List (Call c.nh)) (R T : Fin c.nh → ℝ) (id : LayerId) (r : ℕ) (z : ℝ) (F : FieldF c.nh)
    (hRT : (diffractionEfficiencies E c true (afterCalls E c hist (Dyn.fresh mats (unsolved c.nh)))).1 = .ok (.byOrder R T))
    (hid : getLayer c id = .ok (r, 0))
    (hF : (getFieldFourier E c id [z] (afterCalls E c hist' (Dyn.fresh mats (unsolved c.nh)))).1 = .ok [F]) (i : Fin c.nh) :
    R i = normalWavenumber c wl (n ^ 2) i / (n * (2 * Real.pi / wl) * Real.cos exc.theta) *
      (reflectedIntensity c exc n z F i / (1 / n) ^ 2) :=
  reflected hA hd hnh hinit hw hp hwl hcos h00 hn hsup (efficiencies_by_order hRT) hid hF i

end

namespace Examples

/-- C90: the grating of C32. The field below it has, at every depth, squared modulus `16 / 25`, the efficiency of the only
order; above it, the total field minus the incident wave has squared modulus `9 / 25`. -/
example : ∃ c, simInit exE (fun _ => exLat) slabMats [0, 1, 2] exExc 1 "original" = .ok c ∧
    ∀ (hist : List (Call c.nh)) (z : ℝ) (i : Fin c.nh),
      (∃ F, (getFieldFourier exE c (.idx 2) [z] (afterCalls exE c hist (Dyn.fresh slabMats (unsolved c.nh)))).1 = .ok [F] ∧
        intensity F i = 16 / 25) ∧
      ∃ F, (getFieldFourier exE c (.idx 0) [z] (afterCalls exE c hist (Dyn.fresh slabMats (unsolved c.nh)))).1 = .ok [F] ∧
        reflectedIntensity c exExc 1 z F i = 9 / 25 := by
  obtain ⟨c, hc, hn, hst, -, hfl⟩ := slab_init
  have hcos : 0 < Real.cos exExc.theta := by simp [exExc]
  have h00 : ((0 : ℤ), (0 : ℤ)) ∈ c.harmonics := by rw [hn.harm]; simp
  refine ⟨c, hc, fun hist z i => ?_⟩
  have htot := slab_total hn hst hfl
  obtain ⟨R', T', hRT, eR, eT⟩ := efficiencies_total htot
  have hby : (diffractionEfficiencies exE c true (afterCalls exE c [] (Dyn.fresh slabMats (unsolved c.nh)))).1 =
      .ok (.byOrder R' T') := by
    show (diffractionEfficiencies exE c true (Dyn.fresh slabMats (unsolved c.nh))).1 = _
    unfold diffractionEfficiencies
    rw [PyM.bind_ok (Prod.ext_iff.mpr ⟨hRT, rfl⟩)]
    rfl
  have hnh1 : c.nh = 1 := by
    show c.harmonics.length = 1
    rw [hn.harm]; rfl
  have hsub : ∀ k : Fin c.nh, k = i := fun k => Fin.ext (by have := k.2; have := i.2; omega)
  have hR : R' i = 9 / 25 := by
    rw [eR]
    exact (Fintype.sum_eq_single i fun k hk => absurd (hsub k) hk).symm
  have hT : T' i = 16 / 25 := by
    rw [eT]
    exact (Fintype.sum_eq_single i fun k hk => absurd (hsub k) hk).symm
  have hsup : ∀ r, ([0, 1, 2] : List ℕ).head? = some r → (slabMats r).epsilon.value = ((1 ^ 2 : ℝ) : ℂ) ∧ (slabMats r).mu = 1 := by
    intro r hr
    obtain rfl : 0 = r := by simpa using hr
    exact ⟨by simp [slabMats, exLayer, NdArr.scalar, NdArr.value], slab_mu 0⟩
  have hlast : ∀ r, ([0, 1, 2] : List ℕ).getLast? = some r →
      (slabMats r).isUniform = true ∧ (slabMats r).epsilon.value = ((1 : ℝ) : ℂ) ∧ (slabMats r).mu = 1 := by
    intro r hr
    obtain rfl : 2 = r := by simpa using hr
    exact ⟨rfl, by simp [slabMats, exLayer, NdArr.scalar, NdArr.value], slab_mu 2⟩
  have hk : normalWavenumber c 1 1 i = 2 * Real.pi := by
    have h1 := hn.kx i
    have h2 := hn.ky i
    unfold normalWavenumber
    rw [h1, h2]
    simp only [Complex.zero_re]
    rw [show 1 * (2 * Real.pi / 1) ^ 2 - (0 : ℝ) ^ 2 - 0 ^ 2 = (2 * Real.pi) ^ 2 by ring,
      Real.sqrt_sq (by positivity)]
  have hpi : Real.pi ≠ 0 := Real.pi_ne_zero
  have hcos1 : Real.cos exExc.theta = 1 := by simp [exExc]
  have hd : DistinctOrders (fun _ => exLat) := by
    intro k H hH
    simp [exLat] at hH
  have one : ∀ {k : ℕ} {Fs}, (getFieldFourier exE c (.idx k) [z]
      (afterCalls exE c hist (Dyn.fresh slabMats (unsolved c.nh)))).1 = .ok Fs → ∃ F, Fs = [F] := by
    intro k Fs h
    have hnd : c.stack.Nodup := (simInit_ok hc).nodup
    obtain ⟨A, res, hs, -⟩ := solveSpec_of_noStale (E := exE) hnd (noStale_unsolved slabMats c.stack)
    have hinv := Inv.calls hs hist (inv_fresh _ (.inl rfl))
    obtain ⟨-, -, r, j, ab, -, -, hm⟩ := yields_getFieldFourier hs _ _ _ _ _ hinv (Prod.ext_iff.mpr ⟨h, rfl⟩)
    have := mapM_ok_length hm
    exact List.length_eq_one_iff.mp this
  constructor
  · obtain ⟨Fs, hFs⟩ := (slab_runs hc hn hst hfl hist).1 2 (by norm_num) [z]
    obtain ⟨F, rfl⟩ := one hFs
    refine ⟨F, hFs, ?_⟩
    have := C90_transmitted_orders hc slab_placed exExc_mk one_pos hcos h00 one_pos hsup hlast [] hist R' T' (.idx 2) 2 2 z F
      hby (by unfold getLayer; rw [hst]; rfl) (.inl (by simp)) hFs i
    rw [hT, hk, hcos1] at this
    rw [this]
    field_simp
  · obtain ⟨Fs, hFs⟩ := (slab_runs hc hn hst hfl hist).1 0 (by norm_num) [z]
    obtain ⟨F, rfl⟩ := one hFs
    refine ⟨F, hFs, ?_⟩
    have := C90_reflected_orders exSort_spec hd le_rfl hc slab_placed exExc_mk one_pos hcos h00 one_pos hsup [] hist R' T'
      (.idx 0) 0 z F hby (by unfold getLayer; rw [hst]; rfl) hFs i
    rw [hR, one_pow, hk, hcos1] at this
    rw [this]
    field_simp

end Examples

end Nannos
