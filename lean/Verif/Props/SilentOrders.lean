import Verif.Props.Classical
import Verif.Proofs.GratingModes
import Verif.Spec.GratingEquation
import Verif.Props.Orders
import Verif.Props.Planar
import Verif.Proofs.AllForms

/-! **C110**: evanescent orders carry no power. -/

namespace Nannos

open Matrix Spec

section
variable {E : Ext} {lats : ℕ → Lattice} {mats : ℕ → LayerSpec} {stack : List ℕ} {wl : ℝ} {ang : ℝ × ℝ × ℝ}
  {exc : PlaneWave} {nh : ℤ} {form : String} {c : Static}

/-- The grating equation has one solution, the tangential wave vector of the simulation. -/
theorem grating_vector (hinit : simInit E lats mats stack exc nh form = .ok c) (hp : planeWave wl ang = .ok exc) {n : ℝ} (hn : 0 < n)
    (hsup : ∀ r, stack.head? = some r → (mats r).epsilon.value = ((n ^ 2 : ℝ) : ℂ) ∧ (mats r).mu = 1) (i : Fin c.nh) (k : ℝ × ℝ) :
    GratingEquation c.lattice.basis wl n exc.theta exc.phi (c.harmonics.get i) k ↔ k = ((c.kx i).re, (c.ky i).re) := by
  have hi := simInit_ok hinit
  obtain ⟨R, hR, hkx, hky⟩ := hi.recip
  obtain ⟨r0, tl, hst⟩ := List.exists_cons_of_ne_nil hi.ne
  have h0 : stack.head? = some r0 := by rw [hst]; rfl
  obtain ⟨s1, s2⟩ := hsup r0 h0
  obtain ⟨-, -, -, -, hk0⟩ := hi.sup r0 h0
  obtain ⟨-, -, -, -, -, hwn, hwv, -⟩ := planeWave_ok hp
  rw [s1, s2, mul_one, csqrt_ofReal (by positivity), Real.sqrt_sq hn.le] at hk0
  have d := reciprocal_dual hR
  have d00 := d 0 0
  have d01 := d 0 1
  have d10 := d 1 0
  have d11 := d 1 1
  rw [Fin.sum_univ_two] at d00 d01 d10 d11
  simp only [if_true, Fin.isValue, zero_ne_one, one_ne_zero, if_false] at d00 d01 d10 d11
  have ex : (c.kx i).re = n * (2 * Real.pi / wl) * Real.sin exc.theta * Real.cos exc.phi + R 0 0 * (c.harmonics.get i).1 +
      R 0 1 * (c.harmonics.get i).2 := by
    rw [hkx, kxOf, hk0, k0para, hwv, hwn]
    simp only [Matrix.cons_val_zero, Matrix.cons_val_one, Complex.add_re, Complex.mul_re, Complex.ofReal_re, Complex.ofReal_im,
      Complex.intCast_re, Complex.intCast_im]
    ring
  have ey : (c.ky i).re = n * (2 * Real.pi / wl) * Real.sin exc.theta * Real.sin exc.phi + R 1 0 * (c.harmonics.get i).1 +
      R 1 1 * (c.harmonics.get i).2 := by
    rw [hky, kyOf, hk0, k0para, hwv, hwn]
    simp only [Matrix.cons_val_zero, Matrix.cons_val_one, Complex.add_re, Complex.mul_re, Complex.ofReal_re, Complex.ofReal_im,
      Complex.intCast_re, Complex.intCast_im]
    ring
  generalize c.harmonics.get i = g at ex ey ⊢
  generalize c.lattice.basis = B at d00 d01 d10 d11 ⊢
  unfold GratingEquation
  rw [ex, ey]
  obtain ⟨k1, k2⟩ := k
  generalize n * (2 * Real.pi / wl) * Real.sin exc.theta = s
  have hpi := Real.pi_pos
  simp only [Prod.mk.injEq]
  constructor
  · rintro ⟨h1, h2⟩
    have hdet : (R 0 0 * R 1 1 - R 0 1 * R 1 0) * (B 0 0 * B 1 1 - B 0 1 * B 1 0) = (2 * Real.pi) ^ 2 := by
      linear_combination (R 0 1 * B 1 0 + R 1 1 * B 1 1) * d00 + 2 * Real.pi * d11 - (R 0 1 * B 0 0 + R 1 1 * B 0 1) * d01
    have hB : B 0 0 * B 1 1 - B 0 1 * B 1 0 ≠ 0 := by
      intro h
      rw [h, mul_zero] at hdet
      have : (0 : ℝ) < (2 * Real.pi) ^ 2 := by positivity
      linarith
    have e1 : (k1 - (s * Real.cos exc.phi + R 0 0 * g.1 + R 0 1 * g.2)) * B 0 0 +
        (k2 - (s * Real.sin exc.phi + R 1 0 * g.1 + R 1 1 * g.2)) * B 0 1 = 0 := by
      linear_combination h1 - (g.1 : ℝ) * d00 - (g.2 : ℝ) * d10
    have e2 : (k1 - (s * Real.cos exc.phi + R 0 0 * g.1 + R 0 1 * g.2)) * B 1 0 +
        (k2 - (s * Real.sin exc.phi + R 1 0 * g.1 + R 1 1 * g.2)) * B 1 1 = 0 := by
      linear_combination h2 - (g.1 : ℝ) * d01 - (g.2 : ℝ) * d11
    constructor
    · have : (k1 - (s * Real.cos exc.phi + R 0 0 * g.1 + R 0 1 * g.2)) * (B 0 0 * B 1 1 - B 0 1 * B 1 0) = 0 := by
        linear_combination B 1 1 * e1 - B 0 1 * e2
      exact sub_eq_zero.mp ((mul_eq_zero.mp this).resolve_right hB)
    · have : (k2 - (s * Real.sin exc.phi + R 1 0 * g.1 + R 1 1 * g.2)) * (B 0 0 * B 1 1 - B 0 1 * B 1 0) = 0 := by
        linear_combination B 0 0 * e2 - B 1 0 * e1
      exact sub_eq_zero.mp ((mul_eq_zero.mp this).resolve_right hB)
  · rintro ⟨rfl, rfl⟩
    constructor
    · linear_combination (g.1 : ℝ) * d00 + (g.2 : ℝ) * d10
    · linear_combination (g.1 : ℝ) * d01 + (g.2 : ℝ) * d11

theorem silent_transmitted (hinit : simInit E lats mats stack exc nh form = .ok c) (hw : WellPlaced mats stack)
    (hp : planeWave wl ang = .ok exc) (hwl : 0 < wl) (h00 : ((0 : ℤ), (0 : ℤ)) ∈ c.harmonics) {n e : ℝ} (hn : 0 < n)
    (hsup : ∀ r, stack.head? = some r → (mats r).epsilon.value = ((n ^ 2 : ℝ) : ℂ) ∧ (mats r).mu = 1)
    (hlast : ∀ r, stack.getLast? = some r →
      (mats r).isUniform = true ∧ (mats r).epsilon.value = (e : ℂ) ∧ (mats r).mu = 1)
    (hist : List (Call c.nh)) (R T : Fin c.nh → ℝ)
    (hRT : (efficienciesByOrder E c (afterCalls E c hist (Dyn.fresh mats (unsolved c.nh)))).1 = .ok (R, T))
    (i : Fin c.nh) (k : ℝ × ℝ) (hk : GratingEquation c.lattice.basis wl n exc.theta exc.phi (c.harmonics.get i) k)
    (hev : Evanescent wl e k) : T i = 0 := by
  obtain rfl := (grating_vector hinit hp hn hsup i k).mp hk
  have hi := simInit_ok hinit
  have hst : c.stack = stack := hi.stack_eq
  obtain ⟨A, hA⟩ := efficiencies_of_history hinit
  obtain ⟨hfix, -, S, r0, rN, M0, MN, f0, fN, hS, hr0, hrN, hM0, hMN, hf0, hfN, hne, he⟩ := hA hist _ hRT
  obtain ⟨rfl, rfl⟩ := Prod.ext_iff.mp he
  have hhead : stack.head? = some r0 := by rw [← hst, List.head?_eq_getElem?]; exact (pyGet_nat c.stack 0 r0).mp hr0
  have hlastN := pyGet_neg_one hrN
  obtain ⟨hu, heN, hmuN⟩ := hlast rN (by rw [← hst]; exact hlastN)
  obtain ⟨hs1, hs2⟩ := hsup r0 hhead
  have hgood := superstrate_facts hinit hp hwl h00 hn hhead hs1 hs2
  have hc := last_not_copy (k := stack.length - 1) hw
    (by rw [← hst, ← List.getLast?_eq_getElem?]; exact hlastN) hu
  obtain ⟨he0, g, hU⟩ := uniform_flux (hfix rN (pyGet_mem hrN)) hc hu hmuN hMN
  rw [heN] at hU he0
  have he0' : e ≠ 0 := by exact_mod_cast he0
  have hwE : c.omega = 2 * Real.pi / wl := by rw [hi.omega_eq, (planeWave_ok hp).2.1]; ring
  dsimp only
  rw [flux_forward hfN, orderFlux_real he0' hgood.omega hU hgood.kxr hgood.kyr (poyntingFlux_ok hfN) _ i 1
    (fun _ => Complex.normSq_one), hwE, Real.sqrt_eq_zero_of_nonpos (by unfold Evanescent at hev; dsimp only at hev; linarith)]
  simp

theorem silent_reflected (hinit : simInit E lats mats stack exc nh form = .ok c) (hw : WellPlaced mats stack)
    (hp : planeWave wl ang = .ok exc) (hwl : 0 < wl) (hcos : 0 < Real.cos exc.theta)
    (h00 : ((0 : ℤ), (0 : ℤ)) ∈ c.harmonics) {n : ℝ} (hn : 0 < n)
    (hsup : ∀ r, stack.head? = some r → (mats r).epsilon.value = ((n ^ 2 : ℝ) : ℂ) ∧ (mats r).mu = 1)
    (hist : List (Call c.nh)) (R T : Fin c.nh → ℝ)
    (hRT : (efficienciesByOrder E c (afterCalls E c hist (Dyn.fresh mats (unsolved c.nh)))).1 = .ok (R, T))
    (i : Fin c.nh) (k : ℝ × ℝ) (hk : GratingEquation c.lattice.basis wl n exc.theta exc.phi (c.harmonics.get i) k)
    (hev : Evanescent wl (n ^ 2) k) : R i = 0 := by
  obtain rfl := (grating_vector hinit hp hn hsup i k).mp hk
  have hi := simInit_ok hinit
  have hst : c.stack = stack := hi.stack_eq
  obtain ⟨A, hA⟩ := efficiencies_of_history hinit
  obtain ⟨hfix, -, S, r0, rN, M0, MN, f0, fN, hS, hr0, hrN, hM0, hMN, hf0, hfN, hne, he⟩ := hA hist _ hRT
  obtain ⟨rfl, rfl⟩ := Prod.ext_iff.mp he
  have hr0' : c.stack[0]? = some r0 := (pyGet_nat c.stack 0 r0).mp hr0
  have hhead : stack.head? = some r0 := by rw [← hst, List.head?_eq_getElem?]; exact hr0'
  obtain ⟨hs1, hs2⟩ := hsup r0 hhead
  have hgood := superstrate_facts hinit hp hwl h00 hn hhead hs1 hs2
  have hu := (hi.sup r0 hhead).1
  have hc := last_not_copy (k := 0) hw (by rw [← hst]; exact hr0') hu
  obtain ⟨-, g, hU⟩ := uniform_flux (hfix r0 (pyGet_mem hr0)) hc hu hs2 hM0
  rw [hs1] at hU
  have hwE : c.omega = 2 * Real.pi / wl := by rw [hi.omega_eq, (planeWave_ok hp).2.1]; ring
  have hq0 := poyntingFlux_ok hf0
  obtain ⟨hz, -⟩ := incident_flux hgood hp hcos hwl hU hq0
  dsimp only
  rw [flux_backward hU hgood.kxr hgood.kyr hf0 hz, orderFlux_real (by positivity) hgood.omega hU hgood.kxr hgood.kyr hq0 _ i 1
    (fun _ => Complex.normSq_one), hwE, Real.sqrt_eq_zero_of_nonpos (by unfold Evanescent at hev; dsimp only at hev; linarith)]
  simp

theorem balance (hinit : simInit E lats mats stack exc nh form = .ok c) (hE : EigContract E) (hw : WellPlaced mats stack)
    (hmu : ∀ r ∈ stack, (mats r).mu = 1) (hp : planeWave wl ang = .ok exc) (hwl : 0 < wl) (hcos : 0 < Real.cos exc.theta)
    (h00 : ((0 : ℤ), (0 : ℤ)) ∈ c.harmonics) (hform : form = "original" ∨ c.lattice.is1D = true ∨ (c.harmonics.Nodup ∧ ∀ r ∈ stack, (mats r).isUniform = false →
      (mats r).isAnisotropic = false ∧ ConstantVectorsUsed E c (mats r))) {n : ℝ} (hn : 0 < n)
    (hsup : ∀ r, stack.head? = some r → (mats r).epsilon.value = ((n ^ 2 : ℝ) : ℂ))
    (hin : ∀ k r, 0 < k → k + 1 < stack.length → stack[k]? = some r → Lossless (mats r))
    (hist : List (Call c.nh)) (R T : Fin c.nh → ℝ)
    (h : (efficienciesByOrder E c (afterCalls E c hist (Dyn.fresh mats (unsolved c.nh)))).1 = .ok (R, T)) :
    ∑ i, R i + ∑ i, T i = 1 := by
  obtain ⟨⟨κ, hκ, h2⟩, -⟩ := energy_balance_of lossCone_zero hinit hE hw hmu hp hwl hcos h00 (show 0 < n ^ 2 by positivity) hsup
    (fun k r a b d => ⟨fun _ _ hm => all_forms lossCone_zero hinit hw hform (List.mem_of_getElem? d) (hin k r a b d) hm,
      fun _ _ => trivial⟩) hist _ h
  rw [Set.mem_singleton_iff, mul_eq_zero] at h2
  rcases h2 with h2 | h2
  · exact absurd h2 hκ.ne'
  · dsimp only at h2
    linarith

/-- **C110**: a transmitted order which is evanescent in the last layer has efficiency zero. -/
theorem C110_transmitted_orders (hinit : simInit E lats mats stack exc nh form = .ok c) (hw : WellPlaced mats stack)
    (hp : planeWave wl ang = .ok exc) (hwl : 0 < wl) (h00 : ((0 : ℤ), (0 : ℤ)) ∈ c.harmonics) {n e : ℝ} (hn : 0 < n)
    (hsup : ∀ r, stack.head? = some r → (mats r).epsilon.value = ((n ^ 2 : ℝ) : ℂ) ∧ (mats r).mu = 1)
    (hlast : ∀ r, stack.getLast? = some r →
      (mats r).isUniform = true ∧ (mats r).epsilon.value = (e : ℂ) ∧ (mats r).mu = 1)
    (hist : List (Call c.nh)) (R T : Fin c.nh → ℝ)
    (hRT : (diffractionEfficiencies E c true (afterCalls E c hist (Dyn.fresh mats (unsolved c.nh)))).1 = .ok (.byOrder R T))
    (i : Fin c.nh) (k : ℝ × ℝ) (hk : GratingEquation c.lattice.basis wl n exc.theta exc.phi (c.harmonics.get i) k)
    (hev : Evanescent wl e k) : T i = 0 :=
  silent_transmitted hinit hw hp hwl h00 hn hsup hlast hist R T (efficiencies_by_order hRT) i k hk hev

/-- **C110**: a reflected order which is evanescent in the superstrate has efficiency zero. -/
theorem C110_reflected_orders (hinit : simInit E lats mats stack exc nh form = .ok c) (hw : WellPlaced mats stack)
    (hp : planeWave wl ang = .ok exc) (hwl : 0 < wl) (hcos : 0 < Real.cos exc.theta)
    (h00 : ((0 : ℤ), (0 : ℤ)) ∈ c.harmonics) {n : ℝ} (hn : 0 < n)
    (hsup : ∀ r, stack.head? = some r → (mats r).epsilon.value = ((n ^ 2 : ℝ) : ℂ) ∧ (mats r).mu = 1)
    (hist : List (Call c.nh)) (R T : Fin c.nh → ℝ)
    (hRT : (diffractionEfficiencies E c true (afterCalls E c hist (Dyn.fresh mats (unsolved c.nh)))).1 = .ok (.byOrder R T))
    (i : Fin c.nh) (k : ℝ × ℝ) (hk : GratingEquation c.lattice.basis wl n exc.theta exc.phi (c.harmonics.get i) k)
    (hev : Evanescent wl (n ^ 2) k) : R i = 0 :=
  silent_reflected hinit hw hp hwl hcos h00 hn hsup hist R T (efficiencies_by_order hRT) i k hk hev

/-- **C110**, total reflection: if no order that is kept propagates in the last layer, and nothing is absorbed between the first
layer and the last, then all the power is reflected. -/
theorem C110_total_reflection (hinit : simInit E lats mats stack exc nh form = .ok c) (hE : EigContract E) (hw : WellPlaced mats stack)
    (hmu : ∀ r ∈ stack, (mats r).mu = 1) (hp : planeWave wl ang = .ok exc) (hwl : 0 < wl) (hcos : 0 < Real.cos exc.theta)
    (h00 : ((0 : ℤ), (0 : ℤ)) ∈ c.harmonics) (hform : form = "original" ∨ c.lattice.is1D = true ∨ (c.harmonics.Nodup ∧ ∀ r ∈ stack, (mats r).isUniform = false →
      (mats r).isAnisotropic = false ∧ ConstantVectorsUsed E c (mats r))) {n e : ℝ} (hn : 0 < n)
    (hsup : ∀ r, stack.head? = some r → (mats r).epsilon.value = ((n ^ 2 : ℝ) : ℂ))
    (hlast : ∀ r, stack.getLast? = some r → (mats r).isUniform = true ∧ (mats r).epsilon.value = (e : ℂ))
    (hin : ∀ k r, 0 < k → k + 1 < stack.length → stack[k]? = some r → Lossless (mats r))
    (hev : ∀ g ∈ c.harmonics, ∀ k, GratingEquation c.lattice.basis wl n exc.theta exc.phi g k → Evanescent wl e k)
    (hist : List (Call c.nh)) (R T : ℝ)
    (hRT : (diffractionEfficiencies E c false (afterCalls E c hist (Dyn.fresh mats (unsolved c.nh)))).1 = .ok (.total R T)) :
    R = 1 ∧ T = 0 := by
  obtain ⟨R', T', h1, rfl, rfl⟩ := efficiencies_total hRT
  have hsup' : ∀ r, stack.head? = some r → (mats r).epsilon.value = ((n ^ 2 : ℝ) : ℂ) ∧ (mats r).mu = 1 :=
    fun r h => ⟨hsup r h, hmu r (List.mem_of_mem_head? h)⟩
  have hb := balance hinit hE hw hmu hp hwl hcos h00 hform hn hsup hin hist R' T' h1
  have hT : ∑ i, T' i = 0 := by
    refine Finset.sum_eq_zero fun i _ => ?_
    have hk := (grating_vector hinit hp hn hsup' i _).mpr rfl
    exact silent_transmitted hinit hw hp hwl h00 hn hsup' (fun r h => ⟨(hlast r h).1, (hlast r h).2, hmu r (List.mem_of_getLast? h)⟩) hist R' T' h1 i _
      hk (hev _ (List.get_mem _ _) _ hk)
  rw [hT, add_zero] at hb
  exact ⟨hb, hT⟩

/-- **C110**: if only the specular order propagates in the first and in the last layer, the specular reflection and transmission
of a stack which absorbs nothing add up to one. -/
theorem C110_specular_only (hA : ArgsortContract E.argsort) (hnh : 1 ≤ nh)
    (hinit : simInit E lats mats stack exc nh form = .ok c)
    (hd : ∀ H, c.lattice.harmonicsArray = some H → H.Nodup) (hE : EigContract E) (hw : WellPlaced mats stack)
    (hmu : ∀ r ∈ stack, (mats r).mu = 1) (hp : planeWave wl ang = .ok exc) (hwl : 0 < wl) (hcos : 0 < Real.cos exc.theta)
    (hform : form = "original" ∨ c.lattice.is1D = true ∨ (c.harmonics.Nodup ∧ ∀ r ∈ stack, (mats r).isUniform = false →
      (mats r).isAnisotropic = false ∧ ConstantVectorsUsed E c (mats r))) {n e : ℝ} (hn : 0 < n)
    (hsup : ∀ r, stack.head? = some r → (mats r).epsilon.value = ((n ^ 2 : ℝ) : ℂ))
    (hlast : ∀ r, stack.getLast? = some r → (mats r).isUniform = true ∧ (mats r).epsilon.value = (e : ℂ))
    (hin : ∀ k r, 0 < k → k + 1 < stack.length → stack[k]? = some r → Lossless (mats r))
    (hev : ∀ g ∈ c.harmonics, g ≠ (0, 0) → ∀ k, GratingEquation c.lattice.basis wl n exc.theta exc.phi g k →
      Evanescent wl (n ^ 2) k ∧ Evanescent wl e k)
    (hist : List (Call c.nh)) (R T : Fin c.nh → ℝ)
    (hRT : (diffractionEfficiencies E c true (afterCalls E c hist (Dyn.fresh mats (unsolved c.nh)))).1 = .ok (.byOrder R T))
    (i : Fin c.nh) (hi0 : c.harmonics.get i = (0, 0)) :
    R i + T i = 1 ∧ ∀ j, j ≠ i → R j = 0 ∧ T j = 0 := by
  have h1 := efficiencies_by_order hRT
  have h00 : ((0 : ℤ), (0 : ℤ)) ∈ c.harmonics := hi0 ▸ List.get_mem _ _
  have hsup' : ∀ r, stack.head? = some r → (mats r).epsilon.value = ((n ^ 2 : ℝ) : ℂ) ∧ (mats r).mu = 1 :=
    fun r h => ⟨hsup r h, hmu r (List.mem_of_mem_head? h)⟩
  have hnd : c.harmonics.Nodup := harmonics_distinct hA hinit hnh hd
  have hz : ∀ j, j ≠ i → R j = 0 ∧ T j = 0 := by
    intro j hj
    have hne : c.harmonics.get j ≠ (0, 0) := fun h => hj (hnd.injective_get (h.trans hi0.symm))
    have hk := (grating_vector hinit hp hn hsup' j _).mpr rfl
    obtain ⟨e1, e2⟩ := hev _ (List.get_mem _ _) hne _ hk
    exact ⟨silent_reflected hinit hw hp hwl hcos h00 hn hsup' hist R T h1 j _ hk e1,
      silent_transmitted hinit hw hp hwl h00 hn hsup' (fun r h => ⟨(hlast r h).1, (hlast r h).2, hmu r (List.mem_of_getLast? h)⟩)
        hist R T h1 j _ hk e2⟩
  refine ⟨?_, hz⟩
  have hb := balance hinit hE hw hmu hp hwl hcos h00 hform hn hsup hin hist R T h1
  rwa [Fintype.sum_eq_single i fun j hj => (hz j hj).1, Fintype.sum_eq_single i fun j hj => (hz j hj).2] at hb

/-- In a lattice of one period `a` which is small enough, only the specular order propagates. -/
theorem subwavelength_evanescent {basis : Fin 2 → Fin 2 → ℝ} {a n e theta phi : ℝ} (hB : basis = ![![a, 0], ![0, 1]]) (ha : 0 < a) (hwl : 0 < wl)
    (hn : 0 < n) (hsub : a * (n * |Real.sin theta| + max n (Real.sqrt e)) ≤ wl) {m : ℤ} (hm : m ≠ 0) {k : ℝ × ℝ}
    (hk : GratingEquation basis wl n theta phi (m, 0) k) : Evanescent wl (n ^ 2) k ∧ Evanescent wl e k := by
  obtain ⟨hk, -⟩ := hk
  rw [hB] at hk
  simp only [Matrix.cons_val_zero, Matrix.cons_val_one, mul_zero, add_zero] at hk
  have hpi := Real.pi_pos
  set w := 2 * Real.pi / wl with hwdef
  have hw : 0 < w := by positivity
  have hww : w * wl = 2 * Real.pi := by rw [hwdef]; field_simp
  have hm1 : (1 : ℝ) ≤ |(m : ℝ)| := by
    rw [← Int.cast_abs]; exact_mod_cast Int.one_le_abs hm
  have hc1 : |Real.cos phi| ≤ 1 := Real.abs_cos_le_one phi
  have hlow : a * (w * max n (Real.sqrt e)) ≤ a * |k.1| := by
    have h1 : 2 * Real.pi * |(m : ℝ)| ≤ a * |k.1| + n * w * |Real.sin theta| * a := by
      have e1 : 2 * Real.pi * (m : ℝ) = k.1 * a - n * w * Real.sin theta * (Real.cos phi * a) := by linarith
      calc 2 * Real.pi * |(m : ℝ)| = |2 * Real.pi * (m : ℝ)| := by rw [abs_mul, abs_of_pos (by positivity : 0 < 2 * Real.pi)]
        _ = |k.1 * a - n * w * Real.sin theta * (Real.cos phi * a)| := by rw [e1]
        _ ≤ |k.1 * a| + |n * w * Real.sin theta * (Real.cos phi * a)| := abs_sub _ _
        _ = a * |k.1| + n * w * |Real.sin theta| * (|Real.cos phi| * a) := by
            rw [abs_mul, abs_mul, abs_mul, abs_mul (Real.cos phi), abs_of_pos ha, abs_of_pos (by positivity : 0 < n * w)]; ring
        _ ≤ a * |k.1| + n * w * |Real.sin theta| * (1 * a) := by gcongr
        _ = _ := by ring
    have h2 : w * (a * (n * |Real.sin theta| + max n (Real.sqrt e))) ≤ 2 * Real.pi := by
      rw [← hww]; exact mul_le_mul_of_nonneg_left hsub hw.le
    have h3 : 2 * Real.pi ≤ 2 * Real.pi * |(m : ℝ)| := le_mul_of_one_le_right (by positivity) hm1
    nlinarith
  have hk1 : w * max n (Real.sqrt e) ≤ |k.1| := le_of_mul_le_mul_left hlow ha
  have sq : ∀ x, 0 ≤ x → x ≤ max n (Real.sqrt e) → x ^ 2 * w ^ 2 ≤ k.1 ^ 2 + k.2 ^ 2 := by
    intro x hx hxm
    have h1 : w * x ≤ |k.1| := (mul_le_mul_of_nonneg_left hxm hw.le).trans hk1
    have h2 : (w * x) ^ 2 ≤ |k.1| ^ 2 := pow_le_pow_left₀ (by positivity) h1 2
    rw [sq_abs] at h2
    nlinarith [sq_nonneg k.2]
  refine ⟨sq n hn.le (le_max_left _ _), ?_⟩
  have h1 := sq (Real.sqrt e) (Real.sqrt_nonneg _) (le_max_right _ _)
  have h2 : e ≤ Real.sqrt e ^ 2 := by
    rcases le_total 0 e with h | h
    · rw [Real.sq_sqrt h]
    · exact h.trans (sq_nonneg _)
  exact (mul_le_mul_of_nonneg_right h2 (sq_nonneg w)).trans h1

/-- **C110**: a grating with one period, shorter than the wavelength divided by the larger of the indices around it plus the
tangential index of the wave, reflects and transmits in the specular order only, with any formulation, and what it reflects and what
it transmits there add up to one when it absorbs nothing. -/
theorem C110_subwavelength (hA : ArgsortContract E.argsort) (hnh : 1 ≤ nh)
    (hinit : simInit E lats mats stack exc nh form = .ok c) (hE : EigContract E) (hw : WellPlaced mats stack)
    (hmu : ∀ r ∈ stack, (mats r).mu = 1) (hp : planeWave wl ang = .ok exc) (hwl : 0 < wl) (hcos : 0 < Real.cos exc.theta)
    {a : ℝ} {d t} (hlat : mkLattice (.period a) d t none = .ok c.lattice) (ha : 0 < a) {n e : ℝ} (hn : 0 < n)
    (hsup : ∀ r, stack.head? = some r → (mats r).epsilon.value = ((n ^ 2 : ℝ) : ℂ))
    (hlast : ∀ r, stack.getLast? = some r → (mats r).isUniform = true ∧ (mats r).epsilon.value = (e : ℂ))
    (hin : ∀ k r, 0 < k → k + 1 < stack.length → stack[k]? = some r → Lossless (mats r))
    (hsub : a * (n * |Real.sin exc.theta| + max n (Real.sqrt e)) ≤ wl)
    (hist : List (Call c.nh)) (R T : Fin c.nh → ℝ)
    (hRT : (diffractionEfficiencies E c true (afterCalls E c hist (Dyn.fresh mats (unsolved c.nh)))).1 = .ok (.byOrder R T))
    (i : Fin c.nh) (hi0 : c.harmonics.get i = (0, 0)) :
    R i + T i = 1 ∧ ∀ j, j ≠ i → R j = 0 ∧ T j = 0 := by
  have hi := simInit_ok hinit
  obtain ⟨D, hl⟩ : ∃ D, c.lattice = ⟨![![a, 0], ![0, 1]], true, .oneD, (D, 1), none⟩ := by
    have hl := hlat
    unfold mkLattice at hl
    dsimp only at hl
    split at hl
    · simp at hl
    · simp only [Except.ok.injEq] at hl
      exact ⟨_, hl.symm⟩
  obtain ⟨h1d, -, hg, -⟩ := mono_orders hi ⟨a, d, t, hlat⟩
  refine C110_specular_only hA hnh hinit (fun H h => ?_) hE hw hmu hp hwl hcos (.inr (.inl h1d)) hn hsup hlast hin (fun g hgm hg0 k hk => ?_)
    hist R T hRT i hi0
  · rw [hl] at h; simp at h
  · obtain ⟨m, m'⟩ := g
    obtain rfl : m' = 0 := hg _ hgm
    exact subwavelength_evanescent (by rw [hl]) ha hwl hn hsub (fun h => hg0 (by rw [h])) hk

end

namespace Examples

/-- C110, total reflection: 60 degrees in a medium of index 2, under which there is air. -/
example : ∃ (exc : PlaneWave) (c : Static) (R T : ℝ), planeWave 1 (60, 30, 45) = .ok exc ∧
    simInit exE (fun _ => exLat) (filmMats (fun r => if r = 0 then 4 else 1) 1 0) [0, 1] exc 1 "original" = .ok c ∧
    (∀ g ∈ c.harmonics, ∀ k, GratingEquation c.lattice.basis 1 2 exc.theta exc.phi g k → Evanescent 1 1 k) ∧
    (diffractionEfficiencies exE c false
      (afterCalls exE c [] (Dyn.fresh (filmMats (fun r => if r = 0 then 4 else 1) 1 0) (unsolved c.nh)))).1 = .ok (.total R T) ∧
    R = 1 ∧ T = 0 := by
  obtain ⟨exc, hp, hs, hc, hpsi⟩ := oblique_wave 1 30 45 one_pos
  obtain ⟨c, hi, hH, hl⟩ := planar_init (filmMats (fun r => if r = 0 then 4 else 1) 1 0) 0 [1] exc (by simp [filmMats, exLayer])
    (by simp [filmMats, exLayer]) (filmMats_hom _ _ _ _) (by rw [filmMats_eps, filmMats_mu]; simp)
  have hcos : 0 < Real.cos exc.theta := by rw [hc]; norm_num
  have h00 : ((0 : ℤ), (0 : ℤ)) ∈ c.harmonics := by rw [hH]; simp
  have he0 : (filmMats (fun r => if r = 0 then 4 else 1) 1 0 0).epsilon.value = (((2 : ℝ) ^ 2 : ℝ) : ℂ) := by
    rw [filmMats_eps]; norm_num
  obtain ⟨RT, h⟩ := C80_planar_defined hi (fun r _ => filmMats_hom _ _ _ r) hp one_pos hcos h00 (show (0 : ℝ) < 2 ^ 2 by norm_num) rfl he0 rfl
    exSort_spec (by rw [hl]; rfl) (by simp) (fun r _ => rfl) (fun r _ => by rw [filmMats_eps]; split_ifs <;> norm_num)
    (fun r hr => by
      rw [filmMats_eps, hs]
      simp only [List.mem_cons, List.not_mem_nil, or_false] at hr
      rcases hr with rfl | rfl
      · norm_num [Complex.ext_iff]
      · norm_num [Complex.ext_iff])
    (fun k r h1 h2 => by simp at h2; omega) []
  have hev : ∀ g ∈ c.harmonics, ∀ k, GratingEquation c.lattice.basis 1 2 exc.theta exc.phi g k → Evanescent 1 1 k := by
    intro g hg k hk
    obtain rfl : g = (0, 0) := by rw [hH] at hg; simpa using hg
    rw [hl] at hk
    obtain ⟨k1, k2⟩ := hk
    simp only [exLat, Matrix.cons_val_zero, Matrix.cons_val_one, mul_zero, mul_one, add_zero, zero_add, Int.cast_zero] at k1 k2
    unfold Evanescent
    rw [k1, k2]
    have := Real.sin_sq_add_cos_sq exc.phi
    have e1 : (2 * (2 * Real.pi / 1) * Real.sin exc.theta * Real.cos exc.phi) ^ 2 +
        (2 * (2 * Real.pi / 1) * Real.sin exc.theta * Real.sin exc.phi) ^ 2 = 3 * (2 * Real.pi) ^ 2 := by
      linear_combination 16 * Real.pi ^ 2 * (Real.sin exc.phi ^ 2 + Real.cos exc.phi ^ 2) * hs + 12 * Real.pi ^ 2 * this
    rw [e1]
    nlinarith [sq_nonneg (2 * Real.pi)]
  have hT : (diffractionEfficiencies exE c false
      (afterCalls exE c [] (Dyn.fresh (filmMats (fun r => if r = 0 then 4 else 1) 1 0) (unsolved c.nh)))).1 =
      .ok (.total (∑ i, RT.1 i) (∑ i, RT.2 i)) := by
    unfold diffractionEfficiencies
    rw [PyM.bind_ok (Prod.ext_iff.mpr ⟨h, rfl⟩)]
    rfl
  refine ⟨exc, c, _, _, hp, hi, hev, hT, ?_⟩
  refine C110_total_reflection hi exE_eig (fun k r _ hcp => by simp [filmMats, exLayer] at hcp) (fun r _ => rfl) hp one_pos hcos h00 (.inl rfl) (n := 2) (e := 1) two_pos
    (fun r hr => ?_) (fun r hr => ?_) (fun k r h1 h2 => by simp at h2; omega) hev [] _ _ hT
  · obtain rfl : 0 = r := by simpa using hr
    exact he0
  · obtain rfl : 1 = r := by simpa using hr
    exact ⟨rfl, by rw [filmMats_eps]; simp⟩

/-- C110: a grating of period 1, seen at normal incidence at the wavelength 2 between media of index 1 and 2: the hypothesis on the
period holds, and so the orders other than the specular one are evanescent on both sides. -/
example (m : ℤ) (hm : m ≠ 0) : GratingEquation exLat.basis 2 1 0 0 (m, 0) (2 * Real.pi * m, 0) ∧
    Evanescent 2 (1 ^ 2) (2 * Real.pi * m, 0) ∧ Evanescent 2 4 (2 * Real.pi * m, 0) := by
  have hk : GratingEquation exLat.basis 2 1 0 0 (m, 0) (2 * Real.pi * m, 0) := by
    constructor <;> simp [exLat]
  have h2 : Real.sqrt 4 = 2 := by rw [show (4 : ℝ) = 2 ^ 2 by norm_num, Real.sqrt_sq two_pos.le]
  exact ⟨hk, subwavelength_evanescent rfl one_pos two_pos one_pos (by rw [h2]; simp) hm hk⟩

end Examples

end Nannos
