import Verif.Proofs.EnergyStack
import Verif.Proofs.FieldEqs
import Verif.Spec.Absorption
import Verif.Spec.Stress
import Mathlib.MeasureTheory.Integral.IntervalIntegral.FundThmCalculus

/-! Poynting's theorem for the fields of a layer and of a stack (C75). -/

namespace Nannos

open Matrix Spec

variable {E : Ext} {c : Static} {mats : ℕ → LayerSpec}

/-- The total flux of a field. -/
noncomputable def flux {nh : ℕ} (F : FieldF nh) : ℝ := ∑ i, Spec.orderFlux F i

section
variable {L : LayerSpec} {a : LayerAttr c.nh} {P : Matrix (Idx c.nh) (Idx c.nh) ℂ} {e : Matrix (Fin c.nh) (Fin c.nh) ℂ}
  {M : Modes (Idx c.nh)} {ai bi : Idx c.nh → ℂ} {F : ℝ → FieldF c.nh}

theorem power_flux (hom : c.omega ≠ 0) {z : ℝ} {F : FieldF c.nh} (hF : FieldSpec c L a M ai bi z F) :
    power M ai bi z = c.omega * flux F := by
  have h0 : (c.omega : ℂ) ≠ 0 := by exact_mod_cast hom
  unfold power flux Spec.orderFlux
  rw [dotProduct, Fintype.sum_sum_type, ← Finset.sum_add_distrib, Complex.re_sum, Finset.mul_sum]
  refine Finset.sum_congr rfl fun i _ => ?_
  have e1 : tanE M ai bi z (.inr i) = c.omega * F.ex i := by rw [hF.ex]; field_simp
  have e2 : tanE M ai bi z (.inl i) = -(c.omega * F.ey i) := by rw [hF.ey]; field_simp
  rw [Pi.star_apply, Pi.star_apply, e1, e2, ← hF.hx, ← hF.hy]
  simp
  ring

/-- Poynting's theorem. -/
theorem flux_deriv (hom : c.omega ≠ 0) (hkx : ∀ i, star (c.kx i) = c.kx i) (hky : ∀ i, star (c.ky i) = c.ky i)
    (hm : MediumModes c L a P e) (hM : modesOf L a = .ok M) (hq : ∀ k, M.q k ≠ 0)
    (hF : ∀ z, FieldSpec c L a M ai bi z (F z)) (z : ℝ) :
    HasDerivAt (fun z => flux (F z)) (-(c.omega * dissipation P e (F z))) z := by
  obtain ⟨ev, hev, hw⟩ := hm.eig
  have hMe : M = ⟨ev.1, ev.2, (c.omega : ℂ) ^ 2 • 1 - kEps c.kx c.ky e⁻¹, L.thickness⟩ := by
    unfold modesOf at hM
    rw [hev, hm.Q] at hM
    simpa [attr] using hM.symm
  have hQ : M.Q = (c.omega : ℂ) ^ 2 • 1 - kEps c.kx c.ky e⁻¹ := by rw [hMe]
  have hR : (P - ((c.omega : ℂ) ^ 2)⁻¹ • kMu c.kx c.ky) * M.Q * M.phi =
      M.phi * diagonal (fun k => M.q k ^ 2) := by
    rw [hQ, ← waveMatrix_factor hom, hMe]
    exact hw
  have h0 : (c.omega : ℂ) ≠ 0 := by exact_mod_cast hom
  have hso : star (c.omega : ℂ) = c.omega := Complex.conj_ofReal _
  have hU := det_unit hm.det
  have h1 := power_deriv M hR hq ai bi z
  have h2 : (fun z => flux (F z)) = fun z => c.omega⁻¹ * power M ai bi z := by
    funext z
    rw [power_flux hom (hF z)]
    field_simp
  rw [h2]
  refine (h1.const_mul _).congr_deriv ?_
  -- the magnetic part
  have ez : e *ᵥ (F z).ez = fun i => (c.ky i * (F z).hx i - c.kx i * (F z).hy i) / c.omega := hm.normal _ _ (hF z).ez
  set v : Fin c.nh → ℂ := fun j => c.ky j * tanH M ai bi z (.inl j) - c.kx j * tanH M ai bi z (.inr j) with hv
  have hv' : v = (c.omega : ℂ) • (e *ᵥ (F z).ez) := by
    rw [ez]
    funext i
    simp only [hv, Pi.smul_apply, smul_eq_mul, (hF z).hx, (hF z).hy]
    field_simp
  have e1 : star (tanH M ai bi z) ⬝ᵥ kEps c.kx c.ky e⁻¹ *ᵥ tanH M ai bi z = star v ⬝ᵥ e⁻¹ *ᵥ v := by
    rw [kEps_mulVec, ← hv]
    simp only [dotProduct, Fintype.sum_sum_type, Sum.elim_inl, Sum.elim_inr, Pi.star_apply,
      ← Finset.sum_add_distrib]
    refine Finset.sum_congr rfl fun i _ => ?_
    have : star (v i) = c.ky i * star (tanH M ai bi z (.inl i)) - c.kx i * star (tanH M ai bi z (.inr i)) := by
      rw [hv, star_sub, star_mul', star_mul', hkx, hky]
    rw [this]; ring
  have e2 : (star (tanH M ai bi z) ⬝ᵥ ((c.omega : ℂ) ^ 2 • (1 : Matrix (Idx c.nh) (Idx c.nh) ℂ)) *ᵥ tanH M ai bi z).im = 0 :=
    form_smul_one lossCone_zero (by rw [← Complex.ofReal_pow, Set.mem_singleton_iff, Complex.ofReal_im]) _
  have e3 : e⁻¹ *ᵥ v = (c.omega : ℂ) • (F z).ez := by
    rw [hv', mulVec_smul, mulVec_mulVec, nonsing_inv_mul _ hU, one_mulVec]
  have e4 : (star v ⬝ᵥ e⁻¹ *ᵥ v).im = -(c.omega ^ 2 * (star (F z).ez ⬝ᵥ e *ᵥ (F z).ez).im) := by
    rw [e3, hv', star_smul, smul_dotProduct, dotProduct_smul, hso, smul_eq_mul, smul_eq_mul,
      Complex.im_ofReal_mul, Complex.im_ofReal_mul, im_star_dot]
    ring
  have e5 : (star (tanH M ai bi z) ⬝ᵥ M.Q *ᵥ tanH M ai bi z).im = c.omega ^ 2 * (star (F z).ez ⬝ᵥ e *ᵥ (F z).ez).im := by
    rw [hQ, sub_mulVec, dotProduct_sub, Complex.sub_im, e2, e1, e4]
    ring
  -- the electric part
  have e6 : star (tanE M ai bi z) ⬝ᵥ kMu c.kx c.ky *ᵥ tanE M ai bi z =
      ((∑ i, Complex.normSq (c.kx i * tanE M ai bi z (.inl i) + c.ky i * tanE M ai bi z (.inr i)) : ℝ) : ℂ) := by
    rw [kMu_mulVec]
    simp only [dotProduct, Fintype.sum_sum_type, Sum.elim_inl, Sum.elim_inr, Pi.star_apply,
      ← Finset.sum_add_distrib, Complex.ofReal_sum]
    refine Finset.sum_congr rfl fun i _ => ?_
    rw [Complex.normSq_eq_conj_mul_self, ← RCLike.star_def, star_add, star_mul', star_mul', hkx, hky]
    ring
  have e7 : (((c.omega : ℂ) ^ 2)⁻¹ *
      ((∑ i, Complex.normSq (c.kx i * tanE M ai bi z (.inl i) + c.ky i * tanE M ai bi z (.inr i)) : ℝ) : ℂ)).im = 0 := by
    rw [← Complex.ofReal_pow, ← Complex.ofReal_inv, ← Complex.ofReal_mul, Complex.ofReal_im]
  have hE : tanE M ai bi z = (c.omega : ℂ) • Sum.elim (fun i => -(F z).ey i) (F z).ex := by
    funext k
    rcases k with i | i
    · simp only [Pi.smul_apply, Sum.elim_inl, smul_eq_mul, (hF z).ey]
      field_simp
    · simp only [Pi.smul_apply, Sum.elim_inr, smul_eq_mul, (hF z).ex]
      field_simp
  have e8 : (star (tanE M ai bi z) ⬝ᵥ (P - ((c.omega : ℂ) ^ 2)⁻¹ • kMu c.kx c.ky) *ᵥ tanE M ai bi z).im =
      c.omega ^ 2 * (∑ i, (star ((F z).ex i) * dispX P (F z).ex (F z).ey i + star ((F z).ey i) * dispY P (F z).ex (F z).ey i)).im := by
    rw [sub_mulVec, dotProduct_sub, Complex.sub_im, smul_mulVec, dotProduct_smul, e6, smul_eq_mul, e7, sub_zero, hE,
      mulVec_smul, star_smul, smul_dotProduct, dotProduct_smul, hso, smul_eq_mul, smul_eq_mul,
      Complex.im_ofReal_mul, Complex.im_ofReal_mul, ← mul_assoc, ← pow_two]
    congr 2
    rw [dotProduct, Fintype.sum_sum_type, ← Finset.sum_add_distrib]
    refine Finset.sum_congr rfl fun i _ => ?_
    simp only [mulVec, dotProduct, Fintype.sum_sum_type, Pi.star_apply, Sum.elim_inl, Sum.elim_inr, dispX, dispY,
      ← Finset.sum_add_distrib, star_neg]
    ring
  rw [e5, e8]
  unfold dissipation
  rw [show (∑ i, (star ((F z).ex i) * dispX P (F z).ex (F z).ey i + star ((F z).ey i) * dispY P (F z).ex (F z).ey i +
      star ((F z).ez i) * (e *ᵥ (F z).ez) i)) = (∑ i, (star ((F z).ex i) * dispX P (F z).ex (F z).ey i +
        star ((F z).ey i) * dispY P (F z).ex (F z).ey i)) + star (F z).ez ⬝ᵥ e *ᵥ (F z).ez from Finset.sum_add_distrib,
    Complex.add_im]
  field_simp
  ring

theorem fields_continuous (hm : MediumModes c L a P e) (hq : ∀ k, M.q k ≠ 0) (hF : ∀ z, FieldSpec c L a M ai bi z (F z)) :
    Continuous fun z => dissipation P e (F z) := by
  have cE : ∀ k, Continuous fun z : ℝ => tanE M ai bi z k := by
    intro k
    unfold tanE
    fun_prop
  have cH : ∀ k, Continuous fun z : ℝ => tanH M ai bi z k := by
    intro k
    unfold tanH
    fun_prop
  have x1 : ∀ i, Continuous fun z => (F z).ex i := fun i => by
    simp only [(hF _).ex]
    exact (cE _).div_const _
  have x2 : ∀ i, Continuous fun z => (F z).ey i := fun i => by
    simp only [(hF _).ey]
    exact ((cE _).div_const _).neg
  have hU := det_unit hm.det
  have x3 : ∀ i, Continuous fun z => (F z).ez i := by
    intro i
    have : ∀ z, (F z).ez = e⁻¹ *ᵥ fun i => (c.ky i * tanH M ai bi z (.inl i) - c.kx i * tanH M ai bi z (.inr i)) / c.omega := by
      intro z
      have := hm.normal _ _ (hF z).ez
      simp only [(hF z).hx, (hF z).hy] at this
      rw [← this, mulVec_mulVec, nonsing_inv_mul _ hU, one_mulVec]
    simp only [this, mulVec, dotProduct]
    fun_prop
  unfold dissipation dispX dispY mulVec dotProduct
  fun_prop

/-- Poynting's theorem, integrated. -/
theorem flux_integral (hom : c.omega ≠ 0) (hkx : ∀ i, star (c.kx i) = c.kx i) (hky : ∀ i, star (c.ky i) = c.ky i)
    (hm : MediumModes c L a P e) (hM : modesOf L a = .ok M) (hq : ∀ k, M.q k ≠ 0)
    (hF : ∀ z, FieldSpec c L a M ai bi z (F z)) (z z' : ℝ) :
    flux (F z) - flux (F z') = c.omega * ∫ t in z..z', dissipation P e (F t) := by
  have h := intervalIntegral.integral_eq_sub_of_hasDerivAt (fun t _ => flux_deriv hom hkx hky hm hM hq hF t)
    ((((fields_continuous hm hq hF).const_smul c.omega).neg).intervalIntegrable z z')
  simp only [smul_eq_mul, intervalIntegral.integral_neg, intervalIntegral.integral_const_mul] at h
  linarith

end

/-- The power lost between the bottom of the first layer and the top of layer `n + 1`, layer by layer. -/
theorem stack_power {layers : List (Modes (Idx c.nh))} {amp : ℕ → (Idx c.nh → ℂ) × (Idx c.nh → ℂ)} {L0 : Modes (Idx c.nh)}
    (hL0 : layers[0]? = some L0) {loss : ℕ → ℝ} : ∀ n, n + 1 < layers.length → Consistent layers 0 (n + 1) amp →
      (∀ k L, 0 < k → k ≤ n → layers[k]? = some L →
        power L (amp k).1 (amp k).2 0 - power L (amp k).1 (amp k).2 L.z = loss k) →
      ∀ L', layers[n + 1]? = some L' →
        power L0 (amp 0).1 (amp 0).2 L0.z - power L' (amp (n + 1)).1 (amp (n + 1)).2 0 = ∑ k ∈ Finset.range n, loss (k + 1) := by
  intro n
  induction n with
  | zero =>
    intro _ hc _ L' hL'
    rw [power_match (hc 0 L0 L' le_rfl (by omega) hL0 hL'), sub_self]
    simp
  | succ n ih =>
    intro hn hc hl L' hL'
    obtain ⟨L, hL⟩ : ∃ L, layers[n + 1]? = some L := ⟨_, List.getElem?_eq_getElem (by omega)⟩
    have h1 := ih (by omega) (consistent_mono (by omega) hc) (fun k L h0 hk => hl k L h0 (by omega)) L hL
    have h2 := hl (n + 1) L (by omega) le_rfl hL
    have h3 := power_match (hc (n + 1) L L' (by omega) (by omega) hL hL')
    rw [Finset.sum_range_succ, ← h1, ← h2, ← h3]
    ring

/-- The fluxes at the two ends of the stack in terms of the efficiencies. -/
theorem flux_balance {A1 : ℕ → LayerAttr c.nh} {res} {lats stack exc nh form}
    (hinit : simInit E lats mats stack exc nh form = .ok c) (hw : WellPlaced mats stack)
    (hmu : ∀ r ∈ stack, (mats r).mu = 1) {wl ang} (hp : planeWave wl ang = .ok exc) (hwl : 0 < wl)
    (hcos : 0 < Real.cos exc.theta) (h00 : ((0 : ℤ), (0 : ℤ)) ∈ c.harmonics) {e : ℝ} (hpos : 0 < e)
    (hsup : ∀ r0, stack.head? = some r0 → (mats r0).epsilon.value = (e : ℂ))
    (hs : SolveSpec E c mats (unsolved c.nh) A1 res)
    (hist : List (Call c.nh)) (RT : (Fin c.nh → ℝ) × (Fin c.nh → ℝ))
    (h : (efficienciesByOrder E c (afterCalls E c hist (Dyn.fresh mats (unsolved c.nh)))).1 = .ok RT) :
    GoodSup c exc (Real.sqrt e) ∧ (∀ r ∈ c.stack, LayerFix E c mats A1 r) ∧ 0 < c.stack.length - 1 ∧
    ∃ amp M0 MN, StackSolution (stackModes c mats A1) c.a0 amp ∧ (stackModes c mats A1)[0]? = some M0 ∧
      (stackModes c mats A1)[c.stack.length - 1]? = some MN ∧
      (∀ k L, k ≤ c.stack.length - 1 → (stackModes c mats A1)[k]? = some L → ∀ j, L.q j ≠ 0) ∧
      power M0 (amp 0).1 (amp 0).2 M0.z = c.omega * c.incidentFlux * (1 - ∑ i, RT.1 i) ∧
      power MN (amp (c.stack.length - 1)).1 (amp (c.stack.length - 1)).2 0 = c.omega * c.incidentFlux * ∑ i, RT.2 i := by
  have hi := simInit_ok hinit
  have hst : c.stack = stack := hi.stack_eq
  have hnd : c.stack.Nodup := hst ▸ hi.nodup
  have h0 : Inv E c mats (unsolved c.nh) A1 res (Dyn.fresh mats (unsolved c.nh)) := inv_fresh _ (.inl rfl)
  have h1 := h0.calls hs hist
  generalize afterCalls E c hist (Dyn.fresh mats (unsolved c.nh)) = d at h h1
  obtain ⟨hres, SM, r0, rN, M0, MN, f0, fN, hSM, hr0, hrN, hM0, hMN, hf0, hfN, hne, rfl⟩ :=
    yields_efficiencies hs d RT (efficienciesByOrder E c d).2 h1 (Prod.ext h rfl)
  have hfix := hs.fix hnd hres
  subst hres
  -- the stack
  have hlen := stackModes_length c mats A1
  have hpos' : 0 < c.stack.length := List.length_pos_iff.mpr (by
    rintro e; have := pyGet_mem hr0; rw [e] at this; simp at this)
  have hfull : 0 < c.stack.length - 1 ∧
      loopS (stackModes c mats A1) (0 : ℕ) (((stackModes c mats A1).length - 1 : ℕ) : ℤ) = .ok SM := by
    rw [valS_none, valS_solved hfix] at hSM
    have : ((c.stack.length : ℤ) - 1) = (((stackModes c mats A1).length - 1 : ℕ) : ℤ) := by
      rw [hlen]; omega
    rw [this] at hSM
    have := (freshS_ok (i := 0)).mp hSM
    rw [hlen] at this ⊢
    exact this
  obtain ⟨hlt, hloop⟩ := hfull
  obtain ⟨amp, ⟨hcons, ha0, hbN⟩, hb0, haN, -⟩ := solution_ext c.a0 hloop
  have hqs := loopS_q hloop (by rw [hlen]; exact hlt)
  have hr0' : c.stack[0]? = some r0 := (pyGet_nat c.stack 0 r0).mp hr0
  have hrN' : c.stack[c.stack.length - 1]? = some rN := by
    unfold pyGet at hrN
    have e3 : pyIdx c.stack.length (-1) = some (c.stack.length - 1) := by
      unfold pyIdx
      rw [if_neg (by omega), if_pos (by omega)]
      congr 1
      omega
    rw [e3] at hrN
    dsimp only at hrN
    rw [List.getElem?_eq_getElem (by omega)] at hrN
    rw [List.getElem?_eq_getElem (by omega)]
    exact congrArg some (Except.ok.inj hrN)
  have hmd : ∀ (k r : ℕ) (M), c.stack[k]? = some r → modesOf (mats r) (A1 r) = .ok M →
      (stackModes c mats A1)[k]? = some M := by
    intro k r M hk hM
    have hs := hfix r (List.mem_of_getElem? hk)
    rw [hs.form.modesD] at hM
    unfold stackModes
    rw [List.getElem?_map, hk, ← Except.ok.inj hM]
    rfl
  have hL0 := hmd 0 r0 M0 hr0' hM0
  have hLN := hmd _ rN MN hrN' hMN
  have hhead : stack.head? = some r0 := by rw [← hst, List.head?_eq_getElem?, hr0']
  have hm0 : r0 ∈ stack := hst ▸ pyGet_mem hr0
  have hg := good_sup hi (by rw [(planeWave_ok hp).2.1]; exact hwl) hhead (hmu r0 hm0) (hsup r0 hhead) hpos h00
  have hom := hg.omega
  have hc0 : (mats r0).iscopy = false := by
    by_contra hcon
    obtain ⟨⟨j, hj, -⟩, -⟩ := hw 0 r0 (hst ▸ hr0') (by simpa using hcon)
    omega
  obtain ⟨-, g, hu⟩ := uniform_flux (hfix r0 (pyGet_mem hr0)) hc0 (hi.sup r0 hhead).1 (hmu r0 hm0) hM0
  rw [hsup r0 hhead] at hu
  have hsq : ((Real.sqrt e ^ 2 : ℝ) : ℂ) = (e : ℂ) := by rw [Real.sq_sqrt hpos.le]
  have hq0 := poyntingFlux_ok hf0
  obtain ⟨hev, hinc⟩ := incident_flux hg hp hcos hwl (gz := g) (by rw [hsq]; exact hu) hq0
  have hR := flux_backward hu hg.kxr hg.kyr hf0 hev
  have hT := flux_forward hfN
  have pT := power_forward (c := c) hom.ne' (M := MN) (a := SM.s11 *ᵥ c.a0)
  have pB := power_bottom hom.ne' hu hg.kxr hg.kyr (b := SM.s21 *ᵥ c.a0) hq0 hev
  rw [hinc] at pB
  have hinc0 : 0 < c.incidentFlux := by rw [hg.flux]; exact div_pos hcos hg.pos
  refine ⟨hg, hfix, hlt, amp, M0, MN, ⟨hcons, ha0, hbN⟩, hL0, hLN, ?_, ?_, ?_⟩
  · intro k L hk hL
    exact hqs k L (by rw [hlen]; omega) hL
  · rw [ha0, hb0, pB]
    dsimp only
    rw [← Finset.sum_div, Finset.sum_congr rfl fun i _ => hR i]
    field_simp
  · rw [← hlen, haN, hbN, pT]
    dsimp only
    rw [← Finset.sum_div, Finset.sum_congr rfl fun i _ => hT i]
    field_simp

end Nannos
