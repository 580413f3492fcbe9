import Verif.Proofs.AbsorbingStack
import Verif.Proofs.GaugeSim
import Verif.Proofs.SMatrix2
import Verif.Proofs.Pixelated

/-! Results of stacks whose inner layers absorb everywhere are defined (C85). -/

namespace Nannos

open Matrix Spec

variable {E : Ext} {c : Static} {mats : ℕ → LayerSpec} {A1 : ℕ → LayerAttr c.nh}

/-- The normal component of the electric field can be computed in every layer of a solved stack. -/
theorem normalE_total {stack : List ℕ} (hmu : ∀ r ∈ stack, (mats r).mu = 1) (hw : WellPlaced mats stack)
    (hf : ∀ r ∈ stack, LayerFix E c mats A1 r) :
    ∀ (k r : ℕ), stack[k]? = some r → ∀ dz, ∃ x, normalE (mats r) (A1 r) dz = .ok x := by
  intro k
  induction k using Nat.strong_induction_on with
  | _ k ih =>
    intro r hr dz
    have hrm : r ∈ stack := List.mem_of_getElem? hr
    cases (hf r hrm).form with
    | uniform Q ev hc hb he hQ ha =>
      obtain ⟨h1, h2, h3, h4⟩ := buildPure_uniform_ok (hmu r hrm) hb
      unfold normalE
      rw [if_pos h1, if_neg h3]
      exact ⟨_, rfl⟩
    | patterned M p Q ev hc hb he ha =>
      obtain ⟨h1, h2, -⟩ := buildPure_patterned_ok (hmu r hrm) hb
      unfold normalE
      rw [if_neg (by simp [h1]), ha]
      simp only [attr, except_bind_ok]
      exact ⟨_, (linSolveVec_ok _ _ _).mpr ⟨h2, rfl⟩⟩
    | copyUniform M p Q ev hc hu hM hp hQ he ha =>
      exact absurd hu (by rw [(hw k r hr hc).2.1]; simp)
    | copyPatterned M p Q ev hc hu ho ha =>
      obtain ⟨⟨j, hj, hj'⟩, -, h3⟩ := hw k r hr hc
      have hao : A1 r = A1 (mats r).original := by rw [ha, ho]
      obtain ⟨x, hx⟩ := ih j hj _ hj' dz
      refine ⟨x, ?_⟩
      have hu' : (mats (mats r).original).isUniform = false := by
        unfold LayerSpec.isUniform at hu ⊢
        rw [← h3]; exact hu
      rw [hao]
      unfold normalE at hx ⊢
      simpa only [hu, hu', Bool.false_eq_true, if_false] using hx

/-- The modes of the absorbing layers of a solved stack. -/
theorem solved_lossy {stack : List ℕ} (hmu : ∀ r ∈ stack, (mats r).mu = 1) (hE : EigContract E)
    (hw : WellPlaced mats stack) (hf : ∀ r ∈ stack, LayerFix E c mats A1 r)
    (hform : c.formulation = "original" ∨ c.lattice.is1D = true ∨ ∀ r ∈ stack, (mats r).isUniform = false →
      (mats r).isAnisotropic = false ∧ ConstantVectorsUsed E c (mats r))
    (hf1 : c.lattice.is1D = true → c.formulation = "original" ∨ c.formulation = "tangent")
    (hom : c.omega ≠ 0) (hkx : ∀ i, star (c.kx i) = c.kx i) (hky : ∀ i, star (c.ky i) = c.ky i)
    (hdet : ∀ r ∈ stack, ∀ ev, (A1 r).eig = some ev → ev.2.det ≠ 0)
    {k r : ℕ} (hr : stack[k]? = some r) (ha : Absorbing (mats r)) : LossyModes (modesD (mats r) (A1 r)) := by
  have hrm := List.mem_of_getElem? hr
  obtain ⟨P, e, m1, m2⟩ := solved_medium hmu hE hw hf k r hr
  obtain ⟨hP, he⟩ := medium_absorbs hform hf1 hw m1 hrm ha
  have hM := (hf r hrm).form.modesD
  obtain ⟨ev, hev, hq⟩ := solved_q hw hf k r hr
  have e1 : (modesD (mats r) (A1 r)).q = ev.1 := by unfold modesD; rw [hev]; rfl
  have e2 : (modesD (mats r) (A1 r)).phi = ev.2 := by unfold modesD; rw [hev]; rfl
  refine lossy_modes hom hkx hky m2 hP he hM (by rw [e2]; exact hdet r hrm ev hev) fun i => ?_
  rw [e1, hq i]
  split
  · rename_i hu
    refine csqrt_im_nonneg ?_
    have key : ∀ i, 0 ≤ ((modesD (mats r) (A1 r)).q i ^ 2).im := by
      have hh : Homogeneous (mats r) := by
        cases (hf r hrm).form with
        | uniform Q ev hc hb he hQ ha => exact ⟨hc, hu, (buildPure_uniform_ok (hmu r hrm) hb).2.1⟩
        | patterned M p Q ev hc hb he ha =>
          rw [(buildPure_patterned_ok (hmu r hrm) hb).1] at hu; simp at hu
        | copyUniform M p Q ev hc hu' => rw [(hw k r hr hc).2.1] at hu'; simp at hu'
        | copyPatterned M p Q ev hc hu' => rw [hu] at hu'; simp at hu'
      have p := planarModes (hf r hrm) hh hM
      have hpos := absorbing_value ha hh.2.2 hu
      have key : ∀ i : Fin c.nh, 0 ≤ ((modesD (mats r) (A1 r)).q (.inl i) ^ 2).im := by
        intro i
        rw [p.q_sq i, hmu r hrm]
        have hX : c.kx i = ((c.kx i).re : ℂ) := (Complex.conj_eq_iff_re.mp (hkx i)).symm
        have hY : c.ky i = ((c.ky i).re : ℂ) := (Complex.conj_eq_iff_re.mp (hky i)).symm
        rw [hX, hY]
        have : ((mats r).epsilon.value * 1 * (c.omega : ℂ) ^ 2 - (((c.kx i).re : ℂ)) ^ 2 - (((c.ky i).re : ℂ)) ^ 2).im =
            (mats r).epsilon.value.im * c.omega ^ 2 := by
          simp [← Complex.ofReal_pow]
        rw [this]
        positivity
      rintro (i | i)
      · exact key i
      · rw [p.q_inr]; exact key i
    rw [← e1]; exact key i
  · exact modeSqrt_im_nonneg _

/-- The scattering matrices of a solved stack whose inner layers absorb. -/
theorem absorbing_loops {stack : List ℕ} (hst : c.stack = stack)
    (hmu : ∀ r ∈ stack, (mats r).mu = 1) (hE : EigContract E)
    (hw : WellPlaced mats stack) (hf : ∀ r ∈ stack, LayerFix E c mats A1 r)
    (hform : c.formulation = "original" ∨ c.lattice.is1D = true ∨ ∀ r ∈ stack, (mats r).isUniform = false →
      (mats r).isAnisotropic = false ∧ ConstantVectorsUsed E c (mats r))
    (hf1 : c.lattice.is1D = true → c.formulation = "original" ∨ c.formulation = "tangent")
    (hom : 0 < c.omega) (hkx : ∀ i, star (c.kx i) = c.kx i) (hky : ∀ i, star (c.ky i) = c.ky i)
    (hdet : ∀ r ∈ stack, ∀ ev, (A1 r).eig = some ev → ev.2.det ≠ 0) (htwo : 1 < stack.length)
    {r0 : ℕ} (hr0 : stack[0]? = some r0) (h0 : Homogeneous (mats r0)) {e : ℝ} (hpos : 0 < e)
    (he : (mats r0).epsilon.value = e) (hgraz : ∀ i : Fin c.nh, (e : ℂ) * (c.omega : ℂ) ^ 2 ≠ c.kx i ^ 2 + c.ky i ^ 2)
    (hin : ∀ k r, 0 < k → k + 1 < stack.length → stack[k]? = some r → Absorbing (mats r) ∧
      ∀ t, (mats r).thickness = some t → 0 ≤ t)
    (hlast : ∀ r, stack[stack.length - 1]? = some r → Absorbing (mats r) ∨ (Homogeneous (mats r) ∧
      (∀ i : Fin c.nh, (mats r).epsilon.value * (c.omega : ℂ) ^ 2 ≠ c.kx i ^ 2 + c.ky i ^ 2) ∧
      ∃ k s t, 0 < k ∧ k + 1 < stack.length ∧ stack[k]? = some s ∧ (mats s).thickness = some t ∧ 0 < t)) :
    (∀ (k : ℕ) L, (stackModes c mats A1)[k]? = some L → ∀ i, L.q i ≠ 0) ∧
    ∀ i n : ℕ, i ≤ n → n < stack.length → ∃ S, loopS (stackModes c mats A1) i n = .ok S := by
  subst hst
  have hlen := stackModes_length c mats A1
  have hom' : (c.omega : ℂ) ≠ 0 := by exact_mod_cast hom.ne'
  have hpl : ∀ (k : ℕ) L, (stackModes c mats A1)[k]? = some L → ∃ r, c.stack[k]? = some r ∧ L = modesD (mats r) (A1 r) := by
    intro k L hL
    have hk := (List.getElem?_eq_some_iff.mp hL).1
    obtain ⟨r, hr⟩ : ∃ r, c.stack[k]? = some r := ⟨_, List.getElem?_eq_getElem (by omega)⟩
    refine ⟨r, hr, ?_⟩
    unfold stackModes at hL
    rw [List.getElem?_map, hr] at hL
    simpa using hL.symm
  have hlossy : ∀ {k r : ℕ}, c.stack[k]? = some r → Absorbing (mats r) → LossyModes (modesD (mats r) (A1 r)) :=
    fun hr ha => solved_lossy hmu hE hw hf hform hf1 hom.ne' hkx hky hdet hr ha
  -- homogeneous layers without grazing orders
  have hgood : ∀ {k r : ℕ}, c.stack[k]? = some r → Homogeneous (mats r) →
      (∀ i : Fin c.nh, (mats r).epsilon.value * (c.omega : ℂ) ^ 2 ≠ c.kx i ^ 2 + c.ky i ^ 2) →
      PlanarModes c (mats r) (modesD (mats r) (A1 r)) ∧ (∀ i, (modesD (mats r) (A1 r)).q i ≠ 0) ∧
      (modesD (mats r) (A1 r)).M.det ≠ 0 := by
    intro k r hr hh hg
    have hrm := List.mem_of_getElem? hr
    have p := planarModes (hf r hrm) hh (hf r hrm).form.modesD
    have key : ∀ i, (modesD (mats r) (A1 r)).q (.inl i) ≠ 0 := by
      intro i hq0
      have := p.q_sq i
      rw [hq0, hmu r hrm] at this
      exact hg i (by linear_combination -this)
    have hq : ∀ i, (modesD (mats r) (A1 r)).q i ≠ 0 := by
      rintro (i | i)
      · exact key i
      · rw [p.q_inr]; exact key i
    exact ⟨p, hq, p.det hom.ne' (by rw [hmu r hrm]; exact one_ne_zero) hq⟩
  have hcase : ∀ (k r : ℕ), c.stack[k]? = some r → k = 0 ∨ Absorbing (mats r) ∨
      (k = c.stack.length - 1 ∧ Homogeneous (mats r) ∧
      ∀ i : Fin c.nh, (mats r).epsilon.value * (c.omega : ℂ) ^ 2 ≠ c.kx i ^ 2 + c.ky i ^ 2) := by
    intro k r hr
    have hk := (List.getElem?_eq_some_iff.mp hr).1
    rcases Nat.eq_zero_or_pos k with h | h
    · exact .inl h
    rcases Nat.lt_or_ge (k + 1) c.stack.length with h1 | h1
    · exact .inr (.inl (hin k r h h1 hr).1)
    obtain rfl : k = c.stack.length - 1 := by omega
    rcases hlast r hr with h2 | ⟨h2, h3, -⟩
    · exact .inr (.inl h2)
    · exact .inr (.inr ⟨rfl, h2, h3⟩)
  have hg0 := hgood hr0 h0 (by rw [he]; exact hgraz)
  have hqM : ∀ (k : ℕ) L, (stackModes c mats A1)[k]? = some L → (∀ i, L.q i ≠ 0) ∧ L.M.det ≠ 0 := by
    intro k L hL
    obtain ⟨r, hr, rfl⟩ := hpl k L hL
    rcases hcase k r hr with rfl | h | ⟨-, h1, h2⟩
    · obtain rfl : r = r0 := Option.some.inj (hr.symm.trans hr0)
      exact hg0.2
    · have := hlossy hr h
      exact ⟨this.q_ne, this.M_det⟩
    · exact (hgood hr h1 h2).2
  refine ⟨fun k L hL => (hqM k L hL).1, fun i n hin' hn => ?_⟩
  refine loopS_total_from (fun k L hL => (hqM k L hL).1) (fun k L hL => (hqM k L hL).2) i n hin' (by omega) fun k hik hkn => ?_
  refine lossy_noSource hik (by omega) (fun k L hL => (hqM k L hL).2) ?_ ?_ ?_ ?_
  · -- the first layer
    intro L b hL
    obtain ⟨r, hr, rfl⟩ := hpl i L hL
    rcases hcase i r hr with rfl | h | ⟨rfl, -⟩
    · obtain rfl : r = r0 := Option.some.inj (hr.symm.trans hr0)
      have u0 := hg0.1.uniform (hmu r (List.mem_of_getElem? hr0))
      rw [he] at u0
      have hq0 : ∀ k, (c.omega : ℂ) * (modesD (mats r) (A1 r)).q k ≠ 0 := fun k => mul_ne_zero hom' (hg0.2.1 k)
      have pB := power_bottom hom.ne' u0 hkx hky (a := 0) (b := b) hq0 (fun _ _ => ⟨rfl, rfl⟩)
      have z0 : ∑ i, orderFlux c (modesD (mats r) (A1 r)) 0 i = 0 := Finset.sum_eq_zero fun i _ => by unfold orderFlux; simp
      rw [pB, z0, zero_sub]
      have := Finset.sum_nonneg fun i (_ : i ∈ Finset.univ) =>
        orderFlux_nonneg (by exact_mod_cast hpos.ne') hom u0 hkx hky hq0 b i
      nlinarith
    · exact (hlossy hr h).bottom.1
    · omega
  · intro L a hL
    obtain ⟨r, hr, rfl⟩ := hpl k L hL
    rcases hcase k r hr with rfl | h | ⟨-, h1, h2⟩
    · omega
    · exact (hlossy hr h).top.1
    · obtain ⟨p, hq, -⟩ := hgood hr h1 h2
      rw [power_forward (c := c) hom.ne']
      exact mul_nonneg hom.le (Finset.sum_nonneg fun i _ =>
        orderFlux_nonneg p.e0 hom (p.uniform (hmu r (List.mem_of_getElem? hr))) hkx hky (fun k => mul_ne_zero hom' (hq k)) a i)
  · intro j L hij hjk hL
    obtain ⟨r, hr, rfl⟩ := hpl j L hL
    obtain ⟨h1, h2⟩ := hin j r (by omega) (by omega) hr
    refine ⟨hlossy hr h1, ?_⟩
    unfold Modes.z modesD
    dsimp only
    rcases ht : (mats r).thickness with _ | t
    · exact le_refl (0 : ℝ)
    · exact h2 t ht
  · rcases Nat.eq_zero_or_pos i with rfl | hi
    · rcases Nat.lt_or_ge (k + 1) c.stack.length with h1 | h1
      · refine .inr (.inl fun L hL => ?_)
        obtain ⟨r, hr, rfl⟩ := hpl k L hL
        exact hlossy hr (hin k r hik h1 hr).1
      · obtain rfl : k = c.stack.length - 1 := by omega
        obtain ⟨r, hr⟩ : ∃ r, c.stack[c.stack.length - 1]? = some r := ⟨_, List.getElem?_eq_getElem (by omega)⟩
        rcases hlast r hr with h | ⟨-, -, k, s, t, k1, k2, k3, k4, k5⟩
        · refine .inr (.inl fun L hL => ?_)
          obtain ⟨r', hr', rfl⟩ := hpl _ L hL
          obtain rfl : r' = r := Option.some.inj (hr'.symm.trans hr)
          exact hlossy hr h
        · refine .inr (.inr ⟨k, modesD (mats s) (A1 s), k1, by omega, ?_, ?_⟩)
          · unfold stackModes; rw [List.getElem?_map, k3]; rfl
          · unfold Modes.z modesD
            dsimp only
            rw [k4]; exact k5
    · refine .inl fun L hL => ?_
      obtain ⟨r, hr, rfl⟩ := hpl i L hL
      exact hlossy hr (hin i r hi (by omega) hr).1

/-- Results of a stack which absorbs. -/
theorem absorbing_succeeds {lats stack exc nh form} (hinit : simInit E lats mats stack exc nh form = .ok c)
    (hE : EigContract E) (hw : WellPlaced mats stack) (hmu : ∀ r ∈ stack, (mats r).mu = 1)
    {wl ang} (hp : planeWave wl ang = .ok exc) (hwl : 0 < wl)
    (hcos : 0 < Real.cos exc.theta) (h00 : ((0 : ℤ), (0 : ℤ)) ∈ c.harmonics)
    (hform : form = "original" ∨ c.lattice.is1D = true ∨ ∀ r ∈ stack, (mats r).isUniform = false →
      (mats r).isAnisotropic = false ∧ ConstantVectorsUsed E c (mats r)) {e : ℝ} (hpos : 0 < e) (htwo : 1 < stack.length)
    (hsup : ∀ r0, stack.head? = some r0 → (mats r0).epsilon.value = (e : ℂ))
    (hgraz : ∀ i : Fin c.nh, (e : ℂ) * (c.omega : ℂ) ^ 2 ≠ c.kx i ^ 2 + c.ky i ^ 2)
    (hin : ∀ k r, 0 < k → k + 1 < stack.length → stack[k]? = some r → Absorbing (mats r) ∧
      ∀ t, (mats r).thickness = some t → 0 ≤ t)
    (hlast : ∀ r, stack.getLast? = some r → Absorbing (mats r) ∨ (Homogeneous (mats r) ∧
      (∀ i : Fin c.nh, (mats r).epsilon.value * (c.omega : ℂ) ^ 2 ≠ c.kx i ^ 2 + c.ky i ^ 2) ∧
      ∃ k s t, 0 < k ∧ k + 1 < stack.length ∧ stack[k]? = some s ∧ (mats s).thickness = some t ∧ 0 < t))
    {d1 : Dyn c.nh} (hsolve : solve E c (Dyn.fresh mats (unsolved c.nh)) = (.ok (), d1))
    (hdet : ∀ r ∈ stack, ∀ ev, (d1.attrs r).eig = some ev → ev.2.det ≠ 0)
    (hist : List (Call c.nh)) :
    (∃ RT, (efficienciesByOrder E c (afterCalls E c hist (Dyn.fresh mats (unsolved c.nh)))).1 = .ok RT) ∧
    ∀ id r i, getLayer c id = .ok (r, i) → (0 ≤ i ∨ i = -1) → ∀ t, (mats r).thickness = some t → ∀ zs,
      ∃ Fs, (getFieldFourier E c id zs (afterCalls E c hist (Dyn.fresh mats (unsolved c.nh)))).1 = .ok Fs := by
  have hi := simInit_ok hinit
  have hst : c.stack = stack := hi.stack_eq
  have hnd : c.stack.Nodup := hst ▸ hi.nodup
  obtain ⟨A1, res, hs, -⟩ := solveSpec_of_noStale (E := E) (mats := mats) hnd
    (noStale_unsolved (c := c) mats c.stack)
  have hrun := hs.run (Dyn.fresh mats (unsolved c.nh)) rfl (.inl rfl)
  have hsol : res = .ok () ∧ d1.attrs = A1 := by
    unfold solve at hsolve
    rcases res with e | u
    · rw [PyM.bind_error hrun] at hsolve
      simp at hsolve
    · rw [PyM.bind_ok hrun] at hsolve
      simp only [PyM.modify, Prod.mk.injEq, true_and] at hsolve
      exact ⟨rfl, by rw [← hsolve]⟩
  obtain ⟨rfl, hA⟩ := hsol
  rw [hA] at hdet
  have hfix := hs.fix hnd rfl
  subst hst
  have hlen := stackModes_length c mats A1
  obtain ⟨r0, hr0⟩ : ∃ r, c.stack[0]? = some r := ⟨_, List.getElem?_eq_getElem (by omega)⟩
  obtain ⟨rN, hrN⟩ : ∃ r, c.stack[c.stack.length - 1]? = some r := ⟨_, List.getElem?_eq_getElem (by omega)⟩
  have hhead : c.stack.head? = some r0 := by rw [List.head?_eq_getElem?, hr0]
  have hm0 : r0 ∈ c.stack := List.mem_of_getElem? hr0
  have hg := good_sup hi (by rw [(planeWave_ok hp).2.1]; exact hwl) hhead (hmu r0 hm0) (hsup r0 hhead) hpos h00
  have hc0 : (mats r0).iscopy = false := by
    by_contra hcon
    obtain ⟨⟨j, hj, -⟩, -⟩ := hw 0 r0 hr0 (by simpa using hcon)
    omega
  have hinc0 : 0 < c.incidentFlux := by rw [hg.flux]; exact div_pos hcos hg.pos
  have hom' : (c.omega : ℂ) ≠ 0 := by exact_mod_cast hg.omega.ne'
  obtain ⟨hqs, hS⟩ := absorbing_loops rfl hmu hE hw hfix (by rw [hi.form_eq]; exact hform) (by
      intro h1d
      rw [hi.form_eq]
      refine hi.form1 r0 hhead ?_
      rw [← hi.lat_eq r0 hhead]; exact h1d) hg.omega hg.kxr hg.kyr hdet htwo hr0
    ⟨hc0, (hi.sup r0 hhead).1, (hi.sup r0 hhead).2.1⟩ hpos (hsup r0 hhead) hgraz hin
    (fun r hr => hlast r (by rw [List.getLast?_eq_getElem?, hr]))
  have hv : ∀ i j : ℕ, i < j → j < c.stack.length → ∃ S, valS c mats A1 (.ok ()) (some ((i : ℤ), (j : ℤ))) = .ok S ∧
      loopS (stackModes c mats A1) i j = .ok S := by
    intro i j hij hj
    obtain ⟨S, h⟩ := hS i j hij.le hj
    exact ⟨S, by rw [valS_solved hfix]; exact freshS_ok.mpr ⟨hij, h⟩, h⟩
  have hN : ((c.stack.length : ℤ) - 1) = ((c.stack.length - 1 : ℕ) : ℤ) := by omega
  obtain ⟨S, hv0, hl0⟩ := hv 0 (c.stack.length - 1) (by omega) (by omega)
  have hvn : valS c mats A1 (.ok ()) none = .ok S := by rw [valS_none, hN]; exact hv0
  have hgN : pyGet c.stack (-1) = .ok rN := by
    unfold pyGet
    have e3 : pyIdx c.stack.length (-1) = some (c.stack.length - 1) := by
      unfold pyIdx
      rw [if_neg (by omega), if_pos (by omega)]
      congr 1
      omega
    rw [e3]
    dsimp only
    rw [hrN]
  have hmd : ∀ (k r : ℕ), c.stack[k]? = some r → ∀ i, (c.omega : ℂ) * (modesD (mats r) (A1 r)).q i ≠ 0 := by
    intro k r hk i
    have : (stackModes c mats A1)[k]? = some (modesD (mats r) (A1 r)) := by
      unfold stackModes; rw [List.getElem?_map, hk]; rfl
    exact mul_ne_zero hom' (hqs k _ this i)
  have h0 : Inv E c mats (unsolved c.nh) A1 (.ok ()) (Dyn.fresh mats (unsolved c.nh)) := inv_fresh _ (.inl rfl)
  have h1 := h0.calls hs hist
  generalize afterCalls E c hist (Dyn.fresh mats (unsolved c.nh)) = d at h1
  refine ⟨?_, ?_⟩
  · obtain ⟨RT, d', e, -⟩ := succeeds_efficiencies hs hvn ((pyGet_nat c.stack 0 r0).mpr hr0) hgN
      (hfix r0 hm0).form.modesD (hfix rN (List.mem_of_getElem? hrN)).form.modesD
      (hmd 0 r0 hr0) (hmd _ rN hrN) hinc0.ne' d h1
    exact ⟨RT, by rw [e]⟩
  · intro id r i hid hi' t ht zs
    have hget := getLayer_pyGet hid
    obtain ⟨k, hk, hki⟩ : ∃ k : ℕ, c.stack[k]? = some r ∧ (i = k ∨ (i = -1 ∧ k = c.stack.length - 1)) := by
      rcases hi' with h | h
      · obtain ⟨k, rfl⟩ := Int.eq_ofNat_of_zero_le h
        exact ⟨k, (pyGet_nat c.stack k r).mp hget, .inl rfl⟩
      · subst h
        rw [hgN] at hget
        exact ⟨_, by rw [← Except.ok.inj hget]; exact hrN, .inr ⟨rfl, rfl⟩⟩
    have hrm := List.mem_of_getElem? hk
    have hklt := (List.getElem?_eq_some_iff.mp hk).1
    have hamp : AmpOk c mats A1 (.ok ()) i := by
      refine ⟨⟨r, hget⟩, fun _ => ⟨S, hvn⟩, fun n1 n2 n3 => ?_⟩
      rcases hki with rfl | ⟨rfl, -⟩
      · have hkn : k < c.stack.length - 1 := by omega
        obtain ⟨S1, a1, a2⟩ := hv 0 k (by omega) (by omega)
        obtain ⟨S2, b1, b2⟩ := hv k (c.stack.length - 1) hkn (by omega)
        refine ⟨S1, S2, a1, by rw [hN]; exact b1, cascade_unit (Nat.zero_le k) hkn.le a2 b2 hl0⟩
      · exact absurd rfl n3
    have hM := (hfix r hrm).form.modesD
    obtain ⟨Fs, d', e, -⟩ := succeeds_getFieldFourier hs hid rfl hamp
      (fieldAt_ok hM (t := t) (by unfold modesD; exact ht) (hmd k r hk) (normalE_total hmu hw hfix k r hk)) zs d h1
    exact ⟨Fs, by rw [e]⟩

end Nannos
