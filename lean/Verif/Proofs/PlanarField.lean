import Verif.Proofs.PlanarRun
import Verif.Proofs.Pixelated

/-! Fields in stacks of homogeneous layers. -/

namespace Nannos

open Matrix Spec

variable {E : Ext} {c : Static} {mats : ℕ → LayerSpec}

theorem loopS_q_from {m : Type} [Fintype m] [DecidableEq m] {layers : List (Modes m)} (i : ℕ) :
    ∀ {n : ℕ} {S : SMat m}, loopS layers (i : ℕ) ((n : ℕ) : ℤ) = .ok S → i < n →
      ∀ k L, i ≤ k → k ≤ n → layers[k]? = some L → ∀ j, L.q j ≠ 0 := by
  intro n
  induction n with
  | zero => intro S _ h; omega
  | succ n ih =>
    intro S h hin k L hik hk hL
    obtain ⟨S1, L1, L2, h1, h2, h3, h4⟩ := loopS_succ_ok (by omega) h
    obtain ⟨I, -, hI, -⟩ := stepS_ok h4
    obtain ⟨q1, q2, -⟩ := (buildI_ok _ _ _).mp hI
    rcases Nat.lt_or_ge k n with hlt | hge
    · exact ih h1 (by omega) k L hik hlt.le hL
    · rcases (show k = n ∨ k = n + 1 by omega) with rfl | rfl
      · rw [h2] at hL; obtain rfl := Option.some.inj hL; exact q1
      · rw [h3] at hL; obtain rfl := Option.some.inj hL; exact q2

/-- No normal wave number vanishes in a stack for which amplitudes are returned. -/
theorem ampV_q {A : ℕ → LayerAttr c.nh} (hf : ∀ r ∈ c.stack, LayerFix E c mats A r) {i : ℤ} {ab}
    (h : AmpV c mats A (.ok ()) i ab) : ∀ (k : ℕ) L, (stackModes c mats A)[k]? = some L → ∀ j, L.q j ≠ 0 := by
  obtain ⟨⟨r, hr⟩, h⟩ := h
  have hlen := stackModes_length c mats A
  have hpos : 0 < c.stack.length := List.length_pos_iff.mpr (by
    rintro e; have := pyGet_mem hr; rw [e] at this; simp at this)
  have e : ((c.stack.length : ℤ) - 1) = (((stackModes c mats A).length - 1 : ℕ) : ℤ) := by
    rw [hlen]; omega
  have full : ∀ S, valS c mats A (.ok ()) none = .ok S →
      ∀ (k : ℕ) L, (stackModes c mats A)[k]? = some L → ∀ j, L.q j ≠ 0 := by
    intro S hS k L hL
    rw [valS_none, valS_solved hf, e] at hS
    obtain ⟨h1, h2⟩ := (freshS_ok (i := 0)).mp hS
    have := (List.getElem?_eq_some_iff.mp hL).1
    exact loopS_q h2 h1 k L (by omega) hL
  rcases h with ⟨h0, S, hS, rfl⟩ | ⟨h0, hn, S, hS, rfl⟩ | ⟨h0, hn, hm, S, P, hS, hP, hdet, ha, hb⟩
  · exact full S hS
  · exact full S hS
  · rw [valS_solved hf] at hS hP
    have hi : 0 < i := by
      by_contra hcon
      unfold freshS at hS
      rw [if_pos ((pyRange_eq_nil_iff _ _).mpr (by omega))] at hS
      simp at hS
    obtain ⟨n, rfl⟩ : ∃ k : ℕ, i = (k : ℤ) := ⟨i.toNat, by omega⟩
    rw [e] at hP
    obtain ⟨hk1, hS⟩ := (freshS_ok (i := 0)).mp hS
    obtain ⟨hk2, hP⟩ := freshS_ok.mp hP
    intro k L hL
    have := (List.getElem?_eq_some_iff.mp hL).1
    rcases Nat.lt_or_ge k n with hlt | hge
    · exact loopS_q hS hk1 k L hlt.le hL
    · exact loopS_q_from n hP hk2 k L hge (by omega) hL

section
variable {L : LayerSpec} {M : Modes (Idx c.nh)} (h : PlanarModes c L M) {i0 : Fin c.nh} {u v : ℂ} {k : ℝ}
  (huv : u ^ 2 + v ^ 2 = 1) (hq : M.q (.inl i0) ≠ 0) (hx : c.kx i0 = k * u) (hy : c.ky i0 = k * v)
include h huv hq hx hy

/-- Tangential fields of two polarisations in a homogeneous layer. -/
theorem PlanarModes.fields (x y x' y' : ℂ) (z : ℝ) :
    tanH M (x • atOrder i0 u v + y • atOrder i0 v (-u)) (x' • atOrder i0 u v + y' • atOrder i0 v (-u)) z =
      (filmS c.omega k L).mag x x' z • atOrder i0 u v + (filmP c.omega k L).mag y y' z • atOrder i0 v (-u) ∧
    tanE M (x • atOrder i0 u v + y • atOrder i0 v (-u)) (x' • atOrder i0 u v + y' • atOrder i0 v (-u)) z =
      (filmS c.omega k L).ele x x' z • atOrder i0 u v + (filmP c.omega k L).ele y y' z • atOrder i0 v (-u) := by
  have hn := h.normalK huv hx hy
  have hz := h.z_eq
  have hqs : (filmS c.omega k L).q = M.q (.inl i0) := hn.symm
  have hqp : (filmP c.omega k L).q = M.q (.inl i0) := hn.symm
  have hds : (filmS c.omega k L).d = M.z := hz.symm
  have hdp : (filmP c.omega k L).d = M.z := hz.symm
  have hr := h.q_inr i0
  have tE : ∀ a b : Idx c.nh → ℂ, tanE M a b z = M.amat *ᵥ fun j => a j * Complex.exp (Complex.I * M.q j * z) -
      b j * Complex.exp (Complex.I * M.q j * ((M.z - z : ℝ) : ℂ)) := by
    intro a b
    funext i
    simp only [tanE, Modes.amat, mulVec, dotProduct, mul_apply, h.phi, one_apply]
    refine Finset.sum_congr rfl fun j _ => ?_
    simp [div_eq_mul_inv]
  constructor
  · funext a
    simp only [tanH, h.phi, one_apply, ite_mul, one_mul, zero_mul, Finset.sum_ite_eq, Finset.mem_univ, if_true]
    unfold Film.mag
    rw [hqs, hqp, hds, hdp]
    rcases a with i | i
    · by_cases hi : i = i0
      · subst hi
        simp [atOrder]
        ring
      · simp [atOrder, hi]
    · by_cases hi : i = i0
      · subst hi
        simp [atOrder, hr]
        ring
      · simp [atOrder, hi]
  · have h1 := (h.pure_s huv hq hx hy).1.amat
    have h2 := (h.pure_p huv hq hx hy).1.amat
    rw [tE]
    have e : (fun j => (x • atOrder i0 u v + y • atOrder i0 v (-u)) j * Complex.exp (Complex.I * M.q j * z) -
        (x' • atOrder i0 u v + y' • atOrder i0 v (-u)) j * Complex.exp (Complex.I * M.q j * ((M.z - z : ℝ) : ℂ))) =
        (x * Complex.exp (Complex.I * M.q (.inl i0) * z) - x' * Complex.exp (Complex.I * M.q (.inl i0) * ((M.z - z : ℝ) : ℂ))) •
          atOrder i0 u v +
        (y * Complex.exp (Complex.I * M.q (.inl i0) * z) - y' * Complex.exp (Complex.I * M.q (.inl i0) * ((M.z - z : ℝ) : ℂ))) •
          atOrder i0 v (-u) := by
      funext a
      rcases a with i | i
      · by_cases hi : i = i0
        · subst hi
          simp [atOrder]
          ring
        · simp [atOrder, hi]
      · by_cases hi : i = i0
        · subst hi
          simp [atOrder, hr]
          ring
        · simp [atOrder, hi]
    rw [e, mulVec_add, mulVec_smul, mulVec_smul, h1, h2, smul_smul, smul_smul]
    unfold Film.ele
    rw [hqs, hqp, hds, hdp]
    congr 1
    · congr 1; ring
    · congr 1; ring

end

/-- The incoming wave. -/
theorem planar_incoming {lats stack exc nh form} (hinit : simInit E lats mats stack exc nh form = .ok c)
    {wl ang} (hp : planeWave wl ang = .ok exc) (hwl : 0 < wl)
    (hcos : 0 < Real.cos exc.theta) (h00 : ((0 : ℤ), (0 : ℤ)) ∈ c.harmonics) {e m : ℝ} (hpos : 0 < e) (hmpos : 0 < m)
    {r0 : ℕ} (hr0 : stack.head? = some r0) (he : (mats r0).epsilon.value = e) (hm : (mats r0).mu = m) :
    0 < c.omega ∧ c.omega = 2 * Real.pi / wl ∧ ∃ i0 : Fin c.nh, (i0 : ℕ) = c.indexZerothOrder ∧
    c.kx i0 = ((c.omega * Real.sqrt (e * m) * Real.sin exc.theta : ℝ) : ℂ) * (Real.cos exc.phi : ℂ) ∧
    c.ky i0 = ((c.omega * Real.sqrt (e * m) * Real.sin exc.theta : ℝ) : ℂ) * (Real.sin exc.phi : ℂ) ∧
    c.a0 = ((-(Real.sin exc.psi * Real.cos exc.theta) : ℝ) : ℂ) • atOrder i0 (Real.cos exc.phi : ℂ) (Real.sin exc.phi : ℂ) +
      ((-Real.cos exc.psi : ℝ) : ℂ) • atOrder i0 (Real.sin exc.phi : ℂ) (-(Real.cos exc.phi : ℂ)) := by
  have hi := simInit_ok hinit
  have hem : 0 < e * m := mul_pos hpos hmpos
  have hem2 : ((mats r0).epsilon.value * (mats r0).mu) = ((e * m : ℝ) : ℂ) := by rw [he, hm]; push_cast; rfl
  have hg := good_sup_mu hi (by rw [(planeWave_ok hp).2.1]; exact hwl) hr0 (e := e * m) hem2 hem h00
  obtain ⟨i0, hi0⟩ := hg.idx
  obtain ⟨ga, gb, gx, gy⟩ := hg.on i0 hi0
  obtain ⟨-, hwe, -, -, -, hk, hkv, -⟩ := planeWave_ok hp
  have hok : exc.wavenumber = c.omega := by rw [hk, hg.omk, hwe]
  obtain ⟨pa, pb⟩ := incoming_polarisations hp hwl hcos
  refine ⟨hg.omega, by rw [hg.omk, hwe]; ring, i0, hi0, ?_, ?_, ?_⟩
  · rw [gx, hkv, hok]; push_cast; ring
  · rw [gy, hkv, hok]; push_cast; ring
  · funext a
    rcases a with i | i
    · by_cases hii : i = i0
      · rw [hii, ga, pa]; simp [atOrder]
      · rw [(hg.a0_off i (fun hc => hii (Fin.ext (hc.trans hi0.symm)))).1]; simp [atOrder, hii]
    · by_cases hii : i = i0
      · rw [hii, gb, pb]; simp [atOrder]
      · rw [(hg.a0_off i (fun hc => hii (Fin.ext (hc.trans hi0.symm)))).2]; simp [atOrder, hii]

section
variable {A1 : ℕ → LayerAttr c.nh} (hfix : ∀ r ∈ c.stack, LayerFix E c mats A1 r)
  (hh : ∀ r ∈ c.stack, Homogeneous (mats r))
  (hqs : ∀ (k : ℕ) L, (stackModes c mats A1)[k]? = some L → ∀ i, L.q i ≠ 0)
  {i0 : Fin c.nh} {u v : ℂ} {k : ℝ}
  (huv : u ^ 2 + v ^ 2 = 1) (hx : c.kx i0 = k * u) (hy : c.ky i0 = k * v)
include hfix hh hqs huv hx hy

/-- The waves in a stack of homogeneous layers are those in two stacks of films. -/
theorem planar_waves (hn : c.stack ≠ []) {x y : ℂ} {amp : ℕ → (Idx c.nh → ℂ) × (Idx c.nh → ℂ)}
    (hs : StackSolution (stackModes c mats A1) (x • atOrder i0 u v + y • atOrder i0 v (-u)) amp)
    (hun : ∀ amp', StackSolution (stackModes c mats A1) (x • atOrder i0 u v + y • atOrder i0 v (-u)) amp' →
      ∀ j, j < c.stack.length → amp' j = amp j) :
    ∃ as bs ap bp : ℕ → ℂ,
    FilmWaves (c.stack.map fun r => filmS c.omega k (mats r)) as bs ∧ as 0 = x ∧
    FilmWaves (c.stack.map fun r => filmP c.omega k (mats r)) ap bp ∧ ap 0 = y ∧
    (∀ a b, FilmWaves (c.stack.map fun r => filmS c.omega k (mats r)) a b → a 0 = x →
      ∀ j, j < c.stack.length → a j = as j ∧ b j = bs j) ∧
    (∀ a b, FilmWaves (c.stack.map fun r => filmP c.omega k (mats r)) a b → a 0 = y →
      ∀ j, j < c.stack.length → a j = ap j ∧ b j = bp j) ∧
    ∀ j, j < c.stack.length → amp j =
        (as j • atOrder i0 u v + ap j • atOrder i0 v (-u), bs j • atOrder i0 u v + bp j • atOrder i0 v (-u)) := by
  have hlen := stackModes_length c mats A1
  have hpos : 0 < c.stack.length := List.length_pos_iff.mpr hn
  have lS : (c.stack.map fun r => filmS c.omega k (mats r)).length = (stackModes c mats A1).length := by
    rw [hlen, List.length_map]
  have lP : (c.stack.map fun r => filmP c.omega k (mats r)).length = (stackModes c mats A1).length := by
    rw [hlen, List.length_map]
  have key : ∀ (j : ℕ) L, (stackModes c mats A1)[j]? = some L → ∃ r, c.stack[j]? = some r ∧ PlanarModes c (mats r) L := by
    intro j L hL
    have := (List.getElem?_eq_some_iff.mp hL).1
    obtain ⟨r, hr⟩ : ∃ r, c.stack[j]? = some r := ⟨_, List.getElem?_eq_getElem (by omega)⟩
    exact ⟨r, hr, planar_stack hfix hh hr hL⟩
  have pS : ∀ (j : ℕ) L F, (stackModes c mats A1)[j]? = some L → (c.stack.map fun r => filmS c.omega k (mats r))[j]? = some F →
      Pure L F (atOrder i0 u v) ∧ CoPure L F (atOrder i0 u v) := by
    intro j L F hL hF
    obtain ⟨r, hr, hm⟩ := key j L hL
    rw [List.getElem?_map, hr] at hF
    obtain rfl : filmS c.omega k (mats r) = F := by simpa using hF
    exact hm.pure_s huv (hqs j L hL _) hx hy
  have pP : ∀ (j : ℕ) L F, (stackModes c mats A1)[j]? = some L → (c.stack.map fun r => filmP c.omega k (mats r))[j]? = some F →
      Pure L F (atOrder i0 v (-u)) ∧ CoPure L F (atOrder i0 v (-u)) := by
    intro j L F hL hF
    obtain ⟨r, hr, hm⟩ := key j L hL
    rw [List.getElem?_map, hr] at hF
    obtain rfl : filmP c.omega k (mats r) = F := by simpa using hF
    exact hm.pure_p huv (hqs j L hL _) hx hy
  have dS : atOrder i0 u v ⬝ᵥ atOrder i0 u v = 1 := by
    rw [atOrder_dot]; simp [atOrder]; linear_combination huv
  have dP : atOrder i0 v (-u) ⬝ᵥ atOrder i0 v (-u) = 1 := by
    rw [atOrder_dot]; simp [atOrder]; linear_combination huv
  have dSP : atOrder i0 u v ⬝ᵥ atOrder i0 v (-u) = 0 := by
    rw [atOrder_dot]; simp [atOrder]; ring
  have dPS : atOrder i0 v (-u) ⬝ᵥ atOrder i0 u v = 0 := by
    rw [atOrder_dot]; simp [atOrder]; ring
  have fS := CoPure.waves lS (fun j L F a b => (pS j L F a b).2) hs
  have fP := CoPure.waves lP (fun j L F a b => (pP j L F a b).2) hs
  have h0 : (amp 0).1 = x • atOrder i0 u v + y • atOrder i0 v (-u) := hs.2.1
  have x0 : atOrder i0 u v ⬝ᵥ (amp 0).1 = x := by
    rw [h0, dotProduct_add, dotProduct_smul, dotProduct_smul, dS, dSP]; simp
  have y0 : atOrder i0 v (-u) ⬝ᵥ (amp 0).1 = y := by
    rw [h0, dotProduct_add, dotProduct_smul, dotProduct_smul, dP, dPS]; simp
  -- any waves in the films are these
  have all : ∀ a b a' b', FilmWaves (c.stack.map fun r => filmS c.omega k (mats r)) a b → a 0 = x →
      FilmWaves (c.stack.map fun r => filmP c.omega k (mats r)) a' b' → a' 0 = y → ∀ j, j < c.stack.length → amp j =
        (a j • atOrder i0 u v + a' j • atOrder i0 v (-u), b j • atOrder i0 u v + b' j • atOrder i0 v (-u)) := by
    intro a b a' b' h1 h2 h3 h4 j hj
    have w1 := Pure.waves lS (fun j L F a b => (pS j L F a b).1) h1
    have w2 := Pure.waves lP (fun j L F a b => (pP j L F a b).1) h3
    have w := Nannos.StackSolution.add w1 w2 1 1
    simp only [one_smul] at w
    rw [h2, h4] at w
    rw [← hun _ w j hj]
  refine ⟨_, _, _, _, fS, x0, fP, y0, ?_, ?_, all _ _ _ _ fS x0 fP y0⟩
  · intro a b hab ha j hj
    have := all _ _ _ _ hab ha fP y0 j hj
    have e1 := congrArg (fun p => atOrder i0 u v ⬝ᵥ p.1) this
    have e2 := congrArg (fun p => atOrder i0 u v ⬝ᵥ p.2) this
    simp only [dotProduct_add, dotProduct_smul, dS, dSP, smul_eq_mul, mul_one, mul_zero, add_zero] at e1 e2
    exact ⟨e1.symm, e2.symm⟩
  · intro a b hab ha j hj
    have := all _ _ _ _ fS x0 hab ha j hj
    have e1 := congrArg (fun p => atOrder i0 v (-u) ⬝ᵥ p.1) this
    have e2 := congrArg (fun p => atOrder i0 v (-u) ⬝ᵥ p.2) this
    simp only [dotProduct_add, dotProduct_smul, dP, dPS, smul_eq_mul, mul_one, mul_zero, zero_add] at e1 e2
    exact ⟨e1.symm, e2.symm⟩

end

/-- The fields retrieved in a stack of homogeneous layers, after any history. -/
theorem planar_fields {lats stack exc nh form} (hinit : simInit E lats mats stack exc nh form = .ok c)
    (hh : ∀ r ∈ stack, Homogeneous (mats r)) {wl ang} (hp : planeWave wl ang = .ok exc) (hwl : 0 < wl)
    (hcos : 0 < Real.cos exc.theta) (h00 : ((0 : ℤ), (0 : ℤ)) ∈ c.harmonics) {e m : ℝ} (hpos : 0 < e) (hmpos : 0 < m)
    {r0 : ℕ} (hr0 : stack.head? = some r0) (he : (mats r0).epsilon.value = e) (hm : (mats r0).mu = m)
    (hist : List (Call c.nh)) (id : LayerId) (zs : List ℝ) (hz : zs ≠ []) (Fs : List (FieldF c.nh))
    (h : (getFieldFourier E c id zs (afterCalls E c hist (Dyn.fresh mats (unsolved c.nh)))).1 = .ok Fs) :
    ∃ w k : ℝ, w = 2 * Real.pi / wl ∧ w = c.omega ∧ k = w * Real.sqrt (e * m) * Real.sin exc.theta ∧
    (∀ r ∈ stack, (mats r).epsilon.value ≠ 0 ∧ normalK c.omega k (mats r) ≠ 0) ∧ ∃ as bs ap bp : ℕ → ℂ,
    FilmWaves (stack.map fun r => filmS w k (mats r)) as bs ∧ as 0 = -(Real.sin exc.psi * Real.cos exc.theta : ℝ) ∧
    FilmWaves (stack.map fun r => filmP w k (mats r)) ap bp ∧ ap 0 = -(Real.cos exc.psi : ℝ) ∧
    (∀ a b, FilmWaves (stack.map fun r => filmS w k (mats r)) a b → a 0 = as 0 →
      ∀ j, j < stack.length → a j = as j ∧ b j = bs j) ∧
    (∀ a b, FilmWaves (stack.map fun r => filmP w k (mats r)) a b → a 0 = ap 0 →
      ∀ j, j < stack.length → a j = ap j ∧ b j = bp j) ∧
    ∃ r n F, getLayer c id = .ok (r, n) ∧ ∃ j, pyIdx stack.length n = some j ∧ stack[j]? = some r ∧
    (∀ zs', (getFieldFourier E c id zs' (afterCalls E c hist (Dyn.fresh mats (unsolved c.nh)))).1 = .ok (zs'.map F)) ∧
    ∀ z (i : Fin c.nh), ((i : ℕ) ≠ c.indexZerothOrder → (F z).ex i = 0 ∧ (F z).ey i = 0 ∧ (F z).ez i = 0 ∧
        (F z).hx i = 0 ∧ (F z).hy i = 0 ∧ (F z).hz i = 0) ∧
      ((i : ℕ) = c.indexZerothOrder →
        (F z).hx i = Real.cos exc.phi * (filmS w k (mats r)).mag (as j) (bs j) z +
          Real.sin exc.phi * (filmP w k (mats r)).mag (ap j) (bp j) z ∧
        (F z).hy i = Real.sin exc.phi * (filmS w k (mats r)).mag (as j) (bs j) z -
          Real.cos exc.phi * (filmP w k (mats r)).mag (ap j) (bp j) z ∧
        w * (F z).ex i = Real.sin exc.phi * (filmS w k (mats r)).ele (as j) (bs j) z -
          Real.cos exc.phi * (filmP w k (mats r)).ele (ap j) (bp j) z ∧
        w * (F z).ey i = -(Real.cos exc.phi * (filmS w k (mats r)).ele (as j) (bs j) z +
          Real.sin exc.phi * (filmP w k (mats r)).ele (ap j) (bp j) z) ∧
        w ^ 2 * (F z).hz i = -(k * (filmS w k (mats r)).ele (as j) (bs j) z) ∧
        w * (mats r).epsilon.value * (F z).ez i = k * (filmP w k (mats r)).mag (ap j) (bp j) z) := by
  obtain ⟨hom, hw, i0, hi0, hx, hy, ha0⟩ := planar_incoming hinit hp hwl hcos h00 hpos hmpos hr0 he hm
  have hi := simInit_ok hinit
  have hst : c.stack = stack := hi.stack_eq
  subst hst
  obtain ⟨A1, res, hs, hA⟩ := fields_of_history_raw (E := E) (c := c) hinit
  obtain ⟨hfix, r, n, ab, h1, h2, M, t, F, h5, h6, h7, h8, h9, h10⟩ := hA hist id zs Fs hz h
  obtain ⟨j, u1, amp, v1, v2, v3⟩ := ampV_solution hfix h2
  have hqs := ampV_q hfix h2
  have huv : Real.cos exc.phi ^ 2 + Real.sin exc.phi ^ 2 = 1 := by
    have := Real.sin_sq_add_cos_sq exc.phi
    linarith
  have huv' : (Real.cos exc.phi : ℂ) ^ 2 + (Real.sin exc.phi : ℂ) ^ 2 = 1 := by exact_mod_cast huv
  set k : ℝ := c.omega * Real.sqrt (e * m) * Real.sin exc.theta with hkdef
  have hrm : r ∈ c.stack := getLayer_mem h1
  rw [ha0] at v1 v3
  obtain ⟨as, bs, ap, bp, w1, w2, w3, w4, w5, w6, w7⟩ := planar_waves hfix hh hqs huv' hx hy
    (List.ne_nil_of_mem hrm) v1 v3
  have hjr : c.stack[j]? = some r := by
    have := getLayer_pyGet h1
    unfold pyGet at this
    rw [u1] at this
    dsimp only at this
    split at this
    · rename_i y hy; rw [hy, Except.ok.inj this]
    · simp at this
  have hj : j < c.stack.length := (List.getElem?_eq_some_iff.mp hjr).1
  have hL : (stackModes c mats A1)[j]? = some M := by
    have := (hfix r hrm).form.modesD
    rw [h5] at this
    unfold stackModes
    rw [List.getElem?_map, hjr, Except.ok.inj this]
    rfl
  have hne : ∀ r ∈ c.stack, (mats r).epsilon.value ≠ 0 ∧ normalK c.omega k (mats r) ≠ 0 := by
    intro r hr
    obtain ⟨j, hj⟩ := List.mem_iff_getElem?.mp hr
    have hL : (stackModes c mats A1)[j]? = some (modesD (mats r) (A1 r)) := by
      unfold stackModes; rw [List.getElem?_map, hj]; rfl
    have pl := planar_stack hfix hh hj hL
    exact ⟨pl.e0, by rw [← pl.normalK huv' hx hy]; exact hqs j _ hL _⟩
  have pl := planar_stack hfix hh hjr hL
  refine ⟨c.omega, k, hw, rfl, hkdef, hne, as, bs, ap, bp, w1, by rw [w2]; push_cast; ring, w3, by rw [w4]; push_cast; ring,
    fun a b hab ha => w5 a b hab (ha.trans w2), fun a b hab ha => w6 a b hab (ha.trans w4), r, n, F, h1, j, u1, hjr, h9, fun z i => ?_⟩
  have hii : (i : ℕ) = c.indexZerothOrder ↔ i = i0 := ⟨fun hc => Fin.ext (hc.trans hi0.symm), fun hc => hc ▸ hi0⟩
  have S := h8 z
  have hab : ab = _ := v2.symm.trans (w7 j hj)
  obtain ⟨f1, f2⟩ := pl.fields huv' (hqs j M hL _) hx hy (as j) (ap j) (bs j) (bp j) z
  rw [hab] at S
  dsimp only at S
  have hom' : (c.omega : ℂ) ≠ 0 := by exact_mod_cast hom.ne'
  have he0 := (hne r hrm).1
  have sez := S.ez
  unfold normalE at sez
  simp only [(hh r hrm).2.1, if_true, he0, if_false, Except.ok.injEq] at sez
  have ez : ∀ i, (mats r).epsilon.value * (F z).ez i = (c.ky i * (F z).hx i - c.kx i * (F z).hy i) / c.omega := by
    intro i
    rw [← sez]
    field_simp
  have hx1 := S.hx i
  have hy1 := S.hy i
  have ex1 := S.ex i
  have ey1 := S.ey i
  have hz1 := S.hz i
  have ez1 := ez i
  rw [f1] at hx1 hy1
  rw [f2] at ex1 ey1
  constructor
  · intro hne'
    have hi' : i ≠ i0 := fun hc => hne' (hii.mpr hc)
    simp [atOrder, hi'] at hx1 hy1 ex1 ey1
    rw [ex1, ey1] at hz1
    rw [hx1, hy1] at ez1
    simp at hz1 ez1
    exact ⟨ex1, ey1, ez1.resolve_left he0, hx1, hy1, hz1⟩
  · intro hc
    obtain rfl := hii.mp hc
    simp [atOrder] at hx1 hy1 ex1 ey1
    rw [hx1, hy1, hx, hy] at ez1
    rw [ex1, ey1, hx, hy] at hz1
    refine ⟨?_, ?_, ?_, ?_, ?_, ?_⟩
    · rw [hx1]; push_cast; ring
    · rw [hy1]; push_cast; ring
    · rw [ex1]; push_cast; field_simp; ring
    · rw [ey1]; push_cast; field_simp
    · rw [hz1]; push_cast at huv' ⊢; field_simp
      linear_combination (-k * (filmS c.omega k (mats r)).ele (as j) (bs j) z) * huv'
    · rw [mul_assoc, ez1]; push_cast at huv' ⊢; field_simp
      linear_combination (k * (filmP c.omega k (mats r)).mag (ap j) (bp j) z) * huv'

/-- When the efficiencies of a stack of homogeneous layers are returned (once, after some history), the fields in its first and last
layers are (always). -/
theorem planar_retrieves {lats stack exc nh form} (hinit : simInit E lats mats stack exc nh form = .ok c)
    (hh : ∀ r ∈ stack, Homogeneous (mats r)) (hom : c.omega ≠ 0) (hist0 : List (Call c.nh)) {RT : (Fin c.nh → ℝ) × (Fin c.nh → ℝ)}
    (h : (efficienciesByOrder E c (afterCalls E c hist0 (Dyn.fresh mats (unsolved c.nh)))).1 = .ok RT)
    {k r : ℕ} (hk : k = 0 ∨ k = stack.length - 1) (hr : stack[k]? = some r) {t : ℝ} (ht : (mats r).thickness = some t)
    (hist : List (Call c.nh)) (zs : List ℝ) :
    ∃ Fs, (getFieldFourier E c (.idx k) zs (afterCalls E c hist (Dyn.fresh mats (unsolved c.nh)))).1 = .ok Fs := by
  have hi := simInit_ok hinit
  have hst : c.stack = stack := hi.stack_eq
  subst hst
  have hnd : c.stack.Nodup := hi.nodup
  obtain ⟨A1, res, hs, -⟩ := solveSpec_of_noStale (E := E) (mats := mats) hnd
    (noStale_unsolved (c := c) mats c.stack)
  have h0 : Inv E c mats (unsolved c.nh) A1 res (Dyn.fresh mats (unsolved c.nh)) := inv_fresh _ (.inl rfl)
  have h1 := h0.calls hs hist0
  have h2 := h0.calls hs hist
  generalize afterCalls E c hist0 (Dyn.fresh mats (unsolved c.nh)) = d at h h1
  generalize afterCalls E c hist (Dyn.fresh mats (unsolved c.nh)) = d' at h2 ⊢
  have hv := yields_efficiencies hs d RT (efficienciesByOrder E c d).2 h1 (Prod.ext h rfl)
  have hfix := hs.fix hnd hv.1
  obtain rfl := hv.1
  obtain ⟨S, r0', rN', M0, MN, f0, fN, s⟩ := effV_solution hfix hv
  have hlt : k < c.stack.length := (List.getElem?_eq_some_iff.mp hr).1
  have hg : pyGet c.stack (k : ℤ) = .ok r := (pyGet_nat c.stack k r).mpr hr
  have hgl : getLayer c (.idx (k : ℤ)) = .ok (r, (k : ℤ)) := by
    unfold getLayer
    simp only [hg]
    rfl
  have hm := List.mem_of_getElem? hr
  have hL : (stackModes c mats A1)[k]? = some (modesD (mats r) (A1 r)) := by
    unfold stackModes; rw [List.getElem?_map, hr]; rfl
  have pl := planar_stack hfix hh hr hL
  have hval : ∃ S, valS c mats A1 (.ok ()) none = .ok S := by
    obtain ⟨-, SM, -, -, -, -, -, -, hSM, -⟩ := hv
    exact ⟨SM, hSM⟩
  obtain ⟨Fs, d2, e1, -⟩ := succeeds_getFieldFourier hs hgl rfl
    ⟨⟨r, hg⟩, fun _ => hval, fun x1 x2 x3 => by rcases hk with rfl | rfl <;> omega⟩
    (fieldAt_ok (hfix r hm).form.modesD (by rw [pl.thick, ht]) (fun i => mul_ne_zero (by exact_mod_cast hom) (s.qs k _ hL i))
      (fun dz => by
        unfold normalE
        simp only [(hh r hm).2.1, if_true, pl.e0, if_false]
        exact ⟨_, rfl⟩)) zs d' h2
  exact ⟨Fs, by rw [e1]⟩

end Nannos
