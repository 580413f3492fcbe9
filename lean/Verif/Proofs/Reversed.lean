import Verif.Spec.Reversed
import Verif.Props.SMatrix
import Verif.Proofs.GuidedRun
import Verif.Proofs.ScaledSim

/-! The stack turned upside down. -/

namespace Nannos

open Matrix Spec

section
variable {m : Type} [Fintype m] [DecidableEq m]

theorem tanH_turned (L : Modes m) (a b : m → ℂ) (z : ℝ) : tanH L b a (L.z - z) = tanH L a b z := by
  funext i
  unfold tanH
  refine Finset.sum_congr rfl fun j _ => ?_
  rw [sub_sub_cancel, add_comm]

theorem tanE_turned (L : Modes m) (a b : m → ℂ) (z : ℝ) : tanE L b a (L.z - z) = -tanE L a b z := by
  funext i
  rw [Pi.neg_apply]
  unfold tanE
  rw [← Finset.sum_neg_distrib]
  refine Finset.sum_congr rfl fun j _ => ?_
  rw [sub_sub_cancel]
  ring

theorem match_turned {L L' : Modes m} {a b a' b' : m → ℂ} (h : Match L L' a b a' b') : Match L' L b' a' b a := by
  obtain ⟨h1, h2⟩ := h
  have e1 := tanE_turned L' a' b' 0
  have e2 := tanE_turned L a b L.z
  have e3 := tanH_turned L' a' b' 0
  have e4 := tanH_turned L a b L.z
  rw [sub_zero] at e1 e3
  rw [sub_self] at e2 e4
  exact ⟨by rw [e1, e2, h1], by rw [e3, e4, h2]⟩

theorem consistent_turned {Ls : List (Modes m)} {i j : ℕ} (hj : j < Ls.length) {amp : ℕ → (m → ℂ) × (m → ℂ)} (h : Consistent Ls i j amp) :
    Consistent Ls.reverse (Ls.length - 1 - j) (Ls.length - 1 - i) fun k => ((amp (Ls.length - 1 - k)).2, (amp (Ls.length - 1 - k)).1) := by
  intro k L L' h1 h2 hL hL'
  have hk : k + 1 < Ls.length := by omega
  rw [List.getElem?_reverse (by omega)] at hL
  rw [List.getElem?_reverse hk] at hL'
  have e : Ls.length - 1 - (k + 1) + 1 = Ls.length - 1 - k := by omega
  have := h (Ls.length - 1 - (k + 1)) L' L (by omega) (by omega) hL' (by rw [e]; exact hL)
  rw [e] at this
  exact match_turned this

theorem turned_S {Ls : List (Modes m)} {i j : ℕ} {S S' : SMat m} (hS : freshS Ls i j = .ok S)
    (hS' : freshS Ls.reverse ((Ls.length - 1 - j : ℕ) : ℤ) ((Ls.length - 1 - i : ℕ) : ℤ) = .ok S') : S' = S.turned := by
  obtain ⟨hij, hj, h1, h2⟩ := C22_scattering_matrix_solves_stack Ls i j S hS
  obtain ⟨-, -, h1', -⟩ := C22_scattering_matrix_solves_stack Ls.reverse _ _ S' hS'
  have key : ∀ a b : m → ℂ, S.s22 *ᵥ b + S.s21 *ᵥ a = S'.s11 *ᵥ b + S'.s12 *ᵥ a ∧ S.s12 *ᵥ b + S.s11 *ᵥ a = S'.s21 *ᵥ b + S'.s22 *ᵥ a := by
    intro a b
    obtain ⟨amp, hc, ha, hb, -⟩ := h2 a b
    obtain ⟨f1, f2⟩ := h1 amp hc
    obtain ⟨g1, g2⟩ := h1' _ (consistent_turned hj hc)
    have e1 : Ls.length - 1 - (Ls.length - 1 - j) = j := by omega
    have e2 : Ls.length - 1 - (Ls.length - 1 - i) = i := by omega
    simp only [e1, e2, ha, hb] at f1 f2 g1 g2
    exact ⟨by rw [← g1, f2, add_comm], by rw [← g2, f1, add_comm]⟩
  have ext : ∀ A B : Matrix m m ℂ, (∀ v, A *ᵥ v = B *ᵥ v) → A = B := fun A B h => Matrix.mulVec_injective (funext h)
  obtain ⟨s11, s12, s21, s22⟩ := S'
  unfold SMat.turned
  congr 1
  · exact (ext _ _ fun v => by simpa using (key 0 v).1).symm
  · exact (ext _ _ fun v => by simpa using (key v 0).1).symm
  · exact (ext _ _ fun v => by simpa using (key 0 v).2).symm
  · exact (ext _ _ fun v => by simpa using (key v 0).2).symm

end

variable {E : Ext} {lats : ℕ → Lattice} {mats : ℕ → LayerSpec} {stack : List ℕ} {nh : ℤ} {form : String}

theorem simInit_turned {exc exc' : PlaneWave} {c : Static} {r0 r1 : ℕ} (hc : simInit E lats mats stack exc nh form = .ok c)
    (h0 : stack.head? = some r0) (h1 : stack.getLast? = some r1)
    (hu : (mats r1).isUniform = true ∧ (mats r1).isAnisotropic = false) (hn : (mats r1).epsilon.value * (mats r1).mu ≠ 0)
    (hwl : exc'.wavelength = exc.wavelength)
    (hk : k0para exc'.wavevector (csqrt ((mats r1).epsilon.value * (mats r1).mu)) =
      k0para exc.wavevector (csqrt ((mats r0).epsilon.value * (mats r0).mu))) :
    simInit E lats mats stack.reverse exc' nh form = .ok (c.turned exc' (mats r1)) := by
  have hi := simInit_ok hc
  have h1' : stack.reverse.head? = some r1 := by rw [List.head?_reverse]; exact h1
  have hall : (stack.reverse.all fun r => (mats r).isUniform) = stack.all fun r => (mats r).isUniform := List.all_reverse
  have hl1 : (mats r1).lattice = (mats r0).lattice := hi.lat r1 (List.mem_of_getLast? h1) r0 h0
  obtain ⟨n, hH⟩ := hi.harm
  obtain ⟨R, hR, hkx, hky⟩ := hi.recip
  have hex : ∃ c', simInit E lats mats stack.reverse exc' nh form = .ok c' := by
    obtain ⟨tl, htl⟩ : ∃ tl, stack.reverse = r1 :: tl := by
      rcases hs : stack.reverse with _ | ⟨r, tl⟩
      · rw [hs] at h1'; simp at h1'
      · rw [hs] at h1'; simp at h1'; exact ⟨tl, by rw [h1']⟩
    rw [htl]
    rw [htl] at hall
    refine simInit_exists (H := c.harmonics) (n := n) (r := R) ?_ ?_ hi.form ?_ ?_ ?_ hu hn ?_
    · rw [← htl, List.map_reverse]; exact List.nodup_reverse.mpr hi.names
    · intro r hr
      rw [← htl, List.mem_reverse] at hr
      rw [hi.lat r hr r0 h0, hl1]
    · rw [hl1]; exact hi.form1 r0 h0
    · rw [hl1, hall, ← hi.lat_eq r0 h0]; exact hH
    · rw [hl1, ← hi.lat_eq r0 h0]; exact hi.nyquist
    · rw [hl1, ← hi.lat_eq r0 h0]; exact hR
  obtain ⟨c', hc'⟩ := hex
  rw [hc']
  have hi' := simInit_ok hc'
  obtain ⟨n', hH'⟩ := hi'.harm
  obtain ⟨R', hR', hkx', hky'⟩ := hi'.recip
  have e1 : c'.lattice = c.lattice := by rw [hi'.lat_eq r1 h1', hi.lat_eq r0 h0, hl1]
  rw [e1, hall, hH] at hH'
  rw [e1, hR] at hR'
  obtain ⟨-, -, -, f1, f2⟩ := hi'.sup r1 h1'
  obtain ⟨-, -, -, g1, g2⟩ := hi.sup r0 h0
  have e2 : c'.k0para = c.k0para := by rw [f2, g2, hk]
  have e3 := hi'.form_eq.trans hi.form_eq.symm
  have e4 : c'.omega = c.omega := by rw [hi'.omega_eq, hi.omega_eq, hwl]
  have e5 : c'.stack = c.stack.reverse := by rw [hi'.stack_eq, hi.stack_eq]
  have e6 : c'.layerNames = c.layerNames.reverse := by rw [hi'.names_eq, hi.names_eq, List.map_reverse]
  have e7 := hi'.exc_eq
  have e8 := hi'.a0
  have e9 := hi'.idx
  have e10 := hi.idx
  have e11 : c'.harmonics = c.harmonics := by injection hH' with h; injection h with h _; exact h.symm
  have e12 : R' = R := by injection hR' with h; exact h.symm
  subst e12
  clear hi hi' hc hc' hH hH' hR hR' g1 g2 f2 hk
  obtain ⟨lattice, fo, H, ex, om, fl, k0, kx, ky, i0, a0, st, nm⟩ := c
  obtain ⟨lattice', fo', H', ex', om', fl', k0', kx', ky', i0', a0', st', nm'⟩ := c'
  dsimp only at *
  subst e1 e2 e3 e4 e5 e6 e7 e11
  obtain rfl : i0' = i0 := e9.trans e10.symm
  obtain rfl : kx' = kx := funext fun i => (hkx' i).trans (hkx i).symm
  obtain rfl : ky' = ky := funext fun i => (hky' i).trans (hky i).symm
  unfold Static.turned
  dsimp only
  rw [f1]
  have : a0' = Sum.elim (fun i : Fin H'.length => if (i : ℕ) = i0' then (ex'.a0 0 : ℂ) else 0)
      (fun i : Fin H'.length => if (i : ℕ) = i0' then (ex'.a0 1 : ℂ) else 0) := by
    funext i
    rcases i with i | i
    · exact (e8 i).1
    · exact (e8 i).2
  rw [this]

theorem modesD_of_form {c : Static} {L : LayerSpec} {Ao a Ao' a' : LayerAttr c.nh} (hc : L.iscopy = false) (h : SolvedForm E c L Ao a)
    (h' : SolvedForm E c L Ao' a') : modesD L a' = modesD L a := by
  unfold modesD
  rcases h with ⟨Q, ev, -, hb, he, hQ, ha⟩ | ⟨M, p, Q, ev, -, hb, he, ha⟩ | ⟨_, _, _, _, h, _⟩ | ⟨_, _, _, _, h, _⟩
  · rcases h' with ⟨Q', ev', -, hb', he', hQ', ha'⟩ | ⟨M', p', Q', ev', -, hb', he', ha'⟩ | ⟨_, _, _, _, h, _⟩ | ⟨_, _, _, _, h, _⟩
    · rw [hb] at hb'; rw [he] at he'
      obtain rfl : ev = ev' := by injection he'
      injection hb' with hb'; injection hb' with hb'
      rw [hQ, hQ', ha, ha', hb']
    · rw [hb] at hb'; simp at hb'
    · rw [hc] at h; simp at h
    · rw [hc] at h; simp at h
  · rcases h' with ⟨Q', ev', -, hb', he', hQ', ha'⟩ | ⟨M', p', Q', ev', -, hb', he', ha'⟩ | ⟨_, _, _, _, h, _⟩ | ⟨_, _, _, _, h, _⟩
    · rw [hb] at hb'; simp at hb'
    · rw [hb] at hb'
      injection hb' with hb'; injection hb' with hM hp hQ
      subst hM hQ
      rw [he] at he'
      obtain rfl : ev = ev' := by injection he'
      rw [ha, ha']
    · rw [hc] at h; simp at h
    · rw [hc] at h; simp at h
  · rw [hc] at h; simp at h
  · rw [hc] at h; simp at h

theorem stepOut_turned {c : Static} (exc : PlaneWave) (L0 L : LayerSpec) (a : LayerAttr c.nh) :
    stepOut E (c.turned exc L0) L a = stepOut E c L a := by
  have h1 : solveUniform L (c.turned exc L0).omega (c.turned exc L0).kx (c.turned exc L0).ky = solveUniform L c.omega c.kx c.ky := rfl
  have h2 : buildPure E (c.turned exc L0) L = buildPure E c L := rfl
  unfold stepOut
  rw [h1, h2]
  by_cases h : L.iscopy = true
  · simp only [h, if_true]
    obtain ⟨M, p, Q, ev⟩ := a
    rcases M with _ | M <;> rcases p with _ | p <;> rcases Q with _ | Q <;> try rfl
    dsimp only
    rcases (if L.isUniform = true then solveUniform L c.omega c.kx c.ky else attr ev) with _ | _ <;> rfl
  · simp only [h]
    rcases buildPure E c L with e | (Q | ⟨M, p, Q⟩)
    · rfl
    · rcases solveUniform L c.omega c.kx c.ky with _ | _ <;> rfl
    · dsimp only
      rcases solveEigenproblem E M with _ | _ <;> rfl

theorem layerFix_turned {c : Static} {exc' : PlaneWave} {L : LayerSpec} {A : ℕ → LayerAttr c.nh} {r : ℕ} :
    LayerFix E (c.turned exc' L) mats A r ↔ LayerFix E c mats A r := by
  unfold LayerFix
  rw [stepOut_turned]

/-- The scattering matrices of the stack turned upside down. -/
theorem getS_turned {c : Static} {exc' : PlaneWave} {L : LayerSpec} (hnd : c.stack.Nodup) (hcp : ∀ r ∈ c.stack, (mats r).iscopy = false)
    (hist : List (Call c.nh)) (hist' : List (Call (c.turned exc' L).nh)) {i j : ℕ} {S S' : SMat (Idx c.nh)}
    (h : (getS E c (some ((i : ℤ), (j : ℤ))) (afterCalls E c hist (Dyn.fresh mats (unsolved c.nh)))).1 = .ok S)
    (h' : (getS E (c.turned exc' L) (some (((c.stack.length - 1 - j : ℕ) : ℤ), ((c.stack.length - 1 - i : ℕ) : ℤ)))
      (afterCalls E (c.turned exc' L) hist' (Dyn.fresh mats (unsolved c.nh)))).1 = .ok S') : S' = S.turned := by
  obtain ⟨A1, res, hs, -⟩ := solveSpec_of_noStale (E := E) (mats := mats) hnd (noStale_unsolved (c := c) mats c.stack)
  obtain ⟨A2, res2, hs2, -⟩ := solveSpec_of_noStale (E := E) (c := c.turned exc' L) (mats := mats) (List.nodup_reverse.mpr hnd)
    (noStale_unsolved (c := c.turned exc' L) mats _)
  rw [(det_getS' hs _ _ ((inv_fresh _ (.inl rfl)).calls hs hist)).1] at h
  erw [(det_getS' hs2 _ _ ((inv_fresh _ (.inl rfl)).calls hs2 hist')).1] at h'
  obtain rfl := valS_ok h
  obtain rfl := valS_ok h'
  have hf := hs.fix hnd rfl
  have hf2 := hs2.fix (List.nodup_reverse.mpr hnd) rfl
  rw [valS_solved hf] at h
  rw [valS_solved hf2] at h'
  have hst : stackModes (c.turned exc' L) mats A2 = (stackModes c mats A1).reverse := by
    unfold stackModes
    rw [← List.map_reverse]
    refine List.map_congr_left fun r hr => ?_
    have hr' : r ∈ c.stack := List.mem_reverse.mp hr
    exact modesD_of_form (c := c) (hcp r hr') (hf r hr').form ((layerFix_turned.mp (hf2 r hr)).form)
  rw [hst, ← stackModes_length c mats A1] at h'
  exact turned_S h h'

/-- `get_S_matrix()` is `get_S_matrix` of all layers. -/
theorem getS_none_eq {c : Static} (hnd : c.stack.Nodup) (hist : List (Call c.nh)) :
    (getS E c none (afterCalls E c hist (Dyn.fresh mats (unsolved c.nh)))).1 =
      (getS E c (some (0, (c.stack.length : ℤ) - 1)) (afterCalls E c hist (Dyn.fresh mats (unsolved c.nh)))).1 := by
  obtain ⟨A1, res, hs, -⟩ := solveSpec_of_noStale (E := E) (mats := mats) hnd (noStale_unsolved (c := c) mats c.stack)
  have h1 : Inv E c mats (unsolved c.nh) A1 res (afterCalls E c hist (Dyn.fresh mats (unsolved c.nh))) :=
    (inv_fresh _ (.inl rfl)).calls hs hist
  rw [(det_getS' hs _ _ h1).1, (det_getS' hs _ _ h1).1, valS_none]

/-- For a layer which is not a copy, whether it can be solved does not depend on the state of other layers. -/
theorem stepOut_noncopy {c : Static} {L : LayerSpec} (hc : L.iscopy = false) (Ao Ao' : LayerAttr c.nh) : stepOut E c L Ao = stepOut E c L Ao' := by
  unfold stepOut
  rw [hc]
  rfl

theorem solveAll_noncopy {c : Static} (rs : List ℕ) : ∀ d : Dyn c.nh, (∀ r ∈ rs, (d.mats r).iscopy = false) →
    ((solveAll E c rs d).1 = .ok () ↔ ∀ r ∈ rs, (stepOut E c (d.mats r) (unsolved c.nh 0)).1 = .ok ()) := by
  induction rs with
  | nil => intro d _; exact ⟨fun _ r hr => by simp at hr, fun _ => rfl⟩
  | cons r rs ih =>
    intro d hd
    rw [solveAll_cons, solveLayer_eq, stepOut_noncopy (hd r (by simp)) _ (unsolved c.nh 0)]
    rcases hr : (stepOut E c (d.mats r) (unsolved c.nh 0)).1 with e | u
    · simp [hr]
    · dsimp only
      refine (ih (d.setAttr r (stepOut E c (d.mats r) (unsolved c.nh 0)).2) fun s hs => hd s (by simp [hs])).trans ?_
      change (∀ s ∈ rs, (stepOut E c (d.mats s) (unsolved c.nh 0)).1 = .ok ()) ↔ _
      simp [hr]

theorem solve_ok_iff {c : Static} (hcp : ∀ r ∈ c.stack, (mats r).iscopy = false) :
    (solve E c (Dyn.fresh mats (unsolved c.nh))).1 = .ok () ↔ ∀ r ∈ c.stack, (stepOut E c (mats r) (unsolved c.nh 0)).1 = .ok () := by
  have h := solveAll_noncopy (E := E) (c := c) c.stack (Dyn.fresh mats (unsolved c.nh)) hcp
  refine Iff.trans ?_ h
  unfold solve
  rcases hr : solveAll E c c.stack (Dyn.fresh mats (unsolved c.nh)) with ⟨e | u, d⟩
  · rw [PyM.bind_error hr]
  · rw [PyM.bind_ok hr]
    exact ⟨fun _ => rfl, fun _ => rfl⟩

theorem solvedForm_slab {c : Static} {L L' : LayerSpec} {Ao a : LayerAttr c.nh} (hs : SameSlab L L') (hc : L.iscopy = false)
    (h : SolvedForm E c L' Ao a) : SolvedForm E c L Ao a := by
  have h1 : buildPure E c L' = buildPure E c L := by rw [hs]; rfl
  have h2 : solveUniform L' c.omega c.kx c.ky = solveUniform L c.omega c.kx c.ky := by rw [hs]; rfl
  have h3 : L'.iscopy = false := by rw [hs]; exact hc
  rcases h with ⟨Q, ev, -, hb, he, hQ, ha⟩ | ⟨M, p, Q, ev, -, hb, he, ha⟩ | ⟨_, _, _, _, h, _⟩ | ⟨_, _, _, _, h, _⟩
  · exact .uniform Q ev hc (h1 ▸ hb) (h2 ▸ he) hQ ha
  · exact .patterned M p Q ev hc (h1 ▸ hb) he ha
  · rw [h3] at h; simp at h
  · rw [h3] at h; simp at h

/-- The scattering matrix of a stack which is its own mirror image. -/
theorem getS_mirror {c : Static} (hne : c.stack ≠ []) (hnd : c.stack.Nodup) (hcp : ∀ r ∈ c.stack, (mats r).iscopy = false)
    (hm : ∀ (k r r' : ℕ), c.stack[k]? = some r → c.stack.reverse[k]? = some r' → SameSlab (mats r) (mats r'))
    (hist : List (Call c.nh)) {S : SMat (Idx c.nh)}
    (h : (getS E c none (afterCalls E c hist (Dyn.fresh mats (unsolved c.nh)))).1 = .ok S) : S = S.turned := by
  obtain ⟨A1, res, hs, -⟩ := solveSpec_of_noStale (E := E) (mats := mats) hnd (noStale_unsolved (c := c) mats c.stack)
  rw [(det_getS' hs _ _ ((inv_fresh _ (.inl rfl)).calls hs hist)).1] at h
  obtain rfl := valS_ok h
  have hf := hs.fix hnd rfl
  rw [valS_none, valS_solved hf] at h
  have hlen := stackModes_length c mats A1
  have hst : (stackModes c mats A1).reverse = stackModes c mats A1 := by
    unfold stackModes
    rw [← List.map_reverse]
    refine List.ext_getElem? fun k => ?_
    rw [List.getElem?_map, List.getElem?_map]
    rcases h1 : c.stack[k]? with _ | r
    · rw [List.getElem?_eq_none (by rw [List.length_reverse]; exact List.getElem?_eq_none_iff.mp h1)]
    · obtain ⟨r', h2⟩ : ∃ r', c.stack.reverse[k]? = some r' :=
        ⟨_, List.getElem?_eq_getElem (by rw [List.length_reverse]; exact (List.getElem?_eq_some_iff.mp h1).1)⟩
      rw [h2]
      have hr := List.mem_of_getElem? h1
      have hr' := List.mem_reverse.mp (List.mem_of_getElem? h2)
      have hsl := hm k r r' h1 h2
      simp only [Option.map_some]
      congr 1
      rw [← modesD_of_form (hcp r hr) (hf r hr).form (solvedForm_slab hsl (hcp r hr) (hf r' hr').form)]
      unfold modesD
      rw [hsl]
  have e1 : ((c.stack.length : ℤ) - 1) = (((stackModes c mats A1).length - 1 : ℕ) : ℤ) := by
    have := List.length_pos_iff.mpr hne
    omega
  rw [e1] at h
  refine turned_S (i := 0) h ?_
  rw [hst, Nat.sub_self, Nat.sub_zero]
  exact h

end Nannos
