import Verif.Proofs.GuidedRun

/-!
C97: `get_S_matrix` fails only when a part of the stack supports a wave by itself.
C98: efficiencies and fields are returned unless a part of the stack supports a wave by itself.
-/

namespace Nannos

open Matrix Spec

variable {E : Ext} {lats : ℕ → Lattice} {mats : ℕ → LayerSpec} {stack : List ℕ} {exc : PlaneWave} {nh : ℤ} {form : String}
  {c : Static}

/-- C97. After `solve` has succeeded with independent eigenvectors, let `Ls` be the modes of the layers. For any part `i..j`
of the stack and after any calls, `get_S_matrix((i, j))` returns a matrix exactly when no mode of these layers is constant
in depth and none of the parts `i..k`, `i < k ≤ j`, supports a wave by itself. When such a wave exists `LinAlgError` is
raised. -/
theorem C97_scattering_matrix_missing_at_guided_waves (hinit : simInit E lats mats stack exc nh form = .ok c)
    (hE : EigContract E) (hw : WellPlaced mats stack) (hmu : ∀ r ∈ stack, (mats r).mu = 1) (hom : c.omega ≠ 0)
    {d1 : Dyn c.nh} (hsolve : solve E c (Dyn.fresh mats (unsolved c.nh)) = (.ok (), d1))
    (hdet : ∀ r ∈ stack, ∀ ev, (d1.attrs r).eig = some ev → ev.2.det ≠ 0) :
    ∃ Ls : List (Modes (Idx c.nh)), List.Forall₂ (fun r L => modesOf (mats r) (d1.attrs r) = .ok L) stack Ls ∧
      ∀ (hist : List (Call c.nh)) (i j : ℕ), i < j → j < stack.length →
        ((∃ S, (getS E c (some ((i : ℤ), (j : ℤ))) (afterCalls E c hist (Dyn.fresh mats (unsolved c.nh)))).1 = .ok S) ↔
          (∀ (k : ℕ) (L : Modes (Idx c.nh)), i ≤ k → k ≤ j → Ls[k]? = some L → ∀ p, L.q p ≠ 0) ∧
          ∀ k, i < k → k ≤ j → ¬GuidedWave Ls i k) ∧
        ((∀ (k : ℕ) (L : Modes (Idx c.nh)), i ≤ k → k ≤ j → Ls[k]? = some L → ∀ p, L.q p ≠ 0) →
          (∃ k, i < k ∧ k ≤ j ∧ GuidedWave Ls i k) →
          (getS E c (some ((i : ℤ), (j : ℤ))) (afterCalls E c hist (Dyn.fresh mats (unsolved c.nh)))).1 =
            .error .linAlgError) := by
  obtain ⟨A1, hA, hs, hfix, h1, h2, h3⟩ := solved_run hinit hE hw hmu hom hsolve hdet
  refine ⟨stackModes c mats A1, h1, fun hist i j hij hj => ?_⟩
  have h0 : Inv E c mats (unsolved c.nh) A1 (.ok ()) (Dyn.fresh mats (unsolved c.nh)) := inv_fresh _ (.inl rfl)
  rw [(det_getS' hs (some ((i : ℤ), (j : ℤ))) _ (h0.calls hs hist)).1]
  exact h3 i j hij hj

/-- C98. Same setting, vacuum wavelength positive and incident power not zero. When no mode is constant in depth and none
of the parts `0..k` supports a wave by itself, `diffraction_efficiencies` returns. If moreover none of the parts `l..k`
does, the fields in layer `l` are returned.

Missing from the property: it should be enough that the whole stack supports no wave by itself; see
`C98_field_missing_above_plasmon`. -/
theorem C98_results_without_guided_waves_partial (hinit : simInit E lats mats stack exc nh form = .ok c)
    (hE : EigContract E) (hw : WellPlaced mats stack) (hmu : ∀ r ∈ stack, (mats r).mu = 1) (hom : c.omega ≠ 0)
    (hflux : c.incidentFlux ≠ 0) (htwo : 1 < stack.length)
    {d1 : Dyn c.nh} (hsolve : solve E c (Dyn.fresh mats (unsolved c.nh)) = (.ok (), d1))
    (hdet : ∀ r ∈ stack, ∀ ev, (d1.attrs r).eig = some ev → ev.2.det ≠ 0) :
    ∃ Ls : List (Modes (Idx c.nh)), List.Forall₂ (fun r L => modesOf (mats r) (d1.attrs r) = .ok L) stack Ls ∧
      ((∀ L ∈ Ls, ∀ p, L.q p ≠ 0) → (∀ k, 0 < k → k < stack.length → ¬GuidedWave Ls 0 k) → ∀ hist : List (Call c.nh),
        (∃ RT, (efficienciesByOrder E c (afterCalls E c hist (Dyn.fresh mats (unsolved c.nh)))).1 = .ok RT) ∧
        ∀ (id : LayerId) (r l : ℕ), getLayer c id = .ok (r, (l : ℤ)) → (∃ t, (mats r).thickness = some t) →
          (l = 0 ∨ l + 1 = stack.length ∨ ∀ k, l < k → k < stack.length → ¬GuidedWave Ls l k) → ∀ zs,
          ∃ Fs, (getFieldFourier E c id zs (afterCalls E c hist (Dyn.fresh mats (unsolved c.nh)))).1 = .ok Fs) := by
  obtain ⟨A1, hA, hs, hfix, h1, h2, h3⟩ := solved_run hinit hE hw hmu hom hsolve hdet
  have hi := simInit_ok hinit
  have hst : c.stack = stack := hi.stack_eq
  subst hst
  refine ⟨stackModes c mats A1, h1, fun hq hg hist => ?_⟩
  have hom' : (c.omega : ℂ) ≠ 0 := by exact_mod_cast hom
  have hlen := stackModes_length c mats A1
  have hv : ∀ i j : ℕ, i < j → j < c.stack.length → (∀ k, i < k → k < c.stack.length → ¬GuidedWave (stackModes c mats A1) i k) →
      ∃ S, valS c mats A1 (.ok ()) (some ((i : ℤ), (j : ℤ))) = .ok S ∧ loopS (stackModes c mats A1) i j = .ok S := by
    intro i j hij hj hg
    obtain ⟨S, hS⟩ := ((h3 i j hij hj).1).mpr ⟨fun k L _ _ hk => hq L (List.mem_of_getElem? hk), fun k a b => hg k a (by omega)⟩
    refine ⟨S, hS, ?_⟩
    rw [valS_solved hfix] at hS
    exact (freshS_ok.mp hS).2
  obtain ⟨r0, hr0⟩ : ∃ r, c.stack[0]? = some r := ⟨_, List.getElem?_eq_getElem (by omega)⟩
  obtain ⟨rN, hrN⟩ : ∃ r, c.stack[c.stack.length - 1]? = some r := ⟨_, List.getElem?_eq_getElem (by omega)⟩
  have hN : ((c.stack.length : ℤ) - 1) = ((c.stack.length - 1 : ℕ) : ℤ) := by omega
  obtain ⟨S, hv0, hl0⟩ := hv 0 (c.stack.length - 1) (by omega) (by omega) hg
  have hvn : valS c mats A1 (.ok ()) none = .ok S := by rw [valS_none, hN]; exact hv0
  have hgN : pyGet c.stack (-1) = .ok rN := by
    unfold pyGet
    have e3 : pyIdx c.stack.length (-1) = some (c.stack.length - 1) := by
      unfold pyIdx
      rw [if_neg (by omega), if_pos (by omega)]
      congr 1
      omega
    rw [e3]
    dsimp only
    rw [hrN]
  have hmd : ∀ (k r : ℕ), c.stack[k]? = some r → ∀ i, (c.omega : ℂ) * (modesD (mats r) (A1 r)).q i ≠ 0 := by
    intro k r hk i
    have : (stackModes c mats A1)[k]? = some (modesD (mats r) (A1 r)) := by
      unfold stackModes; rw [List.getElem?_map, hk]; rfl
    exact mul_ne_zero hom' (hq _ (List.mem_of_getElem? this) i)
  have h0 : Inv E c mats (unsolved c.nh) A1 (.ok ()) (Dyn.fresh mats (unsolved c.nh)) := inv_fresh _ (.inl rfl)
  have h1 := h0.calls hs hist
  generalize afterCalls E c hist (Dyn.fresh mats (unsolved c.nh)) = d at h1
  refine ⟨?_, ?_⟩
  · obtain ⟨RT, d', e, -⟩ := succeeds_efficiencies hs hvn ((pyGet_nat c.stack 0 r0).mpr hr0) hgN
      (hfix r0 (List.mem_of_getElem? hr0)).form.modesD (hfix rN (List.mem_of_getElem? hrN)).form.modesD
      (hmd 0 r0 hr0) (hmd _ rN hrN) hflux d h1
    exact ⟨RT, by rw [e]⟩
  · rintro id r k hid ⟨t, ht⟩ hgl zs
    have hget := getLayer_pyGet hid
    have hk := (pyGet_nat c.stack k r).mp hget
    have hrm := List.mem_of_getElem? hk
    have hklt := (List.getElem?_eq_some_iff.mp hk).1
    have hamp : AmpOk c mats A1 (.ok ()) k := by
      refine ⟨⟨r, hget⟩, fun _ => ⟨S, hvn⟩, fun n1 n2 n3 => ?_⟩
      have hkn : k < c.stack.length - 1 := by omega
      obtain ⟨S1, a1, a2⟩ := hv 0 k (by omega) (by omega) hg
      obtain ⟨S2, b1, b2⟩ := hv k (c.stack.length - 1) hkn (by omega) (by
        rcases hgl with h | h | h
        · omega
        · omega
        · exact h)
      exact ⟨S1, S2, a1, by rw [hN]; exact b1, cascade_unit (Nat.zero_le k) hkn.le a2 b2 hl0⟩
    have hM := (hfix r hrm).form.modesD
    obtain ⟨Fs, d', e, -⟩ := succeeds_getFieldFourier hs hid rfl hamp
      (fieldAt_ok hM (t := t) (by unfold modesD; exact ht) (hmd k r hk) (normalE_total hmu hw hfix k r hk)) zs d h1
    exact ⟨Fs, by rw [e]⟩

end Nannos
