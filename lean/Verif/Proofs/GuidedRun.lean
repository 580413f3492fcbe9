import Verif.Proofs.Guided
import Verif.Proofs.AbsorbingTotal
import Verif.Proofs.PlanarField

/-! When the scattering matrices of a solved simulation are defined. -/

namespace Nannos

open Matrix Spec

variable {E : Ext} {c : Static} {mats : ℕ → LayerSpec}

/-- A layer whose modes are independent and none of which is constant in depth. -/
theorem mode_regular {A : ℕ → LayerAttr c.nh} (hmu : ∀ r ∈ c.stack, (mats r).mu = 1) (hE : EigContract E)
    (hw : WellPlaced mats c.stack) (hf : ∀ r ∈ c.stack, LayerFix E c mats A r) (hom : c.omega ≠ 0)
    (hdet : ∀ r ∈ c.stack, ∀ ev, (A r).eig = some ev → ev.2.det ≠ 0) {k : ℕ} {L : Modes (Idx c.nh)}
    (hk : (stackModes c mats A)[k]? = some L) (hq : ∀ p, L.q p ≠ 0) : L.M.det ≠ 0 := by
  have hkl := (List.getElem?_eq_some_iff.mp hk).1
  have hlen := stackModes_length c mats A
  obtain ⟨r, hr⟩ : ∃ r, c.stack[k]? = some r := ⟨_, List.getElem?_eq_getElem (by omega)⟩
  obtain rfl : modesD (mats r) (A r) = L := by
    unfold stackModes at hk
    rw [List.getElem?_map, hr] at hk
    simpa using hk
  obtain ⟨P, e, m1, m2⟩ := solved_medium (stack := c.stack) hmu hE hw hf k r hr
  obtain ⟨ev, v1, v2⟩ := m2.eig
  have hW : waveMatrix c.omega c.kx c.ky P e⁻¹ * (modesD (mats r) (A r)).phi =
      (modesD (mats r) (A r)).phi * diagonal fun k => (modesD (mats r) (A r)).q k ^ 2 := by
    unfold modesD
    rw [v1]; exact v2
  have hQ : (modesD (mats r) (A r)).Q = (c.omega : ℂ) ^ 2 • 1 - kEps c.kx c.ky e⁻¹ := by
    unfold modesD
    rw [m2.Q]; rfl
  refine M_det_of ?_ hq (by rw [hQ]; exact waveMatrix_factor hom c.kx c.ky P e⁻¹) hW
  have := hdet r (List.mem_of_getElem? hr) ev v1
  unfold modesD
  rw [v1]; exact this

/-- What the scattering matrices of a solved simulation are. -/
theorem solved_run {lats stack exc nh form} (hinit : simInit E lats mats stack exc nh form = .ok c) (hE : EigContract E)
    (hw : WellPlaced mats stack) (hmu : ∀ r ∈ stack, (mats r).mu = 1) (hom : c.omega ≠ 0)
    {d1 : Dyn c.nh} (hsolve : solve E c (Dyn.fresh mats (unsolved c.nh)) = (.ok (), d1))
    (hdet : ∀ r ∈ stack, ∀ ev, (d1.attrs r).eig = some ev → ev.2.det ≠ 0) :
    ∃ A1, d1.attrs = A1 ∧ SolveSpec E c mats (unsolved c.nh) A1 (.ok ()) ∧ (∀ r ∈ c.stack, LayerFix E c mats A1 r) ∧
      List.Forall₂ (fun r L => modesOf (mats r) (d1.attrs r) = .ok L) stack (stackModes c mats A1) ∧
      (∀ (k : ℕ) (L : Modes (Idx c.nh)), (stackModes c mats A1)[k]? = some L → (∀ p, L.q p ≠ 0) → L.M.det ≠ 0) ∧
      ∀ i j : ℕ, i < j → j < stack.length →
        ((∃ S, valS c mats A1 (.ok ()) (some ((i : ℤ), (j : ℤ))) = .ok S) ↔
          (∀ (k : ℕ) (L : Modes (Idx c.nh)), i ≤ k → k ≤ j → (stackModes c mats A1)[k]? = some L → ∀ p, L.q p ≠ 0) ∧
          ∀ k, i < k → k ≤ j → ¬GuidedWave (stackModes c mats A1) i k) ∧
        ((∀ (k : ℕ) (L : Modes (Idx c.nh)), i ≤ k → k ≤ j → (stackModes c mats A1)[k]? = some L → ∀ p, L.q p ≠ 0) →
          (∃ k, i < k ∧ k ≤ j ∧ GuidedWave (stackModes c mats A1) i k) →
          valS c mats A1 (.ok ()) (some ((i : ℤ), (j : ℤ))) = .error .linAlgError) := by
  have hi := simInit_ok hinit
  have hst : c.stack = stack := hi.stack_eq
  have hnd : c.stack.Nodup := hst ▸ hi.nodup
  obtain ⟨A1, res, hs, -⟩ := solveSpec_of_noStale (E := E) (mats := mats) hnd
    (noStale_unsolved (c := c) mats c.stack)
  have hrun := hs.run (Dyn.fresh mats (unsolved c.nh)) rfl (.inl rfl)
  have hsol : res = .ok () ∧ d1.attrs = A1 := by
    unfold solve at hsolve
    rcases res with e | u
    · rw [PyM.bind_error hrun] at hsolve
      simp at hsolve
    · rw [PyM.bind_ok hrun] at hsolve
      simp only [PyM.modify, Prod.mk.injEq, true_and] at hsolve
      exact ⟨rfl, by rw [← hsolve]⟩
  obtain ⟨rfl, hA⟩ := hsol
  rw [hA] at hdet
  have hfix := hs.fix hnd rfl
  subst hst
  have hlen := stackModes_length c mats A1
  have hreg : ∀ (k : ℕ) (L : Modes (Idx c.nh)), (stackModes c mats A1)[k]? = some L → (∀ p, L.q p ≠ 0) → L.M.det ≠ 0 :=
    fun k L hk hq => mode_regular hmu hE hw hfix hom hdet hk hq
  refine ⟨A1, hA, hs, hfix, ?_, hreg, ?_⟩
  · rw [hA]
    unfold stackModes
    rw [List.forall₂_map_right_iff, List.forall₂_same]
    exact fun r hr => (hfix r hr).form.modesD
  · intro i j hij hj
    rw [valS_solved hfix]
    refine ⟨⟨?_, ?_⟩, ?_⟩
    · rintro ⟨S, hS⟩
      obtain ⟨-, hl⟩ := freshS_ok.mp hS
      exact ⟨loopS_q_from i hl hij, fun k h1 h2 hg => guided_not_ok h1 h2 hg hl⟩
    · rintro ⟨hq, hg⟩
      rcases loopS_or_guided j hij.le (by omega) (fun k L h1 h2 hk => ⟨hq k L h1 h2 hk, hreg k L hk (hq k L h1 h2 hk)⟩) with
        ⟨S, hS⟩ | ⟨-, k, h1, h2, h3⟩
      · exact ⟨S, freshS_ok.mpr ⟨hij, hS⟩⟩
      · exact absurd h3 (hg k h1 h2)
    · rintro hq ⟨k, h1, h2, h3⟩
      rcases loopS_or_guided j hij.le (by omega) (fun k L h1 h2 hk => ⟨hq k L h1 h2 hk, hreg k L hk (hq k L h1 h2 hk)⟩) with
        ⟨S, hS⟩ | ⟨h, -⟩
      · exact absurd hS (guided_not_ok h1 h2 h3)
      · unfold freshS
        rw [if_neg (by rw [pyRange_eq_nil_iff]; omega)]
        exact h

end Nannos
