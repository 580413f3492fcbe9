import Verif.Proofs.GuidedRun
import Verif.Proofs.PlanarTotal

/-! Interface of two homogeneous layers which supports a wave by itself. -/

namespace Nannos

open Matrix Spec

variable {E : Ext} {c : Static} {mats : ℕ → LayerSpec}

theorem atOrder_ne {nh : ℕ} (i0 : Fin nh) {u v : ℂ} (huv : u ^ 2 + v ^ 2 = 1) : atOrder i0 v (-u) ≠ 0 := by
  intro h
  have h1 := congrFun h (.inl i0)
  have h2 := congrFun h (.inr i0)
  simp only [atOrder, Sum.elim_inl, Sum.elim_inr, if_true, Pi.zero_apply, neg_eq_zero] at h1 h2
  rw [h1, h2] at huv
  norm_num at huv

/-- Opposite impedances give a wave bound to the interface. -/
theorem plasmon_guided {layers : List (Modes (Idx c.nh))} {l : ℕ} {L L' : Modes (Idx c.nh)} {F F' : Film} {w : Idx c.nh → ℂ}
    (hL : layers[l]? = some L) (hL' : layers[l + 1]? = some L') (h : Pure L F w) (h' : Pure L' F' w) (hw : w ≠ 0)
    (hZ : F.Z + F'.Z = 0) : GuidedWave layers l (l + 1) := by
  refine ⟨fun k => if k = l then (0, w) else (w, 0), ?_, by simp, by simp, l, le_rfl, by omega, ?_⟩
  · intro k A B h1 h2 hA hB
    obtain rfl : k = l := by omega
    rw [hL] at hA
    rw [hL'] at hB
    obtain rfl := Option.some.inj hA
    obtain rfl := Option.some.inj hB
    simp only [if_true, Nat.succ_ne_self, if_false]
    refine ⟨?_, ?_⟩
    · rw [tanE_bottom, tanE_top]
      simp only [mulVec_zero, zero_sub, sub_zero, mulVec_neg, h.amat, h'.amat]
      rw [← neg_smul]
      congr 1
      linear_combination -hZ
    · rw [tanH_bottom, tanH_top, h.phi, h'.phi, one_mulVec, one_mulVec]
      simp
  · simp only [if_true]
    intro h0
    exact hw (Prod.mk.inj h0).2

section
variable {A1 : ℕ → LayerAttr c.nh} (hfix : ∀ r ∈ c.stack, LayerFix E c mats A1 r)
  {i0 : Fin c.nh} {u v : ℂ} {k : ℝ} (huv : u ^ 2 + v ^ 2 = 1) (hx : c.kx i0 = k * u) (hy : c.ky i0 = k * v)
  {l r r' : ℕ} (hr : c.stack[l]? = some r) (hr' : c.stack[l + 1]? = some r') (hh : Homogeneous (mats r)) (hh' : Homogeneous (mats r'))
  (hZ : (filmP c.omega k (mats r)).Z + (filmP c.omega k (mats r')).Z = 0)
include hfix huv hx hy hr hr' hh hh' hZ

theorem planar_plasmon {L L' : Modes (Idx c.nh)} (hL : (stackModes c mats A1)[l]? = some L)
    (hL' : (stackModes c mats A1)[l + 1]? = some L') (hq : ∀ p, L.q p ≠ 0) (hq' : ∀ p, L'.q p ≠ 0) :
    GuidedWave (stackModes c mats A1) l (l + 1) := by
  have key : ∀ {l r : ℕ} {L : Modes (Idx c.nh)}, c.stack[l]? = some r → Homogeneous (mats r) →
      (stackModes c mats A1)[l]? = some L → PlanarModes c (mats r) L := by
    intro l r L hr hh hL
    have hm := List.mem_of_getElem? hr
    unfold stackModes at hL
    rw [List.getElem?_map, hr] at hL
    have e := (hfix r hm).form.modesD
    rw [show modesD (mats r) (A1 r) = L from by simpa using hL] at e
    exact planarModes (hfix r hm) hh e
  exact plasmon_guided hL hL' ((key hr hh hL).pure_p huv (hq _) hx hy).1 ((key hr' hh' hL').pure_p huv (hq' _) hx hy).1
    (atOrder_ne i0 huv) hZ

theorem plasmon_loop {j : ℕ} (hj : l < j) (hj' : j < c.stack.length) {S} : loopS (stackModes c mats A1) l j ≠ .ok S := by
  intro h
  have hlen := stackModes_length c mats A1
  obtain ⟨L, hL⟩ : ∃ L, (stackModes c mats A1)[l]? = some L := ⟨_, List.getElem?_eq_getElem (by omega)⟩
  obtain ⟨L', hL'⟩ : ∃ L, (stackModes c mats A1)[l + 1]? = some L := ⟨_, List.getElem?_eq_getElem (by omega)⟩
  have hq := loopS_q_from l h hj
  exact guided_not_ok (by omega) (by omega) (planar_plasmon hfix huv hx hy hr hr' hh hh' hZ hL hL'
    (hq l L le_rfl hj.le hL) (hq _ L' (by omega) (by omega) hL')) h

end

end Nannos
