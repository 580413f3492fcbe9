import Verif.Props.Lattice
import Verif.Spec.Symmetry

/-! Retained orders: reflections, different sorts, different units of length. -/

namespace Nannos

open Matrix Spec

theorem mem_getHarmonics' {A : List ℝ → List ℕ} (hA : ArgsortContract A) {l : Lattice} {nh n : ℤ} {sort : Bool} {H}
    (h : l.getHarmonics A nh sort = .ok (H, n)) (hu : l.harmonicsArray = none) (hp : l.truncation = .parallelogrammic) :
    H = [] ∨ ∃ M : ℤ, 0 ≤ M ∧ (2 * M + 1) ^ 2 ≤ nh ∧ nh < (2 * M + 3) ^ 2 ∧ H.Nodup ∧ ∀ g, g ∈ H ↔ |g.1| ≤ M ∧ |g.2| ≤ M := by
  obtain ⟨H', h1, h2, -, -⟩ := getHarmonics_ok hA h
  unfold Lattice.getHarmonics' at h1
  rw [hu, hp] at h1
  dsimp only at h1
  rw [bind_eq_ok] at h1
  obtain ⟨r, -, h1⟩ := h1
  by_cases hn : 1 ≤ nh
  · obtain ⟨M, k1, k2, k3, k4, k5, k6, k7⟩ := parallelogramic_ok hA hn h1
    refine .inr ⟨M, k1, k2, k3, h2.nodup_iff.mpr k5, fun g => ?_⟩
    rw [h2.mem_iff, k7]
  · left
    by_cases h0 : nh < 0
    · unfold parallelogramicTruncation at h1
      rw [if_pos h0] at h1
      simp at h1
    · have : nh = 0 := by omega
      subst this
      rw [C06_nh_zero_miscounts A hA] at h1
      simp only [Except.ok.injEq, Prod.mk.injEq] at h1
      rw [← h1.1] at h2
      exact List.Perm.eq_nil h2

theorem circular_pos {A : List ℝ → List ℕ} (hA : ArgsortContract A) {l : Lattice} {nh n : ℤ} {sort : Bool} {H}
    (h : l.getHarmonics A nh sort = .ok (H, n)) (hu : l.harmonicsArray = none) (hp : l.truncation = .circular) :
    1 ≤ nh ∧ ∃ r, l.reciprocal = .ok r := by
  obtain ⟨H', h1, h2, -, -⟩ := getHarmonics_ok hA h
  unfold Lattice.getHarmonics' at h1
  rw [hu, hp] at h1
  dsimp only at h1
  rw [bind_eq_ok] at h1
  obtain ⟨r, hr, h1⟩ := h1
  exact ⟨(circular_ok hA h1).1, r, hr⟩

/-- Reflections map the retained orders to retained orders. -/
theorem reflected_orders {A : List ℝ → List ℕ} (hA : ArgsortContract A) {l : Lattice} {nh n : ℤ} {sort : Bool} {H}
    (h : l.getHarmonics A nh sort = .ok (H, n)) (hu : l.harmonicsArray = none) {e1 e2 : ℤ} (h1 : e1 * e1 = 1) (h2 : e2 * e2 = 1)
    (hlat : (l.basis 0 1 = 0 ∧ l.basis 1 0 = 0) ∨ e1 = e2) : ∀ g ∈ H, (e1 * g.1, e2 * g.2) ∈ H := by
  have habs : ∀ {e : ℤ}, e * e = 1 → ∀ a : ℤ, |e * a| = |a| := by
    intro e he a
    rcases mul_self_eq_one_iff.mp he with rfl | rfl <;> simp
  intro g hg
  rcases ht : l.truncation with _ | _ | _
  · obtain ⟨H', n', k1, k2, -⟩ := C05_mono_periodic_truncation A hA l ht hu nh sort
    rw [h] at k1
    simp only [Except.ok.injEq, Prod.mk.injEq] at k1
    obtain ⟨rfl, -⟩ := k1
    rw [k2] at hg ⊢
    exact ⟨by simp [hg.1], by simpa only [habs h1] using hg.2⟩
  · obtain ⟨hn, r, hr⟩ := circular_pos hA h hu ht
    obtain ⟨H', n', k1, k2, k3, k4, k5, k6, k7, k8⟩ := C07_circular_truncation A hA l ht hu r hr nh hn sort
    rw [h] at k1
    simp only [Except.ok.injEq, Prod.mk.injEq] at k1
    obtain ⟨rfl, rfl⟩ := k1
    by_cases hee : e1 = e2
    · subst hee
      rcases mul_self_eq_one_iff.mp h1 with rfl | rfl
      · simpa using hg
      · simpa using k6 g hg
    have hrect := hlat.resolve_right hee
    have D := reciprocal_dual hr
    have d01 := D 0 1
    have d10 := D 1 0
    have d00 := D 0 0
    have d11 := D 1 1
    simp only [Fin.sum_univ_two, if_true, hrect.1, hrect.2, show ((0 : Fin 2) = 1) = False from by simp,
      show ((1 : Fin 2) = 0) = False from by simp, if_false, mul_zero, add_zero, zero_add] at d01 d10 d00 d11
    have z0 : r 1 0 = 0 := (mul_eq_zero.mp d01).resolve_right (by
      intro hh; rw [hh, mul_zero] at d11; exact Real.two_pi_pos.ne d11)
    have z1 : r 0 1 = 0 := (mul_eq_zero.mp d10).resolve_right (by
      intro hh; rw [hh, mul_zero] at d00; exact Real.two_pi_pos.ne d00)
    have hmet : ∀ g : ℤ × ℤ, metric (r 0) (r 1) (e1 * g.1, e2 * g.2) = metric (r 0) (r 1) g := by
      intro g
      unfold metric
      have r1 : (e1 : ℝ) * e1 = 1 := by exact_mod_cast h1
      have r2 : (e2 : ℝ) * e2 = 1 := by exact_mod_cast h2
      rw [z0, z1]
      push_cast
      linear_combination (r 0 0) ^ 2 * (g.1 : ℝ) ^ 2 * r1 + (r 0 0) ^ 2 * (g.2 : ℝ) ^ 2 * r2
    have hbox : ∀ g : ℤ × ℤ, InBox nh (r 0) (r 1) (e1 * g.1, e2 * g.2) ↔ InBox nh (r 0) (r 1) g := by
      intro g
      unfold InBox
      rw [habs h1, habs h2]
    have hinv : ∀ g : ℤ × ℤ, (e1 * (e1 * g.1), e2 * (e2 * g.2)) = g := by
      intro g
      rw [← mul_assoc, ← mul_assoc, h1, h2, one_mul, one_mul]
    classical
    refine k8 (H.toFinset.image fun g => (e1 * g.1, e2 * g.2)) ?_ ?_ ?_ _
      (Finset.mem_image.mpr ⟨g, List.mem_toFinset.mpr hg, rfl⟩)
    · refine lt_of_le_of_lt ?_ k3
      rw [k2]
      exact_mod_cast Finset.card_image_le.trans (List.toFinset_card_le H)
    · intro a ha
      obtain ⟨b, hb, rfl⟩ := Finset.mem_image.mp ha
      rw [hbox]
      exact k5 b (List.mem_toFinset.mp hb)
    · intro a ha g' hg' hna
      obtain ⟨b, hb, rfl⟩ := Finset.mem_image.mp ha
      rw [hmet, ← hmet g']
      refine k7 b (List.mem_toFinset.mp hb) _ ((hbox g').mpr hg') fun hin => hna ?_
      exact Finset.mem_image.mpr ⟨_, List.mem_toFinset.mpr hin, hinv g'⟩
  · rcases mem_getHarmonics' hA h hu ht with rfl | ⟨M, -, -, -, -, hM⟩
    · simp at hg
    · rw [hM] at hg ⊢
      rw [habs h1, habs h2]
      exact hg

/-- The retained orders do not depend on how the sort breaks ties. -/
theorem harmonics_perm {A B : List ℝ → List ℕ} (hA : ArgsortContract A) (hB : ArgsortContract B) {l l' : Lattice}
    (hb : l'.basis = l.basis) (ht : l'.truncation = l.truncation)
    (hh : Option.Rel List.Perm l.harmonicsArray l'.harmonicsArray) {nh n n' : ℤ} {sort : Bool} {H H'}
    (h : l.getHarmonics A nh sort = .ok (H, n)) (h' : l'.getHarmonics B nh sort = .ok (H', n')) : H.Perm H' := by
  have hrec : l'.reciprocal = l.reciprocal := by
    unfold Lattice.reciprocal Lattice.matrix
    rw [hb]
  rcases hu : l.harmonicsArray with _ | G
  · have hu' : l'.harmonicsArray = none := by
      rw [hu] at hh
      cases hh' : l'.harmonicsArray with
      | none => rfl
      | some G => rw [hh'] at hh; cases hh
    rcases htr : l.truncation with _ | _ | _
    · obtain ⟨K, m, k1, k2, k3, -⟩ := C05_mono_periodic_truncation A hA l htr hu nh sort
      obtain ⟨K', m', k1', k2', k3', -⟩ := C05_mono_periodic_truncation B hB l' (ht.trans htr) hu' nh sort
      rw [h] at k1
      rw [h'] at k1'
      simp only [Except.ok.injEq, Prod.mk.injEq] at k1 k1'
      obtain ⟨rfl, -⟩ := k1
      obtain ⟨rfl, -⟩ := k1'
      refine (List.perm_ext_iff_of_nodup k3 k3').mpr fun g => ?_
      rw [k2, k2']
    · obtain ⟨hn, r, hr⟩ := circular_pos hA h hu htr
      obtain ⟨K, m, k1, k2, k3, k4, k5, k6, k7, k8⟩ := C07_circular_truncation A hA l htr hu r hr nh hn sort
      obtain ⟨K', m', k1', k2', k3', k4', k5', k6', k7', k8'⟩ :=
        C07_circular_truncation B hB l' (ht.trans htr) hu' r (hrec.trans hr) nh hn sort
      rw [h] at k1
      rw [h'] at k1'
      simp only [Except.ok.injEq, Prod.mk.injEq] at k1 k1'
      obtain ⟨rfl, rfl⟩ := k1
      obtain ⟨rfl, rfl⟩ := k1'
      classical
      have sub : ∀ {P Q : List (ℤ × ℤ)} {m : ℤ}, m = P.length → m < nh → P.Nodup → (∀ g ∈ P, InBox nh (r 0) (r 1) g) →
          (∀ g ∈ P, ∀ g', InBox nh (r 0) (r 1) g' → g' ∉ P →
            metric (r 0) (r 1) g + tolerance (r 0) (r 1) < metric (r 0) (r 1) g') →
          (∀ S : Finset (ℤ × ℤ), (S.card : ℤ) < nh → (∀ g ∈ S, InBox nh (r 0) (r 1) g) →
            (∀ g ∈ S, ∀ g', InBox nh (r 0) (r 1) g' → g' ∉ S →
              metric (r 0) (r 1) g + tolerance (r 0) (r 1) < metric (r 0) (r 1) g') → ∀ g ∈ S, g ∈ Q) →
          ∀ g ∈ P, g ∈ Q := by
        intro P Q m q1 q2 q3 q4 q5 q6 g hg
        refine q6 P.toFinset ?_ (fun a ha => q4 a (List.mem_toFinset.mp ha)) (fun a ha g' hg' hn => q5 a (List.mem_toFinset.mp ha)
          g' hg' fun hh => hn (List.mem_toFinset.mpr hh)) g (List.mem_toFinset.mpr hg)
        rw [List.toFinset_card_of_nodup q3, ← q1]
        exact q2
      exact (List.perm_ext_iff_of_nodup k4 k4').mpr fun g =>
        ⟨sub k2 k3 k4 k5 k7 k8' g, sub k2' k3' k4' k5' k7' k8 g⟩
    · rcases mem_getHarmonics' hA h hu htr with rfl | ⟨M, q1, q2, q3, q4, q5⟩ <;>
        rcases mem_getHarmonics' hB h' hu' (ht.trans htr) with rfl | ⟨M', q1', q2', q3', q4', q5'⟩
      · exact List.Perm.refl _
      · exfalso
        obtain ⟨r, hr⟩ : ∃ r, l.reciprocal = .ok r := by
          obtain ⟨K, k1, -⟩ := getHarmonics_ok hA h
          unfold Lattice.getHarmonics' at k1
          rw [hu, htr] at k1
          dsimp only at k1
          rw [bind_eq_ok] at k1
          obtain ⟨r, hr, -⟩ := k1
          exact ⟨r, hr⟩
        obtain ⟨K, m, N, a1, a2, a3, a4, a5, -⟩ := C06_parallelogrammic_truncation A hA l htr hu
          ((det_ne_zero_iff l).mp (reciprocal_ok.mp hr).1) nh (by nlinarith) sort
        rw [h] at a1
        simp only [Except.ok.injEq, Prod.mk.injEq] at a1
        obtain ⟨rfl, -⟩ := a1
        have := (a5 (0, 0)).mpr (by simpa using a4)
        simp at this
      · exfalso
        obtain ⟨r, hr⟩ : ∃ r, l'.reciprocal = .ok r := by
          obtain ⟨K, k1, -⟩ := getHarmonics_ok hB h'
          unfold Lattice.getHarmonics' at k1
          rw [hu', ht.trans htr] at k1
          dsimp only at k1
          rw [bind_eq_ok] at k1
          obtain ⟨r, hr, -⟩ := k1
          exact ⟨r, hr⟩
        obtain ⟨K, m, N, a1, a2, a3, a4, a5, -⟩ := C06_parallelogrammic_truncation B hB l' (ht.trans htr) hu'
          ((det_ne_zero_iff l').mp (reciprocal_ok.mp hr).1) nh (by nlinarith) sort
        rw [h'] at a1
        simp only [Except.ok.injEq, Prod.mk.injEq] at a1
        obtain ⟨rfl, -⟩ := a1
        have := (a5 (0, 0)).mpr (by simpa using a4)
        simp at this
      · have : M = M' := by
          have a : M < M' + 1 := by nlinarith
          have b : M' < M + 1 := by nlinarith
          omega
        subst this
        refine (List.perm_ext_iff_of_nodup q4 q4').mpr fun g => ?_
        rw [q5, q5']
  · obtain ⟨G', hu', hG⟩ : ∃ G', l'.harmonicsArray = some G' ∧ G.Perm G' := by
      rw [hu] at hh
      cases hh' : l'.harmonicsArray with
      | none => rw [hh'] at hh; cases hh
      | some G' => rw [hh'] at hh; cases hh; exact ⟨G', rfl, by assumption⟩
    obtain ⟨K, k1, k2, -⟩ := getHarmonics_ok hA h
    obtain ⟨K', k1', k2', -⟩ := getHarmonics_ok hB h'
    unfold Lattice.getHarmonics' at k1 k1'
    rw [hu] at k1
    rw [hu'] at k1'
    simp only [Except.ok.injEq, Prod.mk.injEq] at k1 k1'
    obtain ⟨rfl, -⟩ := k1
    obtain ⟨rfl, -⟩ := k1'
    exact k2.trans (hG.trans k2'.symm)

end Nannos
