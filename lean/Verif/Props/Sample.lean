import Verif.Proofs.Sample
import Verif.Spec.Sample

/-!
C45 and C46: the adaptive sampler.
`f` is the sampled function, which may raise; `mon` is the monitored value of its result: the result itself, or its
first component when `multi`.  `sched` is the completion order of the parallel workers in every round.
-/

namespace Nannos

variable {Y : Type}

/-- **C45.**  Whatever the function, the abscissae (in any order, repeated or not), the parameters, the number
of jobs and of rounds: if the sampler returns arrays, then `y[i] = f(x[i])` for every `i`, every initial abscissa
is kept, every other one lies strictly inside the initial range, and either nothing was refined and the
abscissae are the initial ones or they are strictly increasing.  If it raises, the list was empty or `f` raised
that exception at a point of the initial range. -/
theorem C45_pairs (p : SampleParams) (f : ℝ → Except PyErr Y) (mon : Y → ℝ) (multi : Bool) (sched : ℕ → ℕ → List ℕ)
    (hs : ∀ k m, Complete (sched k m) m) (rounds : ℕ) (x : List ℝ) (res : Except PyErr (List ℝ × List Y))
    (h : adaptiveSampler p f mon multi sched rounds x = some res) :
    (∃ x' y', res = .ok (x', y') ∧ List.Forall₂ (fun a b => f a = .ok b) x' y' ∧
      (∀ a ∈ x, a ∈ x') ∧ (∀ a ∈ x', a ∈ x ∨ ∃ u ∈ x, ∃ v ∈ x, u < a ∧ a < v) ∧
      (x' = x ∨ x'.Pairwise (· < ·))) ∨
    (∃ e, res = .error e ∧ ((x = [] ∧ e = .indexError) ∨
      ∃ z, f z = .error e ∧ (z ∈ x ∨ ∃ u ∈ x, ∃ v ∈ x, u < z ∧ z < v))) := by
  unfold adaptiveSampler at h
  rcases functionAdapted_spec p f (hs rounds x.length) with ⟨r, h1, h2⟩ | ⟨z, hz, e, h1, h2⟩
  · rw [h1] at h
    cases r with
    | nil =>
      cases h2
      cases h
      exact .inr ⟨_, rfl, .inl ⟨rfl, rfl⟩⟩
    | cons b y =>
      have inv : SampleInv f mon multi x (b :: y) ((b :: y).map mon) := ⟨h2, fun _ => rfl, by
        rintro rfl
        cases h2⟩
      rcases loop_spec hs rounds inv res h with ⟨x', y', h3, h4, h5, h6, -⟩ | ⟨e, z, h3, h4, h5⟩
      · exact .inl ⟨x', y', h3, h4, h5.keep, h5.inside, h6⟩
      · exact .inr ⟨e, h3, .inr ⟨z, h4, .inr h5⟩⟩
  · rw [h2] at h
    cases h
    exact .inr ⟨e, rfl, .inr ⟨z, h1, .inl hz⟩⟩

/-- **C46.**  For every list of abscissae and every positive `max_x_rel` there is a number `N` such that the
sampler ends after at most `N` rounds with at most `N` distinct points (all distinct if the initial ones are),
for every function, even a discontinuous one, all other parameters, and all schedules. -/
theorem C46_terminates (x : List ℝ) (maxXRel : ℝ) (hr : 0 < maxXRel) : ∃ N : ℕ,
    ∀ (maxBend maxDf : ℝ) (nJobs : ℤ) {Y : Type} (f : ℝ → Except PyErr Y) (mon : Y → ℝ) (multi : Bool)
      (sched : ℕ → ℕ → List ℕ), (∀ k m, Complete (sched k m) m) →
    ∃ res, adaptiveSampler ⟨maxBend, maxXRel, maxDf, nJobs⟩ f mon multi sched N x = some res ∧
      ∀ x' y', res = .ok (x', y') → x'.dedup.length ≤ N ∧ (x.Nodup → x'.length ≤ N) := by
  classical
  by_cases hx : x = []
  · refine ⟨0, fun maxBend maxDf nJobs Y f mon multi sched hs => ?_⟩
    subst hx
    refine ⟨.error .indexError, ?_, fun x' y' h => by cases h⟩
    unfold adaptiveSampler
    rcases functionAdapted_spec ⟨maxBend, maxXRel, maxDf, nJobs⟩ f (hs 0 0) (x := []) with ⟨r, h1, h2⟩ | ⟨z, hz, -⟩
    · cases h2
      have h1' : functionAdapted ⟨maxBend, maxXRel, maxDf, nJobs⟩ f (sched 0 ([] : List ℝ).length) [] = .ok [] := h1
      rw [h1']
    · simp at hz
  · obtain ⟨N, -, hN⟩ := loop_bound hr hx
    refine ⟨N, fun maxBend maxDf nJobs Y f mon multi sched hs => ?_⟩
    unfold adaptiveSampler
    rcases functionAdapted_spec ⟨maxBend, maxXRel, maxDf, nJobs⟩ f (hs N x.length) with ⟨r, h1, h2⟩ | ⟨z, hz, e, h1, h2⟩
    · rw [h1]
      cases r with
      | nil =>
        cases h2
        exact absurd rfl hx
      | cons b y =>
        have inv : SampleInv f mon multi x (b :: y) ((b :: y).map mon) := ⟨h2, fun _ => rfl, hx⟩
        obtain ⟨res, h3, h4⟩ := hN ⟨maxBend, maxXRel, maxDf, nJobs⟩ rfl f mon multi sched hs _ _ inv
        refine ⟨res, h3, fun x' y' he => ⟨?_, fun hnd => ?_⟩⟩
        · have := h4 x' y' he
          rwa [List.card_toFinset] at this
        · have hc := h4 x' y' he
          rcases loop_spec hs N inv res h3 with ⟨x'', y'', h5, -, -, h6, -⟩ | ⟨e, z, h5, -⟩
          · rw [he] at h5
            cases h5
            have hnd' : x'.Nodup := by
              rcases h6 with h6 | h6
              · rw [h6]
                exact hnd
              · exact h6.imp ne_of_lt
            rwa [List.toFinset_card_of_nodup hnd'] at hc
          · rw [he] at h5
            cases h5
    · rw [h2]
      exact ⟨_, rfl, fun x' y' h => by cases h⟩

/-- **C46, the stopping criterion.**  When the initial abscissae are strictly increasing, the points returned need
no further refinement: for every three consecutive ones, the graph is smooth there, or both intervals are
shorter than `max_x_rel` times the range, or both steps of the monitored value are smaller than `max_df` times
its range. -/
theorem C46_result_is_refined (p : SampleParams) (f : ℝ → Except PyErr Y) (mon : Y → ℝ) (multi : Bool)
    (sched : ℕ → ℕ → List ℕ) (hs : ∀ k m, Complete (sched k m) m) (rounds : ℕ) (x : List ℝ)
    (hx : x.Pairwise (· < ·)) (x' : List ℝ) (y' : List Y)
    (h : adaptiveSampler p f mon multi sched rounds x = some (.ok (x', y'))) (i : ℕ) (hi : i + 2 < x'.length)
    (hi' : i + 2 < y'.length) :
    ∃ a ∈ x', ∃ b ∈ x', (∀ w ∈ x', a ≤ w ∧ w ≤ b) ∧ ∃ c ∈ y', ∃ d ∈ y', (∀ w ∈ y', mon c ≤ mon w ∧ mon w ≤ mon d) ∧
      (Spec.Smooth p.maxBend x'[i] x'[i + 1] x'[i + 2] (mon y'[i]) (mon y'[i + 1]) (mon y'[i + 2]) ∨
        (x'[i + 2] - x'[i + 1] < p.maxXRel * (b - a) ∧ x'[i + 1] - x'[i] < p.maxXRel * (b - a)) ∨
        (|mon y'[i + 1] - mon y'[i]| < p.maxDf * (mon d - mon c) ∧
          |mon y'[i + 2] - mon y'[i + 1]| < p.maxDf * (mon d - mon c))) := by
  unfold adaptiveSampler at h
  rcases functionAdapted_spec p f (hs rounds x.length) with ⟨r, h1, h2⟩ | ⟨z, hz, e, h1, h2⟩
  · rw [h1] at h
    cases r with
    | nil => cases h
    | cons b y =>
      have inv : SampleInv f mon multi x (b :: y) ((b :: y).map mon) := ⟨h2, fun _ => rfl, by
        rintro rfl
        cases h2⟩
      rcases loop_spec hs rounds inv _ h with ⟨x'', y'', h3, h4, h5, h6, h7⟩ | ⟨e, z, h3, -⟩
      · cases h3
        have hsx : x'.Pairwise (· < ·) := by
          rcases h6 with h6 | h6
          · rw [h6]
            exact hx
          · exact h6
        have hne : x' ≠ [] := by
          rintro rfl
          simp at hi
        obtain ⟨a, ha, b', hb', hab, c, hc, d, hd, hcd, hw⟩ :=
          getNew_nil hsx hne (by rw [List.length_map, h4.length_eq]) h7 hi
        obtain ⟨c, hc', rfl⟩ := List.mem_map.1 hc
        obtain ⟨d, hd', rfl⟩ := List.mem_map.1 hd
        refine ⟨a, ha, b', hb', hab, c, hc', d, hd', fun w hw => hcd _ (List.mem_map_of_mem hw), ?_⟩
        simp only [List.getElem_map] at hw
        rcases window_nil hw with h8 | h8 | h8
        · left
          have hlt1 : x'[i] < x'[i + 1] := List.pairwise_iff_getElem.1 hsx i (i + 1) _ _ (by omega)
          have hlt2 : x'[i + 1] < x'[i + 2] := List.pairwise_iff_getElem.1 hsx (i + 1) (i + 2) _ _ (by omega)
          have hw0 : 0 < x'[i + 2] - x'[i] := by linarith
          unfold bending at h8
          dsimp only at h8
          rw [if_neg hw0.ne'] at h8
          simp only [decide_eq_false_iff_not, not_or, not_lt, gt_iff_lt] at h8
          obtain ⟨h9, h10, h11⟩ := h8
          refine ⟨?_, ?_, ?_⟩
          · dsimp only
            by_cases h0 : max (mon y'[i]) (max (mon y'[i + 1]) (mon y'[i + 2])) -
                min (mon y'[i]) (min (mon y'[i + 1]) (mon y'[i + 2])) = 0
            · exact .inl h0
            · right
              rw [← Real.sqrt_mul (by positivity)]
              simp only [pow_two]
              have hA : 0 < (x'[i + 1] - x'[i]) / (x'[i + 2] - x'[i]) := div_pos (by linarith) hw0
              have hB : 0 < (x'[i + 2] - x'[i + 1]) / (x'[i + 2] - x'[i]) := div_pos (by linarith) hw0
              have hden := Real.sqrt_pos.2 (mul_pos
                (add_pos_of_pos_of_nonneg (mul_pos hA hA) (mul_self_nonneg ((mon y'[i + 1] - mon y'[i]) /
                  (max (mon y'[i]) (max (mon y'[i + 1]) (mon y'[i + 2])) -
                    min (mon y'[i]) (min (mon y'[i + 1]) (mon y'[i + 2]))))))
                (add_pos_of_pos_of_nonneg (mul_pos hB hB) (mul_self_nonneg ((mon y'[i + 2] - mon y'[i + 1]) /
                  (max (mon y'[i]) (max (mon y'[i + 1]) (mon y'[i + 2])) -
                    min (mon y'[i]) (min (mon y'[i + 1]) (mon y'[i + 2])))))))
              have h12 := not_lt.1 fun hlt => h9 ⟨h0, hden.ne', hlt⟩
              rwa [le_div_iff₀ hden] at h12
          · rw [← mul_div_assoc, div_le_div_iff_of_pos_right hw0] at h10
            exact h10
          · rw [← mul_div_assoc, div_le_div_iff_of_pos_right hw0] at h11
            exact h11
        · exact .inr (.inl h8)
        · exact .inr (.inr h8)
      · cases h3
  · rw [h2] at h
    cases h

/-- A discontinuous function. -/
noncomputable def stepFun (x : ℝ) : Except PyErr ℝ := .ok (if x ≤ 1 then 0 else 1)

/-- With the default parameters the sampler returns arrays for the discontinuous function on `[0, 1, 2]`, and it
does refine. -/
example : ∃ N x' y', adaptiveSampler ⟨10, 1e-3, 0.05, 4⟩ stepFun id false (fun _ m => List.range m) N [0, 1, 2] =
    some (.ok (x', y')) ∧ x' ≠ [0, 1, 2] := by
  have hs : ∀ k m : ℕ, Complete ((fun _ m => List.range m) k m) m := fun _ m => complete_range m
  obtain ⟨N, hN⟩ := C46_terminates [0, 1, 2] 1e-3 (by norm_num)
  obtain ⟨res, h1, -⟩ := hN 10 0.05 4 stepFun id false (fun _ m => List.range m) hs
  rcases C45_pairs _ _ _ _ _ hs _ _ _ h1 with ⟨x', y', rfl, h3, -⟩ | ⟨e, -, ⟨h, -⟩ | ⟨z, hz, -⟩⟩
  · refine ⟨N, x', y', h1, ?_⟩
    rintro rfl
    have hy : y' = [0, 0, 1] := by
      cases h3 with
      | cons a1 h3 =>
        cases h3 with
        | cons a2 h3 =>
          cases h3 with
          | cons a3 h3 =>
            cases h3
            simp [stepFun] at a1 a2 a3
            rw [← a1, ← a2, ← a3]
    subst hy
    obtain ⟨a, ha, b, hb, hab, c, hc, d, hd, hcd, h4⟩ := C46_result_is_refined _ _ _ _ _ hs _ _
      (by simp) _ _ h1 0 (by simp) (by simp)
    have hd1 : d ≤ 1 ∧ 0 ≤ c := by
      simp at hc hd
      constructor
      · rcases hd with rfl | rfl <;> norm_num
      · rcases hc with rfl | rfl <;> norm_num
    have hab1 : b ≤ 2 ∧ 0 ≤ a := by
      simp at ha hb
      constructor
      · rcases hb with rfl | rfl | rfl <;> norm_num
      · rcases ha with rfl | rfl | rfl <;> norm_num
    rcases h4 with ⟨h4, -⟩ | ⟨h4, -⟩ | ⟨-, h4⟩
    · simp only [id] at h4
      norm_num at h4
      have hcos : (1 / 2 : ℝ) ≤ Real.cos (10 * Real.pi / 180) := by
        rw [← Real.cos_pi_div_three]
        refine Real.cos_le_cos_of_nonneg_of_le_pi ?_ ?_ ?_ <;> have := Real.pi_pos <;> linarith
      have h2 : √(4 : ℝ) = 2 := by
        rw [show (4 : ℝ) = 2 ^ 2 by norm_num]
        exact Real.sqrt_sq (by norm_num)
      have h5 : (2 : ℝ) < √5 := by
        rw [← h2]
        exact Real.sqrt_lt_sqrt (by norm_num) (by norm_num)
      rw [h2] at h4
      nlinarith
    · simp at h4
      linarith
    · simp at h4
      linarith
  · simp at h
  · simp [stepFun] at hz

end Nannos
