import Verif.Proofs.Optimize

/-!
Properties C48 (the optimiser returns a point and its value), C49 (projection and SIMP interpolation) and C50
(multi-material interpolation).
-/

namespace Nannos

open Spec

/-! ### C49 -/

/-- **C49** for `simp`: with a positive exponent, 0 is mapped to `eps_min` and 1 to `eps_max`, and between real
permittivities the interpolation is increasing. -/
theorem C49_simp (a b : ℂ) (p : ℝ) (hp : 0 < p) :
    simpInterp 0 a b p = .ok a ∧ simpInterp 1 a b p = .ok b ∧
    ∀ e e' x y : ℝ, e < e' → 0 ≤ x → x < y → ∃ u v : ℝ, simpInterp x e e' p = .ok (u : ℂ) ∧
      simpInterp y e e' p = .ok (v : ℂ) ∧ u < v := by
  have hval : ∀ (x : ℝ) (a b : ℂ), 0 ≤ x → simpInterp x a b p = .ok ((b - a) * ((x ^ p : ℝ) : ℂ) + a) := by
    intro x a b hx
    unfold simpInterp
    rw [powR_ok hx hp.le]
    rfl
  refine ⟨?_, ?_, ?_⟩
  · rw [hval 0 a b le_rfl, Real.zero_rpow hp.ne']
    simp
  · rw [hval 1 a b zero_le_one, Real.one_rpow]
    simp
  · intro e e' x y he hx hxy
    refine ⟨(e' - e) * x ^ p + e, (e' - e) * y ^ p + e, ?_, ?_, ?_⟩
    · rw [hval x _ _ hx]; push_cast; rfl
    · rw [hval y _ _ (hx.trans hxy.le)]; push_cast; rfl
    · have := Real.rpow_lt_rpow hx hxy hp
      have := mul_lt_mul_of_pos_left this (sub_pos.mpr he)
      linarith

/-- **C49** for `project`: for `beta > 0` and any threshold in `[0, 1]` the projection always returns, fixes 0
and 1, maps `[0, 1]` into itself and is strictly increasing. -/
theorem C49_project (beta thres : ℝ) (hb : 0 < beta) (h0 : 0 ≤ thres) (h1 : thres ≤ 1) :
    project 0 beta thres = .ok 0 ∧ project 1 beta thres = .ok 1 ∧
    (∀ x, 0 ≤ x → x ≤ 1 → ∃ y, project x beta thres = .ok y ∧ 0 ≤ y ∧ y ≤ 1) ∧
    ∀ x x' : ℝ, x < x' → ∃ y y', project x beta thres = .ok y ∧ project x' beta thres = .ok y' ∧ y < y' := by
  refine ⟨?_, ?_, ?_, ?_⟩
  · rw [project_ok hb h0 h1, projVal_zero]
  · rw [project_ok hb h0 h1, projVal_one hb h0 h1]
  · intro x hx0 hx1
    refine ⟨_, project_ok hb h0 h1, ?_, ?_⟩
    · rw [← projVal_zero (beta := beta) (t := thres)]
      rcases hx0.eq_or_lt with rfl | h
      · exact le_rfl
      · exact (projVal_lt hb h0 h1 h).le
    · rw [← projVal_one hb h0 h1]
      rcases hx1.eq_or_lt with rfl | h
      · exact le_rfl
      · exact (projVal_lt hb h0 h1 h).le
  · intro x x' h
    exact ⟨_, _, project_ok hb h0 h1, project_ok hb h0 h1, projVal_lt hb h0 h1 h⟩

/-- **C49** for `multi_project`: the same for every `Nthres ≥ 2`; fewer raise `ZeroDivisionError`. -/
theorem C49_multi_project (beta : ℝ) (N : ℕ) (hb : 0 < beta) :
    (2 ≤ N → multiProject 0 beta N = .ok 0 ∧ multiProject 1 beta N = .ok 1 ∧
      (∀ x, 0 ≤ x → x ≤ 1 → ∃ y, multiProject x beta N = .ok y ∧ 0 ≤ y ∧ y ≤ 1) ∧
      ∀ x x' : ℝ, x < x' → ∃ y y', multiProject x beta N = .ok y ∧ multiProject x' beta N = .ok y' ∧ y < y') ∧
    (N < 2 → ∀ x, multiProject x beta N = .error .zeroDivision) := by
  constructor
  · intro hN
    refine ⟨?_, ?_, ?_, ?_⟩
    · rw [multiProject_ok hb hN, multiVal_zero]
    · rw [multiProject_ok hb hN, multiVal_one hb hN]
    · intro x hx0 hx1
      refine ⟨_, multiProject_ok hb hN, ?_, ?_⟩
      · rw [← multiVal_zero (beta := beta) (N := N)]
        rcases hx0.eq_or_lt with rfl | h
        · exact le_rfl
        · exact (multiVal_lt hb hN h).le
      · rw [← multiVal_one hb hN]
        rcases hx1.eq_or_lt with rfl | h
        · exact le_rfl
        · exact (multiVal_lt hb hN h).le
    · intro x x' h
      exact ⟨_, _, multiProject_ok hb hN, multiProject_ok hb hN, multiVal_lt hb hN h⟩
  · intro hN x
    have h0 : thresholds N = [] := by
      rw [← List.length_eq_zero_iff, thresholds_length]; omega
    unfold multiProject
    rw [h0]
    rfl

/-- The two-level projection is the single projection at one half. -/
theorem C49_two_levels (x beta : ℝ) (hb : 0 < beta) : multiProject x beta 2 = project x beta (1 / 2) := by
  rw [multiProject_ok hb le_rfl, project_ok hb (by norm_num) (by norm_num)]
  have : thresholds 2 = [1 / 2] := by simp [thresholds]
  unfold multiVal
  rw [this]
  simp

/-- Not vacuous: three levels take the density one half to one half. -/
example : multiProject (1 / 2) 1 3 = .ok (1 / 2) := by
  rw [multiProject_ok one_pos (by norm_num)]
  have h : thresholds 3 = [1 / 3, 2 / 3] := by
    simp [thresholds, List.range_succ]
    norm_num
  unfold multiVal projVal
  rw [h]
  simp only [List.map_cons, List.map_nil, List.sum_cons, List.sum_nil, List.length_cons, List.length_nil]
  norm_num
  have h1 := tanh_lt (a := 0) (b := 1 / 3) (by norm_num)
  have h2 := tanh_lt (a := 0) (b := 2 / 3) (by norm_num)
  rw [Real.tanh_zero] at h1 h2
  have h4 : Real.tanh (1 / 3) + Real.tanh (2 / 3) ≠ 0 := by positivity
  have h5 : Real.tanh (2 / 3) + Real.tanh (1 / 3) ≠ 0 := by positivity
  field_simp
  ring

/-! ### C50 -/

/-- **C50**. For every list of at least two permittivities and every positive exponent, `multi_simp` returns
`epsilons[i]` at `x = i/(n-1)`. -/
theorem C50_multi_simp_interpolates {n : ℕ} (hn : 2 ≤ n) (epsilons : Fin n → ℂ) (p : ℝ) (hp : 0 < p) (i : Fin n) :
    multiSimp ((i : ℝ) / ((n : ℝ) - 1)) epsilons p = .ok (epsilons i) := by
  have := multiSimp_at hp epsilons i
  unfold linPt at this
  rw [Nat.cast_sub (by omega), Nat.cast_one] at this
  exact this

/-- The condition on the exponent is needed: with `p = 0` and three materials or more the interpolation
matrix is singular. -/
theorem C50_zero_exponent_raises {n : ℕ} (hn : 3 ≤ n) (epsilons : Fin n → ℂ) (x : ℝ) :
    multiSimp x epsilons 0 = .error .linAlgError := by
  classical
  have hno : ∀ x : ℝ, ∀ k : Fin n, ∀ e, powR x (k * 0) ≠ .error e := by
    intro x k e he
    unfold powR at he
    rw [if_neg] at he
    · simp at he
    · rw [mul_zero]
      rintro (⟨-, h⟩ | ⟨-, h⟩)
      · exact lt_irrefl _ h
      · exact h ⟨0, by simp⟩
  have hneg : ∀ {q : Prop} [Decidable q] {e : PyErr}, ¬ q → raiseIf q e = .ok () := by
    intro q _ e hq
    unfold raiseIf
    rw [if_neg hq]
  have hbind : ∀ {α : Type} (f : Unit → Except PyErr α), ((.ok () : Except PyErr Unit) >>= f) = f () := fun f => rfl
  have hdet : (Matrix.of fun i k : Fin n => ((linPt n i ^ ((k : ℝ) * 0) : ℝ) : ℂ)).det = 0 := by
    refine Matrix.det_zero_of_row_eq (i := ⟨0, by omega⟩) (j := ⟨1, by omega⟩) (by simp) ?_
    ext k
    simp
  unfold multiSimp
  rw [dif_neg (by omega), hneg (by omega), hbind, hneg (by rintro ⟨i, k, e, he⟩; exact hno _ k e he), hbind]
  dsimp only
  rw [show raiseIf _ PyErr.linAlgError = .error PyErr.linAlgError from if_pos hdet]
  rfl

/-- Not vacuous: three materials. -/
example : multiSimp (1 / 2) ![1, 4 + Complex.I, 12] 3 = .ok (4 + Complex.I) := by
  have := C50_multi_simp_interpolates (n := 3) (by norm_num) ![1, 4 + Complex.I, 12] 3 (by norm_num) 1
  norm_num at this ⊢
  exact this

/-! ### C48 -/

variable {X : Type} {fn : X → List ℝ → ℝ} {alg : X → List ℝ → Strategy X} {m : OptMethod} {sv : Option ℝ}

theorem pyRange_nil {a b : ℤ} (h : b ≤ a) : pyRange a b = [] := by
  unfold pyRange
  rw [Int.toNat_of_nonpos (by omega)]
  rfl

theorem pyRange_cons {a b : ℤ} (h : a < b) : pyRange a b = a :: pyRange (a + 1) b := by
  unfold pyRange
  have : (b - a).toNat = (b - (a + 1)).toNat + 1 := by omega
  rw [this, List.range_succ_eq_map]
  simp only [List.map_cons, List.map_map]
  congr 1
  · simp
  · refine List.map_congr_left fun k _ => ?_
    simp only [Function.comp, Int.ofNat_eq_natCast]
    push_cast
    ring

theorem outerLoop_cons (args : Option (List ℝ)) (i : ℤ) (r : List ℤ) (x0 : X) (last) (t : Trace X) :
    outerLoop fn alg m sv args (i :: r) x0 last t =
      match outerStep fn alg m sv args x0 i t with
      | (.ok (x, f), t') => outerLoop fn alg m sv args r x (some (x, f)) t'
      | (.error e, t') => (.error e, t') := by
  conv_lhs => unfold outerLoop
  rw [PyM.bind_apply]
  rcases outerStep fn alg m sv args x0 i t with ⟨e | ⟨x, f⟩, t'⟩ <;> rfl

/-- The successive outer iterations of a run. -/
theorem outerLoop_chain (args : Option (List ℝ)) : ∀ (n : ℕ) (a b : ℤ) (x0 : X) (last : Option (X × ℝ)) (t t' : Trace X)
    (x : X) (f : ℝ), (b - a).toNat = n + 1 →
    outerLoop fn alg m sv args (pyRange a b) x0 last t = (.ok (some (x, f)), t') →
    ∃ (xs : ℕ → X) (fs : ℕ → ℝ) (ts : ℕ → Trace X), xs 0 = x0 ∧ ts 0 = t ∧
      (∀ k : ℕ, k ≤ n → outerStep fn alg m sv args (xs k) (a + k) (ts k) = (.ok (xs (k + 1), fs (k + 1)), ts (k + 1))) ∧
      xs (n + 1) = x ∧ fs (n + 1) = f ∧ ts (n + 1) = t' := by
  intro n
  induction n with
  | zero =>
    intro a b x0 last t t' x f hn h
    rw [pyRange_cons (by omega), pyRange_nil (by omega : b ≤ a + 1), outerLoop_cons] at h
    rcases hs : outerStep fn alg m sv args x0 a t with ⟨e | ⟨x1, f1⟩, t1⟩
    · rw [hs] at h; simp at h
    · rw [hs] at h
      dsimp only at h
      have h' : (Except.ok (some (x1, f1)), t1) = ((.ok (some (x, f)) : Except PyErr (Option (X × ℝ))), t') := h
      simp only [Prod.mk.injEq, Except.ok.injEq, Option.some.injEq] at h'
      obtain ⟨⟨rfl, rfl⟩, rfl⟩ := h'
      refine ⟨fun k => if k = 0 then x0 else x1, fun _ => f1, fun k => if k = 0 then t else t1, by simp, by simp, ?_,
        by simp, rfl, by simp⟩
      intro k hk
      obtain rfl : k = 0 := by omega
      simpa using hs
  | succ n ih =>
    intro a b x0 last t t' x f hn h
    rw [pyRange_cons (by omega), outerLoop_cons] at h
    rcases hs : outerStep fn alg m sv args x0 a t with ⟨e | ⟨x1, f1⟩, t1⟩
    · rw [hs] at h; simp at h
    · rw [hs] at h
      dsimp only at h
      obtain ⟨xs, fs, ts, h1, h2, h3, h4, h5, h6⟩ := ih (a + 1) b x1 _ t1 t' x f (by omega) h
      refine ⟨fun k => match k with | 0 => x0 | k + 1 => xs k, fun k => match k with | 0 => 0 | 1 => f1 | k + 2 => fs (k + 1),
        fun k => match k with | 0 => t | k + 1 => ts k, rfl, rfl, ?_, h4, h5, h6⟩
      intro k hk
      match k with
      | 0 =>
        dsimp only
        rw [h1, h2]
        simpa using hs
      | k + 1 =>
        dsimp only
        have := h3 k (by omega)
        push_cast
        rw [show a + ((k : ℤ) + 1) = a + 1 + k by ring]
        exact this

theorem outerLoop_keeps (args : Option (List ℝ)) : ∀ (l : List ℤ) (x0 : X) (last : X × ℝ) (t : Trace X) (r t'),
    outerLoop fn alg m sv args l x0 (some last) t = (.ok r, t') → ∃ p, r = some p := by
  intro l
  induction l with
  | nil =>
    intro x0 last t r t' h
    have h' : (Except.ok (some last), t) = ((.ok r : Except PyErr (Option (X × ℝ))), t') := h
    simp only [Prod.mk.injEq, Except.ok.injEq] at h'
    exact ⟨last, h'.1.symm⟩
  | cons i l ih =>
    intro x0 last t r t' h
    rw [outerLoop_cons] at h
    rcases hs : outerStep fn alg m sv args x0 i t with ⟨e | ⟨x1, f1⟩, t1⟩
    · rw [hs] at h; simp at h
    · rw [hs] at h
      exact ih _ _ _ _ _ h

theorem topoMinimize_eq (args : Option (List ℝ)) (a b : ℤ) (x0 : X) (t : Trace X) :
    topoMinimize fn alg m sv args a b x0 t =
      match outerLoop fn alg m sv args (pyRange a b) x0 none t with
      | (.ok (some r), t') => (.ok r, t')
      | (.ok none, t') => (.error .unboundLocal, t')
      | (.error e, t') => (.error e, t') := by
  unfold topoMinimize
  rw [PyM.bind_apply]
  rcases outerLoop fn alg m sv args (pyRange a b) x0 none t with ⟨e | (_ | r), t'⟩ <;> rfl

theorem topoMinimize_chain {args : Option (List ℝ)} {a b : ℤ} (hab : a < b) {x0 : X} {t t' : Trace X} {x : X} {f : ℝ}
    (h : topoMinimize fn alg m sv args a b x0 t = (.ok (x, f), t')) :
    ∃ (xs : ℕ → X) (fs : ℕ → ℝ) (ts : ℕ → Trace X), xs 0 = x0 ∧ ts 0 = t ∧
      (∀ k : ℕ, a + k < b → outerStep fn alg m sv args (xs k) (a + k) (ts k) = (.ok (xs (k + 1), fs (k + 1)), ts (k + 1))) ∧
      xs (b - a).toNat = x ∧ fs (b - a).toNat = f ∧ ts (b - a).toNat = t' := by
  rw [topoMinimize_eq] at h
  rcases hl : outerLoop fn alg m sv args (pyRange a b) x0 none t with ⟨e | (_ | r), t1⟩
  · rw [hl] at h; simp at h
  · rw [hl] at h; simp at h
  · rw [hl] at h
    simp only [Prod.mk.injEq, Except.ok.injEq] at h
    obtain ⟨rfl, rfl⟩ := h
    obtain ⟨n, hn⟩ : ∃ n, (b - a).toNat = n + 1 := ⟨(b - a).toNat - 1, by omega⟩
    obtain ⟨xs, fs, ts, h1, h2, h3, h4, h5, h6⟩ := outerLoop_chain args n a b x0 none t t1 x f hn hl
    rw [hn]
    exact ⟨xs, fs, ts, h1, h2, fun k hk => h3 k (by omega), h4, h5, h6⟩

/-- **C48**, where it holds. Whenever `minimize` returns `(xopt, fopt)` and either no stop value is set, or the
method is nlopt, or `fopt` is not below the stop value, `fopt` is the objective at `xopt` with the last
projection level `2**(b-1)`.  Missing: scipy runs stopped by the stop value, see
`C48_stopped_early_point_and_value_disagree`. -/
theorem C48_point_and_value_partial (hal : ∀ x l, Honest (alg x l) []) {h0 : ℝ} {rest : List ℝ} {a b : ℤ} (hab : a < b)
    {x0 x : X} {f : ℝ} {t : Trace X}
    (h : topoMinimize fn alg m sv (some (h0 :: rest)) a b x0 [] = (.ok (x, f), t))
    (hs : m = .nlopt ∨ ∀ s, sv = some s → s ≤ f) :
    f = fn x ((2 : ℝ) ^ (b - 1) :: rest) := by
  obtain ⟨xs, fs, ts, -, -, h3, h4, h5, h6⟩ := topoMinimize_chain hab h
  obtain ⟨n, hn⟩ : ∃ n, (b - a).toNat = n + 1 := ⟨(b - a).toNat - 1, by omega⟩
  rw [hn] at h4 h5 h6
  have hk := h3 n (by omega)
  have hlev : a + n = b - 1 := by omega
  obtain ⟨seg, -, hc⟩ := outerStep_spec (fn := fn) hal m sv h0 rest (xs n) (a + n) (ts n)
  rw [hk, h4, h5, hlev] at hc
  rcases hc with ⟨x', e, -⟩ | ⟨hm, x', f', s, e1, e2, -, e⟩ | ⟨-, -, e⟩
  · simp only [Prod.mk.injEq, Except.ok.injEq] at e
    obtain ⟨⟨rfl, rfl⟩, -⟩ := e
    rfl
  · simp only [Prod.mk.injEq, Except.ok.injEq] at e
    obtain ⟨⟨rfl, rfl⟩, -⟩ := e
    rcases hs with hs | hs
    · rw [hm] at hs; simp at hs
    · exact absurd (hs s e1) (not_le.mpr e2)
  · simp at e

/-- **C48** is violated by every scipy run that reaches the stop value: the value returned is below the stop
value, while the objective at the point returned is not. -/
theorem C48_stopped_early_point_and_value_disagree (hal : ∀ x l, Honest (alg x l) []) {h0 : ℝ} {rest : List ℝ} {a b : ℤ}
    (hab : a < b) {x0 x : X} {f s : ℝ} {t : Trace X}
    (h : topoMinimize fn alg .scipy (some s) (some (h0 :: rest)) a b x0 [] = (.ok (x, f), t)) (hs : f < s) :
    s ≤ fn x ((2 : ℝ) ^ (b - 1) :: rest) ∧ f ≠ fn x ((2 : ℝ) ^ (b - 1) :: rest) := by
  obtain ⟨xs, fs, ts, -, -, h3, h4, h5, h6⟩ := topoMinimize_chain hab h
  obtain ⟨n, hn⟩ : ∃ n, (b - a).toNat = n + 1 := ⟨(b - a).toNat - 1, by omega⟩
  rw [hn] at h4 h5 h6
  have hk := h3 n (by omega)
  have hlev : a + n = b - 1 := by omega
  obtain ⟨seg, -, hc⟩ := outerStep_spec (fn := fn) hal .scipy (some s) h0 rest (xs n) (a + n) (ts n)
  rw [hk, h4, h5, hlev] at hc
  have key : s ≤ fn x ((2 : ℝ) ^ (b - 1) :: rest) := by
    rcases hc with ⟨x', e, e'⟩ | ⟨hm, x', f', s', e1, e2, e3, e⟩ | ⟨-, -, e⟩
    · simp only [Prod.mk.injEq, Except.ok.injEq] at e
      obtain ⟨⟨rfl, rfl⟩, -⟩ := e
      exact e' rfl s rfl
    · simp only [Prod.mk.injEq, Except.ok.injEq] at e
      obtain ⟨⟨rfl, rfl⟩, -⟩ := e
      cases e1
      exact e3
    · simp at e
  exact ⟨key, fun e => absurd (e ▸ hs) (not_lt.mpr key)⟩

/-- **C48**: a scipy run whose very first evaluation is below the stop value raises `AttributeError`. -/
theorem C48_stopped_at_first_evaluation_raises {h0 : ℝ} {rest : List ℝ} {a b : ℤ} (hab : a < b) {x0 x : X} {s : ℝ}
    {k : ℝ → Strategy X} (ha : alg x0 ((2 : ℝ) ^ a :: rest) = .eval x k) (hs : fn x ((2 : ℝ) ^ a :: rest) < s)
    (t : Trace X) :
    (topoMinimize fn alg .scipy (some s) (some (h0 :: rest)) a b x0 t).1 = .error .attributeError := by
  have h1 : stopFun (fun x => fn x ((2 : ℝ) ^ a :: rest)) (some s) x ⟨none, none⟩ =
      (.error .stopFun, ⟨none, some (fn x ((2 : ℝ) ^ a :: rest))⟩) := by
    unfold stopFun
    dsimp only
    rw [if_pos ⟨s, rfl, hs⟩]
  have h2 : (outerStep fn alg .scipy (some s) (some (h0 :: rest)) x0 a t) =
      (.error .attributeError, t ++ [(x, (2 : ℝ) ^ a :: rest, fn x ((2 : ℝ) ^ a :: rest))]) := by
    change (match runScipy fn ((2 : ℝ) ^ a :: rest) (some s) (alg x0 ((2 : ℝ) ^ a :: rest)) (⟨none, none⟩, t) with
        | (.ok r, s) => (.ok r, s.2)
        | (.error .stopFun, s) => match s.1.x, s.1.f with
          | some x, some f => (.ok (x, f), s.2)
          | _, _ => (.error .attributeError, s.2)
        | (.error e, s) => (.error e, s.2) : Except PyErr (X × ℝ) × Trace X) = _
    rw [ha]
    unfold runScipy
    dsimp only
    rw [h1]
  rw [topoMinimize_eq, pyRange_cons hab, outerLoop_cons, h2]

/-- **C48**, the outer iterations of a run that returns: iteration `k` starts from the result of the previous
one, asks the inner optimiser with the projection level `2**(a+k)` as first argument, and every evaluation made
meanwhile (hence every callback) has these arguments and the true value. -/
theorem C48_outer_iterations (hal : ∀ x l, Honest (alg x l) []) {h0 : ℝ} {rest : List ℝ} {a b : ℤ} (hab : a < b)
    {x0 x : X} {f : ℝ} {t : Trace X}
    (h : topoMinimize fn alg m sv (some (h0 :: rest)) a b x0 [] = (.ok (x, f), t)) :
    ∃ (xs : ℕ → X) (fs : ℕ → ℝ) (ts segs : ℕ → Trace X), xs 0 = x0 ∧ xs (b - a).toNat = x ∧
      ts 0 = [] ∧ ts (b - a).toNat = t ∧
      ∀ k : ℕ, a + k < b →
        outerStep fn alg m sv (some (h0 :: rest)) (xs k) (a + k) (ts k) = (.ok (xs (k + 1), fs (k + 1)), ts (k + 1)) ∧
        ts (k + 1) = ts k ++ segs k ∧
        ∀ e ∈ segs k, e.2.1 = (2 : ℝ) ^ (a + k) :: rest ∧ e.2.2 = fn e.1 e.2.1 := by
  obtain ⟨xs, fs, ts, h1, h2, h3, h4, -, h6⟩ := topoMinimize_chain hab h
  have hseg : ∀ k : ℕ, ∃ seg, a + k < b → ts (k + 1) = ts k ++ seg ∧
      TrueEvents fn ((2 : ℝ) ^ (a + k) :: rest) seg := by
    intro k
    obtain ⟨seg, ht, hc⟩ := outerStep_spec (fn := fn) hal m sv h0 rest (xs k) (a + k) (ts k)
    refine ⟨seg, fun hk => ?_⟩
    rw [h3 k hk] at hc
    rcases hc with ⟨x', e, -⟩ | ⟨-, x', f', s, -, -, -, e⟩ | ⟨-, -, e⟩
    · exact ⟨congrArg Prod.snd e, ht⟩
    · exact ⟨congrArg Prod.snd e, ht⟩
    · exact ⟨congrArg Prod.snd e, ht⟩
  choose segs hsegs using hseg
  refine ⟨xs, fs, ts, segs, h1, h4, h2, h6, fun k hk => ⟨h3 k hk, (hsegs k hk).1, fun e he => ?_⟩⟩
  obtain ⟨e1, e2⟩ := (hsegs k hk).2 e he
  exact ⟨e1, by rw [e1]; exact e2⟩

/-- **C48**, calls that cannot return: no projection level, no `args`, empty `args`. -/
theorem C48_bad_calls_raise (a b : ℤ) (x0 : X) (t : Trace X) :
    (b ≤ a → ∀ args, topoMinimize fn alg m sv args a b x0 t = (.error .unboundLocal, t)) ∧
    (a < b → topoMinimize fn alg m sv none a b x0 t = (.error .typeError, t)) ∧
    (a < b → topoMinimize fn alg m sv (some []) a b x0 t = (.error .indexError, t)) := by
  refine ⟨fun h args => ?_, fun h => ?_, fun h => ?_⟩
  · rw [topoMinimize_eq, pyRange_nil h]
    rfl
  · rw [topoMinimize_eq, pyRange_cons h, outerLoop_cons]
    rfl
  · rw [topoMinimize_eq, pyRange_cons h, outerLoop_cons]
    rfl

/-- An inner optimiser that evaluates the starting point, then the same point minus one, and returns the better
of the two. -/
noncomputable def exAlg (x0 : ℝ) (_ : List ℝ) : Strategy ℝ :=
  open Classical in
  .eval x0 fun y0 => .eval (x0 - 1) fun y1 => if y1 < y0 then .ret (x0 - 1) y1 else .ret x0 y0

theorem exAlg_honest (x0 : ℝ) (l : List ℝ) : Honest (exAlg x0 l) [] := by
  intro y0 y1
  by_cases h : y1 < y0 <;> simp [h, Honest]

/-- The hypotheses of C48 are met: minimising the identity with levels 0 and 1, from 1. Without a stop value the
result is the point -1 and its value; with the stop value 1/2 it is the point 0, whose value is 0, with the value -1 of
another point. -/
example :
    (topoMinimize (fun x _ => x) exAlg .scipy none (some [0]) 0 2 (1 : ℝ) []).1 = .ok (-1, -1) ∧
    (topoMinimize (fun x _ => x) exAlg .nlopt (some (1 / 2)) (some [0]) 0 2 (1 : ℝ) []).1 = .ok (-1, -1) ∧
    (topoMinimize (fun x _ => x) exAlg .scipy (some (1 / 2)) (some [0]) 0 1 (1 : ℝ) []).1 = .ok (1, 0) ∧
    (topoMinimize (fun x _ => x) exAlg .scipy (some (1 / 2)) (some [0]) 0 1 (0 : ℝ) []).1 =
      .error .attributeError := by
  have r2 : pyRange 0 2 = [0, 1] := by decide
  have r1 : pyRange 0 1 = [0] := by decide
  refine ⟨?_, ?_, ?_, ?_⟩
  · rw [topoMinimize_eq, r2, outerLoop_cons]
    simp [outerStep, runScipy, stopFun, exAlg, PyM.lift, bind, outerLoop, pure]
  · rw [topoMinimize_eq, r2, outerLoop_cons]
    simp [outerStep, runNlopt, exAlg, PyM.lift, bind, outerLoop, pure]
  · rw [topoMinimize_eq, r1, outerLoop_cons]
    simp [outerStep, runScipy, stopFun, exAlg, PyM.lift, bind, outerLoop, pure]
    norm_num
  · exact C48_stopped_at_first_evaluation_raises (x := 0) (by norm_num) rfl (by norm_num) []

end Nannos
