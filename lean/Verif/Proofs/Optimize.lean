import Verif.Spec.Optimize
import Mathlib.LinearAlgebra.Vandermonde
import Mathlib.Analysis.SpecialFunctions.Trigonometric.DerivHyp

/-! Helper lemmas about projection, interpolation and the optimiser. -/

namespace Nannos

theorem PyM.bind_apply {σ α β : Type} (x : PyM σ α) (f : α → PyM σ β) (s : σ) :
    (x >>= f) s = match x s with
      | (.ok a, s') => f a s'
      | (.error e, s') => (.error e, s') := rfl

theorem tanh_lt {a b : ℝ} (h : a < b) : Real.tanh a < Real.tanh b := by
  rw [Real.tanh_eq_sinh_div_cosh, Real.tanh_eq_sinh_div_cosh, div_lt_div_iff₀ (Real.cosh_pos a) (Real.cosh_pos b)]
  have h1 : 0 < Real.sinh (b - a) := Real.sinh_pos_iff.mpr (by linarith)
  rw [Real.sinh_sub] at h1
  linarith

theorem tanh_nonneg {a : ℝ} (h : 0 ≤ a) : 0 ≤ Real.tanh a := by
  rcases h.eq_or_lt with rfl | h
  · simp
  · simpa using (tanh_lt h).le

theorem project_den {beta t : ℝ} (hb : 0 < beta) (h0 : 0 ≤ t) (h1 : t ≤ 1) :
    0 < Real.tanh (t * beta) + Real.tanh ((1 - t) * beta) := by
  rcases h0.eq_or_lt with rfl | h0
  · have := tanh_lt (a := 0) (b := beta) hb
    simp only [Real.tanh_zero] at this
    simpa using this
  · have h2 := tanh_lt (a := 0) (b := t * beta) (by positivity)
    have h3 := tanh_nonneg (a := (1 - t) * beta) (mul_nonneg (by linarith) hb.le)
    simp only [Real.tanh_zero] at h2
    linarith

/-- The value of `project`. -/
noncomputable def projVal (beta t x : ℝ) : ℝ :=
  (Real.tanh (t * beta) + Real.tanh (beta * (x - t))) / (Real.tanh (t * beta) + Real.tanh ((1 - t) * beta))

theorem project_ok {x beta t : ℝ} (hb : 0 < beta) (h0 : 0 ≤ t) (h1 : t ≤ 1) :
    project x beta t = .ok (projVal beta t x) := by
  unfold project raiseIf
  rw [if_neg (project_den hb h0 h1).ne']
  rfl

theorem projVal_zero {beta t : ℝ} : projVal beta t 0 = 0 := by
  unfold projVal
  have : beta * (0 - t) = -(t * beta) := by ring
  rw [this, Real.tanh_neg]
  simp

theorem projVal_one {beta t : ℝ} (hb : 0 < beta) (h0 : 0 ≤ t) (h1 : t ≤ 1) : projVal beta t 1 = 1 := by
  unfold projVal
  rw [mul_comm beta]
  exact div_self (project_den hb h0 h1).ne'

theorem projVal_lt {beta t x y : ℝ} (hb : 0 < beta) (h0 : 0 ≤ t) (h1 : t ≤ 1) (h : x < y) :
    projVal beta t x < projVal beta t y := by
  unfold projVal
  refine div_lt_div_of_pos_right ?_ (project_den hb h0 h1)
  have := tanh_lt (a := beta * (x - t)) (b := beta * (y - t)) (mul_lt_mul_of_pos_left (by linarith) hb)
  linarith

theorem thresholds_mem {N : ℕ} {t : ℝ} (h : t ∈ thresholds N) : 0 ≤ t ∧ t ≤ 1 := by
  unfold thresholds at h
  rw [List.mem_map] at h
  obtain ⟨k, hk, rfl⟩ := h
  rw [List.mem_range] at hk
  have hN : (0 : ℝ) < N := by
    have : 0 < N := by omega
    exact_mod_cast this
  refine ⟨by positivity, (div_le_one hN).mpr ?_⟩
  have : k + 1 ≤ N := by omega
  exact_mod_cast this

theorem thresholds_length (N : ℕ) : (thresholds N).length = N - 1 := by simp [thresholds]

theorem mapM_ok_map {α β : Type} {f : α → Except PyErr β} {g : α → β} :
    ∀ (l : List α), (∀ a ∈ l, f a = .ok (g a)) → l.mapM f = .ok (l.map g) := by
  intro l
  induction l with
  | nil => intro _; rfl
  | cons a l ih =>
    intro h
    rw [List.mapM_cons, h a (by simp), ih fun b hb => h b (by simp [hb])]
    rfl

/-- The value of `multi_project`. -/
noncomputable def multiVal (beta : ℝ) (N : ℕ) (x : ℝ) : ℝ :=
  ((thresholds N).map fun t => projVal beta t x).sum / (thresholds N).length

theorem multiProject_ok {x beta : ℝ} {N : ℕ} (hb : 0 < beta) (hN : 2 ≤ N) :
    multiProject x beta N = .ok (multiVal beta N x) := by
  unfold multiProject
  rw [mapM_ok_map (g := fun t => projVal beta t x) _ fun t ht =>
    project_ok hb (thresholds_mem ht).1 (thresholds_mem ht).2]
  unfold raiseIf
  rw [if_neg (by rw [thresholds_length]; omega)]
  rfl

theorem sum_lt_of_forall {l : List ℝ} {f g : ℝ → ℝ} (hl : l ≠ []) (h : ∀ t ∈ l, f t < g t) :
    (l.map f).sum < (l.map g).sum := by
  induction l with
  | nil => exact absurd rfl hl
  | cons a l ih =>
    rw [List.map_cons, List.map_cons, List.sum_cons, List.sum_cons]
    have h1 := h a (by simp)
    rcases l.eq_nil_or_concat with rfl | ⟨l', b, hb⟩
    · simpa using h1
    · have := ih (by rw [hb]; simp) fun t ht => h t (by simp [ht])
      linarith

theorem multiVal_lt {beta x y : ℝ} {N : ℕ} (hb : 0 < beta) (hN : 2 ≤ N) (h : x < y) :
    multiVal beta N x < multiVal beta N y := by
  unfold multiVal
  have hl : 0 < (thresholds N).length := by rw [thresholds_length]; omega
  refine div_lt_div_of_pos_right (sum_lt_of_forall (by rintro e; rw [e] at hl; simp at hl) ?_) (by exact_mod_cast hl)
  exact fun t ht => projVal_lt hb (thresholds_mem ht).1 (thresholds_mem ht).2 h

theorem multiVal_zero {beta : ℝ} {N : ℕ} : multiVal beta N 0 = 0 := by
  unfold multiVal
  have : (thresholds N).map (fun t => projVal beta t 0) = (thresholds N).map fun _ => (0 : ℝ) := by
    simp [projVal_zero]
  rw [this]
  simp

theorem multiVal_one {beta : ℝ} {N : ℕ} (hb : 0 < beta) (hN : 2 ≤ N) : multiVal beta N 1 = 1 := by
  unfold multiVal
  have : (thresholds N).map (fun t => projVal beta t 1) = (thresholds N).map fun _ => (1 : ℝ) :=
    List.map_congr_left fun t ht => projVal_one hb (thresholds_mem ht).1 (thresholds_mem ht).2
  have hl : 0 < (thresholds N).length := by rw [thresholds_length]; omega
  have hl' : ((thresholds N).length : ℝ) ≠ 0 := by exact_mod_cast hl.ne'
  rw [this]
  simp [hl']

/-! ### Multi-material interpolation -/

theorem powR_ok {x p : ℝ} (hx : 0 ≤ x) (hp : 0 ≤ p) : powR x p = .ok (x ^ p) := by
  unfold powR
  rw [if_neg]
  rintro (⟨-, h⟩ | ⟨h, -⟩) <;> linarith

theorem linPt_nonneg (n i : ℕ) : 0 ≤ linPt n i := by unfold linPt; positivity

theorem linPt_inj {n : ℕ} (hn : 2 ≤ n) {i j : ℕ} (h : linPt n i = linPt n j) : i = j := by
  unfold linPt at h
  have : ((n - 1 : ℕ) : ℝ) ≠ 0 := by
    have : n - 1 ≠ 0 := by omega
    exact_mod_cast this
  rw [div_left_inj' this] at h
  exact_mod_cast h

theorem multi_det {n : ℕ} {p : ℝ} (hp : 0 < p) :
    (Matrix.of fun i k : Fin n => ((linPt n i ^ ((k : ℝ) * p) : ℝ) : ℂ)).det ≠ 0 := by
  have : (Matrix.of fun i k : Fin n => ((linPt n i ^ ((k : ℝ) * p) : ℝ) : ℂ)) =
      Matrix.vandermonde fun i : Fin n => ((linPt n i ^ p : ℝ) : ℂ) := by
    ext i k
    rw [Matrix.vandermonde_apply, Matrix.of_apply, mul_comm, Real.rpow_mul (linPt_nonneg n i), Real.rpow_natCast,
      Complex.ofReal_pow]
  rw [this, Matrix.det_vandermonde_ne_zero_iff]
  intro i j h
  have h' : linPt n i ^ p = linPt n j ^ p := Complex.ofReal_injective h
  rw [Real.rpow_left_inj (linPt_nonneg n i) (linPt_nonneg n j) hp.ne'] at h'
  rcases lt_or_ge n 2 with hn | hn
  · apply Fin.ext
    have := i.isLt
    have := j.isLt
    omega
  · exact Fin.ext (linPt_inj hn h')

theorem multiSimp_at {n : ℕ} {p : ℝ} (hp : 0 < p) (eps : Fin n → ℂ) (i : Fin n) :
    multiSimp (linPt n i) eps p = .ok (eps i) := by
  classical
  unfold multiSimp
  split_ifs with h
  · subst h
    unfold simpInterp
    rw [powR_ok (linPt_nonneg _ _) hp.le]
    have : ∀ a : ℝ, (do let w ← (.ok a : Except PyErr ℝ); pure ((eps ⟨1, by omega⟩ - eps ⟨0, by omega⟩) * (w : ℂ) + eps ⟨0, by omega⟩) : Except PyErr ℂ) =
      .ok ((eps ⟨1, by omega⟩ - eps ⟨0, by omega⟩) * (a : ℂ) + eps ⟨0, by omega⟩) := fun a => rfl
    rw [this]
    congr 1
    fin_cases i
    · simp [linPt, Real.zero_rpow hp.ne']
    · simp [linPt]
  · have hn : n ≠ 0 := by have := i.isLt; omega
    have hno : ∀ x : ℝ, 0 ≤ x → ∀ k : Fin n, ∀ e, powR x (k * p) ≠ .error e := by
      intro x hx k e he
      rw [powR_ok hx (by positivity)] at he
      simp at he
    have hM := multi_det (n := n) hp
    have hneg : ∀ {q : Prop} [Decidable q] {e : PyErr}, ¬ q → raiseIf q e = .ok () := by
      intro q _ e hq
      unfold raiseIf
      rw [if_neg hq]
    have hbind : ∀ {α : Type} (f : Unit → Except PyErr α), ((.ok () : Except PyErr Unit) >>= f) = f () := fun f => rfl
    rw [hneg hn, hbind, hneg (by rintro ⟨i, k, e, he⟩; exact hno _ (linPt_nonneg _ _) k e he), hbind]
    dsimp only
    rw [hneg hM, hbind, hneg (by rintro ⟨k, e, he⟩; exact hno _ (linPt_nonneg _ _) k e he), hbind]
    change Except.ok _ = _
    congr 1
    have h1 := congrFun (Matrix.mulVec_mulVec (v := eps) (M := Matrix.of fun i k : Fin n => ((linPt n i ^ ((k : ℝ) * p) : ℝ) : ℂ))
      (N := (Matrix.of fun i k : Fin n => ((linPt n i ^ ((k : ℝ) * p) : ℝ) : ℂ))⁻¹)) i
    rw [Matrix.mul_nonsing_inv _ (Ne.isUnit hM), Matrix.one_mulVec] at h1
    rw [← h1, Matrix.mulVec, dotProduct]
    exact Finset.sum_congr rfl fun k _ => mul_comm _ _

/-! ### The optimiser -/

open Spec

variable {X : Type} {fn : X → List ℝ → ℝ} {l : List ℝ}

/-- Events all made with arguments `l`, with their true values. -/
def TrueEvents (fn : X → List ℝ → ℝ) (l : List ℝ) (t : Trace X) : Prop :=
  ∀ e ∈ t, e.2.1 = l ∧ e.2.2 = fn e.1 l

theorem runNlopt_spec : ∀ (S : Strategy X) (seen : List (X × ℝ)) (t : Trace X), Honest S seen →
    (∀ e ∈ seen, e.2 = fn e.1 l) →
    ∃ x seg, runNlopt fn l S t = (.ok (x, fn x l), t ++ seg) ∧ TrueEvents fn l seg := by
  intro S
  induction S with
  | ret x f =>
    intro seen t h hs
    refine ⟨x, [], ?_, by simp [TrueEvents]⟩
    have : f = fn x l := hs (x, f) h
    simp [runNlopt, this]
  | eval x k ih =>
    intro seen t h hs
    obtain ⟨x', seg, h1, h2⟩ := ih (fn x l) ((x, fn x l) :: seen) (t ++ [(x, l, fn x l)]) (h _) (by
      intro e he
      rcases List.mem_cons.mp he with rfl | he
      · rfl
      · exact hs e he)
    refine ⟨x', (x, l, fn x l) :: seg, ?_, ?_⟩
    · unfold runNlopt
      rw [h1]
      simp
    · intro e he
      rcases List.mem_cons.mp he with rfl | he
      · exact ⟨rfl, rfl⟩
      · exact h2 e he

/-- A run of scipy: it either returns, all values seen being above the stop value, or is stopped. -/
theorem runScipy_spec (sv : Option ℝ) : ∀ (S : Strategy X) (seen : List (X × ℝ)) (o : StopFunObj X) (t : Trace X),
    Honest S seen → (∀ e ∈ seen, e.2 = fn e.1 l ∧ ∀ s, sv = some s → s ≤ e.2) →
    (∀ x, o.x = some x → ∀ s, sv = some s → s ≤ fn x l) →
    ∃ seg, TrueEvents fn l seg ∧
    ((∃ x o', runScipy fn l sv S (o, t) = (.ok (x, fn x l), (o', t ++ seg)) ∧ ∀ s, sv = some s → s ≤ fn x l) ∨
    (∃ f o' s, sv = some s ∧ f < s ∧ runScipy fn l sv S (o, t) = (.error .stopFun, (o', t ++ seg)) ∧ o'.f = some f ∧
      ∀ x, o'.x = some x → s ≤ fn x l)) := by
  intro S
  induction S with
  | ret x f =>
    intro seen o t h hs ho
    refine ⟨[], by simp [TrueEvents], .inl ⟨x, o, ?_, ?_⟩⟩
    · have : f = fn x l := (hs (x, f) h).1
      simp [runScipy, this]
    · intro s e
      have h1 := hs (x, f) h
      have h2 := h1.2 s e
      rw [h1.1] at h2
      exact h2
  | eval x k ih =>
    intro seen o t h hs ho
    by_cases hstop : ∃ s, sv = some s ∧ fn x l < s
    · obtain ⟨s, e, hlt⟩ := hstop
      refine ⟨[(x, l, fn x l)], by simp [TrueEvents], .inr ⟨fn x l, { o with f := some (fn x l) }, s, e, hlt, ?_, rfl, ?_⟩⟩
      · have : stopFun (fun x => fn x l) sv x o = (.error .stopFun, { o with f := some (fn x l) }) := by
          unfold stopFun
          dsimp only
          rw [if_pos ⟨s, e, hlt⟩]
        unfold runScipy
        dsimp only
        rw [this]
      · exact fun y hy => ho y hy s e
    · have hrun : stopFun (fun x => fn x l) sv x o = (.ok (fn x l), ⟨some x, some (fn x l)⟩) := by
        unfold stopFun
        dsimp only
        rw [if_neg hstop]
      have hge : ∀ s, sv = some s → s ≤ fn x l := by
        intro s e
        by_contra hc
        exact hstop ⟨s, e, not_le.mp hc⟩
      obtain ⟨seg, h1, h2⟩ := ih (fn x l) ((x, fn x l) :: seen) ⟨some x, some (fn x l)⟩ (t ++ [(x, l, fn x l)]) (h _) (by
        intro e he
        rcases List.mem_cons.mp he with rfl | he
        · exact ⟨rfl, hge⟩
        · exact hs e he) (by
        intro y hy
        obtain rfl : x = y := by simpa using hy
        exact hge)
      refine ⟨(x, l, fn x l) :: seg, ?_, ?_⟩
      · intro e he
        rcases List.mem_cons.mp he with rfl | he
        · exact ⟨rfl, rfl⟩
        · exact h1 e he
      · have e1 : runScipy fn l sv (.eval x k) (o, t) =
            runScipy fn l sv (k (fn x l)) (⟨some x, some (fn x l)⟩, t ++ [(x, l, fn x l)]) := by
          conv_lhs => unfold runScipy
          dsimp only
          rw [hrun]
        rw [e1]
        simpa using h2

/-- One outer iteration. -/
theorem outerStep_spec {alg : X → List ℝ → Strategy X} (hal : ∀ x l, Honest (alg x l) []) (m : OptMethod)
    (sv : Option ℝ) (h0 : ℝ) (rest : List ℝ) (x0 : X) (i : ℤ) (t : Trace X) :
    ∃ seg, TrueEvents fn ((2 : ℝ) ^ i :: rest) seg ∧
    ((∃ x, outerStep fn alg m sv (some (h0 :: rest)) x0 i t = (.ok (x, fn x ((2 : ℝ) ^ i :: rest)), t ++ seg) ∧
      (m = .scipy → ∀ s, sv = some s → s ≤ fn x ((2 : ℝ) ^ i :: rest))) ∨
    (m = .scipy ∧ ∃ x f s, sv = some s ∧ f < s ∧ s ≤ fn x ((2 : ℝ) ^ i :: rest) ∧
      outerStep fn alg m sv (some (h0 :: rest)) x0 i t = (.ok (x, f), t ++ seg)) ∨
    (m = .scipy ∧ (∃ s, sv = some s) ∧
      outerStep fn alg m sv (some (h0 :: rest)) x0 i t = (.error .attributeError, t ++ seg))) := by
  have hb : ∀ {σ α β : Type} (a : α) (f : α → PyM σ β), (PyM.lift (.ok a) >>= f) = f a := fun a f => rfl
  cases m with
  | nlopt =>
    obtain ⟨x, seg, h1, h2⟩ := runNlopt_spec (fn := fn) (l := (2 : ℝ) ^ i :: rest) (alg x0 ((2 : ℝ) ^ i :: rest)) [] t
      (hal _ _) (by simp)
    refine ⟨seg, h2, .inl ⟨x, ?_, by simp⟩⟩
    unfold outerStep
    dsimp only
    rw [hb]
    exact h1
  | scipy =>
    obtain ⟨seg, h1, h2⟩ := runScipy_spec (fn := fn) (l := (2 : ℝ) ^ i :: rest) sv (alg x0 ((2 : ℝ) ^ i :: rest)) []
      ⟨none, none⟩ t (hal _ _) (by simp) (by simp)
    refine ⟨seg, h1, ?_⟩
    have key : outerStep fn alg .scipy sv (some (h0 :: rest)) x0 i t =
        match runScipy fn ((2 : ℝ) ^ i :: rest) sv (alg x0 ((2 : ℝ) ^ i :: rest)) (⟨none, none⟩, t) with
        | (.ok r, s) => (.ok r, s.2)
        | (.error .stopFun, s) => match s.1.x, s.1.f with
          | some x, some f => (.ok (x, f), s.2)
          | _, _ => (.error .attributeError, s.2)
        | (.error e, s) => (.error e, s.2) := rfl
    rw [key]
    rcases h2 with ⟨x, o', e1, e2⟩ | ⟨f, o', s, e1, e2, e3, e4, e5⟩
    · rw [e1]
      exact .inl ⟨x, rfl, fun _ => e2⟩
    · rw [e3]
      dsimp only
      rcases hx : o'.x with _ | x
      · exact .inr (.inr ⟨rfl, ⟨s, e1⟩, rfl⟩)
      · rw [e4]
        exact .inr (.inl ⟨rfl, x, f, s, e1, e2, e5 x hx, rfl⟩)

end Nannos
