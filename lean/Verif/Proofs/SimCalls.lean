import Verif.Proofs.SimInv
import Verif.Spec.Calls

/-! The invariant is kept by every public call. -/

namespace Nannos

open Matrix Spec

variable {E : Ext} {c : Static}
variable {mats : ℕ → LayerSpec} {A0 A1 : ℕ → LayerAttr c.nh} {res : Except PyErr Unit}

theorem Inv.reset {d : Dyn c.nh} (h : Inv E c mats A0 A1 res d) (p : String) :
    Inv E c mats A0 A1 res (simReset p d).2 := by
  unfold simReset
  dsimp only
  split_ifs
  all_goals first
    | exact h
    | exact ⟨h.mats_eq, h.attrs, h.solved, by simp, by simp⟩
    | exact ⟨h.mats_eq, h.attrs, by simp, h.cache, h.total⟩
    | exact ⟨h.mats_eq, h.attrs, by simp, by simp, by simp⟩

theorem Inv.solve (hs : SolveSpec E c mats A0 A1 res) {d : Dyn c.nh} (h : Inv E c mats A0 A1 res d) :
    Inv E c mats A0 A1 res (Nannos.solve E c d).2 := by
  unfold Nannos.solve
  have hr := hs.run d h.mats_eq h.attrs
  rcases hres : res with e | u
  · rw [hres] at hr
    rw [PyM.bind_error hr]
    have := h.solved
    rw [hres] at this
    exact ⟨h.mats_eq, .inr rfl, fun h' => absurd (this h').1 (by simp), by rw [← hres]; exact h.cache,
      by rw [← hres]; exact h.total⟩
  · rw [hres] at hr
    rw [PyM.bind_ok hr]
    have h1 := h.cache
    have h2 := h.total
    rw [hres] at h1 h2
    exact ⟨h.mats_eq, .inr rfl, fun _ => ⟨rfl, rfl⟩, h1, h2⟩

theorem Det.inv {α : Type} {I P Q : Dyn c.nh → Prop} {x : PyM (Dyn c.nh) α} (h : Det I P Q x)
    {d : Dyn c.nh} (hd : P d) : I (x d).2 := by
  obtain ⟨v, hv⟩ := h
  exact (hv d hd).2.1

theorem Det.same {α : Type} {I P Q : Dyn c.nh → Prop} {x : PyM (Dyn c.nh) α} (h : Det I P Q x)
    {d d' : Dyn c.nh} (hd : P d) (hd' : P d') : (x d).1 = (x d').1 := by
  obtain ⟨v, hv⟩ := h
  rw [(hv d hd).1, (hv d' hd').1]

theorem Inv.call (hs : SolveSpec E c mats A0 A1 res) {d : Dyn c.nh} (h : Inv E c mats A0 A1 res d)
    (a : Call c.nh) : Inv E c mats A0 A1 res (a.after E c d) := by
  cases a with
  | getSMatrix idx => exact (det_getS hs idx).inv h
  | solve => exact h.solve hs
  | reset p => exact h.reset p
  | getFieldFourier l z => exact ((base_inv hs).getFieldFourier l z).inv h
  | getZPoyntingFlux l a b => exact ((base_inv hs).flux l a b).inv h
  | diffractionEfficiencies o => exact ((base_inv hs).diffraction o).inv h
  | complexEfficiencies => exact (base_inv hs).complex.inv h

theorem Inv.calls (hs : SolveSpec E c mats A0 A1 res) (l : List (Call c.nh)) {d : Dyn c.nh}
    (h : Inv E c mats A0 A1 res d) : Inv E c mats A0 A1 res (afterCalls E c l d) := by
  induction l generalizing d with
  | nil => exact h
  | cons a l ih => exact ih (h.call hs a)

theorem noStale_unsolved (mats : ℕ → LayerSpec) (rs : List ℕ) :
    NoStale mats (unsolved c.nh) rs := by
  induction rs with
  | nil => trivial
  | cons r rs ih => exact ⟨fun _ _ => .inl rfl, ih⟩

/-- Everything about one sequence of calls: the invariant at the start, after the history, and for a new
object on the same (by now perhaps solved) layers. -/
theorem history_inv (hnd : c.stack.Nodup) (hns : NoStale mats A0 c.stack) (l : List (Call c.nh)) :
    ∃ A1 res, SolveSpec E c mats A0 A1 res ∧ Inv E c mats A0 A1 res (Dyn.fresh mats A0) ∧
      Inv E c mats A0 A1 res (afterCalls E c l (Dyn.fresh mats A0)) ∧
      Inv E c mats A0 A1 res (Dyn.fresh mats (afterCalls E c l (Dyn.fresh mats A0)).attrs) := by
  obtain ⟨A1, res, hs, -⟩ := solveSpec_of_noStale (E := E) hnd hns
  have h0 : Inv E c mats A0 A1 res (Dyn.fresh mats A0) := inv_fresh A0 (.inl rfl)
  have h1 := h0.calls hs l
  exact ⟨A1, res, hs, h0, h1, inv_fresh _ h1.attrs⟩

/-! ### Construction -/

theorem unique_go_nodup : ∀ (l seen : List String), unique.go seen l = true →
    l.Nodup ∧ ∀ x ∈ l, x ∉ seen := by
  intro l
  induction l with
  | nil => intro seen _; simp
  | cons x xs ih =>
    intro seen h
    unfold unique.go at h
    split at h
    · simp at h
    · rename_i hx
      obtain ⟨h1, h2⟩ := ih _ h
      refine ⟨List.nodup_cons.mpr ⟨fun hm => ?_, h1⟩, ?_⟩
      · exact h2 x hm (by simp)
      · intro y hy
        rcases List.mem_cons.mp hy with rfl | hy
        · exact hx
        · intro hs; exact h2 y hy (by simp [hs])

theorem unique_go_of_nodup : ∀ (l seen : List String), l.Nodup → (∀ x ∈ l, x ∉ seen) →
    unique.go seen l = true := by
  intro l
  induction l with
  | nil => intros; rfl
  | cons x xs ih =>
    intro seen h1 h2
    unfold unique.go
    obtain ⟨h3, h4⟩ := List.nodup_cons.mp h1
    simp only [h2 x (by simp), if_false]
    refine ih _ h4 fun y hy hs => ?_
    rcases List.mem_append.mp hs with hs | hs
    · exact h2 y (by simp [hy]) hs
    · simp at hs; subst hs; exact h3 hy

theorem unique_iff (l : List String) : unique l = true ↔ l.Nodup := by
  unfold unique
  exact ⟨fun h => (unique_go_nodup l [] h).1, fun h => unique_go_of_nodup l [] h (by simp)⟩

/-- What a successful construction established. -/
structure InitSpec (E : Ext) (lats : ℕ → Lattice) (mats : ℕ → LayerSpec) (stack : List ℕ)
    (exc : PlaneWave) (nh : ℤ) (formulation : String) (c : Static) : Prop where
  names : (stack.map fun r => (mats r).name).Nodup
  ne : stack ≠ []
  lat : ∀ r ∈ stack, ∀ r0, stack.head? = some r0 → (mats r).lattice = (mats r0).lattice
  form : formulation = "original" ∨ formulation = "tangent" ∨ formulation = "jones" ∨
    formulation = "pol"
  form1 : ∀ r0, stack.head? = some r0 → (lats (mats r0).lattice).is1D = true →
    formulation = "original" ∨ formulation = "tangent"
  stack_eq : c.stack = stack
  names_eq : c.layerNames = stack.map fun r => (mats r).name
  lat_eq : ∀ r0, stack.head? = some r0 → c.lattice = lats (mats r0).lattice
  form_eq : c.formulation = formulation
  exc_eq : c.excitation = exc
  omega_eq : c.omega = 2 * Real.pi * (1 / exc.wavelength)
  harm : ∃ n, c.lattice.getHarmonics E.argsort
      (effectiveNh nh (stack.all fun r => (mats r).isUniform)) true = .ok (c.harmonics, n)
  nyquist : checkNyquist c.lattice c.harmonics = .ok ()
  sup : ∀ r0, stack.head? = some r0 → (mats r0).isUniform = true ∧ (mats r0).isAnisotropic = false ∧
    (mats r0).epsilon.value * (mats r0).mu ≠ 0 ∧
    c.incidentFlux =
      ((Real.cos exc.theta : ℂ) / csqrt ((mats r0).epsilon.value * (mats r0).mu)).re ∧
    c.k0para = Nannos.k0para exc.wavevector (csqrt ((mats r0).epsilon.value * (mats r0).mu))
  recip : ∃ r, c.lattice.reciprocal = .ok r ∧ (∀ i, c.kx i = kxOf r c.k0para (c.harmonics.get i)) ∧
    ∀ i, c.ky i = kyOf r c.k0para (c.harmonics.get i)
  idx : c.indexZerothOrder = zerothIndex c.harmonics
  a0 : ∀ i : Fin c.nh,
    c.a0 (Sum.inl i) = (if (i : ℕ) = c.indexZerothOrder then (exc.a0 0 : ℂ) else 0) ∧
    c.a0 (Sum.inr i) = (if (i : ℕ) = c.indexZerothOrder then (exc.a0 1 : ℂ) else 0)

theorem raiseIf_ok {p : Prop} [Decidable p] {e : PyErr} {u : Unit} : raiseIf p e = .ok u ↔ ¬ p := by
  unfold raiseIf
  split <;> simp_all

theorem simInit_ok {lats : ℕ → Lattice} {mats : ℕ → LayerSpec} {stack : List ℕ} {exc : PlaneWave}
    {nh : ℤ} {formulation : String} {c : Static}
    (h : simInit E lats mats stack exc nh formulation = .ok c) :
    InitSpec E lats mats stack exc nh formulation c := by
  unfold simInit at h
  dsimp only at h
  split at h
  · simp at h
  rename_i hu
  simp only [Bool.not_eq_true', Bool.not_eq_false] at hu
  rw [unique_iff] at hu
  split at h
  · simp at h
  rename_i r0 tl
  split at h
  · simp at h
  rename_i hl
  simp only [Bool.not_eq_true', Bool.not_eq_false, List.all_eq_true, decide_eq_true_eq] at hl
  split at h
  · simp at h
  rename_i hf
  split at h
  · simp at h
  rename_i hf1
  simp only [bind_eq_ok] at h
  obtain ⟨⟨H, n⟩, hH, u1, hny, u2, hs1, u3, hs2, r, hr, hc⟩ := h
  rw [raiseIf_ok] at hs1 hs2
  simp only [except_pure_eq_ok, Except.ok.injEq] at hc
  subst hc
  constructor
  · exact hu
  · simp
  · intro r hr r0' h0; simp at h0; subst h0; exact hl r hr
  · tauto
  · intro r0' h0 h1; simp at h0; subst h0; tauto
  · rfl
  · rfl
  · intro r0' h0; simp at h0; subst h0; rfl
  · rfl
  · rfl
  · rfl
  · exact ⟨n, hH⟩
  · exact hny
  · intro r0' h0; simp at h0; subst h0
    refine ⟨?_, ?_, hs2, rfl, rfl⟩
    · tauto
    · tauto
  · exact ⟨r, hr, fun _ => rfl, fun _ => rfl⟩
  · rfl
  · intro i; exact ⟨rfl, rfl⟩

theorem InitSpec.nodup {lats : ℕ → Lattice} {mats : ℕ → LayerSpec} {stack : List ℕ} {exc : PlaneWave}
    {nh : ℤ} {formulation : String} {c : Static}
    (h : InitSpec E lats mats stack exc nh formulation c) : c.stack.Nodup := by
  rw [h.stack_eq]
  exact List.Nodup.of_map _ h.names

end Nannos
