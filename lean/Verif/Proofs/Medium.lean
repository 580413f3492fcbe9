import Verif.Proofs.Layer

/-! The modes of the layers of a solved stack. -/

namespace Nannos

open Matrix Spec

variable {E : Ext} {c : Static}
variable {mats : ℕ → LayerSpec} {A : ℕ → LayerAttr c.nh}

theorem copiesOk_of_wellPlaced {stack : List ℕ} (h : WellPlaced mats stack) : CopiesOk mats [] stack := by
  have key : ∀ (rs done : List ℕ), (∀ (k r : ℕ), rs[k]? = some r → (mats r).iscopy = true →
      ((mats r).original ∈ done ∨ ∃ j : ℕ, j < k ∧ rs[j]? = some (mats r).original) ∧
        (mats (mats r).original).isUniform = false) → CopiesOk mats done rs := by
    intro rs
    induction rs with
    | nil => intros; trivial
    | cons r rs ih =>
      intro done hh
      refine ⟨fun hc => ?_, ih (r :: done) fun k s hs hc => ?_⟩
      · obtain ⟨h1, h2⟩ := hh 0 r rfl hc
        refine ⟨?_, h2⟩
        rcases h1 with h1 | ⟨j, hj, -⟩
        · exact h1
        · omega
      · obtain ⟨h1, h2⟩ := hh (k + 1) s (by simpa using hs) hc
        refine ⟨?_, h2⟩
        rcases h1 with h1 | ⟨j, hj, hj'⟩
        · exact .inl (by simp [h1])
        · cases j with
          | zero => simp at hj'; left; simp [hj']
          | succ j => exact .inr ⟨j, by omega, by simpa using hj'⟩
  refine key stack [] fun k r hr hc => ?_
  obtain ⟨h1, h2, h3⟩ := h k r hr hc
  refine ⟨.inr h1, ?_⟩
  unfold LayerSpec.isUniform at h2 ⊢
  rw [← h3]; exact h2

/-- What the field computations use of a solved layer: `P`, `e` its permittivity operators. -/
structure MediumModes (c : Static) (L : LayerSpec) (a : LayerAttr c.nh)
    (P : Matrix (Idx c.nh) (Idx c.nh) ℂ) (e : Matrix (Fin c.nh) (Fin c.nh) ℂ) : Prop where
  det : e.det ≠ 0
  Q : a.Qeps = some ((c.omega : ℂ) ^ 2 • 1 - kEps c.kx c.ky e⁻¹)
  eig : ∃ ev, a.eig = some ev ∧
    waveMatrix c.omega c.kx c.ky P e⁻¹ * ev.2 = ev.2 * diagonal (fun k => ev.1 k ^ 2)
  normal : ∀ dz x, normalE L a dz = .ok x → e *ᵥ x = dz

theorem uniform_wave (omega : ℝ) {nh : ℕ} (kx ky : Fin nh → ℂ) {e : ℂ} (he : e ≠ 0) :
    waveMatrix omega kx ky (e • 1) ((1 / e) • 1) =
      diagonal (fun k => e * (omega : ℂ) ^ 2 - (Sum.elim kx kx k) ^ 2 - (Sum.elim ky ky k) ^ 2) := by
  have h1 : e * (1 / e) = 1 := by field_simp
  ext a b
  unfold waveMatrix
  simp only [Matrix.sub_apply, Matrix.smul_apply, Matrix.smul_mul, Matrix.one_mul]
  rcases a with i | i <;> rcases b with j | j <;> by_cases h : i = j <;>
    simp [kEps, kMu, diagonal, h, one_apply]
  · field_simp; ring
  · field_simp; ring
  · field_simp; ring
  · field_simp

theorem smul_one_inv {nh : ℕ} {e : ℂ} (he : e ≠ 0) :
    (e • (1 : Matrix (Fin nh) (Fin nh) ℂ))⁻¹ = (1 / e) • 1 := by
  refine inv_eq_right_inv ?_
  rw [Matrix.smul_mul, Matrix.one_mul, smul_smul]
  field_simp
  simp

theorem solveUniform_ok {L : LayerSpec} {nh : ℕ} {omega : ℝ} {kx ky : Fin nh → ℂ} {ev}
    (h : solveUniform L omega kx ky = .ok ev) :
    L.isAnisotropic = false ∧ ev.2 = 1 ∧ ev.1 = Sum.elim
      (fun i => csqrt (L.epsilon.value * L.mu * (omega : ℂ) ^ 2 - kx i ^ 2 - ky i ^ 2))
      (fun i => csqrt (L.epsilon.value * L.mu * (omega : ℂ) ^ 2 - kx i ^ 2 - ky i ^ 2)) := by
  unfold solveUniform at h
  split at h
  · simp at h
  · rename_i ha
    simp only [Except.ok.injEq] at h
    subst h
    exact ⟨by simpa using ha, rfl, rfl⟩

theorem solveEigenproblem_ok {nh : ℕ} {M : Matrix (Idx nh) (Idx nh) ℂ} {ev}
    (h : solveEigenproblem E M = .ok ev) (hE : EigContract E) :
    M * ev.2 = ev.2 * diagonal (fun k => ev.1 k ^ 2) ∧ (∀ k, 0 ≤ (ev.1 k).im) ∧
      ∀ j, ∃ i, ev.2 i j ≠ 0 := by
  unfold solveEigenproblem at h
  rw [bind_eq_ok] at h
  obtain ⟨⟨w, v⟩, h1, h2⟩ := h
  simp only [except_pure_eq_ok, Except.ok.injEq] at h2
  subst h2
  have hc := hE nh M w v h1
  refine ⟨?_, fun k => modeSqrt_im_nonneg _, fun j => (hc j).2⟩
  ext i j
  dsimp only
  rw [mul_apply, mul_diagonal, modeSqrt_sq, (hc j).1 i]
  ring

theorem MediumModes.of_uniform {L : LayerSpec} {a : LayerAttr c.nh} (hmu : L.mu = 1) {Q ev}
    (hb : buildPure E c L = .ok (.uniform Q)) (he : solveUniform L c.omega c.kx c.ky = .ok ev)
    (hQ : a.Qeps = some Q) (ha : a.eig = some ev) :
    MediumModes c L a (L.epsilon.value • 1) (L.epsilon.value • 1) := by
  obtain ⟨h1, h2, h3, h4⟩ := buildPure_uniform_ok hmu hb
  obtain ⟨-, e1, e2⟩ := solveUniform_ok he
  refine ⟨?_, ?_, ⟨ev, ha, ?_⟩, ?_⟩
  · rw [det_smul]; simp [h3]
  · rw [hQ, h4, smul_one_inv h3]
  · rw [smul_one_inv h3, uniform_wave _ _ _ h3, e1, Matrix.mul_one, Matrix.one_mul]
    congr 1
    funext k
    rw [e2, hmu]
    rcases k with i | i <;> simp [csqrt_sq]
  · intro dz x hx
    unfold normalE at hx
    simp only [h1, if_true, h3, if_false, Except.ok.injEq] at hx
    subst hx
    funext i
    simp only [Matrix.smul_mulVec, Matrix.one_mulVec, Pi.smul_apply, smul_eq_mul]
    field_simp

theorem MediumModes.of_patterned {L : LayerSpec} {a : LayerAttr c.nh} (hmu : L.mu = 1) (hE : EigContract E)
    {M p Q ev} (hb : buildPure E c L = .ok (.patterned M p Q)) (he : solveEigenproblem E M = .ok ev)
    (ha : a = ⟨some M, some p, some Q, some ev⟩) :
    MediumModes c L a p.Peps p.epsHat := by
  obtain ⟨h1, h2, h3, h4, h5, -⟩ := buildPure_patterned_ok hmu hb
  obtain ⟨e1, -, -⟩ := solveEigenproblem_ok he hE
  refine ⟨h2, ?_, ⟨ev, by rw [ha], ?_⟩, ?_⟩
  · rw [ha, h4, h3]
  · rw [← h3, ← h5, e1]
  · intro dz x hx
    unfold normalE at hx
    simp only [h1, Bool.false_eq_true, if_false, ha, attr, except_bind_ok] at hx
    rw [linSolveVec_ok] at hx
    rw [hx.2, Matrix.mulVec_mulVec, Matrix.mul_nonsing_inv _ (det_unit h2), Matrix.one_mulVec]

/-- A layer has one medium. -/
theorem Medium.unique {r : ℕ} {P e} (h : Medium E c mats r P e) : ∀ {P' e'}, Medium E c mats r P' e' →
    P = P' ∧ e = e' := by
  induction h with
  | uniform r hc hu ha =>
    intro P' e' h'
    cases h' with
    | uniform _ => exact ⟨rfl, rfl⟩
    | patterned _ M p Q _ hb => rw [buildPure_patterned hb] at hu; simp at hu
    | copy _ P e hc' => rw [hc] at hc'; simp at hc'
  | patterned r M p Q hc hb =>
    intro P' e' h'
    cases h' with
    | uniform _ _ hu => rw [buildPure_patterned hb] at hu; simp at hu
    | patterned _ M p Q _ hb' =>
      rw [hb] at hb'
      cases hb'
      exact ⟨rfl, rfl⟩
    | copy _ P e hc' => rw [hc] at hc'; simp at hc'
  | copy r P e hc ho ih =>
    intro P' e' h'
    cases h' with
    | uniform _ hc' => rw [hc] at hc'; simp at hc'
    | patterned _ M p Q hc' => rw [hc] at hc'; simp at hc'
    | copy _ _ _ _ ho' => exact ih ho'

/-- Every layer of a solved stack has the modes of its medium. -/
theorem solved_medium {stack : List ℕ} (hmu : ∀ r ∈ stack, (mats r).mu = 1) (hE : EigContract E)
    (hw : WellPlaced mats stack) (hf : ∀ r ∈ stack, LayerFix E c mats A r) :
    ∀ (k r : ℕ), stack[k]? = some r → ∃ P e, Medium E c mats r P e ∧ MediumModes c (mats r) (A r) P e := by
  intro k
  induction k using Nat.strong_induction_on with
  | _ k ih =>
    intro r hr
    have hrm : r ∈ stack := List.mem_of_getElem? hr
    cases (hf r hrm).form with
    | uniform Q ev hc hb he hQ ha =>
      obtain ⟨h1, h2, h3, h4⟩ := buildPure_uniform_ok (hmu r hrm) hb
      exact ⟨_, _, .uniform r hc h1 h2, .of_uniform (hmu r hrm) hb he hQ ha⟩
    | patterned M p Q ev hc hb he ha =>
      exact ⟨_, _, .patterned r M p Q hc hb, .of_patterned (hmu r hrm) hE hb he ha⟩
    | copyUniform M p Q ev hc hu hM hp hQ he ha =>
      exact absurd hu (by rw [(hw k r hr hc).2.1]; simp)
    | copyPatterned M p Q ev hc hu ho ha =>
      obtain ⟨⟨j, hj, hj'⟩, -, h3⟩ := hw k r hr hc
      obtain ⟨P, e, h4, h5⟩ := ih j hj _ hj'
      refine ⟨P, e, .copy r P e hc h4, ?_⟩
      have hao : A r = A (mats r).original := by rw [ha, ho]
      rw [hao]
      refine ⟨h5.det, h5.Q, h5.eig, ?_⟩
      intro dz x hx
      refine h5.normal dz x ?_
      have hu' : (mats (mats r).original).isUniform = false := by
        unfold LayerSpec.isUniform at hu ⊢
        rw [← h3]; exact hu
      unfold normalE at hx ⊢
      simpa only [hu, hu', Bool.false_eq_true, if_false] using hx

end Nannos
