import Verif.Proofs.Propagate
import Verif.Proofs.Planar
import Verif.Proofs.FieldEqs

/-! The results of a simulation in terms of the media of its layers (C89). -/

namespace Nannos

open Matrix Spec

variable {E : Ext} {c : Static} {mats : ℕ → LayerSpec} {A : ℕ → LayerAttr c.nh}

theorem ladder_of_solved (hom : c.omega ≠ 0) (hmu : ∀ r ∈ c.stack, (mats r).mu = 1) (hE : EigContract E)
    (hw : WellPlaced mats c.stack) (hf : ∀ r ∈ c.stack, LayerFix E c mats A r)
    {P : ℕ → Matrix (Idx c.nh) (Idx c.nh) ℂ} {e : ℕ → Matrix (Fin c.nh) (Fin c.nh) ℂ} {z : ℕ → ℝ}
    (hP : ∀ (k r : ℕ), c.stack[k]? = some r → Medium E c mats r (P k) (e k))
    (hz : ∀ (k r : ℕ), c.stack[k]? = some r → (mats r).thickness.getD 0 = z k) :
    Ladder (stackModes c mats A) (fun k => (c.omega : ℂ) ^ 2 • 1 - kEps c.kx c.ky (e k)⁻¹)
      (fun k => P k - ((c.omega : ℂ) ^ 2)⁻¹ • kMu c.kx c.ky) z := by
  intro k L hL
  unfold stackModes at hL
  rw [List.getElem?_map] at hL
  rcases hr : c.stack[k]? with _ | r
  · rw [hr] at hL; simp at hL
  rw [hr] at hL
  obtain rfl : modesD (mats r) (A r) = L := by simpa using hL
  obtain ⟨P', e', m1, m2⟩ := solved_medium (stack := c.stack) hmu hE hw hf k r hr
  obtain ⟨rfl, rfl⟩ := Medium.unique m1 (hP k r hr)
  obtain ⟨ev, v1, v2⟩ := m2.eig
  have hQ : (modesD (mats r) (A r)).Q = (c.omega : ℂ) ^ 2 • 1 - kEps c.kx c.ky (e k)⁻¹ := by
    unfold modesD
    rw [m2.Q]
    rfl
  refine ⟨hQ, hz k r hr, ?_⟩
  rw [hQ, ← waveMatrix_factor hom]
  unfold modesD
  rw [v1]
  exact v2

/-- The modes of a uniform layer. -/
noncomputable def outer (c : Static) (L : LayerSpec) : Modes (Idx c.nh) :=
  ⟨Sum.elim (fun i => csqrt (L.epsilon.value * (c.omega : ℂ) ^ 2 - c.kx i ^ 2 - c.ky i ^ 2))
    (fun i => csqrt (L.epsilon.value * (c.omega : ℂ) ^ 2 - c.kx i ^ 2 - c.ky i ^ 2)),
    1, (c.omega : ℂ) ^ 2 • 1 - kEps c.kx c.ky ((1 / L.epsilon.value) • 1), L.thickness⟩

theorem modesD_outer {r : ℕ} (hf : LayerFix E c mats A r) (hc : (mats r).iscopy = false)
    (hu : (mats r).isUniform = true) (hmu : (mats r).mu = 1) :
    modesD (mats r) (A r) = outer c (mats r) ∧ (mats r).epsilon.value ≠ 0 := by
  cases hf.form with
  | uniform Q ev hc' hb he hQ ha =>
    obtain ⟨-, -, h3, h4⟩ := buildPure_uniform_ok hmu hb
    obtain ⟨-, h5, h6⟩ := solveUniform_ok he
    refine ⟨?_, h3⟩
    unfold modesD outer
    rw [hQ, ha, h4]
    simp only [Option.getD_some]
    rw [h5, h6, hmu, mul_one]
  | patterned M p Q ev hc' hb =>
    rw [buildPure_patterned hb] at hu
    simp at hu
  | copyUniform M p Q ev hc' => rw [hc] at hc'; simp at hc'
  | copyPatterned M p Q ev hc' => rw [hc] at hc'; simp at hc'

theorem not_copy {k r : ℕ} (hw : WellPlaced mats c.stack) (hr : c.stack[k]? = some r) (hu : (mats r).isUniform = true) :
    (mats r).iscopy = false := by
  by_contra hcon
  obtain ⟨-, hu', -⟩ := hw _ r hr (by simpa using hcon)
  rw [hu] at hu'
  simp at hu'

/-- What determines the fields in the stack. -/
structure Formula (c : Static) (mats : ℕ → LayerSpec) (P : ℕ → Matrix (Idx c.nh) (Idx c.nh) ℂ)
    (e : ℕ → Matrix (Fin c.nh) (Fin c.nh) ℂ) (z : ℕ → ℝ) (r0 rN : ℕ) : Prop where
  head : c.stack[0]? = some r0
  last : c.stack[c.stack.length - 1]? = some rN
  q0 : ∀ k, (outer c (mats r0)).q k ≠ 0
  qN : ∀ k, (outer c (mats rN)).q k ≠ 0
  e0 : (mats r0).epsilon.value ≠ 0
  eN : (mats rN).epsilon.value ≠ 0
  det : (sysMat (through (fun k => (c.omega : ℂ) ^ 2 • 1 - kEps c.kx c.ky (e k)⁻¹)
    (fun k => P k - ((c.omega : ℂ) ^ 2)⁻¹ • kMu c.kx c.ky) z (c.stack.length - 1)) (outer c (mats r0))
      (outer c (mats rN))).det ≠ 0

/-- Outgoing amplitudes at the two ends. -/
noncomputable def outgoing (c : Static) (mats : ℕ → LayerSpec) (P : ℕ → Matrix (Idx c.nh) (Idx c.nh) ℂ)
    (e : ℕ → Matrix (Fin c.nh) (Fin c.nh) ℂ) (z : ℕ → ℝ) (r0 rN : ℕ) : Idx c.nh ⊕ Idx c.nh → ℂ :=
  let T := through (fun k => (c.omega : ℂ) ^ 2 • 1 - kEps c.kx c.ky (e k)⁻¹)
    (fun k => P k - ((c.omega : ℂ) ^ 2)⁻¹ • kMu c.kx c.ky) z (c.stack.length - 1)
  (sysMat T (outer c (mats r0)) (outer c (mats rN)))⁻¹ *ᵥ (-(T *ᵥ ((outer c (mats r0)).M *ᵥ Sum.elim c.a0 0)))

theorem formula_of_solution (hom : c.omega ≠ 0) (hmu : ∀ r ∈ c.stack, (mats r).mu = 1) (hE : EigContract E)
    (hw : WellPlaced mats c.stack) (hf : ∀ r ∈ c.stack, LayerFix E c mats A r)
    {P : ℕ → Matrix (Idx c.nh) (Idx c.nh) ℂ} {e : ℕ → Matrix (Fin c.nh) (Fin c.nh) ℂ} {z : ℕ → ℝ}
    (hP : ∀ (k r : ℕ), c.stack[k]? = some r → Medium E c mats r (P k) (e k))
    (hz : ∀ (k r : ℕ), c.stack[k]? = some r → (mats r).thickness.getD 0 = z k) {r0 rN : ℕ}
    (h0 : c.stack[0]? = some r0) (hN : c.stack[c.stack.length - 1]? = some rN) (hu0 : (mats r0).isUniform = true)
    (huN : (mats rN).isUniform = true) (hs : Steps (stackModes c mats A)) {amp : ℕ → (Idx c.nh → ℂ) × (Idx c.nh → ℂ)}
    (ha : StackSolution (stackModes c mats A) c.a0 amp)
    (hq : ∀ amp', StackSolution (stackModes c mats A) c.a0 amp' → ∀ j, j < c.stack.length → amp' j = amp j) :
    Formula c mats P e z r0 rN ∧
    (amp 0).2 = (fun i => outgoing c mats P e z r0 rN (.inl i)) ∧
    (amp (c.stack.length - 1)).1 = (fun i => outgoing c mats P e z r0 rN (.inr i)) ∧
    ∀ (k r : ℕ) (t : ℝ), c.stack[k]? = some r → fieldVec (modesD (mats r) (A r)) (amp k).1 (amp k).2 t =
      propag ((c.omega : ℂ) ^ 2 • 1 - kEps c.kx c.ky (e k)⁻¹) (P k - ((c.omega : ℂ) ^ 2)⁻¹ • kMu c.kx c.ky) t *ᵥ
        (through (fun k => (c.omega : ℂ) ^ 2 • 1 - kEps c.kx c.ky (e k)⁻¹)
          (fun k => P k - ((c.omega : ℂ) ^ 2)⁻¹ • kMu c.kx c.ky) z k *ᵥ
          fieldVec (outer c (mats r0)) c.a0 (fun i => outgoing c mats P e z r0 rN (.inl i)) 0) := by
  have hlen := stackModes_length c mats A
  have h2 := hs.1
  have hl := ladder_of_solved hom hmu hE hw hf hP hz
  have hget : ∀ {k r : ℕ}, c.stack[k]? = some r → (stackModes c mats A)[k]? = some (modesD (mats r) (A r)) := by
    intro k r hr
    unfold stackModes
    rw [List.getElem?_map, hr]
    rfl
  obtain ⟨o0, v0⟩ := modesD_outer (hf r0 (List.mem_of_getElem? h0)) (not_copy hw h0 hu0) hu0 (hmu _ (List.mem_of_getElem? h0))
  obtain ⟨oN, vN⟩ := modesD_outer (hf rN (List.mem_of_getElem? hN)) (not_copy hw hN huN) huN (hmu _ (List.mem_of_getElem? hN))
  have g0 := hget h0
  have gN := hget hN
  rw [o0] at g0
  rw [oN] at gN
  rw [← hlen] at gN
  have hdet := sys_det hl hs g0 gN (by
    intro amp' h'
    have h3 := StackSolution.add ha h' 1 1
    simp only [one_smul, add_zero] at h3
    have q0 := hq _ h3 0 (by omega)
    have qN := hq _ h3 (c.stack.length - 1) (by omega)
    rw [Prod.ext_iff] at q0 qN
    refine ⟨by simpa using q0.2, ?_⟩
    rw [hlen]
    simpa using qN.1)
  have hsol := sys_solution hl hs ha g0 gN
  rw [hlen] at hdet hsol
  have hw : Sum.elim (amp 0).2 (amp (c.stack.length - 1)).1 = outgoing c mats P e z r0 rN := by
    unfold outgoing
    dsimp only
    rw [← hsol, mulVec_mulVec, nonsing_inv_mul _ (det_unit hdet), one_mulVec]
  have hw1 : (amp 0).2 = fun i => outgoing c mats P e z r0 rN (.inl i) := by rw [← hw]; rfl
  have hw2 : (amp (c.stack.length - 1)).1 = fun i => outgoing c mats P e z r0 rN (.inr i) := by rw [← hw]; rfl
  refine ⟨⟨h0, hN, hs.q g0, hs.q gN, v0, vN, hdet⟩, hw1, hw2, fun k r t hr => ?_⟩
  rw [hl.at hs (hget hr), hl.fields hs ha.1 g0 k _ (hget hr), ha.2.1, hw1]

end Nannos
