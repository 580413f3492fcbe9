import Verif.Proofs.Magnetic
import Verif.Spec.Planar

/-! Stacks of homogeneous layers. -/

namespace Nannos

open Matrix Spec

section
variable {m : Type} [Fintype m] [DecidableEq m]

/-- `w` is a polarisation which the layer `L` treats as the film `F`. -/
structure Pure (L : Modes m) (F : Film) (w : m → ℂ) : Prop where
  phi : L.phi = 1
  amat : L.amat *ᵥ w = F.Z • w
  f : L.f *ᵥ w = Complex.exp (Complex.I * F.q * F.d) • w

/-- Waves in the films give waves in the stack. -/
theorem Pure.waves {layers : List (Modes m)} {films : List Film} {w : m → ℂ}
    (hl : films.length = layers.length)
    (h : ∀ (k : ℕ) L F, layers[k]? = some L → films[k]? = some F → Pure L F w) {a b : ℕ → ℂ} (hf : FilmWaves films a b) :
    StackSolution layers (a 0 • w) fun k => (a k • w, b k • w) := by
  refine ⟨fun k L L' _ _ hL hL' => ?_, rfl, by simp only; rw [← hl, hf.below]; simp⟩
  have hk := (List.getElem?_eq_some_iff.mp hL).1
  have hk' := (List.getElem?_eq_some_iff.mp hL').1
  obtain ⟨F, hF⟩ : ∃ F, films[k]? = some F := ⟨_, List.getElem?_eq_getElem (by omega)⟩
  obtain ⟨F', hF'⟩ : ∃ F, films[k + 1]? = some F := ⟨_, List.getElem?_eq_getElem (by omega)⟩
  have p := h k L F hL hF
  have p' := h _ L' F' hL' hF'
  refine ⟨?_, ?_⟩
  · rw [tanE_bottom, tanE_top]
    simp only [mulVec_smul, mulVec_sub, p.f, p'.f, p.amat, p'.amat, smul_smul, ← sub_smul]
    congr 1
    linear_combination hf.electric k F F' hF hF'
  · rw [tanH_bottom, tanH_top, p.phi, p'.phi, one_mulVec, one_mulVec]
    simp only [mulVec_smul, p.f, p'.f, smul_smul, ← add_smul]
    congr 1
    exact hf.magnetic k F F' hF hF'

/-- A solution for the film gives a solution for the stack. -/
theorem Pure.consistent {layers : List (Modes m)} {films : List Film} {w : m → ℂ}
    (hl : films.length = layers.length)
    (h : ∀ (k : ℕ) L F, layers[k]? = some L → films[k]? = some F → Pure L F w) {a b : ℕ → ℂ} (hf : FilmSolution films a b) :
    StackSolution layers w fun k => (a k • w, b k • w) := by
  have := Pure.waves hl h hf.toFilmWaves
  rwa [hf.above, one_smul] at this

/-- Linear combination of solutions. -/
theorem StackSolution.add {layers : List (Modes m)} {w w' : m → ℂ} {amp amp' : ℕ → (m → ℂ) × (m → ℂ)}
    (h : StackSolution layers w amp) (h' : StackSolution layers w' amp') (s s' : ℂ) :
    StackSolution layers (s • w + s' • w') fun k =>
      (s • (amp k).1 + s' • (amp' k).1, s • (amp k).2 + s' • (amp' k).2) := by
  obtain ⟨h1, h2, h3⟩ := h
  obtain ⟨h1', h2', h3'⟩ := h'
  refine ⟨fun k L L' i j hL hL' => ?_, by simp [h2, h2'], by simp [h3, h3']⟩
  obtain ⟨e, g⟩ := h1 k L L' i j hL hL'
  obtain ⟨e', g'⟩ := h1' k L L' i j hL hL'
  rw [tanE_bottom, tanE_top] at e e'
  rw [tanH_bottom, tanH_top] at g g'
  refine ⟨?_, ?_⟩
  · rw [tanE_bottom, tanE_top]
    have := congrArg₂ (fun x y => s • x + s' • y) e e'
    simp only [← mulVec_smul, ← mulVec_add] at this
    convert this using 2
    · rw [mulVec_add, mulVec_smul, mulVec_smul]; module
    · rw [mulVec_add, mulVec_smul, mulVec_smul]; module
  · rw [tanH_bottom, tanH_top]
    have := congrArg₂ (fun x y => s • x + s' • y) g g'
    simp only [← mulVec_smul, ← mulVec_add] at this
    convert this using 2
    · rw [mulVec_add, mulVec_smul, mulVec_smul]; module
    · rw [mulVec_add, mulVec_smul, mulVec_smul]; module

/-- `l` takes the amplitude of a polarisation which the layer `L` treats as the film `F`. -/
structure CoPure (L : Modes m) (F : Film) (l : m → ℂ) : Prop where
  phi : L.phi = 1
  amat : ∀ x, l ⬝ᵥ (L.amat *ᵥ x) = F.Z * (l ⬝ᵥ x)
  f : ∀ x, l ⬝ᵥ (L.f *ᵥ x) = Complex.exp (Complex.I * F.q * F.d) * (l ⬝ᵥ x)

theorem CoPure.waves {layers : List (Modes m)} {films : List Film} {l : m → ℂ}
    (hl : films.length = layers.length)
    (h : ∀ (k : ℕ) L F, layers[k]? = some L → films[k]? = some F → CoPure L F l) {w : m → ℂ}
    {amp : ℕ → (m → ℂ) × (m → ℂ)} (hs : StackSolution layers w amp) :
    FilmWaves films (fun k => l ⬝ᵥ (amp k).1) fun k => l ⬝ᵥ (amp k).2 := by
  obtain ⟨h1, h2, h3⟩ := hs
  have key : ∀ k F F', films[k]? = some F → films[k + 1]? = some F' →
      F.Z * ((l ⬝ᵥ (amp k).1) * Complex.exp (Complex.I * F.q * F.d) - l ⬝ᵥ (amp k).2) =
        F'.Z * (l ⬝ᵥ (amp (k + 1)).1 - (l ⬝ᵥ (amp (k + 1)).2) * Complex.exp (Complex.I * F'.q * F'.d)) ∧
      (l ⬝ᵥ (amp k).1) * Complex.exp (Complex.I * F.q * F.d) + l ⬝ᵥ (amp k).2 =
        l ⬝ᵥ (amp (k + 1)).1 + (l ⬝ᵥ (amp (k + 1)).2) * Complex.exp (Complex.I * F'.q * F'.d) := by
    intro k F F' hF hF'
    have hk := (List.getElem?_eq_some_iff.mp hF).1
    have hk' := (List.getElem?_eq_some_iff.mp hF').1
    obtain ⟨L, hL⟩ : ∃ F, layers[k]? = some F := ⟨_, List.getElem?_eq_getElem (by omega)⟩
    obtain ⟨L', hL'⟩ : ∃ F, layers[k + 1]? = some F := ⟨_, List.getElem?_eq_getElem (by omega)⟩
    have p := h k L F hL hF
    have p' := h _ L' F' hL' hF'
    obtain ⟨e, g⟩ := h1 k L L' (Nat.zero_le _) (by omega) hL hL'
    rw [tanE_bottom, tanE_top] at e
    rw [tanH_bottom, tanH_top, p.phi, p'.phi, one_mulVec, one_mulVec] at g
    have e := congrArg (l ⬝ᵥ ·) e
    have g := congrArg (l ⬝ᵥ ·) g
    simp only [p.amat, p'.amat, dotProduct_sub, dotProduct_add, p.f, p'.f] at e g
    exact ⟨by linear_combination e, by linear_combination g⟩
  refine ⟨fun k F F' a b => (key k F F' a b).1, fun k F F' a b => (key k F F' a b).2, ?_⟩
  simp only [hl, h3, dotProduct_zero]

theorem CoPure.solution {layers : List (Modes m)} {films : List Film} {l : m → ℂ}
    (hl : films.length = layers.length)
    (h : ∀ (k : ℕ) L F, layers[k]? = some L → films[k]? = some F → CoPure L F l) {w : m → ℂ}
    {amp : ℕ → (m → ℂ) × (m → ℂ)} (hs : StackSolution layers w amp) (hw : l ⬝ᵥ w = 1) :
    FilmSolution films (fun k => l ⬝ᵥ (amp k).1) fun k => l ⬝ᵥ (amp k).2 :=
  ⟨CoPure.waves hl h hs, by simp only [hs.2.1, hw]⟩

end

variable {E : Ext} {c : Static} {mats : ℕ → LayerSpec}

/-- A solved homogeneous layer. -/
structure PlanarModes (c : Static) (L : LayerSpec) (M : Modes (Idx c.nh)) : Prop where
  e0 : L.epsilon.value ≠ 0
  phi : M.phi = 1
  q : M.q = Sum.elim
    (fun i => csqrt (L.epsilon.value * L.mu * (c.omega : ℂ) ^ 2 - c.kx i ^ 2 - c.ky i ^ 2))
    (fun i => csqrt (L.epsilon.value * L.mu * (c.omega : ℂ) ^ 2 - c.kx i ^ 2 - c.ky i ^ 2))
  Q : M.Q = ((c.omega : ℂ) ^ 2 * L.mu) • 1 - kEps c.kx c.ky ((1 / L.epsilon.value) • 1)
  thick : M.thickness = L.thickness

theorem planarModes {A : ℕ → LayerAttr c.nh} {r : ℕ} (hf : LayerFix E c mats A r) (hh : Homogeneous (mats r))
    {M : Modes (Idx c.nh)} (hM : modesOf (mats r) (A r) = .ok M) : PlanarModes c (mats r) M := by
  obtain ⟨hc, hu, -⟩ := hh
  cases hf.form with
  | uniform Q ev _ hb he hQ ha =>
    obtain ⟨-, -, h3, h4⟩ := buildPure_uniform_parts hb
    obtain ⟨-, h5, h6⟩ := solveUniform_ok he
    unfold modesOf at hM
    rw [ha, hQ] at hM
    obtain rfl : (⟨ev.1, ev.2, Q, (mats r).thickness⟩ : Modes (Idx c.nh)) = M := by simpa [attr] using hM
    exact ⟨h3, h5, h6, h4, rfl⟩
  | patterned M p Q ev _ hb he ha =>
    have := (buildPure_patterned_parts hb).1
    rw [hu] at this
    simp at this
  | copyUniform M p Q ev hc' => rw [hc] at hc'; simp at hc'
  | copyPatterned M p Q ev hc' => rw [hc] at hc'; simp at hc'

namespace PlanarModes

variable {L : LayerSpec} {M : Modes (Idx c.nh)} (h : PlanarModes c L M)
include h

/-- The normal wave number of an order. -/
theorem q_inl (i : Fin c.nh) : M.q (.inl i) = csqrt (L.epsilon.value * L.mu * (c.omega : ℂ) ^ 2 - c.kx i ^ 2 - c.ky i ^ 2) := by
  rw [h.q]; rfl

theorem q_inr (i : Fin c.nh) : M.q (.inr i) = M.q (.inl i) := by
  rw [h.q]; rfl

theorem q_sq (i : Fin c.nh) : M.q (.inl i) ^ 2 = L.epsilon.value * L.mu * (c.omega : ℂ) ^ 2 - c.kx i ^ 2 - c.ky i ^ 2 := by
  rw [h.q_inl, csqrt_sq]

theorem amat_eq (x : Idx c.nh → ℂ) (i : Fin c.nh) :
    (M.amat *ᵥ x) (.inl i) = ((c.omega : ℂ) ^ 2 * L.mu * x (.inl i) -
      c.ky i * (c.ky i * x (.inl i) - c.kx i * x (.inr i)) / L.epsilon.value) / M.q (.inl i) ∧
    (M.amat *ᵥ x) (.inr i) = ((c.omega : ℂ) ^ 2 * L.mu * x (.inr i) +
      c.kx i * (c.ky i * x (.inl i) - c.kx i * x (.inr i)) / L.epsilon.value) / M.q (.inl i) := by
  have e1 : M.amat *ᵥ x = M.Q *ᵥ fun k => x k / M.q k := by
    unfold Modes.amat
    rw [← mulVec_mulVec]
    congr 1
    funext k
    rw [h.phi]
    simp [mulVec, dotProduct, one_apply, div_eq_inv_mul]
  have e2 : ∀ v : Fin c.nh → ℂ, (((1 / L.epsilon.value) • (1 : Matrix (Fin c.nh) (Fin c.nh) ℂ)) *ᵥ v) i =
      v i / L.epsilon.value := by
    intro v; simp [smul_mulVec, div_eq_inv_mul]
  rw [e1, h.Q, sub_mulVec, kEps_mulVec]
  simp only [Pi.sub_apply, Sum.elim_inl, Sum.elim_inr, smul_mulVec, one_mulVec, Pi.smul_apply, smul_eq_mul, e2, h.q_inr]
  constructor <;> ring

/-- `s` polarisation at an order. -/
theorem amat_s {u v k : ℂ} {i : Fin c.nh} (hx : c.kx i = k * u) (hy : c.ky i = k * v) (x : Idx c.nh → ℂ) :
    u * (M.amat *ᵥ x) (.inl i) + v * (M.amat *ᵥ x) (.inr i) =
      (c.omega : ℂ) ^ 2 * L.mu / M.q (.inl i) * (u * x (.inl i) + v * x (.inr i)) := by
  rw [(h.amat_eq x i).1, (h.amat_eq x i).2, hx, hy]
  ring

theorem amat_p {u v k : ℂ} {i : Fin c.nh} (hq : M.q (.inl i) ≠ 0) (hx : c.kx i = k * u) (hy : c.ky i = k * v)
    (x : Idx c.nh → ℂ) :
    v * (M.amat *ᵥ x) (.inl i) - u * (M.amat *ᵥ x) (.inr i) =
      M.q (.inl i) / L.epsilon.value * (v * x (.inl i) - u * x (.inr i)) := by
  have h2 := h.q_sq i
  have he := h.e0
  rw [(h.amat_eq x i).1, (h.amat_eq x i).2, hx, hy]
  rw [hx, hy] at h2
  generalize M.q (.inl i) = q at h2 hq ⊢
  generalize L.epsilon.value = e at h2 he ⊢
  field_simp
  linear_combination (-(v * x (.inl i) - u * x (.inr i))) * h2

theorem f_eq (x : Idx c.nh → ℂ) (i : Fin c.nh) :
    (M.f *ᵥ x) (.inl i) = Complex.exp (Complex.I * M.q (.inl i) * (M.z : ℂ)) * x (.inl i) ∧
    (M.f *ᵥ x) (.inr i) = Complex.exp (Complex.I * M.q (.inl i) * (M.z : ℂ)) * x (.inr i) := by
  rw [f_mulVec, f_mulVec, h.q_inr]
  exact ⟨rfl, rfl⟩

theorem z_eq : M.z = L.thickness.getD 0 := by unfold Modes.z; rw [h.thick]

end PlanarModes

/-- The vector with components `x`, `y` in the order `i0`. -/
def atOrder {nh : ℕ} (i0 : Fin nh) (x y : ℂ) : Idx nh → ℂ :=
  Sum.elim (fun i => if i = i0 then x else 0) (fun i => if i = i0 then y else 0)

theorem atOrder_dot {nh : ℕ} (i0 : Fin nh) (x y : ℂ) (v : Idx nh → ℂ) :
    atOrder i0 x y ⬝ᵥ v = x * v (.inl i0) + y * v (.inr i0) := by
  simp [atOrder, dotProduct, Fintype.sum_sum_type]

section
variable {L : LayerSpec} {M : Modes (Idx c.nh)} (h : PlanarModes c L M) {i0 : Fin c.nh} {u v : ℂ} {k : ℝ}
  (huv : u ^ 2 + v ^ 2 = 1) (hq : M.q (.inl i0) ≠ 0) (hx : c.kx i0 = k * u) (hy : c.ky i0 = k * v)
include h huv hq hx hy

omit hq in
theorem PlanarModes.normalK : M.q (.inl i0) = normalK c.omega k L := by
  rw [h.q_inl]
  unfold Spec.normalK
  congr 1
  rw [hx, hy]
  linear_combination (-(k : ℂ) ^ 2) * huv

theorem PlanarModes.pure_s : Pure M (filmS c.omega k L) (atOrder i0 u v) ∧
    CoPure M (filmS c.omega k L) (atOrder i0 u v) := by
  have hn := h.normalK huv hx hy
  have hz := h.z_eq
  refine ⟨⟨h.phi, ?_, ?_⟩, ⟨h.phi, fun x => ?_, fun x => ?_⟩⟩
  · funext a
    rcases a with i | i
    · rw [(h.amat_eq _ i).1]
      by_cases hi : i = i0
      · subst hi
        simp [atOrder, filmS, ← hn]
        rw [hx, hy]; ring
      · simp [atOrder, hi]
    · rw [(h.amat_eq _ i).2]
      by_cases hi : i = i0
      · subst hi
        simp [atOrder, filmS, ← hn]
        rw [hx, hy]; ring
      · simp [atOrder, hi]
  · funext a
    rcases a with i | i
    · rw [(h.f_eq _ i).1]
      by_cases hi : i = i0
      · subst hi
        simp [atOrder, filmS, ← hn, hz]
      · simp [atOrder, hi]
    · rw [(h.f_eq _ i).2]
      by_cases hi : i = i0
      · subst hi
        simp [atOrder, filmS, ← hn, hz]
      · simp [atOrder, hi]
  · rw [atOrder_dot, atOrder_dot, h.amat_s hx hy, hn]
    rfl
  · rw [atOrder_dot, atOrder_dot, (h.f_eq x i0).1, (h.f_eq x i0).2, hn, hz]
    simp only [filmS]
    ring

theorem PlanarModes.pure_p : Pure M (filmP c.omega k L) (atOrder i0 v (-u)) ∧
    CoPure M (filmP c.omega k L) (atOrder i0 v (-u)) := by
  have hn := h.normalK huv hx hy
  have hz := h.z_eq
  have h2 := h.q_sq i0
  have he := h.e0
  refine ⟨⟨h.phi, ?_, ?_⟩, ⟨h.phi, fun x => ?_, fun x => ?_⟩⟩
  · rw [hx, hy] at h2
    funext a
    rcases a with i | i
    · rw [(h.amat_eq _ i).1]
      by_cases hi : i = i0
      · subst hi
        simp [atOrder, filmP, ← hn]
        rw [hx, hy]
        generalize M.q (.inl i) = q at h2 hq ⊢
        field_simp
        linear_combination (-v) * h2
      · simp [atOrder, hi]
    · rw [(h.amat_eq _ i).2]
      by_cases hi : i = i0
      · subst hi
        simp [atOrder, filmP, ← hn]
        rw [hx, hy]
        generalize M.q (.inl i) = q at h2 hq ⊢
        field_simp
        linear_combination u * h2
      · simp [atOrder, hi]
  · funext a
    rcases a with i | i
    · rw [(h.f_eq _ i).1]
      by_cases hi : i = i0
      · subst hi
        simp [atOrder, filmP, ← hn, hz]
      · simp [atOrder, hi]
    · rw [(h.f_eq _ i).2]
      by_cases hi : i = i0
      · subst hi
        simp [atOrder, filmP, ← hn, hz]
      · simp [atOrder, hi]
  · rw [atOrder_dot, atOrder_dot, neg_mul, ← sub_eq_add_neg, h.amat_p hq hx hy, hn, neg_mul, ← sub_eq_add_neg]
    rfl
  · rw [atOrder_dot, atOrder_dot, (h.f_eq x i0).1, (h.f_eq x i0).2, hn, hz]
    simp only [filmP]
    ring

end

/-- What the returned efficiencies are made of. -/
structure EffSolution (c : Static) (mats : ℕ → LayerSpec) (A1 : ℕ → LayerAttr c.nh)
    (RT : (Fin c.nh → ℝ) × (Fin c.nh → ℝ)) (S : SMat (Idx c.nh)) (r0 rN : ℕ) (M0 MN : Modes (Idx c.nh))
    (f0 fN : (Fin c.nh → ℝ) × (Fin c.nh → ℝ)) : Prop where
  two : 1 < c.stack.length
  first : c.stack[0]? = some r0
  last : c.stack[c.stack.length - 1]? = some rN
  modes0 : modesOf (mats r0) (A1 r0) = .ok M0
  modesN : modesOf (mats rN) (A1 rN) = .ok MN
  list0 : (stackModes c mats A1)[0]? = some M0
  listN : (stackModes c mats A1)[c.stack.length - 1]? = some MN
  loop : loopS (stackModes c mats A1) (0 : ℕ) (((stackModes c mats A1).length - 1 : ℕ) : ℤ) = .ok S
  qs : ∀ (k : ℕ) L, (stackModes c mats A1)[k]? = some L → ∀ i, L.q i ≠ 0
  flux0 : poyntingFlux c M0 c.a0 (S.s21 *ᵥ c.a0) = .ok f0
  fluxN : poyntingFlux c MN (S.s11 *ᵥ c.a0) 0 = .ok fN
  inc : c.incidentFlux ≠ 0
  result : RT = (fun i => -f0.2 i / c.incidentFlux, fun i => fN.1 i / c.incidentFlux)

theorem effV_solution {A1 : ℕ → LayerAttr c.nh} {RT} (hfix : ∀ r ∈ c.stack, LayerFix E c mats A1 r)
    (hv : EffV c mats A1 (.ok ()) RT) : ∃ S r0 rN M0 MN f0 fN, EffSolution c mats A1 RT S r0 rN M0 MN f0 fN := by
  obtain ⟨-, SM, r0, rN, M0, MN, f0, fN, hSM, hr0, hrN, hM0, hMN, hf0, hfN, hne, rfl⟩ := hv
  have hlen := stackModes_length c mats A1
  have hpos' : 0 < c.stack.length := List.length_pos_iff.mpr (by
    rintro e; have := pyGet_mem hr0; rw [e] at this; simp at this)
  have hfull : 0 < c.stack.length - 1 ∧
      loopS (stackModes c mats A1) (0 : ℕ) (((stackModes c mats A1).length - 1 : ℕ) : ℤ) = .ok SM := by
    rw [valS_none, valS_solved hfix] at hSM
    have : ((c.stack.length : ℤ) - 1) = (((stackModes c mats A1).length - 1 : ℕ) : ℤ) := by
      rw [hlen]; omega
    rw [this] at hSM
    have := (freshS_ok (i := 0)).mp hSM
    rw [hlen] at this ⊢
    exact this
  obtain ⟨hlt, hloop⟩ := hfull
  have hqs := loopS_q hloop (by rw [hlen]; exact hlt)
  have hr0' : c.stack[0]? = some r0 := (pyGet_nat c.stack 0 r0).mp hr0
  have hrN' : c.stack[c.stack.length - 1]? = some rN := by
    unfold pyGet at hrN
    have e3 : pyIdx c.stack.length (-1) = some (c.stack.length - 1) := by
      unfold pyIdx
      rw [if_neg (by omega), if_pos (by omega)]
      congr 1
      omega
    rw [e3] at hrN
    dsimp only at hrN
    rw [List.getElem?_eq_getElem (by omega)] at hrN
    rw [List.getElem?_eq_getElem (by omega)]
    exact congrArg some (Except.ok.inj hrN)
  have hmd : ∀ (k r : ℕ) (M), c.stack[k]? = some r → modesOf (mats r) (A1 r) = .ok M →
      (stackModes c mats A1)[k]? = some M := by
    intro k r M hk hM
    have hs := hfix r (List.mem_of_getElem? hk)
    rw [hs.form.modesD] at hM
    unfold stackModes
    rw [List.getElem?_map, hk, ← Except.ok.inj hM]
    rfl
  refine ⟨SM, r0, rN, M0, MN, f0, fN, by omega, hr0', hrN', hM0, hMN, hmd 0 r0 M0 hr0' hM0, hmd _ rN MN hrN' hMN, hloop,
    fun k L hL => hqs k L ?_ hL, hf0, hfN, hne, rfl⟩
  have := (List.getElem?_eq_some_iff.mp hL).1
  omega

/-- Modes of the layers of a stack of homogeneous layers. -/
theorem planar_stack {A1 : ℕ → LayerAttr c.nh} (hfix : ∀ r ∈ c.stack, LayerFix E c mats A1 r)
    (hh : ∀ r ∈ c.stack, Homogeneous (mats r)) {k r : ℕ} {L : Modes (Idx c.nh)} (hr : c.stack[k]? = some r)
    (hL : (stackModes c mats A1)[k]? = some L) : PlanarModes c (mats r) L := by
  have hm := List.mem_of_getElem? hr
  unfold stackModes at hL
  rw [List.getElem?_map, hr] at hL
  have e := (hfix r hm).form.modesD
  rw [show modesD (mats r) (A1 r) = L from by simpa using hL] at e
  exact planarModes (hfix r hm) (hh r hm) e

section
variable {A1 : ℕ → LayerAttr c.nh} (hfix : ∀ r ∈ c.stack, LayerFix E c mats A1 r)
  (hh : ∀ r ∈ c.stack, Homogeneous (mats r)) {S : SMat (Idx c.nh)}
  (hloop : loopS (stackModes c mats A1) (0 : ℕ) (((stackModes c mats A1).length - 1 : ℕ) : ℤ) = .ok S)
  (hqs : ∀ (k : ℕ) L, (stackModes c mats A1)[k]? = some L → ∀ i, L.q i ≠ 0)
  {i0 : Fin c.nh} {u v : ℂ} {k : ℝ}
  (huv : u ^ 2 + v ^ 2 = 1) (hx : c.kx i0 = k * u) (hy : c.ky i0 = k * v)
include hfix hh hloop hqs huv hx hy

/-- A stack of homogeneous layers is two stacks of films. -/
theorem planar_films (hn : c.stack ≠ []) : ∃ as bs ap bp : ℕ → ℂ,
    FilmSolution (c.stack.map fun r => filmS c.omega k (mats r)) as bs ∧
    FilmSolution (c.stack.map fun r => filmP c.omega k (mats r)) ap bp ∧
    (∀ a b, FilmSolution (c.stack.map fun r => filmS c.omega k (mats r)) a b →
      ∀ j, j < c.stack.length → a j = as j ∧ b j = bs j) ∧
    (∀ a b, FilmSolution (c.stack.map fun r => filmP c.omega k (mats r)) a b →
      ∀ j, j < c.stack.length → a j = ap j ∧ b j = bp j) ∧
    ∀ x y : ℂ, StackSolution (stackModes c mats A1) (x • atOrder i0 u v + y • atOrder i0 v (-u)) (fun j =>
        (x • as j • atOrder i0 u v + y • ap j • atOrder i0 v (-u), x • bs j • atOrder i0 u v + y • bp j • atOrder i0 v (-u))) ∧
      S.s21 *ᵥ (x • atOrder i0 u v + y • atOrder i0 v (-u)) =
        x • bs 0 • atOrder i0 u v + y • bp 0 • atOrder i0 v (-u) ∧
      S.s11 *ᵥ (x • atOrder i0 u v + y • atOrder i0 v (-u)) =
        x • as (c.stack.length - 1) • atOrder i0 u v + y • ap (c.stack.length - 1) • atOrder i0 v (-u) := by
  have hlen := stackModes_length c mats A1
  have hpos : 0 < c.stack.length := List.length_pos_iff.mpr hn
  have lS : (c.stack.map fun r => filmS c.omega k (mats r)).length = (stackModes c mats A1).length := by
    rw [hlen, List.length_map]
  have lP : (c.stack.map fun r => filmP c.omega k (mats r)).length = (stackModes c mats A1).length := by
    rw [hlen, List.length_map]
  have key : ∀ (j : ℕ) L, (stackModes c mats A1)[j]? = some L → ∃ r, c.stack[j]? = some r ∧ PlanarModes c (mats r) L := by
    intro j L hL
    have := (List.getElem?_eq_some_iff.mp hL).1
    obtain ⟨r, hr⟩ : ∃ r, c.stack[j]? = some r := ⟨_, List.getElem?_eq_getElem (by omega)⟩
    exact ⟨r, hr, planar_stack hfix hh hr hL⟩
  have pS : ∀ (j : ℕ) L F, (stackModes c mats A1)[j]? = some L → (c.stack.map fun r => filmS c.omega k (mats r))[j]? = some F →
      Pure L F (atOrder i0 u v) ∧ CoPure L F (atOrder i0 u v) := by
    intro j L F hL hF
    obtain ⟨r, hr, hm⟩ := key j L hL
    rw [List.getElem?_map, hr] at hF
    obtain rfl : filmS c.omega k (mats r) = F := by simpa using hF
    exact hm.pure_s huv (hqs j L hL _) hx hy
  have pP : ∀ (j : ℕ) L F, (stackModes c mats A1)[j]? = some L → (c.stack.map fun r => filmP c.omega k (mats r))[j]? = some F →
      Pure L F (atOrder i0 v (-u)) ∧ CoPure L F (atOrder i0 v (-u)) := by
    intro j L F hL hF
    obtain ⟨r, hr, hm⟩ := key j L hL
    rw [List.getElem?_map, hr] at hF
    obtain rfl : filmP c.omega k (mats r) = F := by simpa using hF
    exact hm.pure_p huv (hqs j L hL _) hx hy
  have dS : atOrder i0 u v ⬝ᵥ atOrder i0 u v = 1 := by
    rw [atOrder_dot]; simp [atOrder]; linear_combination huv
  have dP : atOrder i0 v (-u) ⬝ᵥ atOrder i0 v (-u) = 1 := by
    rw [atOrder_dot]; simp [atOrder]; linear_combination huv
  obtain ⟨ampS, s1, -, -, s2⟩ := solution_ext (atOrder i0 u v) hloop
  obtain ⟨ampP, p1, -, -, p2⟩ := solution_ext (atOrder i0 v (-u)) hloop
  have fS := CoPure.solution lS (fun j L F a b => (pS j L F a b).2) s1 dS
  have fP := CoPure.solution lP (fun j L F a b => (pP j L F a b).2) p1 dP
  refine ⟨_, _, _, _, fS, fP, ?_, ?_, ?_⟩
  · intro a b hab j hj
    have := s2 _ (Pure.consistent lS (fun j L F a b => (pS j L F a b).1) hab) j (by omega)
    rw [← this]
    simp only [dotProduct_smul, dS, smul_eq_mul, mul_one, true_and]
  · intro a b hab j hj
    have := p2 _ (Pure.consistent lP (fun j L F a b => (pP j L F a b).1) hab) j (by omega)
    rw [← this]
    simp only [dotProduct_smul, dP, smul_eq_mul, mul_one, true_and]
  · intro x y
    have h1 := Nannos.StackSolution.add (Pure.consistent lS (fun j L F a b => (pS j L F a b).1) fS)
      (Pure.consistent lP (fun j L F a b => (pP j L F a b).1) fP) x y
    refine ⟨h1, ?_⟩
    obtain ⟨amp, -, b2, b3, b4⟩ := solution_ext (x • atOrder i0 u v + y • atOrder i0 v (-u)) hloop
    have e0 := b4 _ h1 0 (by omega)
    have eN := b4 _ h1 (c.stack.length - 1) (by omega)
    rw [← b2, ← e0]
    rw [hlen] at b3
    rw [← b3, ← eN]
    exact ⟨rfl, rfl⟩

end

/-- Power carried in the order `i0` by two polarisations. -/
theorem planar_flux {L : LayerSpec} {M : Modes (Idx c.nh)} (h : PlanarModes c L M) (hom : 0 < c.omega)
    (hq : ∀ i, M.q i ≠ 0) {i0 : Fin c.nh} {u v k : ℝ} (huv : u ^ 2 + v ^ 2 = 1) (hx : c.kx i0 = k * u)
    (hy : c.ky i0 = k * v) (x y : ℂ) (i : Fin c.nh) :
    orderFlux c M (x • atOrder i0 u v + y • atOrder i0 v (-u)) i = if i = i0 then
      ((filmS c.omega k L).Z.re * Complex.normSq x + (filmP c.omega k L).Z.re * Complex.normSq y) / c.omega else 0 := by
  have huv' : (u : ℂ) ^ 2 + (v : ℂ) ^ 2 = 1 := by exact_mod_cast huv
  have h1 := (h.pure_s huv' (hq _) hx hy).1.amat
  have h2 := (h.pure_p huv' (hq _) hx hy).1.amat
  have h0 : (c.omega : ℂ) ≠ 0 := by exact_mod_cast hom.ne'
  have hA : (M.Q * M.phi * diagonal fun k => 1 / ((c.omega : ℂ) * M.q k)) *ᵥ (x • atOrder i0 u v + y • atOrder i0 v (-u)) =
      (c.omega : ℂ)⁻¹ • ((x * (filmS c.omega k L).Z) • atOrder i0 u v + (y * (filmP c.omega k L).Z) • atOrder i0 v (-u)) := by
    have := congrArg (· *ᵥ (x • atOrder i0 (u : ℂ) v + y • atOrder i0 v (-u))) (amat_omega hom.ne' M)
    simp only [mulVec_add, mulVec_smul, h1, h2, smul_mulVec, smul_smul] at this
    rw [this, smul_add, smul_smul, smul_smul, mulVec_add, mulVec_smul, mulVec_smul,
      show ∀ w : ℂ, (c.omega : ℂ)⁻¹ * (w * c.omega) = w from fun w => by field_simp]
    rw [show ∀ w : ℂ, (c.omega : ℂ)⁻¹ * (w * c.omega) = w from fun w => by field_simp]
  unfold orderFlux
  rw [hA, h.phi, one_mulVec]
  split
  · rename_i hi
    subst hi
    generalize (filmS c.omega k L).Z = Zs
    generalize (filmP c.omega k L).Z = Zp
    simp [atOrder, Complex.normSq_apply, Complex.mul_re, Complex.add_re, Complex.add_im, Complex.mul_im]
    field_simp
    linear_combination (((x.re * x.re + x.im * x.im) * Zs.re + (y.re * y.re + y.im * y.im) * Zp.re)) * huv
  · rename_i hi
    simp [atOrder, hi]

/-- The amplitude of the incoming wave on the two polarisations. -/
theorem incoming_polarisations {wl ang} {exc : PlaneWave} (hp : planeWave wl ang = .ok exc) (hwl : 0 < wl)
    (hcos : 0 < Real.cos exc.theta) :
    exc.a0 0 = (-(Real.sin exc.psi * Real.cos exc.theta)) * Real.cos exc.phi + (-Real.cos exc.psi) * Real.sin exc.phi ∧
    exc.a0 1 = (-(Real.sin exc.psi * Real.cos exc.theta)) * Real.sin exc.phi - (-Real.cos exc.psi) * Real.cos exc.phi := by
  obtain ⟨-, -, ht, hf, -, hk, hkv, ha, -, -⟩ := planeWave_ok hp
  have hkpos : 0 < exc.wavenumber := by rw [hk]; positivity
  have e := ((C02_modal_amplitude_is_magnetic_amplitude wl hwl ang).2 exc hp hcos).1
  have t := Real.sin_sq_add_cos_sq exc.theta
  rw [e, hkv, ha]
  constructor
  · simp [cross_apply]
    field_simp
    linear_combination (-Real.cos exc.psi * Real.sin exc.phi) * t
  · simp [cross_apply]
    field_simp
    linear_combination (Real.cos exc.psi * Real.cos exc.phi) * t

/-- Efficiencies of a stack of homogeneous layers, after any history. -/
theorem planar_run {lats stack exc nh form} (hinit : simInit E lats mats stack exc nh form = .ok c)
    (hh : ∀ r ∈ stack, Homogeneous (mats r)) {wl ang} (hp : planeWave wl ang = .ok exc) (hwl : 0 < wl)
    (hcos : 0 < Real.cos exc.theta) (h00 : ((0 : ℤ), (0 : ℤ)) ∈ c.harmonics) {e m : ℝ} (hpos : 0 < e) (hmpos : 0 < m)
    {r0 rN : ℕ} (hr0 : stack.head? = some r0) (hrN : stack.getLast? = some rN)
    (he : (mats r0).epsilon.value = e) (hm : (mats r0).mu = m)
    (hist : List (Call c.nh)) (RT : (Fin c.nh → ℝ) × (Fin c.nh → ℝ))
    (h : (efficienciesByOrder E c (afterCalls E c hist (Dyn.fresh mats (unsolved c.nh)))).1 = .ok RT) :
    ∃ k : ℝ, k = c.omega * Real.sqrt (e * m) * Real.sin exc.theta ∧
    (∀ r ∈ stack, (mats r).epsilon.value ≠ 0 ∧ normalK c.omega k (mats r) ≠ 0) ∧
    normalK c.omega k (mats r0) = ((c.omega * Real.sqrt (e * m) * Real.cos exc.theta : ℝ) : ℂ) ∧ ∃ as bs ap bp : ℕ → ℂ,
    FilmSolution (stack.map fun r => filmS c.omega k (mats r)) as bs ∧
    FilmSolution (stack.map fun r => filmP c.omega k (mats r)) ap bp ∧
    (∀ a b, FilmSolution (stack.map fun r => filmS c.omega k (mats r)) a b →
      ∀ j, j < stack.length → a j = as j ∧ b j = bs j) ∧
    (∀ a b, FilmSolution (stack.map fun r => filmP c.omega k (mats r)) a b →
      ∀ j, j < stack.length → a j = ap j ∧ b j = bp j) ∧
    ∀ i : Fin c.nh,
      RT.1 i = (if (i : ℕ) = c.indexZerothOrder then
        m * (Real.sin exc.psi ^ 2 * Complex.normSq (bs 0) + Real.cos exc.psi ^ 2 * Complex.normSq (bp 0)) else 0) ∧
      RT.2 i = (if (i : ℕ) = c.indexZerothOrder then
        m * (Real.sin exc.psi ^ 2 * (Complex.normSq (as (stack.length - 1)) *
            ((filmS c.omega k (mats rN)).Z / (filmS c.omega k (mats r0)).Z).re) +
          Real.cos exc.psi ^ 2 * (Complex.normSq (ap (stack.length - 1)) *
            ((filmP c.omega k (mats rN)).Z / (filmP c.omega k (mats r0)).Z).re)) else 0) := by
  have hi := simInit_ok hinit
  have hst : c.stack = stack := hi.stack_eq
  subst hst
  have hnd : c.stack.Nodup := hi.nodup
  obtain ⟨A1, res, hs, -⟩ := solveSpec_of_noStale (E := E) (mats := mats) hnd
    (noStale_unsolved (c := c) mats c.stack)
  have h0 : Inv E c mats (unsolved c.nh) A1 res (Dyn.fresh mats (unsolved c.nh)) := inv_fresh _ (.inl rfl)
  have h1 := h0.calls hs hist
  generalize afterCalls E c hist (Dyn.fresh mats (unsolved c.nh)) = d at h h1
  have hv := yields_efficiencies hs d RT (efficienciesByOrder E c d).2 h1 (Prod.ext h rfl)
  have hfix := hs.fix hnd hv.1
  obtain rfl := hv.1
  obtain ⟨S, r0', rN', M0, MN, f0, fN, s⟩ := effV_solution hfix hv
  obtain rfl : r0' = r0 := by
    have := s.first
    rw [← List.head?_eq_getElem?, hr0] at this
    exact (Option.some.inj this).symm
  obtain rfl : rN' = rN := by
    have := s.last
    rw [← List.getLast?_eq_getElem?, hrN] at this
    exact (Option.some.inj this).symm
  have hem : 0 < e * m := mul_pos hpos hmpos
  have hem2 : ((mats r0').epsilon.value * (mats r0').mu) = ((e * m : ℝ) : ℂ) := by rw [he, hm]; push_cast; rfl
  have hg := good_sup_mu hi (by rw [(planeWave_ok hp).2.1]; exact hwl) hr0 (e := e * m) hem2 hem h00
  have hom := hg.omega
  obtain ⟨i0, hi0⟩ := hg.idx
  obtain ⟨ga, gb, gx, gy⟩ := hg.on i0 hi0
  obtain ⟨-, hwe, -, -, -, hk, hkv, -⟩ := planeWave_ok hp
  have hok : exc.wavenumber = c.omega := by rw [hk, hg.omk, hwe]
  obtain ⟨pa, pb⟩ := incoming_polarisations hp hwl hcos
  have huv : Real.cos exc.phi ^ 2 + Real.sin exc.phi ^ 2 = 1 := by
    have := Real.sin_sq_add_cos_sq exc.phi
    linarith
  have huv' : (Real.cos exc.phi : ℂ) ^ 2 + (Real.sin exc.phi : ℂ) ^ 2 = 1 := by exact_mod_cast huv
  set k : ℝ := c.omega * Real.sqrt (e * m) * Real.sin exc.theta with hkdef
  have hx : c.kx i0 = (k : ℂ) * (Real.cos exc.phi : ℂ) := by
    rw [gx, hkv, hok]; push_cast; simp [hkdef]; ring
  have hy : c.ky i0 = (k : ℂ) * (Real.sin exc.phi : ℂ) := by
    rw [gy, hkv, hok]; push_cast; simp [hkdef]; ring
  have ha0 : c.a0 = ((-(Real.sin exc.psi * Real.cos exc.theta) : ℝ) : ℂ) • atOrder i0 (Real.cos exc.phi : ℂ) (Real.sin exc.phi : ℂ) +
      ((-Real.cos exc.psi : ℝ) : ℂ) • atOrder i0 (Real.sin exc.phi : ℂ) (-(Real.cos exc.phi : ℂ)) := by
    funext a
    rcases a with i | i
    · by_cases hii : i = i0
      · rw [hii, ga, pa]; simp [atOrder]
      · rw [(hg.a0_off i (fun hc => hii (Fin.ext (hc.trans hi0.symm)))).1]; simp [atOrder, hii]
    · by_cases hii : i = i0
      · rw [hii, gb, pb]; simp [atOrder]
      · rw [(hg.a0_off i (fun hc => hii (Fin.ext (hc.trans hi0.symm)))).2]; simp [atOrder, hii]
  obtain ⟨as, bs, ap, bp, w1, w2, w3, w4, w5⟩ := planar_films hfix hh s.loop s.qs huv' hx hy
    (by intro hc; have := s.two; rw [hc] at this; simp at this)
  have hne : ∀ r ∈ c.stack, (mats r).epsilon.value ≠ 0 ∧ normalK c.omega k (mats r) ≠ 0 := by
    intro r hr
    obtain ⟨j, hj⟩ := List.mem_iff_getElem?.mp hr
    have hL : (stackModes c mats A1)[j]? = some (modesD (mats r) (A1 r)) := by
      unfold stackModes; rw [List.getElem?_map, hj]; rfl
    have pl := planar_stack hfix hh hj hL
    exact ⟨pl.e0, by rw [← pl.normalK huv' hx hy]; exact s.qs j _ hL _⟩
  obtain ⟨-, v1, v2⟩ := w5 ((-(Real.sin exc.psi * Real.cos exc.theta) : ℝ) : ℂ) ((-Real.cos exc.psi : ℝ) : ℂ)
  rw [← ha0] at v1 v2
  simp only [smul_smul] at v1 v2
  have pl0 := planar_stack hfix hh s.first s.list0
  have plN := planar_stack hfix hh s.last s.listN
  -- the first layer
  obtain ⟨-, N0, g, hN0, hu⟩ := magnetic_flux (hfix r0' (List.mem_of_getElem? s.first)) (hh r0' (List.mem_of_getElem? s.first)).1
    (hi.sup r0' hr0).1 hm hmpos.ne' s.modes0
  rw [he, ← Complex.ofReal_mul] at hu
  have hsq : ((Real.sqrt (e * m) ^ 2 : ℝ) : ℂ) = ((e * m : ℝ) : ℂ) := by rw [Real.sq_sqrt hem.le]
  have hf0 := s.flux0
  rw [hN0] at hf0
  have hq0 : ∀ k, (c.omega : ℂ) * N0.q k ≠ 0 := by
    intro k
    exact poyntingFlux_ok hf0 k
  obtain ⟨hev, -⟩ := incident_flux hg hp hcos hwl (gz := g) (by rw [hsq]; exact hu) hq0
  obtain ⟨f0', hf0', hff⟩ := poyntingFlux_scaleE hf0
  have hR : ∀ i, -f0.2 i = orderFlux c M0 (S.s21 *ᵥ c.a0) i := by
    intro i
    rw [hff, hN0, orderFlux_scaleE, ← flux_backward hu hg.kxr hg.kyr hf0' hev i]; ring
  have hT := flux_forward s.fluxN
  have hn : 0 < Real.sqrt (e * m) := Real.sqrt_pos.mpr hem
  have hn2 : Real.sqrt (e * m) ^ 2 = e * m := Real.sq_sqrt hem.le
  have hq00 : normalK c.omega k (mats r0') = ((c.omega * Real.sqrt (e * m) * Real.cos exc.theta : ℝ) : ℂ) := by
    unfold normalK
    rw [hem2]
    have : ((e * m : ℝ) : ℂ) * (c.omega : ℂ) ^ 2 - (k : ℂ) ^ 2 =
        (((c.omega * Real.sqrt (e * m) * Real.cos exc.theta) ^ 2 : ℝ) : ℂ) := by
      have t := Real.sin_sq_add_cos_sq exc.theta
      rw [hkdef]
      norm_cast
      linear_combination (-c.omega ^ 2) * hn2 - (c.omega ^ 2 * Real.sqrt (e * m) ^ 2) * t
    rw [this, csqrt_ofReal (by positivity), Real.sqrt_sq (by positivity)]
  refine ⟨k, rfl, hne, hq00, as, bs, ap, bp, w1, w2, w3, w4, ?_⟩
  have hZs : (filmS c.omega k (mats r0')).Z = ((c.omega * m / (Real.sqrt (e * m) * Real.cos exc.theta) : ℝ) : ℂ) := by
    simp only [filmS]
    rw [hq00, hm]
    norm_cast
    field_simp
  have hZp : (filmP c.omega k (mats r0')).Z = ((c.omega * Real.sqrt (e * m) * Real.cos exc.theta / e : ℝ) : ℂ) := by
    simp only [filmP]
    rw [hq00, he]
    norm_cast
  intro i
  rw [s.result]
  dsimp only
  have hii : (i : ℕ) = c.indexZerothOrder ↔ i = i0 := ⟨fun hc => Fin.ext (hc.trans hi0.symm), fun hc => hc ▸ hi0⟩
  rw [hR, hT, v1, v2, planar_flux pl0 hom (s.qs 0 M0 s.list0) huv hx hy, planar_flux plN hom (s.qs _ MN s.listN) huv hx hy,
    hg.flux]
  simp only [hii]
  by_cases h2 : i = i0
  · simp only [h2, if_true]
    rw [hZs, hZp, Complex.div_ofReal_re, Complex.div_ofReal_re]
    simp only [Complex.ofReal_re, Complex.normSq_mul, Complex.normSq_ofReal]
    generalize Complex.normSq (as _) = x1
    generalize Complex.normSq (ap _) = x2
    generalize Complex.normSq (bs _) = x3
    generalize Complex.normSq (bp _) = x4
    have hm2 : m = Real.sqrt (e * m) ^ 2 / e := by rw [hn2]; field_simp
    generalize Real.sqrt (e * m) = n at *
    subst hm2
    constructor
    · field_simp
    · field_simp
  · simp only [h2, if_false, zero_div, and_self]

end Nannos
