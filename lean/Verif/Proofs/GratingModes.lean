import Verif.Proofs.GratingMatrix
import Verif.Proofs.SolveTotal
import Verif.Proofs.GuidedRun
import Verif.Props.Stress
import Verif.Props.Lattice

/-! The modes of the layers of a mono-periodic grating (C100, C101). -/

namespace Nannos

open Matrix Spec Polynomial

variable {E : Ext} {c : Static} {mats : ℕ → LayerSpec}

/-- The permittivity operators of an isotropic layer of a mono-periodic lattice. -/
def GratingOps (H : List (ℤ × ℤ)) (form : String) (L : LayerSpec) (e n : Matrix (Fin H.length) (Fin H.length) ℂ) : Prop :=
  if L.isUniform then e = L.epsilon.value • 1 ∧ n = e
  else ∃ g, L.epsilon.toGrid = .ok g ∧ toeplitz H.get g.g = .ok e ∧
    if form = "original" then n = e else ∃ nu N, recipGrid g = .ok nu ∧ toeplitz H.get nu.g = .ok N ∧ N.det ≠ 0 ∧ n = N⁻¹

theorem GratingOps.unique {H form L e n e' n'} (h : GratingOps H form L e n) (h' : GratingOps H form L e' n') :
    e = e' ∧ n = n' := by
  unfold GratingOps at h h'
  split at h
  · rename_i hu
    rw [if_pos hu] at h'
    exact ⟨h.1.trans h'.1.symm, by rw [h.2, h'.2, h.1, h'.1]⟩
  · rename_i hu
    rw [if_neg hu] at h'
    obtain ⟨g, a1, a2, a3⟩ := h
    obtain ⟨g', b1, b2, b3⟩ := h'
    obtain rfl : g = g' := by rw [a1] at b1; exact Except.ok.inj b1
    obtain rfl : e = e' := by rw [a2] at b2; exact Except.ok.inj b2
    refine ⟨rfl, ?_⟩
    split at a3
    · rename_i hf
      rw [if_pos hf] at b3
      rw [a3, b3]
    · rename_i hf
      rw [if_neg hf] at b3
      obtain ⟨nu, N, c1, c2, -, c3⟩ := a3
      obtain ⟨nu', N', d1, d2, -, d3⟩ := b3
      obtain rfl : nu = nu' := by rw [c1] at d1; exact Except.ok.inj d1
      obtain rfl : N = N' := by rw [c2] at d2; exact Except.ok.inj d2
      rw [c3, d3]

theorem fromBlocks_smul_one {nh : ℕ} (a : ℂ) :
    a • (1 : Matrix (Idx nh) (Idx nh) ℂ) = fromBlocks (a • 1) 0 0 (a • 1) := by
  rw [← fromBlocks_one, fromBlocks_smul, smul_zero]

/-- The medium of an isotropic layer of a mono-periodic lattice. -/
theorem medium_grating (h1 : c.lattice.is1D = true) (hf : c.formulation = "original" ∨ c.formulation = "tangent")
    {stack : List ℕ} (hw : WellPlaced mats stack) {r P e} (hm : Medium E c mats r P e) :
    r ∈ stack → (mats r).isAnisotropic = false → ∃ n, P = fromBlocks e 0 0 n ∧ GratingOps c.harmonics c.formulation (mats r) e n := by
  induction hm with
  | uniform r hc hu ha =>
    intro _ _
    refine ⟨_, fromBlocks_smul_one _, ?_⟩
    unfold GratingOps
    rw [if_pos hu]
    exact ⟨rfl, rfl⟩
  | patterned r M p Q hc hb =>
    intro hr ha
    have hu := buildPure_patterned hb
    obtain ⟨-, -, -, -, -, -, -, -, zz, para, eph, Ht, n, g1, g2, g3, g4, -, g5⟩ := buildPure_patterned_parts hb
    rw [ha] at g1
    simp only [Bool.false_eq_true, if_false] at g1
    unfold paraOf at g3
    rw [ha] at g3
    simp only [Bool.false_eq_true, if_false, except_pure_eq_ok, Except.ok.injEq] at g3
    subst g3
    unfold epsParaHatOf at g4
    simp only [except_pure_eq_ok, Except.ok.injEq] at g4
    unfold pepsOf at g5
    dsimp only at g5
    unfold GratingOps
    simp only [hu, Bool.false_eq_true, if_false]
    by_cases hor : c.formulation = "original"
    · rw [if_pos hor] at g5
      simp only [except_pure_eq_ok, Except.ok.injEq] at g5
      refine ⟨p.epsHat, by rw [← g5, ← g4]; rfl, zz, g1, g2, ?_⟩
      rw [if_pos hor]
    · have htan := hf.resolve_left hor
      rw [if_neg hor, if_pos htan, if_pos h1] at g5
      rw [bind_eq_ok] at g5
      obtain ⟨n', hn', g5⟩ := g5
      simp only [except_pure_eq_ok, Except.ok.injEq] at g5
      refine ⟨n', g5.symm, zz, g1, g2, ?_⟩
      rw [if_neg hor]
      unfold nuHatInvIso at hn'
      rw [bind_eq_ok] at hn'
      obtain ⟨nu, k1, hn'⟩ := hn'
      rw [bind_eq_ok] at hn'
      obtain ⟨N, k2, hn'⟩ := hn'
      rw [linInv_ok] at hn'
      exact ⟨nu, N, k1, k2, hn'.1, hn'.2⟩
  | copy r P e hc ho ih =>
    intro hr ha
    obtain ⟨k, hk⟩ := List.getElem?_of_mem hr
    obtain ⟨⟨j, -, hj⟩, -, h3⟩ := hw k r hk hc
    obtain ⟨n, a1, a2⟩ := ih (List.mem_of_getElem? hj) (by unfold LayerSpec.isAnisotropic at ha ⊢; rw [← h3]; exact ha)
    refine ⟨n, a1, ?_⟩
    unfold GratingOps LayerSpec.isUniform at a2 ⊢
    rw [h3]; exact a2

/-- Hermitian and positive definite. -/
def PosHerm {m : Type} [Fintype m] (A : Matrix m m ℂ) : Prop :=
  A.IsHermitian ∧ ∀ v, v ≠ 0 → 0 < (star v ⬝ᵥ A *ᵥ v).re

theorem posHerm_smul_one {m : Type} [Fintype m] [DecidableEq m] {e : ℂ} (h0 : e.im = 0) (h1 : 0 < e.re) :
    PosHerm (e • (1 : Matrix m m ℂ)) := by
  have he : star e = e := Complex.ext (by simp) (by simp [h0])
  refine ⟨?_, fun v hv => ?_⟩
  · unfold IsHermitian
    rw [conjTranspose_smul, conjTranspose_one, he]
  · have := absorbs_smul_one (m := m) (e := Complex.I * e) (by simpa using h1) v hv
    rw [smul_mulVec, one_mulVec, dotProduct_smul, smul_eq_mul] at this ⊢
    rw [mul_assoc] at this
    simpa using this

theorem posHerm_inv {m : Type} [Fintype m] [DecidableEq m] {A : Matrix m m ℂ} (h : PosHerm A) (hA : A.det ≠ 0) :
    PosHerm A⁻¹ := by
  refine ⟨h.1.inv, fun v hv => ?_⟩
  have hv' : A *ᵥ (A⁻¹ *ᵥ v) = v := by rw [mulVec_mulVec, mul_nonsing_inv _ (det_unit hA), one_mulVec]
  have hne : A⁻¹ *ᵥ v ≠ 0 := by
    intro h0
    rw [h0, mulVec_zero] at hv'
    exact hv hv'.symm
  have := h.2 _ hne
  rw [hv'] at this
  have e : star v ⬝ᵥ A⁻¹ *ᵥ v = star (star (A⁻¹ *ᵥ v) ⬝ᵥ v) := by
    rw [star_dotProduct]
  rw [e]
  simpa using this

theorem posHerm_toep {nh Nx Ny : ℕ} {H : Fin nh → ℤ × ℤ} (hH : Function.Injective H) {u : Grid Nx Ny}
    {A : Matrix (Fin nh) (Fin nh) ℂ} (hA : toeplitz H u = .ok A) (h0 : ∀ x y, (u x y).im = 0) (h1 : ∀ x y, 0 < (u x y).re) :
    PosHerm A := by
  refine ⟨herm_of_form (form_toep lossCone_zero hA fun x y => h0 x y), fun v hv => ?_⟩
  obtain ⟨i0, -⟩ := Function.ne_iff.mp hv
  obtain ⟨p1, p2⟩ := toep_pos hA i0
  have : NeZero Nx := ⟨p1⟩
  have : NeZero Ny := ⟨p2⟩
  obtain ⟨B, hB⟩ : ∃ B, toeplitz H (fun x y => Complex.I * u x y) = .ok B := toeplitz_exists _ (toeplitz_ok hA).1
  have h2 := absorbs_toep hH hB (fun x y => by simpa using h1 x y) v hv
  have h3 : star v ⬝ᵥ B *ᵥ v = Complex.I * (star v ⬝ᵥ A *ᵥ v) := by
    rw [toep_dot hB, toep_dot hA]
    simp only [Finset.mul_sum]
    refine Finset.sum_congr rfl fun x _ => Finset.sum_congr rfl fun y _ => ?_
    ring
  rw [h3] at h2
  simpa using h2

theorem dielectric_value {L : LayerSpec} (h : Dielectric L) (hu : L.isUniform = true) :
    L.epsilon.value.im = 0 ∧ 0 < L.epsilon.value.re := by
  obtain ⟨ha, h⟩ := h
  unfold LayerSpec.isUniform Nannos.isUniform at hu
  unfold LayerSpec.isAnisotropic at ha
  rw [if_neg (by simp [ha])] at hu
  unfold NdArr.value
  split at hu
  · rename_i hl
    obtain ⟨s, hs⟩ := List.length_eq_one_iff.mp hl
    rw [hs] at hu
    simp at hu
    subst hu
    have := h [0] (by rw [hs]; exact .cons (by norm_num) .nil)
    rw [hs]
    exact this
  · have hs : L.epsilon.shape = [] := by simpa using hu
    rw [hs]
    exact h [] (by rw [hs]; exact .nil)

theorem GratingOps.posHerm {H : List (ℤ × ℤ)} (hH : Function.Injective H.get) {form L e n} (h : GratingOps H form L e n)
    (hd : Dielectric L) : PosHerm e ∧ PosHerm n := by
  unfold GratingOps at h
  split at h
  · rename_i hu
    obtain ⟨h1, h2⟩ := dielectric_value hd hu
    rw [h.2, h.1]
    exact ⟨posHerm_smul_one h1 h2, posHerm_smul_one h1 h2⟩
  · obtain ⟨g, a1, a2, a3⟩ := h
    obtain ⟨k1, k2⟩ := toGrid_ok a1
    have hv : ∀ x y, (g.g x y).im = 0 ∧ 0 < (g.g x y).re := by
      intro x y
      rw [k2]
      exact hd.2 _ (by rw [k1]; exact .cons x.isLt (.cons y.isLt .nil))
    have he : PosHerm e := posHerm_toep hH a2 (fun x y => (hv x y).1) fun x y => (hv x y).2
    refine ⟨he, ?_⟩
    split at a3
    · rw [a3]; exact he
    · obtain ⟨nu, N, c1, c2, c3, c4⟩ := a3
      rw [c4]
      refine posHerm_inv ?_ c3
      unfold recipGrid at c1
      split at c1
      · simp at c1
      simp only [Except.ok.injEq] at c1
      subst c1
      have hr : ∀ x y, 1 / g.g x y = (((g.g x y).re⁻¹ : ℝ) : ℂ) := by
        intro x y
        have : g.g x y = (((g.g x y).re : ℝ) : ℂ) := Complex.ext rfl (by simp [(hv x y).1])
        rw [this]
        simp
      refine posHerm_toep hH c2 (fun x y => ?_) fun x y => ?_
      · dsimp only; rw [hr]; exact Complex.ofReal_im _
      · dsimp only; rw [hr]; exact inv_pos.mpr (hv x y).2

/-- The operators of a lossless grating layer. -/
theorem te_realDiag {nh : ℕ} (omega : ℝ) {kx : Fin nh → ℂ} (hkx : ∀ i, star (kx i) = kx i) {A n : Matrix (Fin nh) (Fin nh) ℂ}
    (hA : PosHerm A) (hn : PosHerm n) : RealDiag (teOp omega kx A) ∧ RealDiag (n * tmCore omega kx A) := by
  have hk : (diagonal kx)ᴴ = diagonal kx := by
    rw [diagonal_conjTranspose]; congr 1; funext i; exact hkx i
  have ho : star ((omega : ℂ) ^ 2) = (omega : ℂ) ^ 2 := by simp
  refine ⟨realDiag_herm ?_, realDiag_pos_mul hn.1 hn.2 ?_⟩
  · unfold teOp IsHermitian
    rw [conjTranspose_sub, conjTranspose_smul, conjTranspose_mul, hk, hA.1.eq, ho]
  · unfold tmCore IsHermitian
    rw [conjTranspose_sub, conjTranspose_smul, conjTranspose_mul, conjTranspose_mul, hk, hA.1.inv.eq, ho, conjTranspose_one,
      Matrix.mul_assoc]

/-- All the eigenvalues of a solved layer. -/
theorem solved_spectrum {A : ℕ → LayerAttr c.nh} {stack : List ℕ} (hmu : ∀ r ∈ stack, (mats r).mu = 1)
    (hS : EigSpectrum E) (hw : WellPlaced mats stack) (hf : ∀ r ∈ stack, LayerFix E c mats A r) :
    ∀ (k r : ℕ), stack[k]? = some r → ∃ P e ev, Medium E c mats r P e ∧ (A r).eig = some ev ∧ e.det ≠ 0 ∧
      (waveMatrix c.omega c.kx c.ky P e⁻¹).charpoly = ∏ p, (X - C (ev.1 p ^ 2)) ∧
      (EigBasis E → ((mats r).isUniform = true ∨ Diagonalisable (waveMatrix c.omega c.kx c.ky P e⁻¹)) → ev.2.det ≠ 0) ∧
      ∀ p, (ev.1 p ^ 2).im = 0 → ((ev.1 p).im = 0 ∧ 0 ≤ (ev.1 p).re) ∨ ((ev.1 p).re = 0 ∧ 0 < (ev.1 p).im) := by
  intro k
  have hsq : ∀ w : ℂ, w.im = 0 → ((csqrt w).im = 0 ∧ 0 ≤ (csqrt w).re) ∨ ((csqrt w).re = 0 ∧ 0 < (csqrt w).im) := by
    intro w hw
    have hw' : w = ((w.re : ℝ) : ℂ) := Complex.ext rfl (by simp [hw])
    rw [hw']
    rcases csqrt_real_cases w.re with ⟨h1, h2⟩ | h | ⟨h1, h2⟩
    · rw [h2]
      exact .inl ⟨Complex.ofReal_im _, by rw [Complex.ofReal_re]; positivity⟩
    · rw [h]
      have : csqrt ((0 : ℝ) : ℂ) = 0 := by
        have := csqrt_sq ((0 : ℝ) : ℂ)
        simpa using this
      rw [this]
      simp
    · rw [h2]
      have := Real.sqrt_pos.mpr (neg_pos.mpr h1)
      right
      simpa using this
  induction k using Nat.strong_induction_on with
  | _ k ih =>
    intro r hr
    have hrm : r ∈ stack := List.mem_of_getElem? hr
    cases (hf r hrm).form with
    | uniform Q ev hc hb he hQ ha =>
      obtain ⟨h1, h2, h3, h4⟩ := buildPure_uniform_ok (hmu r hrm) hb
      have hm := MediumModes.of_uniform (hmu r hrm) hb he hQ ha
      obtain ⟨-, e1, e2⟩ := solveUniform_ok he
      obtain ⟨ev', v1, v2⟩ := hm.eig
      obtain rfl : ev = ev' := by rw [ha] at v1; exact Option.some.inj v1
      have hdet : ev.2.det ≠ 0 := by rw [e1, det_one]; exact one_ne_zero
      refine ⟨_, _, ev, .uniform r hc h1 h2, ha, hm.det, ?_, fun _ _ => hdet, ?_⟩
      · rw [charpoly_conj hdet v2, charpoly_diag]
      · intro p hp
        rw [e2] at hp ⊢
        rcases p with i | i
        · rw [Sum.elim_inl] at hp ⊢
          rw [csqrt_sq] at hp
          exact hsq _ hp
        · rw [Sum.elim_inr] at hp ⊢
          rw [csqrt_sq] at hp
          exact hsq _ hp
    | patterned M p Q ev hc hb he ha =>
      obtain ⟨h1, h2, h3, h4, h5, -⟩ := buildPure_patterned_ok (hmu r hrm) hb
      refine ⟨_, _, ev, .patterned r M p Q hc hb, by rw [ha], h2, ?_, ?_, ?_⟩
      · rw [← h3, ← h5]
        unfold solveEigenproblem at he
        rw [bind_eq_ok] at he
        obtain ⟨⟨w, v⟩, g1, g2⟩ := he
        simp only [except_pure_eq_ok, Except.ok.injEq] at g2
        subst g2
        simp only [modeSqrt_sq]
        exact hS _ _ _ _ g1
      · intro hB hd
        rw [← h3, ← h5] at hd
        have hd := hd.resolve_left (by rw [h1]; simp)
        unfold solveEigenproblem at he
        rw [bind_eq_ok] at he
        obtain ⟨⟨w, v⟩, g1, g2⟩ := he
        simp only [except_pure_eq_ok, Except.ok.injEq] at g2
        subst g2
        exact hB _ _ _ _ g1 hd
      · intro j hj
        unfold solveEigenproblem at he
        rw [bind_eq_ok] at he
        obtain ⟨⟨w, v⟩, g1, g2⟩ := he
        simp only [except_pure_eq_ok, Except.ok.injEq] at g2
        subst g2
        dsimp only at hj ⊢
        rw [modeSqrt_sq] at hj
        have := hsq _ hj
        unfold modeSqrt
        rw [if_neg]
        · exact this
        · rcases this with h | h
          · rw [h.1]; exact lt_irrefl _
          · exact not_lt.mpr h.2.le
    | copyUniform M p Q ev hc hu hM hp hQ he ha =>
      exact absurd hu (by rw [(hw k r hr hc).2.1]; simp)
    | copyPatterned M p Q ev hc hu ho ha =>
      obtain ⟨⟨j, hj, hj'⟩, -, h3⟩ := hw k r hr hc
      obtain ⟨P, e, ev', h4, h5, h6, h7, h8, h9⟩ := ih j hj _ hj'
      have hao : A r = A (mats r).original := by rw [ha, ho]
      refine ⟨P, e, ev', .copy r P e hc h4, by rw [hao]; exact h5, h6, h7, fun hB hd => h8 hB ?_, h9⟩
      rcases hd with hd | hd
      · rw [hu] at hd; simp at hd
      · exact .inr hd

/-- The wave vectors of the orders of a mono-periodic lattice. -/
theorem mono_orders {lats stack exc nh form} (hi : InitSpec E lats mats stack exc nh form c) (hl : MonoPeriodic c.lattice) :
    c.lattice.is1D = true ∧ c.lattice.discretization.2 = 1 ∧ (∀ g ∈ c.harmonics, g.2 = 0) ∧ (∀ i, c.ky i = c.k0para.2) := by
  obtain ⟨a, d, t, hl⟩ := hl
  have hl' : ∃ D, c.lattice = ⟨![![a, 0], ![0, 1]], true, .oneD, (D, 1), none⟩ := by
    unfold mkLattice at hl
    dsimp only at hl
    split at hl
    · simp at hl
    · simp only [Except.ok.injEq] at hl
      exact ⟨_, hl.symm⟩
  obtain ⟨D, hl'⟩ := hl'
  have hz : ∀ g ∈ c.harmonics, g.2 = 0 := by
    obtain ⟨n, hh⟩ := hi.harm
    rw [hl'] at hh
    unfold Lattice.getHarmonics Lattice.getHarmonics' at hh
    simp only [except_bind_ok, if_true, except_pure_eq_ok, Except.ok.injEq, Prod.mk.injEq] at hh
    intro g hg
    rw [← hh.1] at hg
    unfold gather at hg
    rw [List.mem_filterMap] at hg
    obtain ⟨k, -, hk⟩ := hg
    exact ((oneDim_mem _ _).mp (List.mem_of_getElem? hk)).1
  refine ⟨by rw [hl'], by rw [hl'], hz, fun i => ?_⟩
  obtain ⟨R, hR, -, hky⟩ := hi.recip
  rw [hky]
  unfold kyOf
  have h10 : R 1 0 = 0 := by
    rw [hl'] at hR
    unfold Lattice.reciprocal at hR
    rw [bind_eq_ok] at hR
    obtain ⟨inv, hinv, hR⟩ := hR
    simp only [except_pure_eq_ok, Except.ok.injEq] at hR
    rw [← hR]
    unfold inv2 at hinv
    split at hinv
    · simp at hinv
    · simp only [Except.ok.injEq] at hinv
      rw [← hinv, Matrix.inv_def, Matrix.adjugate_fin_two]
      simp [Lattice.matrix]
  rw [hz _ (List.get_mem _ _), h10]
  simp

/-- What is known of the layers after `solve` has succeeded. -/
theorem solved_fix {lats stack exc nh form} (hinit : simInit E lats mats stack exc nh form = .ok c)
    {d1 : Dyn c.nh} (hsolve : solve E c (Dyn.fresh mats (unsolved c.nh)) = (.ok (), d1)) :
    ∀ r ∈ stack, LayerFix E c mats d1.attrs r := by
  have hi := simInit_ok hinit
  have hst : c.stack = stack := hi.stack_eq
  have hnd : c.stack.Nodup := hst ▸ hi.nodup
  obtain ⟨A1, res, hs, -⟩ := solveSpec_of_noStale (E := E) (mats := mats) hnd
    (noStale_unsolved (c := c) mats c.stack)
  have hrun := hs.run (Dyn.fresh mats (unsolved c.nh)) rfl (.inl rfl)
  have hsol : res = .ok () ∧ d1.attrs = A1 := by
    unfold solve at hsolve
    rcases res with e | u
    · rw [PyM.bind_error hrun] at hsolve
      simp at hsolve
    · rw [PyM.bind_ok hrun] at hsolve
      simp only [PyM.modify, Prod.mk.injEq, true_and] at hsolve
      exact ⟨rfl, by rw [← hsolve]⟩
  obtain ⟨rfl, hA⟩ := hsol
  rw [hA, ← hst]
  exact hs.fix hnd rfl

/-- Monic polynomials with known roots, translated. -/
theorem prod_shift {ι : Type} [Fintype ι] {F : ℂ[X]} {q : ι → ℂ} {y : ℂ} (h : F.comp (X + C y) = ∏ p, (X - C (q p))) :
    F.roots = Finset.univ.val.map fun p => q p + y := by
  have hF : F = ∏ p, (X - C (q p + y)) := by
    have : (F.comp (X + C y)).comp (X - C y) = F := by
      rw [comp_assoc]; simp
    rw [← this, h, prod_comp]
    refine Finset.prod_congr rfl fun p _ => ?_
    simp only [sub_comp, X_comp, C_comp, C_add]
    ring
  have := roots_multiset_prod_X_sub_C (Finset.univ.val.map fun p => q p + y)
  rw [Multiset.map_map] at this
  rw [hF]
  exact this

/-- The equation of the modes in the plane of incidence depends on the orders along the period only. -/
theorem grating_poly {H H' : List (ℤ × ℤ)} (hH : H = H') {form L} {e n : Matrix (Fin H.length) (Fin H.length) ℂ}
    {e' n' : Matrix (Fin H'.length) (Fin H'.length) ℂ} (h : GratingOps H form L e n) (h' : GratingOps H' form L e' n')
    (omega : ℝ) {kx : Fin H.length → ℂ} {kx' : Fin H'.length → ℂ} (hk : ∀ (i : ℕ) h h', kx ⟨i, h⟩ = kx' ⟨i, h'⟩) :
    (teOp omega kx e).charpoly * (n * tmCore omega kx e).charpoly =
      (teOp omega kx' e').charpoly * (n' * tmCore omega kx' e').charpoly := by
  subst hH
  obtain ⟨rfl, rfl⟩ := h.unique h'
  obtain rfl : kx = kx' := funext fun i => hk i i.isLt i.isLt
  rfl

/-- The orders of a mono-periodic lattice are good. -/
theorem mono_good {lats stack exc nh form} (hi : InitSpec E lats mats stack exc nh form c) (hsort : ArgsortContract E.argsort)
    (hl : MonoPeriodic c.lattice) : GoodHarmonics c.lattice c.harmonics := by
  obtain ⟨-, h2, h3, -⟩ := mono_orders hi hl
  obtain ⟨a, d, t, hl⟩ := hl
  have hl' : c.lattice.harmonicsArray = none ∧ c.lattice.truncation = .oneD := by
    unfold mkLattice at hl
    dsimp only at hl
    split at hl
    · simp at hl
    · simp only [Except.ok.injEq] at hl
      rw [← hl]
      exact ⟨rfl, rfl⟩
  obtain ⟨n, hh⟩ := hi.harm
  unfold Lattice.getHarmonics Lattice.getHarmonics' at hh
  rw [hl'.1, hl'.2] at hh
  simp only [except_bind_ok, if_true, except_pure_eq_ok, Except.ok.injEq, Prod.mk.injEq] at hh
  have hp := argsort_gather_perm _ (fun g : ℤ × ℤ => (g.1 : ℝ)) (hsort ((oneDimTruncation (effectiveNh nh (stack.all fun r =>
    (mats r).isUniform))).1.map fun g => (g.1 : ℝ)))
  rw [hh.1] at hp
  refine ⟨hp.nodup_iff.mpr (oneDim_nodup _), fun g hg => ?_, fun _ => ⟨h2, h3⟩⟩
  rw [hp.mem_iff, oneDim_mem] at hg ⊢
  exact ⟨by simpa using hg.1, by simpa using hg.2⟩

/-- The modes of a lossless grating. -/
theorem grating_layer {lats stack exc nh form} (hi : InitSpec E lats mats stack exc nh form c) (hS : EigSpectrum E)
    (hB : EigBasis E) (hsort : ArgsortContract E.argsort) (hl : MonoPeriodic c.lattice) (hw : WellPlaced mats stack)
    (hmu : ∀ r ∈ stack, (mats r).mu = 1) (hkx : ∀ i, star (c.kx i) = c.kx i) (hky : c.k0para.2.im = 0)
    (hlay : ∀ r ∈ stack, Homogeneous (mats r) ∨ Dielectric (mats r)) {A : ℕ → LayerAttr c.nh}
    (hf : ∀ r ∈ stack, LayerFix E c mats A r) {r : ℕ} (hr : r ∈ stack) :
    ∃ ev, (A r).eig = some ev ∧ (Dielectric (mats r) → ∀ p, ((ev.1 p).im = 0 ∧ 0 ≤ (ev.1 p).re) ∨
        ((ev.1 p).re = 0 ∧ 0 < (ev.1 p).im)) ∧
      ((c.k0para.2 = 0 ∨ ∀ p, ev.1 p ^ 2 + c.k0para.2 ^ 2 ≠ 0) → ev.2.det ≠ 0) := by
  obtain ⟨m1, m2, m3, m4⟩ := mono_orders hi hl
  have hH : Function.Injective c.harmonics.get := List.nodup_iff_injective_get.mp (mono_good hi hsort hl).nodup
  obtain ⟨k, hk⟩ := List.getElem?_of_mem hr
  obtain ⟨P, e, ev, h1, h2, h3, h4, h5, h6⟩ := solved_spectrum hmu hS hw hf k r hk
  have hform : c.formulation = "original" ∨ c.formulation = "tangent" := by
    obtain ⟨r0, tl, hrt⟩ := List.exists_cons_of_ne_nil hi.ne
    have hhead : stack.head? = some r0 := by rw [hrt]; rfl
    rw [hi.form_eq]
    exact hi.form1 r0 hhead (by rw [← hi.lat_eq r0 hhead]; exact m1)
  have hD : Dielectric (mats r) → ∃ n, P = fromBlocks e 0 0 n ∧ RealDiag (teOp c.omega c.kx e) ∧
      RealDiag (n * tmCore c.omega c.kx e) := by
    intro hd
    obtain ⟨n, e1, e2⟩ := medium_grating m1 hform hw h1 hr hd.1
    obtain ⟨p1, p2⟩ := e2.posHerm hH hd
    exact ⟨n, e1, te_realDiag c.omega hkx p1 p2⟩
  have hyr : c.k0para.2 = ((c.k0para.2.re : ℝ) : ℂ) := Complex.ext rfl (by simp [hky])
  refine ⟨ev, h2, fun hd p => h6 p ?_, fun hq => ?_⟩
  · obtain ⟨n, rfl, r1, r2⟩ := hD hd
    rw [wave_charpoly c.omega c.kx m4 h3] at h4
    have hroot : (∏ p, (X - C (ev.1 p ^ 2))).eval (ev.1 p ^ 2) = 0 := by
      rw [eval_prod]
      exact Finset.prod_eq_zero (Finset.mem_univ p) (by simp)
    rw [← h4, eval_comp, eval_mul, mul_eq_zero] at hroot
    have : ((X + C (c.k0para.2 ^ 2)).eval (ev.1 p ^ 2)).im = 0 := by
      rcases hroot with h | h
      · exact r1.root h
      · exact r2.root h
    rw [hyr, eval_add, eval_X, eval_C, ← Complex.ofReal_pow, Complex.add_im, Complex.ofReal_im, add_zero] at this
    exact this
  · refine h5 hB ?_
    rcases hlay r hr with hh | hd
    · exact .inl hh.2.1
    · right
      obtain ⟨n, rfl, r1, r2⟩ := hD hd
      have hw' := wave_realDiag c.omega (ky := c.ky) (y := c.k0para.2.re) (fun i => by rw [m4, ← hyr]) h3 r1 r2 ?_
      · obtain ⟨V, d, v1, v2⟩ := hw'
        exact ⟨V, _, v1, v2⟩
      · rcases hq with h | h
        · left; rw [h]; rfl
        · right
          intro h0
          rw [wave_charpoly c.omega c.kx m4 h3] at h4
          have hz : (teOp c.omega c.kx e).charpoly.eval 0 = 0 := by
            rw [Matrix.eval_charpoly]
            simp [det_neg, h0]
          have : (∏ p, (X - C (ev.1 p ^ 2))).eval (-c.k0para.2 ^ 2) = 0 := by
            rw [← h4, eval_comp, eval_mul]
            simp [hz]
          rw [eval_prod, Finset.prod_eq_zero_iff] at this
          obtain ⟨p, -, hp⟩ := this
          refine h p ?_
          rw [eval_sub, eval_X, eval_C] at hp
          linear_combination -hp

end Nannos
