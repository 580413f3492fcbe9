import Verif.Proofs.AbsorbingTotal
import Verif.Props.Fourier

/-! When `solve` succeeds (C86). -/

namespace Nannos

open Matrix Spec

variable {E : Ext} {c : Static}

/-- Permittivities in an open half plane: the convolution matrix is invertible. -/
theorem toep_det {nh Nx Ny : ℕ} {H : Fin nh → ℤ × ℤ} (hH : Function.Injective H) {u : Grid Nx Ny}
    {A : Matrix (Fin nh) (Fin nh) ℂ} (hA : toeplitz H u = .ok A) {s : ℂ} (hu : ∀ x y, 0 < (s * u x y).im) : A.det ≠ 0 := by
  intro h0
  obtain ⟨v, hv, hv0⟩ := Matrix.exists_mulVec_eq_zero_iff.mpr h0
  obtain ⟨i0, -⟩ := Function.ne_iff.mp hv
  obtain ⟨p1, p2⟩ := toep_pos hA i0
  have : NeZero Nx := ⟨p1⟩
  have : NeZero Ny := ⟨p2⟩
  obtain ⟨B, hB⟩ : ∃ B, toeplitz H (fun x y => s * u x y) = .ok B := toeplitz_exists _ (toeplitz_ok hA).1
  have h1 := absorbs_toep hH hB hu v hv
  have h2 : star v ⬝ᵥ B *ᵥ v = s * (star v ⬝ᵥ A *ᵥ v) := by
    rw [toep_dot hB, toep_dot hA]
    simp only [Finset.mul_sum]
    refine Finset.sum_congr rfl fun x _ => Finset.sum_congr rfl fun y _ => ?_
    ring
  rw [h2, hv0] at h1
  simp at h1

/-- The set of harmonics of a shorter list exists. -/
theorem harmonics_again {A : List ℝ → List ℕ} {l : Lattice} {nh n : ℤ} {s : Bool} {H}
    (h : l.getHarmonics A nh s = .ok (H, n)) (m : ℕ) (hm : 0 < m) : ∃ H' n', l.getHarmonics A m s = .ok (H', n') := by
  have key : ∀ nh : ℤ, (∃ x, l.getHarmonics' A nh = .ok x) → ∃ H' n', l.getHarmonics A nh s = .ok (H', n') := by
    rintro nh ⟨⟨G, k⟩, hx⟩
    unfold Lattice.getHarmonics
    rw [hx, except_bind_ok]
    dsimp only
    split
    · exact ⟨_, _, rfl⟩
    · exact ⟨_, _, rfl⟩
  refine key m ?_
  unfold Lattice.getHarmonics at h
  rw [bind_eq_ok] at h
  obtain ⟨⟨G, k⟩, h1, -⟩ := h
  unfold Lattice.getHarmonics' at h1 ⊢
  generalize l.harmonicsArray = ha at h1 ⊢
  generalize l.truncation = tr at h1 ⊢
  rcases ha with _ | U
  · dsimp only at h1 ⊢
    rcases tr with _ | _ | _
    · exact ⟨_, rfl⟩
    · dsimp only at h1 ⊢
      rw [bind_eq_ok] at h1
      obtain ⟨r, hr, h1⟩ := h1
      rw [hr, except_bind_ok]
      unfold circularTruncation at h1 ⊢
      split at h1
      · simp at h1
      rename_i hc
      push Not at hc
      rw [if_neg (by push Not; exact ⟨by omega, hc.2⟩)]
      dsimp only
      rw [if_neg]
      · exact ⟨_, rfl⟩
      · push Not
        split
        · omega
        · positivity
    · dsimp only at h1 ⊢
      rw [bind_eq_ok] at h1
      obtain ⟨r, hr, h1⟩ := h1
      rw [hr, except_bind_ok]
      unfold parallelogramicTruncation
      rw [if_neg (by omega)]
      exact ⟨_, rfl⟩
  · exact ⟨_, rfl⟩

/-- The matrices of an isotropic pattern with values in an open half plane. -/
theorem buildPure_total (hH : Function.Injective c.harmonics.get)
    (hT : ∀ u : Grid c.lattice.discretization.1 c.lattice.discretization.2, ∃ A, toeplitz c.harmonics.get u = .ok A)
    (hform : c.formulation = "original" ∨ (c.formulation = "tangent" ∧ c.lattice.is1D = true))
    (hh : ∃ H n, c.lattice.getHarmonics E.argsort c.nh true = .ok (H, n)) {L : LayerSpec} (hmu : L.mu ≠ 0)
    (hsh : L.epsilon.shape = [c.lattice.discretization.1, c.lattice.discretization.2]) (ha : L.isAnisotropic = false)
    {s : ℂ} (hs : ∀ x y : ℕ, x < c.lattice.discretization.1 → y < c.lattice.discretization.2 → 0 < (s * L.epsilon.data [x, y]).im) :
    ∃ M p Q, buildPure E c L = .ok (.patterned M p Q) := by
  have hu : L.isUniform = false := by
    unfold LayerSpec.isUniform Nannos.isUniform
    unfold LayerSpec.isAnisotropic at ha
    rw [if_neg (by simp [ha]), hsh]
    simp
  obtain ⟨H, n, hHn⟩ := hh
  have hg : L.epsilon.toGrid = .ok ⟨c.lattice.discretization.1, c.lattice.discretization.2, fun x y => L.epsilon.data [x, y]⟩ := by
    unfold NdArr.toGrid
    rw [hsh]
  generalize hu0 : (fun (x : Fin c.lattice.discretization.1) (y : Fin c.lattice.discretization.2) => L.epsilon.data [(x : ℕ), (y : ℕ)]) = u at hg
  have hpos : ∀ x y, 0 < (s * u x y).im := by
    intro x y
    rw [← hu0]
    exact hs x y x.isLt y.isLt
  obtain ⟨A, hA⟩ := hT u
  have hA' : c.toep ⟨_, _, u⟩ = .ok A := hA
  have hdet := toep_det hH hA hpos
  have hnu : ∃ B, nuHatInvIso c ⟨_, _, u⟩ = .ok B := by
    have hne : ∀ x y, u x y ≠ 0 := fun x y h0 => by have := hpos x y; rw [h0] at this; simp at this
    obtain ⟨B, hB⟩ := hT fun x y => 1 / u x y
    unfold nuHatInvIso recipGrid
    rw [if_neg (by push Not; exact hne)]
    rw [except_bind_ok, show c.toep ⟨_, _, fun x y => 1 / u x y⟩ = .ok B from hB, except_bind_ok]
    refine ⟨_, (linInv_ok _ _).mpr ⟨toep_det hH hB (s := -star s) fun x y => ?_, rfl⟩⟩
    have h1 : -star s * (1 / u x y) = ((Complex.normSq (u x y))⁻¹ : ℝ) * -star (s * u x y) := by
      have : (Complex.normSq (u x y) : ℂ) = star (u x y) * u x y := by
        rw [Complex.normSq_eq_conj_mul_self]; rfl
      rw [Complex.ofReal_inv, this, star_mul']
      have := hne x y
      have h3 : star (u x y) ≠ 0 := star_ne_zero.mpr this
      field_simp
    rw [h1, Complex.im_ofReal_mul]
    refine mul_pos (inv_pos.mpr (Complex.normSq_pos.mpr (hne x y))) ?_
    have := hpos x y
    rw [Complex.neg_im, show (star (s * u x y)).im = -(s * u x y).im from Complex.conj_im _, neg_neg]
    exact this
  obtain ⟨B, hB⟩ := hnu
  have hpeps : ∀ X, ∃ P, pepsOf E c L ⟨_, _, u⟩ none A X H = .ok P := by
    intro X
    unfold pepsOf
    dsimp only
    rcases hform with h | ⟨h, h1⟩
    · rw [if_pos h]; exact ⟨_, rfl⟩
    · rw [if_neg (by rw [h]; decide), if_pos h, if_pos h1, hB]
      exact ⟨_, rfl⟩
  obtain ⟨P, hP⟩ := hpeps (diag2 A)
  unfold buildPure
  simp only [hu, Bool.false_eq_true, if_false, ha, hg, except_bind_ok]
  rw [hA', except_bind_ok, (linInv_ok _ _).mpr ⟨hdet, rfl⟩, except_bind_ok, raiseIf_ok (u := ()).mpr hmu, except_bind_ok]
  have hpara : paraOf L = .ok none := by unfold paraOf; rw [ha]; rfl
  rw [hpara, except_bind_ok, show epsParaHatOf c none A = .ok (diag2 A) from rfl, except_bind_ok, hHn, except_bind_ok]
  dsimp only
  rw [hP, except_bind_ok]
  exact ⟨_, _, _, rfl⟩

/-- All the attributes of a layer are there. -/
def AttrFull {nh : ℕ} (a : LayerAttr nh) : Prop := ∃ M p Q ev, a = ⟨some M, some p, some Q, some ev⟩

/-- Solving a stack whose layers are homogeneous, or have matrices which can be built. -/
theorem solveAll_total (hsolv : ∀ n M, ∃ wv, E.eig n M = .ok wv) {mats : ℕ → LayerSpec} :
    ∀ (suf pre : List ℕ) (d : Dyn c.nh), (pre ++ suf).Nodup → d.mats = mats → WellPlaced mats (pre ++ suf) →
    (∀ r ∈ pre ++ suf, (mats r).iscopy = false → (Homogeneous (mats r) ∧ (mats r).epsilon.value ≠ 0) ∨
      ∃ M p Q, buildPure E c (mats r) = .ok (.patterned M p Q)) →
    (∀ r ∈ pre, (mats r).isUniform = false → AttrFull (d.attrs r)) → (solveAll E c suf d).1 = .ok () := by
  intro suf
  induction suf with
  | nil => intro pre d _ _ _ _ _; rfl
  | cons r rs ih =>
    intro pre d hnd hm hw hl hpre
    have hrm : r ∈ pre ++ r :: rs := by simp
    have hk : (pre ++ r :: rs)[pre.length]? = some r := by simp
    have key : (stepOut E c (d.mats r) (d.attrs (d.mats r).original)).1 = .ok () ∧
        ∀ a, (mats r).isUniform = false → AttrFull ((stepOut E c (d.mats r) (d.attrs (d.mats r).original)).2 a) := by
      rw [hm]
      by_cases hc : (mats r).iscopy = true
      · obtain ⟨⟨j, hj, hj'⟩, hu, he⟩ := hw _ r hk hc
        have hmem : (mats r).original ∈ pre := by
          rw [List.getElem?_append_left hj] at hj'
          exact List.mem_of_getElem? hj'
        have hu' : (mats (mats r).original).isUniform = false := by
          unfold LayerSpec.isUniform at hu ⊢
          rw [← he]; exact hu
        obtain ⟨M, p, Q, ev, h⟩ := hpre _ hmem hu'
        rw [h]
        unfold stepOut
        simp only [hc, if_true, hu, Bool.false_eq_true, if_false, attr]
        exact ⟨trivial, fun _ _ => ⟨_, _, _, _, rfl⟩⟩
      · have hc : (mats r).iscopy = false := by simpa using hc
        rcases hl r hrm hc with ⟨⟨-, hu, ha⟩, he⟩ | ⟨M, p, Q, hb⟩
        · refine ⟨?_, fun _ h => by rw [hu] at h; simp at h⟩
          unfold stepOut
          simp [hc, buildPure, solveUniform, hu, ha, he]
        · obtain ⟨⟨w, v⟩, hev⟩ := hsolv c.nh M
          have hse : ∃ ev, solveEigenproblem E M = .ok ev := by
            unfold solveEigenproblem
            rw [hev, except_bind_ok]
            exact ⟨_, rfl⟩
          obtain ⟨ev, hse⟩ := hse
          unfold stepOut
          simp only [hc, Bool.false_eq_true, if_false, hb, hse]
          exact ⟨trivial, fun _ _ => ⟨_, _, _, _, rfl⟩⟩
    rw [solveAll_cons, solveLayer_eq, key.1]
    dsimp only
    refine ih (pre ++ [r]) _ (by simpa using hnd) hm (by simpa using hw) (by simpa using hl) fun s hs hu => ?_
    rcases List.mem_append.mp hs with hs' | hs
    · have hne : s ≠ r := by
        rintro rfl
        exact (List.nodup_append.mp hnd).2.2 s hs' s (by simp) rfl
      have : (d.setAttr r (stepOut E c (d.mats r) (d.attrs (d.mats r).original)).2).attrs s = d.attrs s := by
        simp [Dyn.setAttr, hne]
      rw [this]
      exact hpre s hs' hu
    · obtain rfl : s = r := by simpa using hs
      rw [setAttr_same]
      exact key.2 _ hu

end Nannos
