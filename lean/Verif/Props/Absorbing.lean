import Verif.Proofs.SolveTotal
import Verif.Examples.Run
import Verif.Props.UnitCell
import Verif.Examples.Planar
import Mathlib.LinearAlgebra.Eigenspace.Triangularizable
import Mathlib.Analysis.Complex.Polynomial.Basic

/-! **C85**, **C86**: when results are defined. -/

namespace Nannos

open Matrix Spec

section absorbing
variable {E : Ext} {lats : ℕ → Lattice} {mats : ℕ → LayerSpec} {stack : List ℕ} {wl : ℝ} {ang : ℝ × ℝ × ℝ}
  {exc : PlaneWave} {nh : ℤ} {form : String} {c : Static}

/-- **C85**: a wave incident from a lossless superstrate on layers which absorb at every point. The substrate absorbs
too, or is homogeneous, with or without loss, below an absorbing layer which is not empty. Whenever the modes were
found and are complete, and no order is at grazing incidence, the efficiencies are defined, and so are the fields in
every layer given by its name, its position or `-1`: no scattering matrix is singular. The formulation is `original`, or
the lattice has one period, or the vectors of the formulation are the same at all pixels. -/
theorem C85_absorbing_results_defined (hinit : simInit E lats mats stack exc nh form = .ok c)
    (hE : EigContract E) (hw : WellPlaced mats stack) (hmu : ∀ r ∈ stack, (mats r).mu = 1)
    (hp : planeWave wl ang = .ok exc) (hwl : 0 < wl) (hcos : 0 < Real.cos exc.theta)
    (h00 : ((0 : ℤ), (0 : ℤ)) ∈ c.harmonics)
    (hform : form = "original" ∨ c.lattice.is1D = true ∨ ∀ r ∈ stack, (mats r).isUniform = false →
      (mats r).isAnisotropic = false ∧ ConstantVectorsUsed E c (mats r))
    {e : ℝ} (hpos : 0 < e) (htwo : 1 < stack.length)
    (hsup : ∀ r0, stack.head? = some r0 → (mats r0).epsilon.value = (e : ℂ))
    (hgraz : ∀ i : Fin c.nh, (e : ℂ) * (c.omega : ℂ) ^ 2 ≠ c.kx i ^ 2 + c.ky i ^ 2)
    (hin : ∀ k r, 0 < k → k + 1 < stack.length → stack[k]? = some r → Absorbing (mats r) ∧
      ∀ t, (mats r).thickness = some t → 0 ≤ t)
    (hlast : ∀ r, stack.getLast? = some r → Absorbing (mats r) ∨ (Homogeneous (mats r) ∧
      (∀ i : Fin c.nh, (mats r).epsilon.value * (c.omega : ℂ) ^ 2 ≠ c.kx i ^ 2 + c.ky i ^ 2) ∧
      ∃ k s t, 0 < k ∧ k + 1 < stack.length ∧ stack[k]? = some s ∧ (mats s).thickness = some t ∧ 0 < t))
    {d1 : Dyn c.nh} (hsolve : solve E c (Dyn.fresh mats (unsolved c.nh)) = (.ok (), d1))
    (hdet : ∀ r ∈ stack, ∀ ev, (d1.attrs r).eig = some ev → ev.2.det ≠ 0)
    (hist : List (Call c.nh)) :
    (∀ orders, ∃ X, (diffractionEfficiencies E c orders
      (afterCalls E c hist (Dyn.fresh mats (unsolved c.nh)))).1 = .ok X) ∧
    ∀ id r i, getLayer c id = .ok (r, i) → (0 ≤ i ∨ i = -1) → ∀ t, (mats r).thickness = some t → ∀ zs,
      ∃ Fs, (getFieldFourier E c id zs (afterCalls E c hist (Dyn.fresh mats (unsolved c.nh)))).1 = .ok Fs := by
  obtain ⟨⟨⟨R, T⟩, h1⟩, h2⟩ := absorbing_succeeds hinit hE hw hmu hp hwl hcos h00 hform hpos htwo hsup hgraz hin hlast
    hsolve hdet hist
  refine ⟨fun orders => ?_, h2⟩
  unfold diffractionEfficiencies
  rw [PyM.bind_ok (Prod.ext_iff.mpr ⟨h1, rfl⟩)]
  cases orders
  · exact ⟨_, rfl⟩
  · exact ⟨_, rfl⟩

/-- **C86**: solving succeeds, at any time, if the eigenvalue routine returns. The layers are homogeneous with a
permittivity other than zero, or isotropic patterns sampled on the lattice with permittivities in one open half plane,
or copies of patterned layers above them. The formulation is `original`, or the lattice has one period. -/
theorem C86_solve_succeeds (hinit : simInit E lats mats stack exc nh form = .ok c)
    (hsolv : ∀ n M, ∃ wv, E.eig n M = .ok wv) (hH : GoodHarmonics c.lattice c.harmonics)
    (hw : WellPlaced mats stack) (hmu : ∀ r ∈ stack, (mats r).mu ≠ 0)
    (hform : form = "original" ∨ c.lattice.is1D = true)
    (hlay : ∀ r ∈ stack, (mats r).iscopy = false → (Homogeneous (mats r) ∧ (mats r).epsilon.value ≠ 0) ∨
      ((mats r).isAnisotropic = false ∧
        (mats r).epsilon.shape = [c.lattice.discretization.1, c.lattice.discretization.2] ∧ OneHalfPlane (mats r)))
    (hist : List (Call c.nh)) :
    (solve E c (afterCalls E c hist (Dyn.fresh mats (unsolved c.nh)))).1 = .ok () := by
  have hi := simInit_ok hinit
  have hst : c.stack = stack := hi.stack_eq
  have hnd : c.stack.Nodup := hst ▸ hi.nodup
  obtain ⟨A1, res, hs, -⟩ := solveSpec_of_noStale (E := E) (mats := mats) hnd
    (noStale_unsolved (c := c) mats c.stack)
  obtain ⟨n, hharm⟩ := hi.harm
  have hT := (C12_convolution_matrices_defined_partial _ _ hH hi.nyquist).1
  have hnh : 0 < c.nh := by
    obtain ⟨M, h1, -⟩ := checkNyquist_ok hi.nyquist
    obtain ⟨g, hg, -⟩ := maxHarmonic_mem h1
    exact List.length_pos_of_mem hg
  obtain ⟨r0, tl, hrt⟩ := List.exists_cons_of_ne_nil hi.ne
  have hhead : stack.head? = some r0 := by rw [hrt]; rfl
  have hf : c.formulation = "original" ∨ (c.formulation = "tangent" ∧ c.lattice.is1D = true) := by
    rw [hi.form_eq]
    rcases hform with h | h
    · exact .inl h
    · rcases hi.form1 r0 hhead (by rw [← hi.lat_eq r0 hhead]; exact h) with h' | h'
      · exact .inl h'
      · exact .inr ⟨h', h⟩
  have hall : (solveAll E c c.stack (Dyn.fresh mats (unsolved c.nh))).1 = .ok () := by
    refine solveAll_total hsolv c.stack [] _ (by simpa using hnd) rfl (by rw [List.nil_append, hst]; exact hw) ?_ (by simp)
    intro r hr hc
    rw [List.nil_append, hst] at hr
    rcases hlay r hr hc with h | ⟨ha, hsh, s, hs⟩
    · exact .inl h
    · refine .inr (buildPure_total (List.nodup_iff_injective_get.mp hH.nodup) hT hf
        (harmonics_again hharm c.nh hnh) (hmu r hr) hsh ha (s := s) fun x y hx hy => hs _ ?_)
      rw [hsh]
      exact .cons hx (.cons hy .nil)
  have hrun := hs.run (Dyn.fresh mats (unsolved c.nh)) rfl (.inl rfl)
  rw [hrun] at hall
  obtain rfl : res = .ok () := hall
  have h0 : Inv E c mats (unsolved c.nh) A1 (.ok ()) (Dyn.fresh mats (unsolved c.nh)) := inv_fresh _ (.inl rfl)
  have hd := h0.calls hs hist
  unfold solve
  rw [PyM.bind_ok (hs.run _ hd.mats_eq hd.attrs)]
  rfl

end absorbing

namespace Examples

/-- A grating whose permittivities, `1 + 4i` and `5 + 4i`, average to `(2 + i)^2`. -/
noncomputable def lossyGrid : Grid 256 1 := fun x _ => if (x : ℕ) < 128 then 1 + 4 * Complex.I else 5 + 4 * Complex.I

/-- The absorbing grating in air. -/
noncomputable def lossyMats : ℕ → LayerSpec := fun r =>
  if r = 0 then exLayer "Superstrate" 1 (NdArr.scalar (((1 : ℝ) ^ 2 : ℝ) : ℂ))
  else if r = 1 then exLayer "Slab" (1 / 8) (NdArr.ofGrid lossyGrid)
  else exLayer "Substrate" 1 (NdArr.scalar (((1 : ℝ) ^ 2 : ℝ) : ℂ))

noncomputable def lossyN : ℕ → ℂ := fun r => if r = 1 then 2 + Complex.I else 1

theorem lossy_im (x y : ℕ) : 0 < ((NdArr.ofGrid lossyGrid).data [x, y]).im ∨ ¬ (x < 256 ∧ y < 1) := by
  by_cases h : x < 256 ∧ y < 1
  · refine .inl ?_
    have : (NdArr.ofGrid lossyGrid).data [x, y] = lossyGrid ⟨x, h.1⟩ ⟨y, h.2⟩ := by
      unfold NdArr.ofGrid
      exact dif_pos h
    rw [this]
    unfold lossyGrid
    split <;> norm_num
  · exact .inr h

theorem lossy_absorbing : Absorbing (lossyMats 1) := by
  have ha : (lossyMats 1).isAnisotropic = false := by
    simp [lossyMats, exLayer, LayerSpec.isAnisotropic, NdArr.ofGrid, isAnisotropic]
  unfold Absorbing
  rw [ha]
  intro idx hidx
  have hsh : (lossyMats 1).epsilon.shape = [256, 1] := rfl
  rw [hsh] at hidx
  rcases hidx with _ | ⟨hx, h2⟩
  rcases h2 with _ | ⟨hy, h3⟩
  cases h3
  exact (lossy_im _ _).resolve_right (fun hc => hc ⟨hx, hy⟩)

theorem lossy_sqrt (om : ℝ) (h : 0 < om) :
    modeSqrt ((2 + Complex.I) ^ 2 * (om : ℂ) ^ 2) = (2 + Complex.I) * om := by
  have h1 := modeSqrt_sq ((2 + Complex.I) ^ 2 * (om : ℂ) ^ 2)
  have h2 := modeSqrt_im_nonneg ((2 + Complex.I) ^ 2 * (om : ℂ) ^ 2)
  rw [← mul_pow, sq_eq_sq_iff_eq_or_eq_neg] at h1
  rw [← mul_pow]
  rw [← mul_pow] at h2
  rcases h1 with h1 | h1
  · exact h1
  · rw [h1] at h2
    simp at h2
    linarith

theorem lossy_index (om : ℝ) (h : 0 < om) (r : ℕ) : HasIndexC om (lossyMats r) (lossyN r) := by
  have hone : csqrt ((1 : ℂ) ^ 2 * (om : ℂ) ^ 2) = 1 * om := by
    rw [show (1 : ℂ) ^ 2 * (om : ℂ) ^ 2 = ((om ^ 2 : ℝ) : ℂ) by push_cast; ring, csqrt_ofReal (by positivity),
      Real.sqrt_sq h.le, one_mul]
  unfold lossyN lossyMats
  by_cases h0 : r = 0
  · subst h0; exact ⟨rfl, rfl, by simp, .inl ⟨by simp [exLayer], by simpa using hone⟩⟩
  by_cases h1 : r = 1
  · subst h1
    refine ⟨rfl, rfl, ?_, .inr ⟨256, 1, lossyGrid, rfl, by norm_num, by norm_num, by decide, ?_, ?_⟩⟩
    · intro hc
      have := congrArg Complex.im hc
      simp at this
    · have : (∑ x : Fin 256, ∑ y : Fin 1, lossyGrid x y) =
          ∑ x : Fin (128 + 128), (if (x : ℕ) < 128 then 1 + 4 * Complex.I else 5 + 4 * Complex.I) :=
        Finset.sum_congr rfl fun x _ => by simp [lossyGrid]
      rw [this, Fin.sum_univ_add]
      simp only [Fin.val_castAdd, Fin.is_lt, if_true, Fin.val_natAdd, Finset.sum_const, Finset.card_univ, Fintype.card_fin]
      rw [Finset.sum_congr rfl (g := fun _ => 5 + 4 * Complex.I) fun x _ => if_neg (by omega)]
      simp only [Finset.sum_const, Finset.card_univ, Fintype.card_fin, nsmul_eq_mul]
      push_cast
      have hI : Complex.I ^ 2 = -1 := Complex.I_sq
      linear_combination (-1 : ℂ) * hI
    · simpa using lossy_sqrt om h
  · simp only [h0, h1, if_false]
    exact ⟨rfl, rfl, by simp, .inl ⟨by simp [exLayer], by simpa using hone⟩⟩

theorem lossy_init : ∃ c, simInit exE (fun _ => exLat) lossyMats [0, 1, 2] exExc 1 "original" = .ok c ∧
    NormalSim c ∧ c.stack = [0, 1, 2] := by
  obtain ⟨c, h1, h2, h3, -⟩ := exInit lossyMats 0 [1, 2] 1 one_pos (by decide) (by decide) rfl rfl
  exact ⟨c, h1, h2, h3⟩

theorem lossy_placed : WellPlaced lossyMats [0, 1, 2] := by
  intro k r _ hc
  have : (lossyMats r).iscopy = false := (lossy_index 1 one_pos r).1
  rw [this] at hc
  simp at hc

/-- C85: an absorbing grating in air. -/
theorem lossy_run : ∃ c d1, simInit exE (fun _ => exLat) lossyMats [0, 1, 2] exExc 1 "original" = .ok c ∧ EigContract exE ∧
    planeWave 1 (0, 0, 0) = .ok exExc ∧ WellPlaced lossyMats [0, 1, 2] ∧
    (∀ r ∈ ([0, 1, 2] : List ℕ), (lossyMats r).mu = 1) ∧ 0 < Real.cos exExc.theta ∧
    ((0 : ℤ), (0 : ℤ)) ∈ c.harmonics ∧ (lossyMats 0).epsilon.value = ((1 : ℝ) : ℂ) ∧ Absorbing (lossyMats 1) ∧
    (lossyMats 1).thickness = some (1 / 8) ∧ Homogeneous (lossyMats 2) ∧ (lossyMats 2).epsilon.value = 1 ∧
    (∀ i : Fin c.nh, (1 : ℂ) * (c.omega : ℂ) ^ 2 ≠ c.kx i ^ 2 + c.ky i ^ 2) ∧
    solve exE c (Dyn.fresh lossyMats (unsolved c.nh)) = (.ok (), d1) ∧
    (∀ r ∈ ([0, 1, 2] : List ℕ), ∀ ev, (d1.attrs r).eig = some ev → ev.2.det ≠ 0) ∧
    -- the conclusion, for this case
    ∀ hist : List (Call c.nh), ∃ X, (diffractionEfficiencies exE c true
      (afterCalls exE c hist (Dyn.fresh lossyMats (unsolved c.nh)))).1 = .ok X := by
  obtain ⟨c, hc, hn, hst⟩ := lossy_init
  obtain ⟨h1, h2⟩ := exSolveAllC hn lossyN [0, 1, 2] (Dyn.fresh lossyMats (unsolved c.nh)) (by decide)
    fun r _ => lossy_index c.omega hn.omega_pos r
  have hmu : ∀ r ∈ ([0, 1, 2] : List ℕ), (lossyMats r).mu = 1 := fun r _ => (lossy_index 1 one_pos r).2.1
  have hgr : ∀ i : Fin c.nh, (1 : ℂ) * (c.omega : ℂ) ^ 2 ≠ c.kx i ^ 2 + c.ky i ^ 2 := by
    intro i
    rw [hn.kx, hn.ky]
    have : (c.omega : ℂ) ≠ 0 := by exact_mod_cast hn.omega_pos.ne'
    simpa using this
  have hcos : 0 < Real.cos exExc.theta := by simp [exExc]
  have hhom : Homogeneous (lossyMats 2) := ⟨rfl, rfl, rfl⟩
  have h0m : ((0 : ℤ), (0 : ℤ)) ∈ c.harmonics := by rw [hn.harm]; simp
  have hv0 : (lossyMats 0).epsilon.value = ((1 : ℝ) : ℂ) := by simp [lossyMats, exLayer, NdArr.scalar, NdArr.value]
  have hv2 : (lossyMats 2).epsilon.value = 1 := by simp [lossyMats, exLayer, NdArr.scalar, NdArr.value]
  obtain ⟨d1, hs, hd⟩ : ∃ d1, solve exE c (Dyn.fresh lossyMats (unsolved c.nh)) = (.ok (), d1) ∧
      d1.attrs = (solveAll exE c [0, 1, 2] (Dyn.fresh lossyMats (unsolved c.nh))).2.attrs := by
    unfold solve
    rw [hst, PyM.bind_ok (Prod.ext_iff.mpr ⟨h1, rfl⟩)]
    exact ⟨_, rfl, rfl⟩
  have hdet : ∀ r ∈ ([0, 1, 2] : List ℕ), ∀ ev, (d1.attrs r).eig = some ev → ev.2.det ≠ 0 := by
    intro r hr ev he
    rw [hd, (h2 r hr).1] at he
    rw [← Option.some.inj he]
    simp
  have ht : (lossyMats 1).thickness = some (1 / 8) := rfl
  refine ⟨c, d1, hc, exE_eig, exExc_mk, lossy_placed, hmu, hcos, h0m, hv0, lossy_absorbing, ht, hhom, hv2, hgr, hs,
    hdet, fun hist => ?_⟩
  refine (C85_absorbing_results_defined hc exE_eig lossy_placed hmu exExc_mk one_pos hcos h0m (.inl rfl) one_pos
    (by simp) ?_ (by simpa using hgr) ?_ ?_ hs hdet hist).1 true
  · intro r0 h
    obtain rfl : 0 = r0 := by simpa using h
    exact hv0
  · intro k r hk hk' hr
    obtain rfl : k = 1 := by simp at hk'; omega
    obtain rfl : 1 = r := by simpa using hr
    refine ⟨lossy_absorbing, fun t h => ?_⟩
    rw [← Option.some.inj (ht.symm.trans h)]
    norm_num
  · intro r h
    obtain rfl : 2 = r := by simpa using h
    exact .inr ⟨hhom, by rw [hv2]; exact hgr, 1, 1, 1 / 8, by norm_num, by simp, rfl, ht, by norm_num⟩

/-- Every complex matrix has eigenvectors: a routine which always returns some. -/
theorem exists_total_eig : ∃ E : Ext, EigContract E ∧ ArgsortContract E.argsort ∧ ∀ n M, ∃ wv, E.eig n M = .ok wv := by
  have key : ∀ (n : ℕ) (M : Matrix (Idx n) (Idx n) ℂ), ∃ wv : (Idx n → ℂ) × Matrix (Idx n) (Idx n) ℂ,
      ∀ j, (∀ i, ∑ k, M i k * wv.2 k j = wv.1 j * wv.2 i j) ∧ ∃ i, wv.2 i j ≠ 0 := by
    intro n M
    by_cases hn : Nonempty (Idx n)
    · obtain ⟨μ, hμ⟩ := Module.End.exists_eigenvalue (Matrix.toLin' M)
      obtain ⟨v, hv⟩ := hμ.exists_hasEigenvector
      refine ⟨(fun _ => μ, fun i _ => v i), fun j => ⟨fun i => ?_, ?_⟩⟩
      · have := congrFun hv.apply_eq_smul i
        simpa [Matrix.mulVec, dotProduct] using this
      · exact Function.ne_iff.mp hv.2
    · exact ⟨(0, 0), fun j => absurd ⟨j⟩ hn⟩
  choose f hf using key
  refine ⟨⟨fun n M => .ok (f n M), exSort, fun _ _ _ _ => .error .unmodelled⟩, ?_, exSort_spec, fun n M => ⟨_, rfl⟩⟩
  intro n A w v h j
  simp only [Except.ok.injEq] at h
  have := hf n A j
  rw [h] at this
  exact this

/-- The unit square cell with five orders. -/
noncomputable def square5 : Lattice :=
  ⟨![![1, 0], ![0, 1]], false, .circular, (64, 64), some [(0, 0), (-1, 0), (1, 0), (0, 1), (0, -1)]⟩

/-- C86: a pattern on a square lattice with positive permittivities, oblique incidence, five orders. -/
example (g : Grid 64 64) (hg : ∀ x y, ∃ t : ℝ, 0 < t ∧ g x y = t) : ∃ E exc c,
    simInit E (fun _ => square5) (gridMats "fft" g) [0, 1, 2] exc 5 "original" = .ok c ∧ EigContract E ∧
    (∀ n M, ∃ wv, E.eig n M = .ok wv) ∧ planeWave 1 (60, 30, 45) = .ok exc ∧
    GoodHarmonics c.lattice c.harmonics ∧ WellPlaced (gridMats "fft" g) [0, 1, 2] ∧
    (Homogeneous (gridMats "fft" g 0) ∧ (gridMats "fft" g 0).epsilon.value ≠ 0) ∧
    ((gridMats "fft" g 1).isAnisotropic = false ∧
      (gridMats "fft" g 1).epsilon.shape = [c.lattice.discretization.1, c.lattice.discretization.2] ∧
      OneHalfPlane (gridMats "fft" g 1)) ∧
    (solve E c (Dyn.fresh (gridMats "fft" g) (unsolved c.nh))).1 = .ok () := by
  obtain ⟨E, hE, hA, htot⟩ := exists_total_eig
  obtain ⟨exc, h1, -⟩ := oblique_wave 1 30 45 one_pos
  obtain ⟨c, hc, hp, hl⟩ := listed_init (E := E) hA (l := square5) rfl rfl rfl
    (by simp [square5, Lattice.matrix, det_fin_two]) (by simp) (by simp) "fft" g exc 5 "original" (by simp)
  have hH : GoodHarmonics c.lattice c.harmonics := by
    refine ⟨hp.nodup_iff.mpr (by decide), fun x hx => hp.mem_iff.mpr ?_, fun h => by rw [hl] at h; cases h⟩
    have : ∀ x ∈ ([(0, 0), (-1, 0), (1, 0), (0, 1), (0, -1)] : List (ℤ × ℤ)),
      (-x.1, -x.2) ∈ ([(0, 0), (-1, 0), (1, 0), (0, 1), (0, -1)] : List (ℤ × ℤ)) := by decide
    exact this x (hp.mem_iff.mp hx)
  have hu : ∀ r, r ≠ 1 → Homogeneous (gridMats "fft" g r) ∧ (gridMats "fft" g r).epsilon.value ≠ 0 := by
    intro r hr
    unfold gridMats
    rw [if_neg hr]
    exact ⟨⟨rfl, rfl, rfl⟩, by simp [exLayer, NdArr.scalar, NdArr.value]⟩
  have hpat : (gridMats "fft" g 1).isAnisotropic = false ∧
      (gridMats "fft" g 1).epsilon.shape = [c.lattice.discretization.1, c.lattice.discretization.2] ∧
      OneHalfPlane (gridMats "fft" g 1) := by
    refine ⟨by simp [gridMats, exLayer, LayerSpec.isAnisotropic, NdArr.ofGrid, isAnisotropic], by rw [hl]; rfl,
      Complex.I, fun idx hidx => ?_⟩
    rw [show (gridMats "fft" g 1).epsilon.shape = [64, 64] from rfl] at hidx
    rcases hidx with _ | @⟨x, _, _, _, hx, h2⟩
    rcases h2 with _ | @⟨y, _, _, _, hy, h3⟩
    cases h3
    obtain ⟨t, ht, e⟩ := hg ⟨x, hx⟩ ⟨y, hy⟩
    have : (gridMats "fft" g 1).epsilon.data [x, y] = g ⟨x, hx⟩ ⟨y, hy⟩ := by
      change (NdArr.ofGrid g).data [x, y] = _
      unfold NdArr.ofGrid
      exact dif_pos ⟨hx, hy⟩
    rw [this, e]
    simpa using ht
  refine ⟨E, exc, c, hc, hE, htot, h1, hH, gridMats_placed _ g, hu 0 (by norm_num), hpat, ?_⟩
  refine C86_solve_succeeds hc htot hH (gridMats_placed _ g) (fun r _ => ?_) (.inl rfl) (fun r _ _ => ?_) []
  · rw [(gridMats_cases _ g r).2.1]; exact one_ne_zero
  · by_cases hr : r = 1
    · subst hr; exact .inr hpat
    · exact .inl (hu r hr)

/-- Permittivities `1` and `-1`. -/
noncomputable def mixedMats : ℕ → LayerSpec := fun r =>
  if r = 0 then exLayer "Superstrate" 1 (NdArr.scalar (((1 : ℝ) ^ 2 : ℝ) : ℂ))
  else if r = 1 then exLayer "Slab" (1 / 8) (NdArr.ofGrid (fun x _ => if (x : ℕ) < 1 then 1 else -1 : Grid 2 1))
  else exLayer "Substrate" 1 (NdArr.scalar (((1 : ℝ) ^ 2 : ℝ) : ℂ))

end Examples

/-- **C86**, the condition matters: a layer half of permittivity `1`, half of permittivity `-1`, solved with one order.
The average vanishes and solving raises `LinAlgError` (`numpy.linalg.inv` of a singular matrix). -/
theorem C86_mixed_signs_fail : ∃ c, simInit Examples.exE (fun _ => Examples.exLat) Examples.mixedMats [0, 1, 2]
      Examples.exExc 1 "original" = .ok c ∧
    (solve Examples.exE c (Dyn.fresh Examples.mixedMats (unsolved c.nh))).1 = .error .linAlgError := by
  obtain ⟨c, hc, hn, hst, -⟩ := Examples.exInit Examples.mixedMats 0 [1, 2] 1 one_pos (by decide) (by decide) rfl rfl
  refine ⟨c, hc, ?_⟩
  have h0 : Examples.HasIndexC c.omega (Examples.mixedMats 0) 1 := by
    refine ⟨rfl, rfl, one_ne_zero, .inl ⟨by simp [Examples.mixedMats, Examples.exLayer], ?_⟩⟩
    have := Examples.csqrt_scal one_pos hn
    simpa using this
  have h1 : ∀ Ao, (stepOut Examples.exE c (Examples.mixedMats 1) Ao).1 = .error .linAlgError := by
    intro Ao
    have hu : (Examples.mixedMats 1).isUniform = false ∧ (Examples.mixedMats 1).isAnisotropic = false := by
      simp [Examples.mixedMats, Examples.exLayer, LayerSpec.isUniform, LayerSpec.isAnisotropic, NdArr.ofGrid,
        isUniform, isAnisotropic]
    have hg : (Examples.mixedMats 1).epsilon.toGrid = .ok ⟨2, 1, fun x _ => if (x : ℕ) < 1 then 1 else -1⟩ := by
      change (NdArr.ofGrid (fun x _ => if (x : ℕ) < 1 then 1 else -1 : Grid 2 1)).toGrid = _
      unfold NdArr.toGrid NdArr.ofGrid
      simp
      funext x y
      rw [if_pos (by omega)]
    have ht := hn.toep (by norm_num) (by norm_num) (fun x _ => if (x : ℕ) < 1 then 1 else -1 : Grid 2 1)
    have hz : (∑ x : Fin 2, ∑ _ : Fin 1, (if (x : ℕ) < 1 then (1 : ℂ) else -1)) / (((2 : ℕ) : ℂ) * ((1 : ℕ) : ℂ)) = 0 := by
      simp [Fin.sum_univ_two]
    rw [hz, zero_smul] at ht
    have hdet : (0 : Matrix (Fin c.nh) (Fin c.nh) ℂ).det = 0 := by
      have : Nonempty (Fin c.nh) := ⟨⟨0, by rw [hn.nh]; norm_num⟩⟩
      exact det_zero
    have hinv : linInv (0 : Matrix (Fin c.nh) (Fin c.nh) ℂ) = .error .linAlgError := by
      unfold linInv
      simp [hdet]
    have hb : buildPure Examples.exE c (Examples.mixedMats 1) = .error .linAlgError := by
      unfold buildPure
      simp only [hu, Bool.false_eq_true, if_false, hg, except_bind_ok]
      rw [ht, except_bind_ok, hinv]
      rfl
    unfold stepOut
    rw [hb]
    rfl
  obtain ⟨a0, -⟩ := h0.step hn ((Dyn.fresh Examples.mixedMats (unsolved c.nh)).attrs
    (Examples.mixedMats 0).original)
  have hall : (solveAll Examples.exE c [0, 1, 2] (Dyn.fresh Examples.mixedMats (unsolved c.nh))).1 =
      .error .linAlgError := by
    rw [solveAll_cons, solveLayer_eq, show (Dyn.fresh Examples.mixedMats (unsolved c.nh)).mats = Examples.mixedMats
      from rfl, a0]
    dsimp only
    rw [solveAll_cons, solveLayer_eq]
    rw [show ∀ (d : Dyn c.nh) r f, (d.setAttr r f).mats = d.mats from fun _ _ _ => rfl,
      show (Dyn.fresh Examples.mixedMats (unsolved c.nh)).mats = Examples.mixedMats from rfl, h1]
  unfold solve
  rw [hst, PyM.bind_error (Prod.ext_iff.mpr ⟨hall, rfl⟩)]

end Nannos
