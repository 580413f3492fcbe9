import Verif.Proofs.Regauge
import Verif.Examples.Run

/-!
Properties C19, C58: the results do not depend on the way a homogeneous layer is described, nor on the
eigenvalue solver.
-/

namespace Nannos

open Matrix Spec

variable {E : Ext} {lats : ℕ → Lattice} {mats mats' : ℕ → LayerSpec} {stack : List ℕ} {exc : PlaneWave} {nh : ℤ}
  {form : String} {c : Static}

/-- **C19**, operators. If the pixels of a patterned isotropic layer are all equal to `v` and `build_matrix`
accepts it, then in every formulation its transverse permittivity operator and its convolution matrix are `v`
times the identity and its operators `matrix` and `Qeps` are those of a uniform layer of permittivity `v`: the
layer matrix is diagonal, with the squares `v omega^2 - kx^2 - ky^2` of the uniform propagation constants on
the diagonal. -/
theorem C19_constant_pattern_operators (L : LayerSpec) (hmu : L.mu = 1) (Nx Ny : ℕ)
    (hs : L.epsilon.shape = [Nx, Ny]) (h3 : ¬ (Nx = 3 ∧ Ny = 3)) (v : ℂ)
    (hv : ∀ x y, x < Nx → y < Ny → L.epsilon.data [x, y] = v) (X : BuiltLayer c.nh)
    (h : buildPure E c L = .ok X) :
    ∃ M p Q, X = .patterned M p Q ∧ p.Peps = v • 1 ∧ p.epsHat = v • 1 ∧
      (v ≠ 0 → M = diagonal (fun k => v * (c.omega : ℂ) ^ 2 - (Sum.elim c.kx c.kx k) ^ 2 -
          (Sum.elim c.ky c.ky k) ^ 2) ∧
        buildPure E c { L with epsilon := NdArr.scalar v } = .ok (.uniform Q)) := by
  have hk : L.isUniform = false ∧ L.isAnisotropic = false := by
    unfold LayerSpec.isUniform LayerSpec.isAnisotropic
    rw [hs]
    simp [isUniform, isAnisotropic, h3]
  cases X with
  | uniform Q => have := buildPure_uniform h; rw [hk.1] at this; simp at this
  | patterned M p Q =>
    obtain ⟨h1, h2⟩ := buildPure_const hmu hk.2 (v := v) (by
      intro idx hidx
      rw [hs] at hidx
      cases hidx with
      | cons a hidx =>
        cases hidx with
        | cons b hidx =>
          cases hidx
          exact hv _ _ a b) h
    refine ⟨M, p, Q, rfl, h1, h2, fun hv0 => ?_⟩
    obtain ⟨-, -, e1, e2, e3, -⟩ := buildPure_patterned_ok hmu h
    rw [h2, smul_one_inv hv0] at e1
    constructor
    · rw [e3, h1, e1, uniform_wave _ _ _ hv0]
    · have hv' : (NdArr.scalar v).value = v := rfl
      have hb : ∃ Q', buildPure E c { L with epsilon := NdArr.scalar v } = .ok (.uniform Q') := by
        unfold buildPure
        have k1 : ({ L with epsilon := NdArr.scalar v } : LayerSpec).isUniform = true := rfl
        have k2 : ({ L with epsilon := NdArr.scalar v } : LayerSpec).isAnisotropic = false := rfl
        simp only [k1, k2, if_true, Bool.false_eq_true, if_false, hv', hv0]
        exact ⟨_, rfl⟩
      obtain ⟨Q', hb⟩ := hb
      obtain ⟨-, -, -, e4⟩ := buildPure_uniform_ok (L := { L with epsilon := NdArr.scalar v }) hmu hb
      rw [hb, e4, e2, e1, hv']

/-- **C19**. Describe some homogeneous isotropic layers of a structure (not the superstrate) by constant
pixel arrays, keeping the number of harmonics.  The construction succeeds with the same object, and
efficiencies and fields, whatever was called before on either object, are equal whenever both are returned.
For the last layer this requires that it does not amplify, below a lossless superstrate (see
`C19_amplifying_substrate`). -/
theorem C19_constant_pattern_results_partial (hinit : simInit E lats mats stack exc nh form = .ok c)
    (hE : EigContract E) (hw : WellPlaced mats stack) (hmu : ∀ r ∈ stack, (mats r).mu = 1)
    (wl : ℝ) (ang : ℝ × ℝ × ℝ) (hp : planeWave wl ang = .ok exc) (hpix : PixelatedSome mats mats' stack)
    (hhead : ∀ r, stack.head? = some r → mats' r = mats r)
    (hnh : nh = 1 ∨ nh = 2 ∨ ∃ r ∈ stack, (mats r).isUniform = false)
    (hlast : ∀ rN, stack.getLast? = some rN → mats' rN = mats rN ∨ (0 ≤ (mats rN).epsilon.value.im ∧
      ∀ r0, stack.head? = some r0 → ∃ e : ℝ, 0 < e ∧ (mats r0).epsilon.value = e))
    (hist hist' : List (Call c.nh)) :
    simInit E lats mats' stack exc nh form = .ok c ∧
    (∀ orders X X',
      (diffractionEfficiencies E c orders (afterCalls E c hist (Dyn.fresh mats (unsolved c.nh)))).1 = .ok X →
      (diffractionEfficiencies E c orders (afterCalls E c hist' (Dyn.fresh mats' (unsolved c.nh)))).1 = .ok X' →
      X = X') ∧
    ∀ id zs Fs Fs',
      (getFieldFourier E c id zs (afterCalls E c hist (Dyn.fresh mats (unsolved c.nh)))).1 = .ok Fs →
      (getFieldFourier E c id zs (afterCalls E c hist' (Dyn.fresh mats' (unsolved c.nh)))).1 = .ok Fs' →
      Fs = Fs' := by
  have heff : effectiveNh nh (stack.all fun r => (mats' r).isUniform) =
      effectiveNh nh (stack.all fun r => (mats r).isUniform) := by
    rcases hnh with rfl | rfl | ⟨r, hr, hu⟩
    · have : ∀ b, effectiveNh 1 b = 2 := by decide
      rw [this, this]
    · have : ∀ b, effectiveNh 2 b = 2 := by decide
      rw [this, this]
    · have h1 : mats' r = mats r := by
        rcases hpix r hr with h1 | ⟨h1, -⟩
        · exact h1
        · rw [hu] at h1; simp at h1
      have e1 : (stack.all fun r => (mats r).isUniform) = false := by
        rw [List.all_eq_false]; exact ⟨r, hr, by simp [hu]⟩
      have e2 : (stack.all fun r => (mats' r).isUniform) = false := by
        rw [List.all_eq_false]; exact ⟨r, hr, by simp [h1, hu]⟩
      rw [e1, e2]
  have hinit' : simInit E lats mats' stack exc nh form = .ok c := by
    rw [simInit_congr (mats := mats) _ _ hhead heff, hinit]
    · intro r hr
      rcases hpix r hr with h1 | ⟨-, -, -, Nx, Ny, -, h1⟩ <;> rw [h1] <;> rfl
    · intro r hr
      rcases hpix r hr with h1 | ⟨-, -, -, Nx, Ny, -, h1⟩ <;> rw [h1] <;> rfl
  exact ⟨hinit', (PixelatedSome.sameMedia hpix hinit hE hw hmu hhead hlast).results hinit hinit' (omega_ne_zero hinit hp) hist hist'⟩

/-- **C58**. Two eigenvalue solvers may return the modes of a layer in another order, with another
normalisation and with another basis of degenerate modes.  Efficiencies and fields computed with either, whatever
was called before, are equal whenever both are returned. -/
theorem C58_results_do_not_depend_on_the_eigensolver (hinit : simInit E lats mats stack exc nh form = .ok c)
    (hE : EigContract E) (eig' : (n : ℕ) → Matrix (Idx n) (Idx n) ℂ →
      Except PyErr ((Idx n → ℂ) × Matrix (Idx n) (Idx n) ℂ)) (hE' : EigContract { E with eig := eig' })
    (hw : WellPlaced mats stack) (hmu : ∀ r ∈ stack, (mats r).mu = 1)
    (wl : ℝ) (ang : ℝ × ℝ × ℝ) (hp : planeWave wl ang = .ok exc) (hist hist' : List (Call c.nh)) :
    simInit { E with eig := eig' } lats mats stack exc nh form = .ok c ∧
    (∀ orders X X',
      (diffractionEfficiencies E c orders (afterCalls E c hist (Dyn.fresh mats (unsolved c.nh)))).1 = .ok X →
      (diffractionEfficiencies { E with eig := eig' } c orders
        (afterCalls { E with eig := eig' } c hist' (Dyn.fresh mats (unsolved c.nh)))).1 = .ok X' →
      X = X') ∧
    ∀ id zs Fs Fs',
      (getFieldFourier E c id zs (afterCalls E c hist (Dyn.fresh mats (unsolved c.nh)))).1 = .ok Fs →
      (getFieldFourier { E with eig := eig' } c id zs
        (afterCalls { E with eig := eig' } c hist' (Dyn.fresh mats (unsolved c.nh)))).1 = .ok Fs' →
      Fs = Fs' := by
  have hi := simInit_ok hinit
  have hst : c.stack = stack := hi.stack_eq
  have hinit' : simInit { E with eig := eig' } lats mats stack exc nh form = .ok c := hinit
  refine ⟨hinit', SameMedia.results ⟨hst ▸ hmu, hst ▸ hmu, hE, hE', hst ▸ hw, hst ▸ hw, fun _ _ => rfl, ?_, ?_, ?_⟩
    hinit hinit' (omega_ne_zero hinit hp) hist hist'⟩
  · intro r _ P e P' e' m m'
    exact Medium.unique m (Medium.congr_ext (E := E) (E' := { E with eig := eig' }) (fun _ => rfl) m')
  · intro r hr
    exact ⟨rfl, (hi.sup r (hst ▸ hr)).1⟩
  · intro r _
    exact .inl rfl

/-- **C58**. If the second solver returns modes whenever the first does, linearly independent if those of the
first are, then everything computed with the first is computed, with the same result, with the second. -/
theorem C58_another_eigensolver_returns_the_same (hinit : simInit E lats mats stack exc nh form = .ok c)
    (hE : EigContract E) (eig' : (n : ℕ) → Matrix (Idx n) (Idx n) ℂ →
      Except PyErr ((Idx n → ℂ) × Matrix (Idx n) (Idx n) ℂ)) (hE' : EigContract { E with eig := eig' })
    (hgood : ∀ n (M : Matrix (Idx n) (Idx n) ℂ) w v, E.eig n M = .ok (w, v) →
      ∃ w' v', eig' n M = .ok (w', v') ∧ (v.det ≠ 0 → v'.det ≠ 0))
    (hw : WellPlaced mats stack) (hmu : ∀ r ∈ stack, (mats r).mu = 1)
    (wl : ℝ) (ang : ℝ × ℝ × ℝ) (hp : planeWave wl ang = .ok exc) (hist hist' : List (Call c.nh)) :
    (∀ orders X,
      (diffractionEfficiencies E c orders (afterCalls E c hist (Dyn.fresh mats (unsolved c.nh)))).1 = .ok X →
      (diffractionEfficiencies { E with eig := eig' } c orders
        (afterCalls { E with eig := eig' } c hist' (Dyn.fresh mats (unsolved c.nh)))).1 = .ok X) ∧
    ∀ id z zs Fs,
      (getFieldFourier E c id (z :: zs) (afterCalls E c hist (Dyn.fresh mats (unsolved c.nh)))).1 = .ok Fs →
      (getFieldFourier { E with eig := eig' } c id (z :: zs)
        (afterCalls { E with eig := eig' } c hist' (Dyn.fresh mats (unsolved c.nh)))).1 = .ok Fs := by
  obtain ⟨-, h1, h2⟩ := C58_results_do_not_depend_on_the_eigensolver hinit hE eig' hE' hw hmu wl ang hp hist hist'
  have hi := simInit_ok hinit
  have hst : c.stack = stack := hi.stack_eq
  have hnd : c.stack.Nodup := hst ▸ hi.nodup
  have hom := omega_ne_zero hinit hp
  have hm : SameMedia E { E with eig := eig' } c mats mats := by
    refine ⟨hst ▸ hmu, hst ▸ hmu, hE, hE', hst ▸ hw, hst ▸ hw, fun _ _ => rfl, ?_, ?_, ?_⟩
    · intro r _ P e P' e' m m'
      exact Medium.unique m (Medium.congr_ext (E := E) (E' := { E with eig := eig' }) (fun _ => rfl) m')
    · intro r hr
      exact ⟨rfl, (hi.sup r (hst ▸ hr)).1⟩
    · intro r _
      exact .inl rfl
  constructor
  · intro o X hX
    obtain ⟨RT, e1, -⟩ := diffraction_eq hX
    obtain ⟨RT', e2⟩ := hm.efficiencies_succeed (fun _ => rfl) hgood hnd hom hist hist' e1
    obtain ⟨X', e3⟩ := diffraction_of (o := o) e2
    rw [e3, h1 o X X' hX e3]
  · intro id z zs Fs hF
    obtain ⟨Fs', e1⟩ := hm.fields_succeed (fun _ => rfl) hgood hnd hom hist hist' hF
    rw [e1, h2 id _ Fs Fs' hF e1]

namespace Examples

/-! ### Concrete cases -/

/-- A solver returning eigenvectors of another length. -/
noncomputable def exEig2 : (n : ℕ) → Matrix (Idx n) (Idx n) ℂ →
    Except PyErr ((Idx n → ℂ) × Matrix (Idx n) (Idx n) ℂ) := fun _ A => open Classical in
  if A = diagonal (fun i => A i i) then .ok (fun i => A i i, (2 : ℂ) • 1) else .error .linAlgError

theorem exEig2_contract : EigContract { exE with eig := exEig2 } := by
  intro n A w v h j
  unfold exEig2 at h
  dsimp only at h
  split at h
  · rename_i hA
    simp only [Except.ok.injEq, Prod.mk.injEq] at h
    obtain ⟨rfl, rfl⟩ := h
    refine ⟨fun i => ?_, j, by simp⟩
    have : ∑ k, A i k * ((2 : ℂ) • (1 : Matrix (Idx n) (Idx n) ℂ)) k j = 2 * A i j := by
      simpa [mul_apply] using congrFun (congrFun (Matrix.mul_smul A (2 : ℂ) 1) i) j
    rw [this]
    by_cases hij : i = j
    · subst hij; simp; ring
    · rw [hA]; simp [diagonal_apply_ne _ hij, one_apply_ne hij]
  · simp at h

/-- The hypotheses of C58 hold for the grating; the second solver, whose eigenvectors are twice those of the
first, gives the same efficiencies. -/
example : ∃ c, simInit exE (fun _ => exLat) slabMats [0, 1, 2] exExc 1 "original" = .ok c ∧
    ∀ hist hist', ∃ X, (diffractionEfficiencies exE c false
        (afterCalls exE c hist (Dyn.fresh slabMats (unsolved c.nh)))).1 = .ok X ∧
      (diffractionEfficiencies { exE with eig := exEig2 } c false
        (afterCalls { exE with eig := exEig2 } c hist' (Dyn.fresh slabMats (unsolved c.nh)))).1 = .ok X := by
  obtain ⟨c, hc, hn, hst, -, hfl⟩ := slab_init
  refine ⟨c, hc, fun hist hist' => ?_⟩
  obtain ⟨-, -, RT, hRT⟩ := slab_runs hc hn hst hfl hist
  obtain ⟨X, hX⟩ := diffraction_of (o := false) hRT
  refine ⟨X, hX, ?_⟩
  refine (C58_another_eigensolver_returns_the_same hc exE_eig exEig2 exEig2_contract ?_ slab_placed
    (fun r _ => slab_mu r) 1 (0, 0, 0) exExc_mk hist hist').1 false X hX
  intro n M w v h
  unfold exE at h
  unfold exEig2
  dsimp only at h ⊢
  split at h
  · rename_i hA
    rw [if_pos hA]
    exact ⟨_, _, rfl, fun _ => by rw [det_smul, det_one, mul_one]; exact pow_ne_zero _ two_ne_zero⟩
  · simp at h

/-- Air, a slab of permittivity 4, air. -/
noncomputable def flatMats : ℕ → LayerSpec := fun r =>
  if r = 1 then exLayer "Slab" (1 / 8) (NdArr.scalar (((2 : ℝ) ^ 2 : ℝ) : ℂ)) else slabMats r

/-- The same, the slab and the substrate being given by pixels. -/
noncomputable def pixMats : ℕ → LayerSpec := fun r =>
  if r = 1 then pixelated 4 1 (flatMats 1) else if r = 2 then pixelated 5 2 (flatMats 2) else flatMats r

theorem pixelated_index {L : LayerSpec} {n : ℝ} (hL : HasIndex L n) (he : L.epsilon = NdArr.scalar ((n ^ 2 : ℝ) : ℂ))
    {Nx Ny : ℕ} (hx : 0 < Nx) (hy : 0 < Ny) (h3 : [Nx, Ny] ≠ [3, 3]) : HasIndex (pixelated Nx Ny L) n := by
  refine ⟨hL.1, hL.2.1, .inr ⟨Nx, Ny, fun _ _ => L.epsilon.value, rfl, hx, hy, h3, ?_⟩⟩
  have hv : L.epsilon.value = ((n ^ 2 : ℝ) : ℂ) := by rw [he]; rfl
  have : (Nx : ℂ) ≠ 0 := by exact_mod_cast hx.ne'
  have : (Ny : ℂ) ≠ 0 := by exact_mod_cast hy.ne'
  simp only [hv, Finset.sum_const, Finset.card_univ, Fintype.card_fin, nsmul_eq_mul]
  field_simp

theorem flat_index (r : ℕ) : 0 < slabN r ∧ HasIndex (flatMats r) (slabN r) := by
  unfold flatMats
  by_cases h1 : r = 1
  · subst h1
    exact ⟨by norm_num [slabN], rfl, rfl, .inl (by simp [exLayer, slabN])⟩
  · rw [if_neg h1]; exact slab_index r

theorem pix_index (r : ℕ) : 0 < slabN r ∧ HasIndex (pixMats r) (slabN r) := by
  unfold pixMats
  by_cases h1 : r = 1
  · subst h1
    exact ⟨(flat_index 1).1, pixelated_index (flat_index 1).2 (by simp [flatMats, exLayer, slabN]) (by norm_num)
      (by norm_num) (by decide)⟩
  by_cases h2 : r = 2
  · subst h2
    exact ⟨(flat_index 2).1, pixelated_index (flat_index 2).2 (by simp [flatMats, slabMats, exLayer, slabN]) (by norm_num)
      (by norm_num) (by decide)⟩
  · simp only [h1, h2, if_false]; exact flat_index r

/-- The hypotheses of C19 hold for a slab and a substrate given by a number or by pixels, and efficiencies are
returned in both cases. -/
example : ∃ c, simInit exE (fun _ => exLat) flatMats [0, 1, 2] exExc 1 "original" = .ok c ∧
    WellPlaced flatMats [0, 1, 2] ∧ (∀ r ∈ [0, 1, 2], (flatMats r).mu = 1) ∧
    PixelatedSome flatMats pixMats [0, 1, 2] ∧ (∀ r, [0, 1, 2].head? = some r → pixMats r = flatMats r) ∧
    (∀ rN, [0, 1, 2].getLast? = some rN → pixMats rN = flatMats rN ∨ (0 ≤ (flatMats rN).epsilon.value.im ∧
      ∀ r0, [0, 1, 2].head? = some r0 → ∃ e : ℝ, 0 < e ∧ (flatMats r0).epsilon.value = e)) ∧
    pixMats 1 ≠ flatMats 1 ∧ pixMats 2 ≠ flatMats 2 ∧
    (diffractionEfficiencies exE c false (Dyn.fresh flatMats (unsolved c.nh))).1 = .ok (.total (9 / 25) (16 / 25)) ∧
    (diffractionEfficiencies exE c false (Dyn.fresh pixMats (unsolved c.nh))).1 = .ok (.total (9 / 25) (16 / 25)) := by
  obtain ⟨c, h1, hn, hst, h4, h5⟩ := exInit flatMats 0 [1, 2] 1 one_pos (by decide) (by decide) rfl rfl
  have hfl : c.incidentFlux ≠ 0 := by rw [h5]; norm_num
  have hnd : c.stack.Nodup := by rw [hst]; decide
  have hix := fun r => (flat_index r).2
  have run : ∀ mats : ℕ → LayerSpec, (∀ r, 0 < slabN r ∧ HasIndex (mats r) (slabN r)) →
      (mats 0).thickness = some 1 → (mats 1).thickness = some (1 / 8) → (mats 2).thickness = some 1 →
      (diffractionEfficiencies exE c false (Dyn.fresh mats (unsolved c.nh))).1 = .ok (.total (9 / 25) (16 / 25)) := by
    intro mats hi t0 t1 t2
    have := ex_efficiencies hn (mats := mats) slabN hnd (fun r _ => hi r)
      (t := 4 * Complex.I / 5) (x := 3 / 5) (r := 3 / 5) (y := 4 * Complex.I / 5) (by
        rw [hst, hn.omega]
        have := slab_02 (m := Idx c.nh)
        simpa [slabModes, slabN, t0, t1, t2] using this) (r0 := 0) (rN := 2) (by rw [hst]; rfl) (by rw [hst]; rfl) hfl
    rw [this, h5]
    norm_num [slabN]
  refine ⟨c, h1, ?_, fun r _ => (hix r).2.1, ?_, ?_, ?_, ?_, ?_, run _ flat_index ?_ ?_ ?_, run _ pix_index ?_ ?_ ?_⟩
  · intro k r _ hc
    rw [(hix r).1] at hc
    simp at hc
  · intro r hr
    simp only [List.mem_cons, List.not_mem_nil, or_false] at hr
    rcases hr with rfl | rfl | rfl
    · left; rfl
    · exact .inr ⟨rfl, rfl, rfl, 4, 1, by decide, rfl⟩
    · exact .inr ⟨rfl, rfl, rfl, 5, 2, by decide, rfl⟩
  · intro r hr
    simp only [List.head?_cons, Option.some.injEq] at hr
    subst hr; rfl
  · intro rN hr
    simp only [List.getLast?_cons_cons, List.getLast?_singleton, Option.some.injEq] at hr
    subst hr
    refine .inr ⟨by simp [flatMats, slabMats, exLayer, NdArr.scalar, NdArr.value], fun r0 hr0 => ?_⟩
    simp only [List.head?_cons, Option.some.injEq] at hr0
    subst hr0
    exact ⟨1, one_pos, by simp [flatMats, slabMats, exLayer, NdArr.scalar, NdArr.value]⟩
  · intro h
    have := congrArg (fun L => L.epsilon.shape) h
    simp [pixMats, flatMats, pixelated, exLayer, NdArr.ofGrid, NdArr.scalar] at this
  · intro h
    have := congrArg (fun L => L.epsilon.shape) h
    simp [pixMats, flatMats, slabMats, pixelated, exLayer, NdArr.ofGrid, NdArr.scalar] at this
  all_goals simp [pixMats, flatMats, slabMats, pixelated, exLayer]

/-! ### An amplifying substrate -/

/-- Air over a medium of permittivity `-2i` (of index `1 - i` or `-1 + i`). -/
noncomputable def gainMats : ℕ → LayerSpec := fun r =>
  if r = 0 then exLayer "Superstrate" 1 (NdArr.scalar (((1 : ℝ) ^ 2 : ℝ) : ℂ))
  else exLayer "Substrate" 1 (NdArr.scalar (-2 * Complex.I))

/-- The same, with pixels. -/
noncomputable def gainPix : ℕ → LayerSpec := fun r => if r = 1 then pixelated 4 1 (gainMats 1) else gainMats r

theorem gain_sq : ((1 : ℂ) - Complex.I) ^ 2 = -2 * Complex.I := by
  linear_combination Complex.I_sq

theorem gain_sqrt (om : ℝ) (h : 0 < om) : csqrt ((1 - Complex.I) ^ 2 * (om : ℂ) ^ 2) = (1 - Complex.I) * om := by
  rw [← mul_pow]
  have hs := csqrt_sq (((1 - Complex.I) * (om : ℂ)) ^ 2)
  rcases sq_eq_sq_iff_eq_or_eq_neg.mp hs with e | e
  · exact e
  · have := csqrt_re_nonneg (((1 - Complex.I) * (om : ℂ)) ^ 2)
    rw [e] at this
    simp at this
    linarith

/-- **C19**, limit. For an amplifying substrate a uniform layer and a constant pattern are not equivalent: the
first takes the index `1 - i`, the second `-1 + i`, and the reflections are 1/5 and 5. -/
theorem C19_amplifying_substrate : ∃ c,
    simInit exE (fun _ => exLat) gainMats [0, 1] exExc 1 "original" = .ok c ∧
    simInit exE (fun _ => exLat) gainPix [0, 1] exExc 1 "original" = .ok c ∧
    PixelatedSome gainMats gainPix [0, 1] ∧
    (∃ T, (diffractionEfficiencies exE c false (Dyn.fresh gainMats (unsolved c.nh))).1 = .ok (.total (1 / 5) T)) ∧
    (∃ T, (diffractionEfficiencies exE c false (Dyn.fresh gainPix (unsolved c.nh))).1 = .ok (.total 5 T)) := by
  obtain ⟨c, h1, hn, hst, h4, h5⟩ := exInit gainMats 0 [1] 1 one_pos (by decide) (by decide) rfl rfl
  have hfl : c.incidentFlux ≠ 0 := by rw [h5]; norm_num
  have hnd : c.stack.Nodup := by rw [hst]; decide
  have ho : 0 < c.omega := by rw [hn.omega]; positivity
  have hI : Complex.I * Complex.I = -1 := Complex.I_mul_I
  have hpix : PixelatedSome gainMats gainPix [0, 1] := by
    intro r hr
    simp only [List.mem_cons, List.not_mem_nil, or_false] at hr
    rcases hr with rfl | rfl
    · left; rfl
    · exact .inr ⟨rfl, rfl, rfl, 4, 1, by decide, rfl⟩
  have hne : (1 : ℂ) - Complex.I ≠ 0 := by
    intro h
    have := congrArg Complex.re h
    simp at this
  have run : ∀ (mats : ℕ → LayerSpec) (n : ℂ) (r : ℂ), HasIndex (mats 0) 1 → HasIndexC c.omega (mats 1) n →
      (mats 0).thickness = some 1 → (mats 1).thickness = some 1 → n + 1 ≠ 0 → r * (n + 1) = n - 1 →
      ∃ T, (diffractionEfficiencies exE c false (Dyn.fresh mats (unsolved c.nh))).1 = .ok (.total (‖r‖ ^ 2) T) := by
    intro mats n r hi0 hi1 t0 t1 hn1 hr
    have hn0 : n ≠ 0 := hi1.2.2.1
    obtain ⟨T, hT⟩ := ex_reflection hn (mats := mats) (fun s => if s = 0 then 1 else n) hnd
      (by
        intro s hs
        rw [hst] at hs
        simp only [List.mem_cons, List.not_mem_nil, or_false] at hs
        rcases hs with rfl | rfl
        · have := hi0.toC one_pos hn
          simpa using this
        · simpa using hi1)
      (t := 2 * n / (n + 1)) (x := -((n - 1) / (n + 1)) * Complex.exp (Complex.I * (n * c.omega) * ((1 : ℝ) : ℂ)))
      (r := r) (y := 2 / (n + 1) * Complex.exp (Complex.I * (n * c.omega) * ((1 : ℝ) : ℂ)))
      (by
        rw [hst]
        have e : (([0, 1] : List ℕ).length : ℤ) - 1 = ((0 + 1 : ℕ) : ℤ) := rfl
        rw [e]
        refine (freshS_ok (i := 0)).mpr ⟨by omega, loop_one rfl rfl ?_⟩
        dsimp only
        rw [if_pos rfl, if_neg one_ne_zero, t0, t1]
        have hD : (1 + 1 / n) / 2 ≠ 0 := by
          intro h
          apply hn1
          field_simp at h
          simpa using h
        rw [scal_step (f := 1) (f' := Complex.exp (Complex.I * (n * c.omega) * ((1 : ℝ) : ℂ)))
          hn.omega_ne one_ne_zero hn0 (some 1) (some 1) 1 0 0 1 (by rw [hn.omega]; exact exp_two_pi)
          rfl ((1 + 1 / n) / 2) (by ring) hD (2 * n / (n + 1))
          (-((n - 1) / (n + 1)) * Complex.exp (Complex.I * (n * c.omega) * ((1 : ℝ) : ℂ)))
          (by field_simp) (by field_simp; ring)]
        congr 1
        unfold sscal
        congr 2
        · rw [eq_div_of_mul_eq hn1 hr]
          field_simp; ring
        · field_simp; ring)
      (r0 := 0) (rN := 1) (by rw [hst]; rfl) (by rw [hst]; rfl) hfl one_pos (by simp)
    refine ⟨T, ?_⟩
    rw [hT, h5]
    norm_num
  refine ⟨c, h1, ?_, hpix, ?_, ?_⟩
  · rw [simInit_congr (mats := gainMats), h1]
    · intro r hr
      rcases hpix r hr with h1 | ⟨-, -, -, Nx, Ny, -, h1⟩ <;> rw [h1] <;> rfl
    · intro r hr
      rcases hpix r hr with h1 | ⟨-, -, -, Nx, Ny, -, h1⟩ <;> rw [h1] <;> rfl
    · intro r hr
      simp only [List.head?_cons, Option.some.injEq] at hr
      subst hr; rfl
    · decide
  · obtain ⟨T, hT⟩ := run gainMats (1 - Complex.I) ((1 - 2 * Complex.I) / 5) ⟨rfl, rfl, .inl rfl⟩
      ⟨rfl, rfl, hne, .inl ⟨by rw [gain_sq]; rfl, gain_sqrt _ ho⟩⟩ rfl rfl
      (by
        intro h
        have := congrArg Complex.re h
        simp at this)
      (by linear_combination (2 / 5 : ℂ) * hI)
    refine ⟨T, ?_⟩
    rw [hT]
    congr 2
    rw [← Complex.normSq_eq_norm_sq]
    simp [Complex.normSq_apply]
    norm_num
  · have hm : (∑ _i : Fin 4, ∑ _j : Fin 1, (gainMats 1).epsilon.value) / ((4 : ℕ) * (1 : ℕ) : ℂ) =
        (-1 + Complex.I) ^ 2 := by
      have hv : (gainMats 1).epsilon.value = -2 * Complex.I := rfl
      simp only [hv, Finset.sum_const, Finset.card_univ, Fintype.card_fin, nsmul_eq_mul]
      push_cast
      linear_combination -hI
    have hq : modeSqrt ((-1 + Complex.I) ^ 2 * (c.omega : ℂ) ^ 2) = (-1 + Complex.I) * c.omega := by
      unfold modeSqrt
      rw [show (-1 + Complex.I) ^ 2 = (1 - Complex.I) ^ 2 by ring, gain_sqrt _ ho]
      have : ((1 - Complex.I) * c.omega : ℂ).im < 0 := by simp [ho]
      rw [if_pos this]
      ring
    obtain ⟨T, hT⟩ := run gainPix (-1 + Complex.I) (1 + 2 * Complex.I) ⟨rfl, rfl, .inl rfl⟩
      ⟨rfl, rfl, by rw [show -1 + Complex.I = -(1 - Complex.I) by ring]; exact neg_ne_zero.mpr hne,
        .inr ⟨4, 1, fun _ _ => (gainMats 1).epsilon.value, rfl, by norm_num, by norm_num, by decide, hm, hq⟩⟩ rfl rfl
      (by simp)
      (by linear_combination (2 : ℂ) * hI)
    refine ⟨T, ?_⟩
    rw [hT]
    congr 2
    rw [← Complex.normSq_eq_norm_sq]
    simp [Complex.normSq_apply]
    norm_num

end Examples

end Nannos
