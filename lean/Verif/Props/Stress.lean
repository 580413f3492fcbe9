import Verif.Proofs.Stress
import Verif.Proofs.AllForms
import Verif.Props.FieldGrid
import Verif.Props.Energy

/-!
Properties C61, C62: `get_z_stress_tensor_integral(layer, z)`.

Common hypotheses as for C29-C31.  The superstrate has a real positive permittivity `e0`, so that the transverse wave
vectors are real.
-/

namespace Nannos

open Matrix Spec

variable {E : Ext} {lats : ℕ → Lattice} {mats : ℕ → LayerSpec} {stack : List ℕ} {exc : PlaneWave} {nh : ℤ}
  {form : String} {c : Static}

/-- Whenever the fields can be retrieved, so can the stress. -/
theorem stress_fields (hinit : simInit E lats mats stack exc nh form = .ok c)
    (hE : EigContract E) (hw : WellPlaced mats stack) (hmu : ∀ r ∈ stack, (mats r).mu = 1)
    (hist : List (Call c.nh)) (id : LayerId) (z : ℝ) (Fs : List (FieldF c.nh))
    (h : (getFieldFourier E c id [z] (afterCalls E c hist (Dyn.fresh mats (unsolved c.nh)))).1 = .ok Fs) :
    ∃ r i P e F, getLayer c id = .ok (r, i) ∧ Medium E c mats r P e ∧ e.det ≠ 0 ∧
      Maxwell c.omega c.kx c.ky P e F ∧
      (∀ zs, (getFieldFourier E c id zs
        (afterCalls E c hist (Dyn.fresh mats (unsolved c.nh)))).1 = .ok (zs.map F)) ∧
      (∀ z', (getZStress E c id z' (afterCalls E c hist (Dyn.fresh mats (unsolved c.nh)))).1 = .ok (stress e (F z'))) := by
  obtain ⟨A1, res, hs, hA⟩ := fields_of_history_spec hinit hE hw hmu
  have h0 : Inv E c mats (unsolved c.nh) A1 res (Dyn.fresh mats (unsolved c.nh)) := inv_fresh _ (.inl rfl)
  have h1 := h0.calls hs hist
  have hA := hA hist
  generalize afterCalls E c hist (Dyn.fresh mats (unsolved c.nh)) = d at h h1 hA ⊢
  obtain ⟨-, r, i, ab, hg, -, ⟨P, e, g3, g4⟩, M, t, F, g5, g6, g7, g8, g9, -⟩ := hA id [z] Fs (by simp) h
  have hrun : ∀ z, getZStress E c id z d = (match getFieldFourier E c id [z] d with
      | (.ok [F], d') => (stressOf c (d'.mats r) (d'.attrs r) F, d')
      | (.ok _, d') => (.error .indexError, d')
      | (.error e, d') => (.error e, d')) := by
    intro z
    unfold getZStress
    simp only [PyM.bind_def, PyM.lift, PyM.get, hg, getFieldFourier_idx hg]
    rcases getFieldFourier E c id [z] d with ⟨_ | Fs, d'⟩
    · rfl
    · rcases Fs with _ | ⟨F, _ | ⟨_, _⟩⟩ <;> rfl
  refine ⟨r, i, P, e, F, hg, g3, g4.det, maxwell_of_spec g4 g5 g7 g8, g9, fun z' => ?_⟩
  rw [hrun]
  rcases hf' : getFieldFourier E c id [z'] d with ⟨x, d''⟩
  have := g9 [z']
  rw [hf'] at this
  dsimp only at this
  subst this
  obtain ⟨k1, -⟩ := yields_getFieldFourier hs id [z'] d _ d'' h1 hf'
  dsimp only [List.map]
  rw [k1.mats_eq, k1.attrs_eq, stressOf_eq g4 (g8 z')]

/-- What a successful call establishes. -/
theorem stress_history (hinit : simInit E lats mats stack exc nh form = .ok c)
    (hE : EigContract E) (hw : WellPlaced mats stack) (hmu : ∀ r ∈ stack, (mats r).mu = 1)
    (hist : List (Call c.nh)) (id : LayerId) (z : ℝ) (T : ℝ × ℝ × ℝ)
    (h : (getZStress E c id z (afterCalls E c hist (Dyn.fresh mats (unsolved c.nh)))).1 = .ok T) :
    ∃ r i P e F, getLayer c id = .ok (r, i) ∧ Medium E c mats r P e ∧ e.det ≠ 0 ∧
      Maxwell c.omega c.kx c.ky P e F ∧
      (∀ zs, (getFieldFourier E c id zs
        (afterCalls E c hist (Dyn.fresh mats (unsolved c.nh)))).1 = .ok (zs.map F)) ∧
      (∀ z', (getZStress E c id z' (afterCalls E c hist (Dyn.fresh mats (unsolved c.nh)))).1 = .ok (stress e (F z'))) := by
  rcases hg : getLayer c id with e | ⟨r, i⟩
  · simp [getZStress, PyM.bind_def, PyM.lift, hg] at h
  rcases hf : getFieldFourier E c id [z] (afterCalls E c hist (Dyn.fresh mats (unsolved c.nh))) with ⟨e | Fs, d'⟩
  · unfold getZStress at h
    simp only [PyM.bind_def, PyM.lift, PyM.get, hg, getFieldFourier_idx hg, hf] at h
    simp at h
  · exact hg ▸ stress_fields hinit hE hw hmu hist id z Fs (by rw [hf])

theorem medium_uniform {r P e} (hm : Medium E c mats r P e) (hc : (mats r).iscopy = false)
    (hu : (mats r).isUniform = true) : P = (mats r).epsilon.value • 1 ∧ e = (mats r).epsilon.value • 1 := by
  cases hm with
  | uniform => exact ⟨rfl, rfl⟩
  | patterned _ M p Q hc' hb =>
    exfalso
    unfold buildPure at hb
    simp only [hu, if_true] at hb
    split_ifs at hb <;> simp at hb
  | copy _ _ _ hc' => rw [hc] at hc'; simp at hc'

theorem real_k (hi : InitSpec E lats mats stack exc nh form c) {e0 : ℝ} (hpos : 0 < e0)
    (hsup : ∀ r0, stack.head? = some r0 → (mats r0).epsilon.value = (e0 : ℂ) ∧ (mats r0).mu = 1) :
    (∀ i, star (c.kx i) = c.kx i) ∧ ∀ i, star (c.ky i) = c.ky i := by
  obtain ⟨r0, hr0⟩ : ∃ r0, stack.head? = some r0 := by
    rcases h : stack.head? with _ | r0
    · exact absurd (List.head?_eq_none_iff.mp h) hi.ne
    · exact ⟨r0, rfl⟩
  obtain ⟨-, -, -, -, hk0⟩ := hi.sup r0 hr0
  rw [(hsup r0 hr0).2, mul_one, (hsup r0 hr0).1, csqrt_ofReal hpos.le] at hk0
  obtain ⟨r, -, hkx, hky⟩ := hi.recip
  constructor
  · intro i
    rw [hkx, hk0]
    simp [kxOf, k0para]
  · intro i
    rw [hky, hk0]
    simp [kyOf, k0para]

/-- **C61**, what is returned: the components `xz`, `yz`, `zz` of Maxwell's stress tensor of the fields that
`get_field_fourier` returns at that depth, for the convolution matrix `e` of the permittivity of the layer; the first
two are those of photons: every order carries the momentum `kx / omega`, `ky / omega` per energy. -/
theorem C61_stress_tensor (hinit : simInit E lats mats stack exc nh form = .ok c)
    (hE : EigContract E) (hw : WellPlaced mats stack) (hmu : ∀ r ∈ stack, (mats r).mu = 1)
    (hwl : 0 < exc.wavelength) (e0 : ℝ) (hpos : 0 < e0)
    (hsup : ∀ r0, stack.head? = some r0 → (mats r0).epsilon.value = (e0 : ℂ))
    (hist : List (Call c.nh)) (id : LayerId) (z : ℝ) (T : ℝ × ℝ × ℝ)
    (h : (getZStress E c id z (afterCalls E c hist (Dyn.fresh mats (unsolved c.nh)))).1 = .ok T) :
    ∃ r i P e F, getLayer c id = .ok (r, i) ∧ Medium E c mats r P e ∧
      (getFieldFourier E c id [z] (afterCalls E c hist (Dyn.fresh mats (unsolved c.nh)))).1 = .ok [F] ∧
      T = stress e F ∧
      T.1 = -∑ i, (c.kx i).re / c.omega * Spec.orderFlux F i ∧ T.2.1 = -∑ i, (c.ky i).re / c.omega * Spec.orderFlux F i := by
  have hi := simInit_ok hinit
  obtain ⟨hkx, hky⟩ := real_k hi hpos fun r0 hr0 => ⟨hsup r0 hr0, hmu r0 (List.mem_of_mem_head? hr0)⟩
  have hom : c.omega ≠ 0 := by rw [hi.omega_eq]; positivity
  obtain ⟨r, i, P, e, F, h1, h2, -, h4, h5, h6⟩ := stress_history hinit hE hw hmu hist id z T h
  have hT : T = stress e (F z) := Except.ok.inj (h.symm.trans (h6 z))
  obtain ⟨s1, s2⟩ := stress_lateral hkx hky hom h4 z
  exact ⟨r, i, P, e, F z, h1, h2, h5 [z], hT, by rw [hT]; exact s1, by rw [hT]; exact s2⟩

/-- **C61**, uniform layers: if the permittivity is real, the result does not depend on the depth. -/
theorem C61_uniform_layers (hinit : simInit E lats mats stack exc nh form = .ok c)
    (hE : EigContract E) (hw : WellPlaced mats stack) (hmu : ∀ r ∈ stack, (mats r).mu = 1)
    (hwl : 0 < exc.wavelength) (e0 : ℝ) (hpos : 0 < e0)
    (hsup : ∀ r0, stack.head? = some r0 → (mats r0).epsilon.value = (e0 : ℂ))
    (hist : List (Call c.nh)) (id : LayerId) (r : ℕ) (i : ℤ) (hl : getLayer c id = .ok (r, i))
    (hu : (mats r).isUniform = true) (hreal : (mats r).epsilon.value.im = 0) (z : ℝ) (T : ℝ × ℝ × ℝ)
    (h : (getZStress E c id z (afterCalls E c hist (Dyn.fresh mats (unsolved c.nh)))).1 = .ok T) :
    ∀ z', (getZStress E c id z' (afterCalls E c hist (Dyn.fresh mats (unsolved c.nh)))).1 = .ok T := by
  have hi := simInit_ok hinit
  obtain ⟨hkx, hky⟩ := real_k hi hpos fun r0 hr0 => ⟨hsup r0 hr0, hmu r0 (List.mem_of_mem_head? hr0)⟩
  have hom : c.omega ≠ 0 := by rw [hi.omega_eq]; positivity
  obtain ⟨r', i', P, e, F, h1, h2, hdet, h4, h5, h6⟩ := stress_history hinit hE hw hmu hist id z T h
  rw [hl] at h1
  obtain ⟨rfl, rfl⟩ := Prod.mk.inj (Except.ok.inj h1)
  have hrm : r ∈ stack := hi.stack_eq ▸ getLayer_mem hl
  have hc : (mats r).iscopy = false := by
    by_contra hcc
    rw [Bool.not_eq_false] at hcc
    obtain ⟨k, hk⟩ := List.getElem?_of_mem hrm
    have := (hw k r hk hcc).2.1
    rw [hu] at this
    cases this
  obtain ⟨rfl, rfl⟩ := medium_uniform h2 hc hu
  obtain ⟨x, hx⟩ : ∃ x : ℝ, (mats r).epsilon.value = x := ⟨_, Complex.ext rfl (by simpa using hreal)⟩
  rw [hx] at h4 h6 hdet
  have hT : T = stress _ (F z) := Except.ok.inj (h.symm.trans (h6 z))
  have flux : ∀ z', ∀ i, Spec.orderFlux (F z') i = Spec.orderFlux (F z) i := fun z' i =>
    is_const_of_deriv_eq_zero (fun y => (orderFlux_deriv hkx hky h4 i y).differentiableAt)
      (fun y => (orderFlux_deriv hkx hky h4 i y).deriv) z' z
  have hP : ((x : ℂ) • (1 : Matrix (Idx c.nh) (Idx c.nh) ℂ)) =
      fromBlocks ((x : ℂ) • (1 : Matrix (Fin c.nh) (Fin c.nh) ℂ)) 0 0 ((x : ℂ) • 1) := by
    rw [← fromBlocks_one, fromBlocks_smul]; simp
  have he : ((x : ℂ) • (1 : Matrix (Fin c.nh) (Fin c.nh) ℂ)).IsHermitian := by
    ext a b
    by_cases hab : a = b
    · subst hab; simp
    · simp [one_apply, hab, Ne.symm hab]
  have he' : ((x : ℂ) • (1 : Matrix (Idx c.nh) (Idx c.nh) ℂ)).IsHermitian := by
    rw [hP]; exact he.fromBlocks (by simp) he
  have nrm : ∀ z', (stress _ (F z')).2.2 = (stress _ (F z)).2.2 := fun z' => by
    have := is_const_of_deriv_eq_zero (fun y => (stress_normal_deriv hkx hky hom he' he hdet h4 y).differentiableAt)
      (fun y => (stress_normal_deriv hkx hky hom he' he hdet h4 y).deriv) z' z
    simpa [hP] using this
  intro z'
  rw [h6, hT]
  congr 1
  obtain ⟨s1, s2⟩ := stress_lateral hkx hky hom h4 z
  obtain ⟨t1, t2⟩ := stress_lateral hkx hky hom h4 z'
  refine Prod.ext ?_ (Prod.ext ?_ (nrm z'))
  · rw [s1, t1]; simp only [flux z']
  · rw [s2, t2]; simp only [flux z']

theorem herm_of_form {m : Type} [Fintype m] [DecidableEq m] {A : Matrix m m ℂ} (h : Form {0} A) : A.IsHermitian := by
  have h' : ∀ v : m → ℂ, (star v ⬝ᵥ A *ᵥ v).im = 0 := fun v => h v
  have e : ∀ (i j : m) (t : ℂ), star (Pi.single i 1 + Pi.single j t) ⬝ᵥ A *ᵥ (Pi.single i 1 + Pi.single j t) =
      A i i + A i j * t + star t * A j i + star t * A j j * t := by
    intro i j t
    simp [mulVec_add, add_dotProduct, dotProduct_add, ← Pi.single_star, mul_add]
    ring
  have d : ∀ i, (A i i).im = 0 := by
    intro i
    have := h' (Pi.single i 1)
    simpa [← Pi.single_star] using this
  ext i j
  have h1 := h' (Pi.single j 1 + Pi.single i 1)
  have h2 := h' (Pi.single j 1 + Pi.single i Complex.I)
  rw [e] at h1 h2
  have d1 := d i
  have d2 := d j
  simp at h1 h2
  rw [d1, d2] at h1 h2
  simp only [conjTranspose_apply, Complex.star_def]
  apply Complex.ext
  · simp; linarith
  · simp; linarith

theorem medium_original (hform : c.formulation = "original") (hw : WellPlaced mats stack)
    (hmu : ∀ r ∈ stack, (mats r).mu = 1) {r P e} (hm : Medium E c mats r P e) :
    r ∈ stack → (mats r).isAnisotropic = false → P = fromBlocks e 0 0 e := by
  induction hm with
  | uniform r hc hu ha =>
    intro _ _
    rw [← fromBlocks_one, fromBlocks_smul]; simp
  | patterned r M p Q hc hb =>
    intro hr ha
    obtain ⟨-, -, -, -, -, -, -, zz, para, eph, Ht, n, h1, h2, h3, h4, -, h5⟩ :=
      buildPure_patterned_ok (hmu r hr) hb
    unfold paraOf at h3
    rw [if_neg (by rw [ha]; simp)] at h3
    simp only [except_pure_eq_ok, Except.ok.injEq] at h3
    subst h3
    unfold epsParaHatOf at h4
    unfold pepsOf at h5
    rw [if_pos hform] at h5
    simp only [except_pure_eq_ok, Except.ok.injEq] at h4 h5
    rw [← h5, ← h4]
    rfl
  | copy r P e hc ho ih =>
    intro hr ha
    obtain ⟨k, hk⟩ := List.getElem?_of_mem hr
    obtain ⟨⟨j, -, hj⟩, -, he⟩ := hw k r hk hc
    refine ih (List.mem_of_getElem? hj) ?_
    unfold LayerSpec.isAnisotropic at ha ⊢
    rw [← he]; exact ha

/-- **C62**, exact law: in a lossless layer (formulation `original`, or a mono-periodic lattice) the normal component changes
with the depth exactly as half the difference between the tangential energies for the operator `P` which the fields obey and
for the convolution matrix `e` from which the stress is computed. -/
theorem C62_normal_stress (hinit : simInit E lats mats stack exc nh form = .ok c)
    (hE : EigContract E) (hw : WellPlaced mats stack) (hmu : ∀ r ∈ stack, (mats r).mu = 1)
    (hwl : 0 < exc.wavelength) (e0 : ℝ) (hpos : 0 < e0)
    (hsup : ∀ r0, stack.head? = some r0 → (mats r0).epsilon.value = (e0 : ℂ))
    (hform : form = "original" ∨ c.lattice.is1D = true ∨ (c.harmonics.Nodup ∧ ∀ r ∈ stack, (mats r).isUniform = false →
      (mats r).isAnisotropic = false ∧ ConstantVectorsUsed E c (mats r)))
    (hist : List (Call c.nh)) (id : LayerId) (r : ℕ) (i : ℤ) (hl : getLayer c id = .ok (r, i))
    (hloss : Lossless (mats r)) (P : Matrix (Idx c.nh) (Idx c.nh) ℂ) (e : Matrix (Fin c.nh) (Fin c.nh) ℂ)
    (hm : Medium E c mats r P e) (z z' : ℝ) (T T' : ℝ × ℝ × ℝ) (F F' : FieldF c.nh)
    (h : (getZStress E c id z (afterCalls E c hist (Dyn.fresh mats (unsolved c.nh)))).1 = .ok T)
    (h' : (getZStress E c id z' (afterCalls E c hist (Dyn.fresh mats (unsolved c.nh)))).1 = .ok T')
    (hF : (getFieldFourier E c id [z, z'] (afterCalls E c hist (Dyn.fresh mats (unsolved c.nh)))).1 = .ok [F, F']) :
    T'.2.2 - T.2.2 = (tangentialEnergy P F' - tangentialEnergy (fromBlocks e 0 0 e) F') / 2 -
      (tangentialEnergy P F - tangentialEnergy (fromBlocks e 0 0 e) F) / 2 := by
  have hi := simInit_ok hinit
  obtain ⟨hkx, hky⟩ := real_k hi hpos fun r0 hr0 => ⟨hsup r0 hr0, hmu r0 (List.mem_of_mem_head? hr0)⟩
  have hom : c.omega ≠ 0 := by rw [hi.omega_eq]; positivity
  obtain ⟨r', i', P', e', G, h1, h2, hdet, h4, h5, h6⟩ := stress_history hinit hE hw hmu hist id z T h
  rw [hl] at h1
  obtain ⟨rfl, rfl⟩ := Prod.mk.inj (Except.ok.inj h1)
  have hrm : r ∈ stack := hi.stack_eq ▸ getLayer_mem hl
  obtain ⟨rfl, rfl⟩ := Medium.unique hm h2
  obtain ⟨f1, f2⟩ := all_forms lossCone_zero hinit hw hform hrm hloss h2
  have hP := herm_of_form f1
  have he := herm_of_form f2
  have hT : T = stress e (G z) := Except.ok.inj (h.symm.trans (h6 z))
  have hT' : T' = stress e (G z') := Except.ok.inj (h'.symm.trans (h6 z'))
  have hG := (Except.ok.inj (hF.symm.trans (h5 [z, z'])))
  simp only [List.map_cons, List.map_nil, List.cons.injEq, and_true] at hG
  obtain ⟨rfl, rfl⟩ := hG
  have := is_const_of_deriv_eq_zero (fun y => (stress_normal_deriv hkx hky hom hP he hdet h4 y).differentiableAt)
      (fun y => (stress_normal_deriv hkx hky hom hP he hdet h4 y).deriv) z' z
  rw [hT, hT']
  linarith

/-- **C62**, formulation `original`, isotropic pattern: the normal component does not depend on the depth. -/
theorem C62_normal_stress_original_partial (hinit : simInit E lats mats stack exc nh "original" = .ok c)
    (hE : EigContract E) (hw : WellPlaced mats stack) (hmu : ∀ r ∈ stack, (mats r).mu = 1)
    (hwl : 0 < exc.wavelength) (e0 : ℝ) (hpos : 0 < e0)
    (hsup : ∀ r0, stack.head? = some r0 → (mats r0).epsilon.value = (e0 : ℂ))
    (hist : List (Call c.nh)) (id : LayerId) (r : ℕ) (i : ℤ) (hl : getLayer c id = .ok (r, i))
    (ha : (mats r).isAnisotropic = false) (hloss : Lossless (mats r)) (z : ℝ) (T : ℝ × ℝ × ℝ)
    (h : (getZStress E c id z (afterCalls E c hist (Dyn.fresh mats (unsolved c.nh)))).1 = .ok T) (z' : ℝ) :
    ∃ T', (getZStress E c id z' (afterCalls E c hist (Dyn.fresh mats (unsolved c.nh)))).1 = .ok T' ∧ T'.2.2 = T.2.2 := by
  have hi := simInit_ok hinit
  obtain ⟨r', i', P, e, F, h1, h2, -, -, h5, h6⟩ := stress_history hinit hE hw hmu hist id z T h
  rw [hl] at h1
  obtain ⟨rfl, rfl⟩ := Prod.mk.inj (Except.ok.inj h1)
  have hrm : r ∈ stack := hi.stack_eq ▸ getLayer_mem hl
  have hP := medium_original hi.form_eq hw hmu h2 hrm ha
  refine ⟨_, h6 z', ?_⟩
  have := C62_normal_stress hinit hE hw hmu hwl e0 hpos hsup (.inl rfl) hist id r i hl hloss P e h2 z z' T _ _ _ h (h6 z')
    (h5 [z, z'])
  rw [hP] at this
  linarith

/-- **C61**, interfaces: the first two components retrieved at the bottom of layer `k` equal those retrieved at the top
of layer `k + 1`: there is no lateral force on an interface. -/
theorem C61_interfaces (hinit : simInit E lats mats stack exc nh form = .ok c)
    (hE : EigContract E) (hw : WellPlaced mats stack) (hmu : ∀ r ∈ stack, (mats r).mu = 1)
    (hist hist' : List (Call c.nh)) (k : ℕ) (r r' : ℕ) (hr : stack[k]? = some r)
    (hr' : stack[k + 1]? = some r') (t : ℝ) (ht : (mats r).thickness = some t) (T T' : ℝ × ℝ × ℝ)
    (h : (getZStress E c (.idx k) t (afterCalls E c hist (Dyn.fresh mats (unsolved c.nh)))).1 = .ok T)
    (h' : (getZStress E c (.idx (k + 1 : ℕ)) 0
      (afterCalls E c hist' (Dyn.fresh mats (unsolved c.nh)))).1 = .ok T') :
    T.1 = T'.1 ∧ T.2.1 = T'.2.1 := by
  obtain ⟨s, i, P, e, F, h1, h2, -, -, h5, h6⟩ := stress_history hinit hE hw hmu hist _ t T h
  obtain ⟨s', i', P', e', F', h1', h2', -, -, h5', h6'⟩ := stress_history hinit hE hw hmu hist' _ 0 T' h'
  have hT : T = stress e (F t) := Except.ok.inj (h.symm.trans (h6 t))
  have hT' : T' = stress e' (F' 0) := Except.ok.inj (h'.symm.trans (h6' 0))
  obtain ⟨c1, c2, c3, c4, c5, -, -, c6⟩ := C29_fields_are_continuous hinit hE hw hmu hist hist' k r r' hr hr' t ht _ _
    (h5 [t]) (h5' [0])
  have hst : c.stack = stack := (simInit_ok hinit).stack_eq
  have gl : ∀ (j s : ℕ), c.stack[j]? = some s → getLayer c (.idx (j : ℤ)) = .ok (s, (j : ℤ)) := by
    intro j s hj
    unfold getLayer
    dsimp only
    rw [(pyGet_nat c.stack j s).mpr hj]
    rfl
  rw [gl k r (hst ▸ hr)] at h1
  rw [gl (k + 1) r' (hst ▸ hr')] at h1'
  obtain ⟨rfl, -⟩ := Prod.mk.inj (Except.ok.inj h1)
  obtain ⟨rfl, -⟩ := Prod.mk.inj (Except.ok.inj h1')
  have c7 := c6 P e P' e' h2 h2'
  rw [hT, hT']
  unfold stress
  dsimp only
  rw [c1, c2, c3, c4, c5, c7]
  exact ⟨rfl, rfl⟩

/-- C61, C62 on the grating: after any history, the stress is computed at all depths of the grating and of the substrate;
its normal component is the same everywhere in the grating, its other components are the same on both sides of the
lower interface, and in the substrate nothing changes with the depth. -/
example : ∃ c, simInit Examples.exE (fun _ => Examples.exLat) Examples.slabMats [0, 1, 2] Examples.exExc 1 "original" = .ok c ∧
    ∃ T T' : ℝ × ℝ × ℝ,
    (getZStress Examples.exE c (.idx (1 : ℕ)) (1 / 8)
      (afterCalls Examples.exE c [.solve] (Dyn.fresh Examples.slabMats (unsolved c.nh)))).1 = .ok T ∧
    (getZStress Examples.exE c (.idx (1 + 1 : ℕ)) 0
      (afterCalls Examples.exE c [.solve] (Dyn.fresh Examples.slabMats (unsolved c.nh)))).1 = .ok T' ∧
    T.1 = T'.1 ∧
    (∀ z, ∃ T'', (getZStress Examples.exE c (.idx (1 : ℕ)) z
      (afterCalls Examples.exE c [.solve] (Dyn.fresh Examples.slabMats (unsolved c.nh)))).1 = .ok T'' ∧ T''.2.2 = T.2.2) ∧
    ∀ z, (getZStress Examples.exE c (.idx (1 + 1 : ℕ)) z
      (afterCalls Examples.exE c [.solve] (Dyn.fresh Examples.slabMats (unsolved c.nh)))).1 = .ok T' := by
  obtain ⟨c, h0, -, hst, -⟩ := Examples.slab_init
  obtain ⟨c1, F, h1, h2, h3, h4, h5⟩ := Examples.slab_retrieval (fun _ => [.solve]) 1 (by norm_num)
  obtain ⟨c2, F', h1', -, -, -, h5'⟩ := Examples.slab_retrieval (fun _ => [.solve]) 2 (by norm_num)
  obtain rfl : c = c1 := Except.ok.inj (h0.symm.trans h1)
  obtain rfl : c = c2 := Except.ok.inj (h0.symm.trans h1')
  have hsup : ∀ r0, ([0, 1, 2] : List ℕ).head? = some r0 → (Examples.slabMats r0).epsilon.value = ((1 : ℝ) : ℂ) := by
    intro r0 h
    obtain rfl : 0 = r0 := by simpa using h
    simp [Examples.slabMats, Examples.exLayer, NdArr.scalar, NdArr.value]
  have hgl : ∀ k : ℕ, k < 3 → getLayer c (.idx k) = .ok (k, (k : ℤ)) := by
    intro k hk
    unfold getLayer
    dsimp only
    rw [hst]
    interval_cases k <;> rfl
  have hwl : 0 < Examples.exExc.wavelength := by simp [Examples.exExc]
  obtain ⟨_, _, _, _, _, -, -, -, -, -, hT⟩ := stress_fields h1 h2 h3 h4 [.solve] (.idx (1 : ℕ)) (1 / 8) _ (h5 [1 / 8])
  obtain ⟨_, _, _, _, _, -, -, -, -, -, hT'⟩ := stress_fields h1 h2 h3 h4 [.solve] (.idx (1 + 1 : ℕ)) 0 _ (h5' [0])
  refine ⟨c, h0, _, _, hT _, hT' _, ?_, fun z => ?_, fun z => ?_⟩
  · exact (C61_interfaces h1 h2 h3 h4 [.solve] [.solve] 1 1 2 rfl rfl (1 / 8)
      (by simp [Examples.slabMats, Examples.exLayer]) _ _ (hT _) (hT' _)).1
  · exact C62_normal_stress_original_partial h1 h2 h3 h4 hwl 1 one_pos hsup [.solve] _ 1 1 (hgl 1 (by norm_num))
      (by simp [Examples.slabMats, Examples.exLayer, LayerSpec.isAnisotropic, NdArr.ofGrid, isAnisotropic])
      (slab_lossless {0} rfl 1 1 (by norm_num) (by norm_num) rfl).1 _ _ (hT _) z
  · exact C61_uniform_layers h1 h2 h3 h4 hwl 1 one_pos hsup [.solve] _ 2 2 (hgl 2 (by norm_num))
      rfl
      (by simp [Examples.slabMats, Examples.exLayer, NdArr.scalar, NdArr.value]) _ _ (hT' _) z

end Nannos
