import Verif.Proofs.Tiled
import Verif.Proofs.SimilarInit

/-! Simulations of one structure with two cells, the second larger than the first. -/

namespace Nannos

open Matrix Spec

theorem exists_numbering_in {H H' : List (ℤ × ℤ)} (hn : H.Nodup) {f : ℤ × ℤ → ℤ × ℤ}
    (hf : ∀ g ∈ H, ∀ g' ∈ H, f g = f g' → g = g') (h : ∀ g ∈ H, f g ∈ H') :
    ∃ σ : Fin H.length → Fin H'.length, Function.Injective σ ∧ ∀ i, H'.get (σ i) = f (H.get i) := by
  have h1 : ∀ i : Fin H.length, ∃ j : Fin H'.length, H'.get j = f (H.get i) := fun i =>
    List.mem_iff_get.mp (h _ (List.get_mem H i))
  choose s hs using h1
  refine ⟨s, fun i j hij => ?_, hs⟩
  have := hs i
  rw [hij, hs j] at this
  exact (List.nodup_iff_injective_get.mp hn) (hf _ (List.get_mem H i) _ (List.get_mem H j) this.symm)

variable {E E' : Ext} {c c' : Static} {mats mats' : ℕ → LayerSpec}

/-- What two constructors need to have in common. -/
structure InitWithin (f : ℤ × ℤ → ℤ × ℤ) (E E' : Ext) (lats lats' : ℕ → Lattice) (mats mats' : ℕ → LayerSpec)
    (stack : List ℕ) (exc : PlaneWave) (nh nh' : ℤ) (form form' : String) (c c' : Static) : Prop where
  init : simInit E lats mats stack exc nh form = .ok c
  init' : simInit E' lats' mats' stack exc nh' form' = .ok c'
  eigc : EigContract E
  eigc' : EigContract E'
  placed : WellPlaced mats stack
  placed' : WellPlaced mats' stack
  mu : ∀ r ∈ stack, (mats r).mu = 1
  mu' : ∀ r ∈ stack, (mats' r).mu = 1
  nodup : c.harmonics.Nodup
  nodup' : c'.harmonics.Nodup
  zero : ((0 : ℤ), (0 : ℤ)) ∈ c.harmonics
  f0 : f (0, 0) = (0, 0)
  inj : ∀ g ∈ c.harmonics, ∀ g' ∈ c.harmonics, f g = f g' → g = g'
  orders : ∀ g ∈ c.harmonics, f g ∈ c'.harmonics
  wl : exc.wavelength ≠ 0
  lattice : ∀ r r', c.lattice.reciprocal = .ok r → c'.lattice.reciprocal = .ok r' → ∀ g ∈ c.harmonics,
    r' 0 0 * (f g).1 + r' 0 1 * (f g).2 = r 0 0 * g.1 + r 0 1 * g.2 ∧
    r' 1 0 * (f g).1 + r' 1 1 * (f g).2 = r 1 0 * g.1 + r 1 1 * g.2
  name : ∀ r ∈ stack, (mats' r).name = (mats r).name
  thick : ∀ r ∈ stack, (mats' r).thickness = (mats r).thickness
  unif : ∀ r ∈ stack, (mats' r).isUniform = (mats r).isUniform
  value : ∀ r ∈ stack, (mats r).isUniform = true → (mats' r).epsilon.value = (mats r).epsilon.value
  med : ∀ σ : Fin c.nh → Fin c'.nh, Function.Injective σ → (∀ i, c'.harmonics.get (σ i) = f (c.harmonics.get i)) →
    ∀ r ∈ stack, ∀ P e P' e', Medium E c mats r P e → Medium E' c' mats' r P' e' →
      P' * embU σ = embU σ * P ∧ e' * embD σ = embD σ * e

theorem InitWithin.within {f : ℤ × ℤ → ℤ × ℤ} {lats lats' stack exc nh nh' form form'}
    (h : InitWithin f E E' lats lats' mats mats' stack exc nh nh' form form' c c') :
    ∃ σ : Fin c.nh → Fin c'.nh, (∀ i, c'.harmonics.get (σ i) = f (c.harmonics.get i)) ∧
      MediaWithin σ E E' mats mats' := by
  obtain ⟨σ, hinj, hσ⟩ := exists_numbering_in h.nodup h.inj h.orders
  have hi := simInit_ok h.init
  have hi' := simInit_ok h.init'
  have hst : c.stack = stack := hi.stack_eq
  have hst' : c'.stack = stack := hi'.stack_eq
  obtain ⟨r, hr, kx, ky⟩ := hi.recip
  obtain ⟨r', hr', kx', ky'⟩ := hi'.recip
  obtain ⟨r0, hr0⟩ : ∃ r0, stack.head? = some r0 := by
    rcases hs : stack with _ | ⟨r0, tl⟩
    · exact absurd hs hi.ne
    · exact ⟨r0, rfl⟩
  have hr0m : r0 ∈ stack := List.mem_of_mem_head? hr0
  obtain ⟨s1, s2, s3, s4, s5⟩ := hi.sup r0 hr0
  obtain ⟨s1', s2', s3', s4', s5'⟩ := hi'.sup r0 hr0
  have hval := h.value r0 hr0m s1
  have hnsup : csqrt ((mats' r0).epsilon.value * (mats' r0).mu) = csqrt ((mats r0).epsilon.value * (mats r0).mu) := by
    rw [hval, h.mu r0 hr0m, h.mu' r0 hr0m]
  refine ⟨σ, hσ, ?_⟩
  refine ⟨hinj, hst ▸ h.mu, hst ▸ h.mu', h.eigc, h.eigc', hst'.trans hst.symm, hst ▸ h.placed, hst ▸ h.placed', ?_, ?_, ?_, ?_,
    ?_, ?_, ?_, ?_, ?_⟩
  · rw [hi.omega_eq, hi'.omega_eq]
  · intro i
    obtain ⟨l1, -⟩ := h.lattice r r' hr hr' _ (List.get_mem c.harmonics i)
    have l1C := congrArg (fun t : ℝ => (t : ℂ)) l1
    push_cast at l1C
    rw [kx', kx, hσ i, s5, s5', hnsup]
    unfold kxOf k0para
    dsimp only
    linear_combination l1C
  · intro i
    obtain ⟨-, l2⟩ := h.lattice r r' hr hr' _ (List.get_mem c.harmonics i)
    have l2C := congrArg (fun t : ℝ => (t : ℂ)) l2
    push_cast at l2C
    rw [ky', ky, hσ i, s5, s5', hnsup]
    unfold kyOf k0para
    dsimp only
    linear_combination l2C
  · exact fun r hr => h.thick r (hst ▸ hr)
  · exact fun r hr => h.med σ hinj hσ r (hst ▸ hr)
  · intro r hr
    rw [hst, hr0] at hr
    obtain rfl := Option.some.inj hr
    exact ⟨s1, s1', hval⟩
  · exact fun r hr => h.unif r (hst ▸ List.mem_of_getLast? hr)
  · have hzero' : ((0 : ℤ), (0 : ℤ)) ∈ c'.harmonics := by
      have := h.orders _ h.zero
      rwa [h.f0] at this
    obtain ⟨i0, hi0⟩ := List.mem_iff_get.mp h.zero
    have hz : ∀ i : Fin c.nh, ((σ i : ℕ) = c'.indexZerothOrder ↔ (i : ℕ) = c.indexZerothOrder) := by
      intro i
      rw [hi.idx, hi'.idx, zerothIndex_eq h.nodup h.zero, zerothIndex_eq h.nodup' hzero', hσ]
      constructor
      · intro hh
        exact h.inj _ (List.get_mem _ _) _ h.zero (hh.trans h.f0.symm)
      · intro hh
        rw [hh, h.f0]
    have hout : ∀ i' : Fin c'.nh, (∀ i, i' ≠ σ i) → (i' : ℕ) ≠ c'.indexZerothOrder := by
      intro i' hi2 hcon
      rw [hi'.idx, zerothIndex_eq h.nodup' hzero'] at hcon
      refine hi2 i0 ((List.nodup_iff_injective_get.mp h.nodup') ?_)
      rw [hσ i0, hcon, hi0, h.f0]
    funext k
    rcases k with i' | i'
    · rw [embU_inl, (hi'.a0 i').1]
      by_cases hi2 : ∃ i, i' = σ i
      · obtain ⟨i, rfl⟩ := hi2
        rw [embD_mulVec hinj, (hi.a0 i).1]
        simp only [hz]
      · push Not at hi2
        rw [embD_mulVec_out _ hi2, if_neg (hout i' hi2)]
    · rw [embU_inr, (hi'.a0 i').2]
      by_cases hi2 : ∃ i, i' = σ i
      · obtain ⟨i, rfl⟩ := hi2
        rw [embD_mulVec hinj, (hi.a0 i).2]
        simp only [hz]
      · push Not at hi2
        rw [embD_mulVec_out _ hi2, if_neg (hout i' hi2)]
  · rw [s4, s4', hnsup]

theorem FieldsWithin.among {f : ℤ × ℤ → ℤ × ℤ} {σ : Fin c.nh → Fin c'.nh} (hinj : Function.Injective σ)
    (hσ : ∀ i, c'.harmonics.get (σ i) = f (c.harmonics.get i)) (hn : c'.harmonics.Nodup) {F : FieldF c.nh} {F' : FieldF c'.nh}
    (h : FieldsWithin σ F F') : FieldsAmong f c c' F F' := by
  constructor
  · intro i j hij
    obtain rfl : j = σ i := (List.nodup_iff_injective_get.mp hn) (hij.trans (hσ i).symm)
    unfold eVec hVec
    simp only [h.hx, h.hy, h.hz, h.ex, h.ey, h.ez, embD_mulVec hinj]
    exact ⟨trivial, trivial⟩
  · intro j hj
    have hj' : ∀ i, j ≠ σ i := by
      rintro i rfl
      exact hj _ (List.get_mem c.harmonics i) (hσ i)
    unfold eVec hVec
    simp only [h.hx, h.hy, h.hz, h.ex, h.ey, h.ez, embD_mulVec_out _ hj']
    constructor <;> (ext k; fin_cases k <;> rfl)

/-- Results of the two simulations, each with its own history. -/
theorem InitWithin.results {f : ℤ × ℤ → ℤ × ℤ} {lats lats' stack exc nh nh' form form'}
    (h : InitWithin f E E' lats lats' mats mats' stack exc nh nh' form form' c c')
    (hist : List (Call c.nh)) (hist' : List (Call c'.nh)) :
    (∀ orders X X',
      (diffractionEfficiencies E c orders (afterCalls E c hist (Dyn.fresh mats (unsolved c.nh)))).1 = .ok X →
      (diffractionEfficiencies E' c' orders (afterCalls E' c' hist' (Dyn.fresh mats' (unsolved c'.nh)))).1 = .ok X' →
      EfficienciesAmong f c c' X X') ∧
    ∀ id zs Fs Fs',
      (getFieldFourier E c id zs (afterCalls E c hist (Dyn.fresh mats (unsolved c.nh)))).1 = .ok Fs →
      (getFieldFourier E' c' id zs (afterCalls E' c' hist' (Dyn.fresh mats' (unsolved c'.nh)))).1 = .ok Fs' →
      List.Forall₂ (FieldsAmong f c c') Fs Fs' := by
  obtain ⟨σ, hσ, hm⟩ := h.within
  have hinit := h.init
  have hinit' := h.init'
  have hst : c.stack = stack := (simInit_ok hinit).stack_eq
  have hst' : c'.stack = stack := (simInit_ok hinit').stack_eq
  have hom : c.omega ≠ 0 := by
    rw [(simInit_ok hinit).omega_eq]
    have := h.wl
    have := Real.pi_pos
    positivity
  have hnames : c'.layerNames = c.layerNames := by
    rw [(simInit_ok hinit).names_eq, (simInit_ok hinit').names_eq]
    exact List.map_congr_left h.name
  have hget : ∀ id, getLayer c' id = getLayer c id := by
    intro id
    unfold getLayer
    rw [hnames, hm.stack]
  constructor
  · intro o X X' hX hX'
    obtain ⟨RT, e1, rfl⟩ := diffraction_eq hX
    obtain ⟨RT', e1', rfl⟩ := diffraction_eq hX'
    obtain ⟨A, hA⟩ := efficiencies_of_history hinit
    obtain ⟨A', hA'⟩ := efficiencies_of_history hinit'
    obtain ⟨fx, v⟩ := hA _ _ e1
    obtain ⟨fx', v'⟩ := hA' _ _ e1'
    obtain ⟨key, zero⟩ := hm.efficiencies hom fx fx' v v'
    cases o
    · have hsum : ∀ (u : Fin c.nh → ℝ) (u' : Fin c'.nh → ℝ), (∀ i, u' (σ i) = u i) →
          (∀ i', (∀ i, i' ≠ σ i) → u' i' = 0) → ∑ i, u' i = ∑ i, u i := by
        intro u u' h1 h2
        symm
        refine Finset.sum_of_injOn σ hm.inj.injOn (fun _ _ => by simp) ?_ fun i _ => (h1 i).symm
        intro i' _ hi'
        refine h2 i' fun i hcon => hi' ⟨i, by simp, hcon.symm⟩
      exact ⟨hsum _ _ (fun i => (key i).1) fun i' hi => (zero i' hi).1,
        hsum _ _ (fun i => (key i).2) fun i' hi => (zero i' hi).2⟩
    · constructor
      · intro i j hij
        obtain rfl : j = σ i := (List.nodup_iff_injective_get.mp h.nodup') (hij.trans (hσ i).symm)
        exact key i
      · intro j hj
        refine zero j ?_
        rintro i rfl
        exact hj _ (List.get_mem c.harmonics i) (hσ i)
  · intro id zs Fs Fs' hF hF'
    rcases zs with _ | ⟨z0, zs⟩
    · obtain ⟨r, i, d1, ab, -, z2⟩ := getFieldFourier_run hF
      obtain ⟨r', i', d1', ab', -, z2'⟩ := getFieldFourier_run hF'
      rw [z2] at hF
      rw [z2'] at hF'
      rw [← Except.ok.inj hF, ← Except.ok.inj hF']
      exact .nil
    · obtain ⟨A, hA⟩ := fields_of_history hinit hm.eigc (hst ▸ hm.placed) (hst ▸ hm.mu)
      obtain ⟨A', hA'⟩ := fields_of_history hinit' hm.eigc' (hst ▸ hm.placed') (hst ▸ hm.mu')
      obtain ⟨fx, r, i, ab, g1, g2, -, M, t, F, g3, g4, g5, g6, g7, rfl⟩ := hA _ _ _ _ (by simp) hF
      obtain ⟨fx', r', i', ab', g1', g2', -, M', t', F', g3', g4', g5', g6', g7', rfl⟩ := hA' _ _ _ _ (by simp) hF'
      rw [hget] at g1'
      obtain ⟨rfl, rfl⟩ := Prod.mk.inj (Except.ok.inj (g1.symm.trans g1'))
      have hr : pyGet c.stack i = .ok r := getLayer_pyGet g1
      rw [List.forall₂_map_left_iff, List.forall₂_map_right_iff, List.forall₂_same]
      intro z _
      exact (hm.fields fx fx' hr g2 g2' g3 g3' (g6 z) (g6' _)).among hm.inj hσ h.nodup'

end Nannos
