import Verif.Proofs.SimilarSim
import Verif.Spec.Symmetry

/-! Results of simulations with similar media, whatever was called before. -/

namespace Nannos

open Matrix Spec

/-- Numbering of the orders of the second simulation. -/
theorem exists_numbering {H H' : List (ℤ × ℤ)} (hn : H.Nodup) (hn' : H'.Nodup) {f : ℤ × ℤ → ℤ × ℤ}
    (hf : Function.Injective f) (h : ∀ g', g' ∈ H' ↔ ∃ g ∈ H, g' = f g) :
    ∃ σ : Fin H.length ≃ Fin H'.length, ∀ i, H'.get (σ i) = f (H.get i) := by
  have h1 : ∀ i : Fin H.length, ∃ j : Fin H'.length, H'.get j = f (H.get i) := by
    intro i
    have := (h (f (H.get i))).mpr ⟨_, List.get_mem H i, rfl⟩
    rw [List.mem_iff_get] at this
    exact this
  choose s hs using h1
  have hinj : Function.Injective s := by
    intro i j hij
    have := hs i
    rw [hij, hs j] at this
    exact (List.nodup_iff_injective_get.mp hn) (hf this.symm)
  have hsur : Function.Surjective s := by
    intro j
    obtain ⟨g, hg, he⟩ := (h (H'.get j)).mp (List.get_mem H' j)
    obtain ⟨i, rfl⟩ := List.mem_iff_get.mp hg
    refine ⟨i, (List.nodup_iff_injective_get.mp hn') ?_⟩
    rw [hs, he]
  exact ⟨Equiv.ofBijective s ⟨hinj, hsur⟩, hs⟩

theorem zerothIndex_eq {H : List (ℤ × ℤ)} (hn : H.Nodup) (h0 : ((0 : ℤ), (0 : ℤ)) ∈ H) (i : Fin H.length) :
    (i : ℕ) = zerothIndex H ↔ H.get i = (0, 0) := by
  unfold zerothIndex
  rcases hx : H.findIdx? (· = ((0 : ℤ), (0 : ℤ))) with _ | k
  · rw [List.findIdx?_eq_none_iff] at hx
    have := hx _ h0
    simp at this
  · rw [List.findIdx?_eq_some_iff_getElem] at hx
    obtain ⟨hk, hk0, -⟩ := hx
    simp only [decide_eq_true_eq] at hk0
    dsimp only
    constructor
    · intro hi
      subst hi
      exact hk0
    · intro hi
      have : i = ⟨k, hk⟩ := (List.nodup_iff_injective_get.mp hn) (by rw [hi]; exact hk0.symm)
      rw [this]

/-- The rotation or reflection of an `OrderMap`, in space. -/
noncomputable def OrderMap.R3 {n n' : ℕ} (g : OrderMap n n') : Matrix (Fin 3) (Fin 3) ℝ :=
  !![g.d * g.x, -g.y, 0; g.d * g.y, g.x, 0; 0, 0, 1]

theorem OrderMap.R3_det {n n' : ℕ} (g : OrderMap n n') : g.R3.det = g.d := by
  unfold OrderMap.R3
  rw [det_fin_three]
  simp
  linear_combination g.d * g.hxy

theorem OrderMap.Turned.along {c c' : Static} {g : OrderMap c.nh c'.nh} {F : FieldF c.nh} {F' : FieldF c'.nh}
    (h : g.Turned F F') {f : ℤ × ℤ → ℤ × ℤ} {p : ℤ × ℤ → ℂ} (hp : ∀ i, g.p i = p (c.harmonics.get i))
    (hσ : ∀ i j, c'.harmonics.get j = f (c.harmonics.get i) → j = g.σ i) :
    FieldsAlong f p g.R3 c c' F F' := by
  intro i j hij
  obtain rfl := hσ i j hij
  have hd := g.hdC
  rw [← hp i, g.R3_det]
  constructor
  · funext k
    fin_cases k
    · simp [eVec, mulVec, dotProduct, Fin.sum_univ_three, OrderMap.R3, h.ex]
      left
      ring
    · simp [eVec, mulVec, dotProduct, Fin.sum_univ_three, OrderMap.R3, h.ey]
    · simp [eVec, mulVec, dotProduct, Fin.sum_univ_three, OrderMap.R3, h.ez]
  · funext k
    fin_cases k
    · simp [hVec, mulVec, dotProduct, Fin.sum_univ_three, OrderMap.R3, h.hx]
      linear_combination -(g.p i * g.x * F.hx i) * hd
    · simp [hVec, mulVec, dotProduct, Fin.sum_univ_three, OrderMap.R3, h.hy]
      linear_combination -(g.p i * g.y * F.hx i) * hd
    · simp [hVec, mulVec, dotProduct, Fin.sum_univ_three, OrderMap.R3, h.hz]
      ring

variable {E E' : Ext} {c c' : Static} {mats mats' : ℕ → LayerSpec}

/-- Results of the two simulations, each with its own history. -/
theorem SimilarMedia.results {lats lats' stack exc exc' nh nh' form form'} {g : OrderMap c.nh c'.nh}
    (h : SimilarMedia g E E' mats mats')
    (hinit : simInit E lats mats stack exc nh form = .ok c)
    (hinit' : simInit E' lats' mats' stack exc' nh' form' = .ok c') (hom : c.omega ≠ 0)
    (hnm : ∀ r ∈ stack, (mats' r).name = (mats r).name)
    {f : ℤ × ℤ → ℤ × ℤ} {p : ℤ × ℤ → ℂ} (hp : ∀ i, g.p i = p (c.harmonics.get i))
    (hσ : ∀ i j, c'.harmonics.get j = f (c.harmonics.get i) → j = g.σ i)
    (hist : List (Call c.nh)) (hist' : List (Call c'.nh)) :
    (∀ orders X X',
      (diffractionEfficiencies E c orders (afterCalls E c hist (Dyn.fresh mats (unsolved c.nh)))).1 = .ok X →
      (diffractionEfficiencies E' c' orders (afterCalls E' c' hist' (Dyn.fresh mats' (unsolved c'.nh)))).1 = .ok X' →
      EfficienciesAlong f c c' X X') ∧
    ∀ id zs Fs Fs',
      (getFieldFourier E c id zs (afterCalls E c hist (Dyn.fresh mats (unsolved c.nh)))).1 = .ok Fs →
      (getFieldFourier E' c' id (zs.map (g.s * ·))
        (afterCalls E' c' hist' (Dyn.fresh mats' (unsolved c'.nh)))).1 = .ok Fs' →
      List.Forall₂ (FieldsAlong f p g.R3 c c') Fs Fs' := by
  have hst : c.stack = stack := (simInit_ok hinit).stack_eq
  have hst' : c'.stack = stack := (simInit_ok hinit').stack_eq
  have hnames : c'.layerNames = c.layerNames := by
    rw [(simInit_ok hinit).names_eq, (simInit_ok hinit').names_eq]
    exact List.map_congr_left hnm
  have hget : ∀ id, getLayer c' id = getLayer c id := by
    intro id
    unfold getLayer
    rw [hnames, h.stack]
  constructor
  · intro o X X' hX hX'
    obtain ⟨RT, e1, rfl⟩ := diffraction_eq hX
    obtain ⟨RT', e1', rfl⟩ := diffraction_eq hX'
    obtain ⟨A, hA⟩ := efficiencies_of_history hinit
    obtain ⟨A', hA'⟩ := efficiencies_of_history hinit'
    obtain ⟨fx, v⟩ := hA _ _ e1
    obtain ⟨fx', v'⟩ := hA' _ _ e1'
    have key := h.efficiencies hom fx fx' v v'
    cases o
    · refine ⟨?_, ?_⟩
      · rw [← g.σ.sum_comp]
        exact Finset.sum_congr rfl fun i _ => (key i).1
      · rw [← g.σ.sum_comp]
        exact Finset.sum_congr rfl fun i _ => (key i).2
    · intro i j hij
      obtain rfl := hσ i j hij
      exact key i
  · intro id zs Fs Fs' hF hF'
    rcases zs with _ | ⟨z0, zs⟩
    · obtain ⟨r, i, d1, ab, -, z2⟩ := getFieldFourier_run hF
      obtain ⟨r', i', d1', ab', -, z2'⟩ := getFieldFourier_run hF'
      rw [z2] at hF
      rw [z2'] at hF'
      rw [← Except.ok.inj hF, ← Except.ok.inj hF']
      exact .nil
    · obtain ⟨A, hA⟩ := fields_of_history hinit h.eigc (hst ▸ h.placed) (hst ▸ h.mu)
      obtain ⟨A', hA'⟩ := fields_of_history hinit' h.eigc' (hst ▸ h.placed') (hst ▸ h.mu')
      obtain ⟨fx, r, i, ab, g1, g2, -, M, t, F, g3, g4, g5, g6, g7, rfl⟩ := hA _ _ _ _ (by simp) hF
      obtain ⟨fx', r', i', ab', g1', g2', -, M', t', F', g3', g4', g5', g6', g7', rfl⟩ := hA' _ _ _ _ (by simp) hF'
      rw [hget] at g1'
      obtain ⟨rfl, rfl⟩ := Prod.mk.inj (Except.ok.inj (g1.symm.trans g1'))
      have hr : pyGet c.stack i = .ok r := getLayer_pyGet g1
      rw [List.map_map, List.forall₂_map_left_iff, List.forall₂_map_right_iff, List.forall₂_same]
      intro z _
      exact (h.fields hom fx fx' hr g2 g2' g3 g3' (g6 z) (g6' _)).along hp hσ

end Nannos
