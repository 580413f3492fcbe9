import Verif.Spec.Coefficients
import Verif.Proofs.Alike
import Verif.Proofs.Fourier
import Verif.Examples.Normal

/-! C93: a pattern acts through its Fourier coefficients at the differences of the retained orders. -/

namespace Nannos

open Matrix Spec

variable {E : Ext} {c : Static} {t : String → PGrid → List (ℤ × ℤ) → Bool → Except PyErr Field2}

theorem toep_same {u u' : PGrid} (h : SameCoefficients c.harmonics u u') : c.toep u' = c.toep u := by
  have hm : ∀ i : Fin c.nh, c.harmonics.get i ∈ c.harmonics := fun i => List.get_mem _ _
  have hb : ∀ n : ℕ, ∀ k : ℤ, |k| < n → -(n : ℤ) ≤ k ∧ k < n := fun n k hk => ⟨(abs_lt.mp hk).1.le, (abs_lt.mp hk).2⟩
  obtain ⟨A, hA⟩ := toeplitz_exists (H := c.harmonics.get) u.g (fun i j => by
    obtain ⟨⟨h1, -, h3, -⟩, -⟩ := h _ (hm i) _ (hm j)
    exact ⟨(hb _ _ h1).1, (hb _ _ h1).2, hb _ _ h3⟩)
  obtain ⟨A', hA'⟩ := toeplitz_exists (H := c.harmonics.get) u'.g (fun i j => by
    obtain ⟨⟨-, h1, -, h3⟩, -⟩ := h _ (hm i) _ (hm j)
    exact ⟨(hb _ _ h1).1, (hb _ _ h1).2, hb _ _ h3⟩)
  have e : A' = A := by
    ext i j
    obtain ⟨⟨h1, h2, h3, h4⟩, hc⟩ := h _ (hm i) _ (hm j)
    have p : ∀ {n : ℕ} {k : ℤ}, |k| < n → NeZero n := fun {n k} hk => ⟨by
      rintro rfl
      have := abs_nonneg k
      push_cast at hk
      omega⟩
    haveI := p h1; haveI := p h2; haveI := p h3; haveI := p h4
    rw [(toeplitz_ok hA).2, (toeplitz_ok hA').2]
    simp only [of_apply]
    exact hc.symm
  unfold Static.toep
  rw [hA, hA', e]

/-- The generators are not called. -/
theorem buildPure_regen {L : LayerSpec} (h : NoVectorFields c) : buildPure (E.regen t) c L = buildPure E c L := by
  have hp : ∀ z pa e p H, pepsOf (E.regen t) c L z pa e p H = pepsOf E c L z pa e p H := by
    intro z pa e p H
    unfold pepsOf
    rcases h with h | ⟨h, h1⟩
    · simp only [h, if_true]
    · simp only [h, h1, if_true]
  unfold buildPure
  simp only [hp]

theorem buildPure_same {L L' : LayerSpec} {u u' : PGrid} (hs : SameButPixels L L') (hu : HasPixels L u)
    (hu' : HasPixels L' u') (h : SameCoefficients c.harmonics u u')
    (hf : NoVectorFields c) (hi : c.formulation = "tangent" →
      (∀ x y, u.g x y ≠ 0) ∧ (∀ x y, u'.g x y ≠ 0) ∧ SameCoefficients c.harmonics (inverseGrid u) (inverseGrid u')) :
    buildPure (E.regen t) c L' = buildPure E c L := by
  have ht := toep_same h
  have hmu : L'.mu = L.mu := by rw [hs]
  have hp : ∀ H e p, pepsOf (E.regen t) c L' u' none e p H = pepsOf E c L u none e p H := by
    intro H e p
    rcases hf with hf | ⟨hf, h1⟩
    · unfold pepsOf
      simp only [hf, if_true]
    · obtain ⟨h2, h3, h4⟩ := hi hf
      have hn : nuHatInvIso c u' = nuHatInvIso c u := by
        unfold nuHatInvIso recipGrid
        rw [if_neg (by push Not; exact h3), if_neg (by push Not; exact h2)]
        simp only [except_bind_ok]
        have := toep_same h4
        unfold inverseGrid at this
        rw [this]
      unfold pepsOf
      simp only [hf, h1, hn, if_true]
  have hpa : paraOf L' = paraOf L := by
    unfold paraOf
    rw [hu.2.1, hu'.2.1]
    rfl
  unfold buildPure
  simp only [hu.1, hu'.1, hu.2.1, hu'.2.1, hu.2.2, hu'.2.2, Bool.false_eq_true, if_false, except_bind_ok, ht, hmu, hpa]
  have hpn : paraOf L = .ok none := by unfold paraOf; rw [hu.2.1]; rfl
  simp only [hpn, except_bind_ok, hp]

/-- **C93**. In the original formulation, and in the tangent one for gratings, the results depend on a pattern only through
its Fourier coefficients (and those of its inverse) at the differences of the retained orders: after every history, every
call returns or raises exactly the same for two structures which share them, whatever their resolutions, tangent fields and
the generators of these. -/
theorem C93_coefficients_decide {lats mats stack exc nh form} (hinit : simInit E lats mats stack exc nh form = .ok c)
    (hf : NoVectorFields c) {mats' : ℕ → LayerSpec} (h : SamePatterns c mats mats')
    (t : String → PGrid → List (ℤ × ℤ) → Bool → Except PyErr Field2) :
    simInit { E with tangent := t } lats mats' stack exc nh form = .ok c ∧
    ∀ (hist : List (Call c.nh)) (a : Call c.nh),
      a.result { E with tangent := t } c (afterCalls { E with tangent := t } c hist (Dyn.fresh mats' (unsolved c.nh))) =
        a.result E c (afterCalls E c hist (Dyn.fresh mats (unsolved c.nh))) := by
  have hi := simInit_ok hinit
  have hst : c.stack = stack := hi.stack_eq
  have hal : ∀ r ∈ c.stack, SeenAlike E c t c.formulation (mats r) (mats' r) := by
    intro r hr
    rcases h r hr with h1 | ⟨hs, u, u', h1, h2, h3, h4⟩
    · rw [h1]
      exact ⟨rfl, rfl, rfl, rfl, rfl, buildPure_regen hf, fun _ => rfl⟩
    · exact ⟨h2.1.trans h1.1.symm, by rw [hs], by rw [hs], by rw [hs], by rw [hs], buildPure_same hs h1 h2 h3 hf h4,
        fun hu => by rw [h1.1] at hu; cases hu⟩
  refine ⟨?_, fun hist a => results_alike hal hist a⟩
  change simInit E lats mats' stack exc nh form = .ok c
  rw [simInit_congr (mats := mats), hinit]
  · intro r hr
    rcases h r (hst ▸ hr) with h1 | ⟨hs, -⟩
    · rw [h1]
    · rw [hs]
  · intro r hr
    rcases h r (hst ▸ hr) with h1 | ⟨hs, -⟩
    · rw [h1]
    · rw [hs]
  · intro r hr
    have hu := (hi.sup r hr).1
    rcases h r (hst ▸ List.mem_of_head? hr) with h1 | ⟨-, u, -, h1, -⟩
    · exact h1
    · rw [h1.1] at hu; cases hu
  · congr 1
    rw [Bool.eq_iff_iff, List.all_eq_true, List.all_eq_true]
    exact forall₂_congr fun r hr => by rw [(hal r (hst ▸ hr)).uniform]

/-- **C93**, one order. With the specular order only, the original formulation replaces each pattern by its mean
permittivity. -/
theorem C93_single_order {lats mats stack exc nh} (hinit : simInit E lats mats stack exc nh "original" = .ok c)
    (h1 : c.nh = 1) {mats' : ℕ → LayerSpec}
    (h : ∀ r ∈ stack, mats' r = mats r ∨ ∃ (Nx Ny : ℕ) (u : Grid Nx Ny), 0 < Nx ∧ 0 < Ny ∧
      HasPixels (mats r) ⟨Nx, Ny, u⟩ ∧ mats' r = { mats r with epsilon := NdArr.ofGrid (fun (_ : Fin Nx) (_ : Fin Ny) => mean u) })
    (hist : List (Call c.nh)) (a : Call c.nh) :
    a.result E c (afterCalls E c hist (Dyn.fresh mats' (unsolved c.nh))) =
      a.result E c (afterCalls E c hist (Dyn.fresh mats (unsolved c.nh))) := by
  have hi := simInit_ok hinit
  refine (C93_coefficients_decide hinit (.inl hi.form_eq) (fun r hr => ?_) E.tangent).2 hist a
  rcases h r (hi.stack_eq ▸ hr) with h2 | ⟨Nx, Ny, u, hx, hy, hu, hm⟩
  · exact .inl h2
  · refine .inr ⟨by rw [SameButPixels, hm], _, ⟨Nx, Ny, fun _ _ => mean u⟩, hu, ?_, ?_, fun h => by rw [hi.form_eq] at h; simp at h⟩
    · obtain ⟨q1, q2, q3⟩ := hu
      have hsh : (mats r).epsilon.shape = [Nx, Ny] := by
        unfold NdArr.toGrid at q3
        split at q3
        · rename_i Mx My he
          have := congrArg (fun x => (PGrid.Nx x, PGrid.Ny x)) (Except.ok.inj q3)
          simp only [Prod.mk.injEq] at this
          rw [he, this.1, this.2]
        all_goals cases q3
      unfold LayerSpec.isUniform at q1
      unfold LayerSpec.isAnisotropic at q2
      rw [hsh] at q1 q2
      rw [hm]
      refine ⟨q1, q2, ?_⟩
      unfold NdArr.toGrid NdArr.ofGrid
      simp only [Fin.is_lt, and_self, dif_pos]
    · have hg : ∀ g ∈ c.harmonics, ∀ k ∈ c.harmonics, g = k := by
        obtain ⟨g0, hg0⟩ := List.length_eq_one_iff.mp h1
        intro g hg k hk
        rw [hg0, List.mem_singleton] at hg hk
        rw [hg, hk]
      intro g hg' k hk
      obtain rfl := hg g hg' k hk
      haveI : NeZero Nx := ⟨hx.ne'⟩
      haveI : NeZero Ny := ⟨hy.ne'⟩
      simp only [sub_self, abs_zero]
      refine ⟨⟨by exact_mod_cast hx, by exact_mod_cast hx, by exact_mod_cast hy, by exact_mod_cast hy⟩, ?_⟩
      rw [coeff_zero_zero, coeff_const]
      simp

/-- **C93**, homogeneous layers. For a stack of homogeneous layers every formulation that the constructor accepts gives the
same object but for its name, and every call returns or raises exactly the same after every history, with any generators. -/
theorem C93_homogeneous_any_formulation {lats mats stack exc nh form} (hinit : simInit E lats mats stack exc nh form = .ok c)
    (hu : ∀ r ∈ stack, (mats r).isUniform = true) (form' : String)
    (hf : form' = "original" ∨ form' = "tangent" ∨ (c.lattice.is1D = false ∧ (form' = "jones" ∨ form' = "pol")))
    (t : String → PGrid → List (ℤ × ℤ) → Bool → Except PyErr Field2) :
    simInit { E with tangent := t } lats mats stack exc nh form' = .ok { c with formulation := form' } ∧
    ∀ (hist : List (Call c.nh)) (a : Call c.nh),
      Call.result { E with tangent := t } { c with formulation := form' } a
          (afterCalls { E with tangent := t } { c with formulation := form' } hist (Dyn.fresh mats (unsolved c.nh))) =
        a.result E c (afterCalls E c hist (Dyn.fresh mats (unsolved c.nh))) := by
  have hi := simInit_ok hinit
  have hst : c.stack = stack := hi.stack_eq
  refine ⟨simInit_reform hinit form' hf t, ?_⟩
  refine fun hist a => results_alike (t := t) (g := form') (fun r hr => ⟨rfl, rfl, rfl, rfl, rfl, ?_, fun _ => rfl⟩) hist a
  unfold buildPure
  simp only [hu r (hst ▸ hr), if_true]

namespace Examples

/-- Vacuum, a pattern of two pixels, vacuum. -/
noncomputable def twoPixels (a b : ℂ) : ℕ → LayerSpec := fun r =>
  if r = 1 then exLayer "Slab" (1 / 8) (NdArr.ofGrid (Nx := 2) (Ny := 1) fun x _ => if (x : ℕ) = 0 then a else b)
  else exLayer (if r = 0 then "Superstrate" else "Substrate") 1 (NdArr.scalar 1)

/-- C93: pixels of permittivities one and three act, with one order, as two pixels of permittivity two: the efficiencies
are the same. -/
example : ∃ c, simInit exE (fun _ => exLat) (twoPixels 1 3) [0, 1, 2] exExc 1 "original" = .ok c ∧
    (Call.diffractionEfficiencies true).result exE c (Dyn.fresh (twoPixels 2 2) (unsolved c.nh)) =
      (Call.diffractionEfficiencies true).result exE c (Dyn.fresh (twoPixels 1 3) (unsolved c.nh)) := by
  obtain ⟨c, h1, h2, -⟩ := exInit (twoPixels 1 3) 0 [1, 2] 1 one_pos (by decide) (by decide) rfl (by simp [twoPixels, exLayer])
  refine ⟨c, h1, C93_single_order h1 (by simp [Static.nh, h2.harm]) (fun r hr => ?_) [] _⟩
  by_cases hr1 : r = 1
  · subst hr1
    refine .inr ⟨2, 1, fun x _ => if (x : ℕ) = 0 then 1 else 3, by norm_num, by norm_num, ⟨rfl, rfl, ?_⟩, ?_⟩
    · simp only [twoPixels, exLayer, NdArr.toGrid, NdArr.ofGrid, if_true, Fin.is_lt, and_self, dif_pos]
    · have e : mean (fun (x : Fin 2) (_ : Fin 1) => if (x : ℕ) = 0 then (1 : ℂ) else 3) = 2 := by
        simp [mean]; norm_num
      rw [e]
      simp [twoPixels, exLayer]
  · exact .inl (by simp [twoPixels, hr1])

/-- Homogeneous slabs give the same efficiencies in the original and in the tangent formulation. -/
example : ∃ c, simInit exE (fun _ => exLat) (fun r => exLayer (toString r) 1 (NdArr.scalar (if r = 1 then 4 else 1))) [0, 1, 2] exExc 1
      "original" = .ok c ∧
    simInit exE (fun _ => exLat) (fun r => exLayer (toString r) 1 (NdArr.scalar (if r = 1 then 4 else 1))) [0, 1, 2] exExc 1
      "tangent" = .ok { c with formulation := "tangent" } := by
  obtain ⟨c, h1, -⟩ := exInit (fun r => exLayer (toString r) 1 (NdArr.scalar (if r = 1 then 4 else 1))) 0 [1, 2] 1 one_pos
    (by decide) (by decide) rfl (by simp [exLayer])
  exact ⟨c, h1, (C93_homogeneous_any_formulation h1 (fun r _ => rfl) "tangent" (.inr (.inl rfl)) exE.tangent).1⟩

end Examples

end Nannos
