import Verif.Proofs.ReciprocitySim
import Verif.Proofs.ReciprocityWaves
import Verif.Proofs.Pixelated
import Verif.Proofs.SimilarRun
import Verif.Proofs.Orders2

/-! Reciprocity (C72, C73): from constructed simulations. -/

namespace Nannos

open Matrix Spec

variable {E : Ext} {c c' : Static} {lats : ℕ → Lattice} {mats : ℕ → LayerSpec} {stack stack' : List ℕ} {exc exc' : PlaneWave}
  {nh : ℤ} {form : String}

theorem same_lattice (hi : InitSpec E lats mats stack exc nh form c) (hi' : InitSpec E lats mats stack' exc' nh form c')
    (hperm : stack'.Perm stack) : c'.lattice = c.lattice ∧ c'.harmonics = c.harmonics := by
  obtain ⟨r0, tl, hst⟩ := List.exists_cons_of_ne_nil hi.ne
  obtain ⟨r0', tl', hst'⟩ := List.exists_cons_of_ne_nil hi'.ne
  have h0 : stack.head? = some r0 := by rw [hst]; rfl
  have h0' : stack'.head? = some r0' := by rw [hst']; rfl
  have hm : r0' ∈ stack := hperm.mem_iff.mp (by rw [hst']; simp)
  have hl : c'.lattice = c.lattice := by rw [hi.lat_eq r0 h0, hi'.lat_eq r0' h0', hi.lat r0' hm r0 h0]
  refine ⟨hl, ?_⟩
  obtain ⟨n, hn⟩ := hi.harm
  obtain ⟨n', hn'⟩ := hi'.harm
  have : (stack'.all fun r => (mats r).isUniform) = stack.all fun r => (mats r).isUniform := by
    rw [Bool.eq_iff_iff, List.all_eq_true, List.all_eq_true]
    exact ⟨fun h x hx => h x (hperm.mem_iff.mpr hx), fun h x hx => h x (hperm.mem_iff.mp hx)⟩
  rw [this, hl, hn] at hn'
  simp only [Except.ok.injEq, Prod.mk.injEq] at hn'
  exact hn'.1.symm

/-- Waves with opposite tangential wave vectors. -/
theorem opposite_init (hA : ArgsortContract E.argsort) (hi : InitSpec E lats mats stack exc nh form c)
    (hi' : InitSpec E lats mats stack' exc' nh form c') (hperm : stack'.Perm stack)
    (hlam : exc'.wavelength = exc.wavelength) (hk : c'.k0para = (-c.k0para.1, -c.k0para.2)) (hnd : c.harmonics.Nodup)
    (huser : c.lattice.harmonicsArray ≠ none → ∀ g ∈ c.harmonics, (-g.1, -g.2) ∈ c.harmonics) :
    ∃ σ, Opposite c c' σ := by
  obtain ⟨hl, hh⟩ := same_lattice hi hi' hperm
  have hcl : ∀ g ∈ c.harmonics, (-g.1, -g.2) ∈ c.harmonics := by
    by_cases hu : c.lattice.harmonicsArray = none
    · obtain ⟨n, hn⟩ := hi.harm
      intro g hg
      simpa using reflected_orders hA hn hu (e1 := -1) (e2 := -1) (by norm_num) (by norm_num) (.inr rfl) g hg
    · exact huser hu
  obtain ⟨σ, hσ⟩ := exists_numbering hnd (H' := c'.harmonics) (by rw [hh]; exact hnd) (f := fun g => (-g.1, -g.2))
    (by rintro ⟨a, b⟩ ⟨x, y⟩ h; simpa using h) (by
      intro g'
      rw [hh]
      constructor
      · intro h; exact ⟨_, hcl g' h, by simp⟩
      · rintro ⟨g, hg, rfl⟩; exact hcl g hg)
  obtain ⟨r, hr, hkx, hky⟩ := hi.recip
  obtain ⟨r', hr', hkx', hky'⟩ := hi'.recip
  rw [hl, hr] at hr'
  obtain rfl := Except.ok.inj hr'
  refine ⟨σ, by rw [hi.omega_eq, hi'.omega_eq, hlam], fun i => ?_, fun i => ?_, hσ, by rw [hi.form_eq, hi'.form_eq], by rw [hl]⟩
  · rw [hkx', hkx, hσ i, hk]
    simp only [kxOf]
    push_cast
    ring
  · rw [hky', hky, hσ i, hk]
    simp only [kyOf]
    push_cast
    ring

theorem oppositePair_init (hA : ArgsortContract E.argsort) (hE : EigContract E)
    (hi : InitSpec E lats mats stack exc nh form c)
    (hi' : InitSpec E lats mats stack' exc' nh form c') (hperm : stack'.Perm stack)
    (hlam : exc'.wavelength = exc.wavelength) (hlam0 : 0 < exc.wavelength)
    (hk : c'.k0para = (-c.k0para.1, -c.k0para.2)) (hnd : c.harmonics.Nodup)
    (huser : c.lattice.harmonicsArray ≠ none → ∀ g ∈ c.harmonics, (-g.1, -g.2) ∈ c.harmonics)
    (hform : ∀ r ∈ stack, SymmetricFormulation form c.lattice.is1D (mats r)) (hw : WellPlaced mats stack) (hw' : WellPlaced mats stack')
    (hmu : ∀ r ∈ stack, (mats r).mu = 1) (hrec : ∀ r ∈ stack, Reciprocal (mats r)) :
    ∃ σ, OppositePair E c c' mats σ := by
  obtain ⟨σ, hσ⟩ := opposite_init hA hi hi' hperm hlam hk hnd huser
  have hst := hi.stack_eq
  have hst' := hi'.stack_eq
  obtain ⟨r0, tl, h0⟩ := List.exists_cons_of_ne_nil hi.ne
  refine ⟨σ, hσ, ?_, hnd, ?_, ?_, hE, by rw [hst]; exact hw, by rw [hst']; exact hw', by rw [hst]; exact hmu,
    by rw [hst]; exact hrec, fun r => by rw [hst, hst']; exact hperm.mem_iff⟩
  · rw [hi.omega_eq]; positivity
  · rw [hi.form_eq, hst]; exact hform
  · intro h
    have hh : stack.head? = some r0 := by rw [h0]; rfl
    rw [hi.form_eq]
    refine hi.form1 r0 hh ?_
    rw [← hi.lat_eq r0 hh]; exact h

/-- What a successful computation of the efficiencies says. -/
structure EffRun (E : Ext) (c : Static) (mats : ℕ → LayerSpec) (exc : PlaneWave) (e : ℝ) (RT : (Fin c.nh → ℝ) × (Fin c.nh → ℝ))
    (A : ℕ → LayerAttr c.nh) (SM : SMat (Idx c.nh)) (n : ℕ) (amp : ℕ → (Idx c.nh → ℂ) × (Idx c.nh → ℂ)) (r0 rN : ℕ)
    (M0 MN : Modes (Idx c.nh)) : Prop where
  st : Stacked E c mats A SM n amp
  first : c.stack[0]? = some r0
  last : c.stack[n + 1]? = some rN
  m0 : modesOf (mats r0) (A r0) = .ok M0
  mN : modesOf (mats rN) (A rN) = .ok MN
  sup : GoodSup c exc (Real.sqrt e)
  uni : (mats r0).isUniform = true
  refl : ∀ i, RT.1 i = orderFlux c M0 (SM.s21 *ᵥ c.a0) i / c.incidentFlux
  trans : ∀ i, RT.2 i = orderFlux c MN (SM.s11 *ᵥ c.a0) i / c.incidentFlux

theorem effRun (hinit : simInit E lats mats stack exc nh form = .ok c) (hw : WellPlaced mats stack)
    (hmu : ∀ r ∈ stack, (mats r).mu = 1) {wl ang} (hp : planeWave wl ang = .ok exc) (hwl : 0 < wl)
    (hcos : 0 < Real.cos exc.theta) (h00 : ((0 : ℤ), (0 : ℤ)) ∈ c.harmonics) {e : ℝ} (hpos : 0 < e)
    (hsup : ∀ r0, stack.head? = some r0 → (mats r0).epsilon.value = (e : ℂ))
    {hist : List (Call c.nh)} {RT : (Fin c.nh → ℝ) × (Fin c.nh → ℝ)}
    (h : (efficienciesByOrder E c (afterCalls E c hist (Dyn.fresh mats (unsolved c.nh)))).1 = .ok RT) :
    ∃ A SM n amp r0 rN M0 MN, EffRun E c mats exc e RT A SM n amp r0 rN M0 MN := by
  have hi := simInit_ok hinit
  have hst : c.stack = stack := hi.stack_eq
  obtain ⟨A1, hA1⟩ := efficiencies_of_history hinit
  obtain ⟨hfix, -, SM, r0, rN, M0, MN, f0, fN, hSM, hr0, hrN, hM0, hMN, hf0, hfN, hne, rfl⟩ := hA1 hist RT h
  obtain ⟨n, amp, hs⟩ := stacked hfix (by rw [hst]; exact hi.ne) hSM
  have hr0' : c.stack[0]? = some r0 := (pyGet_nat c.stack 0 r0).mp hr0
  have hlen := hs.len
  have hrN' : c.stack[n + 1]? = some rN := by
    unfold pyGet at hrN
    have e3 : pyIdx c.stack.length (-1) = some (n + 1) := by
      unfold pyIdx
      rw [if_neg (by omega), if_pos (by omega)]
      congr 1
      omega
    rw [e3] at hrN
    dsimp only at hrN
    rw [List.getElem?_eq_getElem (by omega)] at hrN
    rw [List.getElem?_eq_getElem (by omega)]
    exact congrArg some (Except.ok.inj hrN)
  have hhead : stack.head? = some r0 := by rw [← hst, List.head?_eq_getElem?, hr0']
  have hm0 : r0 ∈ stack := hst ▸ pyGet_mem hr0
  have hg := good_sup hi (by rw [(planeWave_ok hp).2.1]; exact hwl) hhead (hmu r0 hm0) (hsup r0 hhead) hpos h00
  have hun := (hi.sup r0 hhead).1
  obtain ⟨-, g, hu⟩ := uniform_flux (hfix r0 (pyGet_mem hr0)) (not_copy_uniform (hst ▸ hw) hr0' hun) hun (hmu r0 hm0) hM0
  rw [hsup r0 hhead] at hu
  have hsq : ((Real.sqrt e ^ 2 : ℝ) : ℂ) = (e : ℂ) := by rw [Real.sq_sqrt hpos.le]
  obtain ⟨hev, -⟩ := incident_flux hg hp hcos hwl (gz := g) (by rw [hsq]; exact hu) (poyntingFlux_ok hf0)
  exact ⟨A1, SM, n, amp, r0, rN, M0, MN, hs, hr0', hrN', hM0, hMN, hg, hun,
    fun i => by rw [← flux_backward hu hg.kxr hg.kyr hf0 hev], fun i => by rw [← flux_forward hfN]⟩

/-- The flux of an order in a uniform layer. -/
theorem orderFlux_coef {e : ℂ} {M : Modes (Idx c.nh)} {g} (h : UniformFlux c e M g) (x : Idx c.nh → ℂ) (i : Fin c.nh) :
    orderFlux c M x i = (star ((coefA c.omega e (c.kx i) (c.ky i) (g i)).1 * x (.inl i) +
        (coefA c.omega e (c.kx i) (c.ky i) (g i)).2.1 * x (.inr i)) * x (.inl i) +
      star ((coefA c.omega e (c.kx i) (c.ky i) (g i)).2.1 * x (.inl i) +
        (coefA c.omega e (c.kx i) (c.ky i) (g i)).2.2 * x (.inr i)) * x (.inr i)).re := by
  obtain ⟨a1, a2⟩ := uniform_mulVec h.phi h.q h.Q x i
  unfold orderFlux
  rw [a1, a2, h.phi, one_mulVec]

end Nannos
