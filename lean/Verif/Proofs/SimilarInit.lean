import Verif.Proofs.SimilarRun
import Verif.Props.Lattice

/-! Constructors of two related simulations. -/

namespace Nannos

open Matrix Spec

theorem mulVec_inj_real {A : Matrix (Fin 2) (Fin 2) ℝ} (hA : A.det ≠ 0) {u v : Fin 2 → ℝ} (h : A *ᵥ u = A *ᵥ v) : u = v := by
  have := congrArg (fun w => A⁻¹ *ᵥ w) h
  simpa [mulVec_mulVec, nonsing_inv_mul _ (isUnit_iff_ne_zero.mpr hA)] using this

/-- Incident waves whose directions and polarisations are related by a rotation or reflection about the normal. -/
theorem planeWave_similar {wl s x y d th ph ps ph' ps' : ℝ} (hs : 0 < s) (hxy : x ^ 2 + y ^ 2 = 1) (hd : d ^ 2 = 1)
    {e e' : PlaneWave} (h : planeWave wl (th, ph, ps) = .ok e) (h' : planeWave (s * wl) (th, ph', ps') = .ok e')
    (hc : Real.cos (ph' * (Real.pi / 180)) =
      d * x * Real.cos (ph * (Real.pi / 180)) - y * Real.sin (ph * (Real.pi / 180)))
    (hsn : Real.sin (ph' * (Real.pi / 180)) =
      d * y * Real.cos (ph * (Real.pi / 180)) + x * Real.sin (ph * (Real.pi / 180)))
    (hpc : Real.cos (ps' * (Real.pi / 180)) = Real.cos (ps * (Real.pi / 180)))
    (hps : Real.sin (ps' * (Real.pi / 180)) = d * Real.sin (ps * (Real.pi / 180))) :
    e'.theta = e.theta ∧ s * e'.wavevector 0 = d * x * e.wavevector 0 - y * e.wavevector 1 ∧
    s * e'.wavevector 1 = d * y * e.wavevector 0 + x * e.wavevector 1 ∧
    e'.a0 0 = x * e.a0 0 - d * y * e.a0 1 ∧ e'.a0 1 = y * e.a0 0 + d * x * e.a0 1 ∧
    e.wavelength ≠ 0 ∧ e'.wavelength = s * e.wavelength := by
  obtain ⟨h1, h2, h3, h4, h5, h6, h7, h8, h9, h10⟩ := planeWave_ok h
  obtain ⟨h1', h2', h3', h4', h5', h6', h7', h8', h9', h10'⟩ := planeWave_ok h'
  dsimp only at h3 h4 h5 h3' h4' h5'
  have t1 : e'.theta = e.theta := by rw [h3, h3']
  have hk : s * e'.wavenumber = e.wavenumber := by
    rw [h6, h6']
    field_simp
  have w0 : e.wavevector 0 = e.wavenumber * (Real.sin e.theta * Real.cos e.phi) := by
    rw [congrFun h7 0]; simp
  have w1 : e.wavevector 1 = e.wavenumber * (Real.sin e.theta * Real.sin e.phi) := by
    rw [congrFun h7 1]; simp
  have w0' : e'.wavevector 0 = e'.wavenumber * (Real.sin e'.theta * Real.cos e'.phi) := by
    rw [congrFun h7' 0]; simp
  have w1' : e'.wavevector 1 = e'.wavenumber * (Real.sin e'.theta * Real.sin e'.phi) := by
    rw [congrFun h7' 1]; simp
  rw [← h4, ← h4'] at hc hsn
  rw [← h5, ← h5'] at hpc hps
  have k0 : s * e'.wavevector 0 = d * x * e.wavevector 0 - y * e.wavevector 1 := by
    rw [w0', w0, w1, t1, hc, ← hk]; ring
  have k1 : s * e'.wavevector 1 = d * y * e.wavevector 0 + x * e.wavevector 1 := by
    rw [w1', w0, w1, t1, hsn, ← hk]; ring
  have a1 : -e'.amplitude 1 = x * (-e.amplitude 1) - d * y * e.amplitude 0 := by
    rw [congrFun h8 0, congrFun h8 1, congrFun h8' 1]
    simp only [cons_val_zero, cons_val_one]
    rw [t1, hc, hsn, hpc, hps]
    linear_combination -(x * Real.sin e.psi * Real.cos e.phi) * hd
  have a2 : e'.amplitude 0 = y * (-e.amplitude 1) + d * x * e.amplitude 0 := by
    rw [congrFun h8 0, congrFun h8 1, congrFun h8' 0]
    simp only [cons_val_zero, cons_val_one]
    rw [t1, hc, hsn, hpc, hps]
    linear_combination -(y * Real.sin e.psi * Real.cos e.phi) * hd
  have hq : e.wavenumber ^ 2 - e.wavevector 0 ^ 2 - e.wavevector 1 ^ 2 =
      s ^ 2 * (e'.wavenumber ^ 2 - e'.wavevector 0 ^ 2 - e'.wavevector 1 ^ 2) := by
    have r0 : s ^ 2 * e'.wavevector 0 ^ 2 = (d * x * e.wavevector 0 - y * e.wavevector 1) ^ 2 := by rw [← k0]; ring
    have r1 : s ^ 2 * e'.wavevector 1 ^ 2 = (d * y * e.wavevector 0 + x * e.wavevector 1) ^ 2 := by rw [← k1]; ring
    rw [← hk, mul_sub, mul_sub, r0, r1]
    linear_combination (d ^ 2 * e.wavevector 0 ^ 2 + e.wavevector 1 ^ 2) * hxy + e.wavevector 0 ^ 2 * hd
  have hsq : Real.sqrt (e.wavenumber ^ 2 - e.wavevector 0 ^ 2 - e.wavevector 1 ^ 2) =
      s * Real.sqrt (e'.wavenumber ^ 2 - e'.wavevector 0 ^ 2 - e'.wavevector 1 ^ 2) := by
    rw [hq, Real.sqrt_mul (by positivity), Real.sqrt_sq hs.le]
  have ha : e'.a0 = ![x * e.a0 0 - d * y * e.a0 1, y * e.a0 0 + d * x * e.a0 1] := by
    refine mulVec_inj_real h9' ?_
    rw [h10']
    have f0 := congrFun h10 0
    have f1 := congrFun h10 1
    simp only [mulVec, dotProduct, Fin.sum_univ_two, Matrix.sub_apply, Matrix.smul_apply, one_apply_eq,
      smul_eq_mul, of_apply, cons_val', cons_val_zero, cons_val_one, cons_val_fin_one, Pi.smul_apply,
      one_apply_ne (show (0 : Fin 2) ≠ 1 by decide), one_apply_ne (show (1 : Fin 2) ≠ 0 by decide)] at f0 f1
    rw [hsq] at f0 f1
    have hs2 : s ^ 2 ≠ 0 := by positivity
    have e0 : e'.wavevector 0 = (d * x * e.wavevector 0 - y * e.wavevector 1) / s := by
      rw [eq_div_iff hs.ne', ← k0]; ring
    have e1 : e'.wavevector 1 = (d * y * e.wavevector 0 + x * e.wavevector 1) / s := by
      rw [eq_div_iff hs.ne', ← k1]; ring
    have e2 : e'.wavenumber = e.wavenumber / s := by
      rw [eq_div_iff hs.ne', ← hk]; ring
    rw [a1, a2]
    generalize Real.sqrt (e'.wavenumber ^ 2 - e'.wavevector 0 ^ 2 - e'.wavevector 1 ^ 2) = q at f0 f1 ⊢
    funext k
    fin_cases k
    · simp only [mulVec, dotProduct, Fin.sum_univ_two, Matrix.sub_apply, Matrix.smul_apply, one_apply_eq,
        smul_eq_mul, of_apply, cons_val', cons_val_zero, cons_val_one, cons_val_fin_one, Pi.smul_apply, Fin.zero_eta,
        one_apply_ne (show (0 : Fin 2) ≠ 1 by decide), one_apply_ne (show (1 : Fin 2) ≠ 0 by decide)]
      rw [e0, e1, e2]
      field_simp
      linear_combination -(x * f0 - d * y * f1) -
        (d * y * e.wavevector 0 + x * e.wavevector 1) *
          (-(e.wavevector 1 * e.a0 0) + d ^ 2 * e.wavevector 0 * e.a0 1) * hxy -
        (d * y * e.wavevector 0 + x * e.wavevector 1) * e.wavevector 0 * e.a0 1 * hd
    · simp only [mulVec, dotProduct, Fin.sum_univ_two, Matrix.sub_apply, Matrix.smul_apply, one_apply_eq,
        smul_eq_mul, of_apply, cons_val', cons_val_zero, cons_val_one, cons_val_fin_one, Pi.smul_apply, Fin.mk_one,
        one_apply_ne (show (1 : Fin 2) ≠ 0 by decide)]
      rw [e0, e1, e2]
      field_simp
      linear_combination -(y * f0 + d * x * f1) -
        (d * x * e.wavevector 0 - y * e.wavevector 1) *
          (e.wavevector 1 * e.a0 0 - d ^ 2 * e.wavevector 0 * e.a0 1) * hxy +
        (d * x * e.wavevector 0 - y * e.wavevector 1) * e.wavevector 0 * e.a0 1 * hd
  refine ⟨t1, k0, k1, by rw [ha]; rfl, by rw [ha]; rfl, by rw [h2]; exact h1, by rw [h2, h2']⟩


/-- The parameters of a transformation: displacement of orders, phases, orthogonal matrix, unit of length. -/
structure Transf where
  f : ℤ × ℤ → ℤ × ℤ
  inj : Function.Injective f
  f0 : f (0, 0) = (0, 0)
  p : ℤ × ℤ → ℂ
  hp : ∀ g, star (p g) * p g = 1
  p0 : p (0, 0) = 1
  x : ℝ
  y : ℝ
  d : ℝ
  hxy : x ^ 2 + y ^ 2 = 1
  hd : d ^ 2 = 1
  s : ℝ
  pos : 0 < s

namespace Transf

/-- Its action on the orders of two simulations, numbered by `σ`. -/
def orderMap (t : Transf) (c c' : Static) (σ : Fin c.nh ≃ Fin c'.nh) : OrderMap c.nh c'.nh where
  σ := σ
  p := fun i => t.p (c.harmonics.get i)
  hp := fun i => t.hp _
  x := t.x
  y := t.y
  d := t.d
  hxy := t.hxy
  hd := t.hd
  s := t.s
  pos := t.pos

/-- The orthogonal matrix in space. -/
noncomputable def R3 (t : Transf) : Matrix (Fin 3) (Fin 3) ℝ :=
  !![t.d * t.x, -t.y, 0; t.d * t.y, t.x, 0; 0, 0, 1]

end Transf

variable {E E' : Ext} {c c' : Static} {mats mats' : ℕ → LayerSpec}

/-- What two constructors need to have in common. -/
structure InitPair (t : Transf) (E E' : Ext) (lats lats' : ℕ → Lattice) (mats mats' : ℕ → LayerSpec)
    (stack : List ℕ) (exc exc' : PlaneWave) (nh nh' : ℤ) (form form' : String) (c c' : Static) : Prop where
  init : simInit E lats mats stack exc nh form = .ok c
  init' : simInit E' lats' mats' stack exc' nh' form' = .ok c'
  eigc : EigContract E
  eigc' : EigContract E'
  placed : WellPlaced mats stack
  placed' : WellPlaced mats' stack
  mu : ∀ r ∈ stack, (mats r).mu = 1
  mu' : ∀ r ∈ stack, (mats' r).mu = 1
  nodup : c.harmonics.Nodup
  nodup' : c'.harmonics.Nodup
  zero : ((0 : ℤ), (0 : ℤ)) ∈ c.harmonics
  orders : OrdersAlong t.f c c'
  wave : ∃ wl th ph ps ph' ps', planeWave wl (th, ph, ps) = .ok exc ∧ planeWave (t.s * wl) (th, ph', ps') = .ok exc' ∧
    Real.cos (ph' * (Real.pi / 180)) =
      t.d * t.x * Real.cos (ph * (Real.pi / 180)) - t.y * Real.sin (ph * (Real.pi / 180)) ∧
    Real.sin (ph' * (Real.pi / 180)) =
      t.d * t.y * Real.cos (ph * (Real.pi / 180)) + t.x * Real.sin (ph * (Real.pi / 180)) ∧
    Real.cos (ps' * (Real.pi / 180)) = Real.cos (ps * (Real.pi / 180)) ∧
    Real.sin (ps' * (Real.pi / 180)) = t.d * Real.sin (ps * (Real.pi / 180))
  lattice : ∀ r r', c.lattice.reciprocal = .ok r → c'.lattice.reciprocal = .ok r' → ∀ g ∈ c.harmonics,
    t.s * (r' 0 0 * (t.f g).1 + r' 0 1 * (t.f g).2) =
      t.d * t.x * (r 0 0 * g.1 + r 0 1 * g.2) - t.y * (r 1 0 * g.1 + r 1 1 * g.2) ∧
    t.s * (r' 1 0 * (t.f g).1 + r' 1 1 * (t.f g).2) =
      t.d * t.y * (r 0 0 * g.1 + r 0 1 * g.2) + t.x * (r 1 0 * g.1 + r 1 1 * g.2)
  name : ∀ r ∈ stack, (mats' r).name = (mats r).name
  thick : ∀ r ∈ stack, (mats' r).thickness = (mats r).thickness.map (t.s * ·)
  unif : ∀ r ∈ stack, (mats' r).isUniform = (mats r).isUniform
  value : ∀ r ∈ stack, (mats r).isUniform = true → (mats' r).epsilon.value = (mats r).epsilon.value
  med : ∀ σ : Fin c.nh ≃ Fin c'.nh, (∀ i, c'.harmonics.get (σ i) = t.f (c.harmonics.get i)) →
    ∀ r ∈ stack, ∀ P e P' e', Medium E c mats r P e → Medium E' c' mats' r P' e' →
      P' * (t.orderMap c c' σ).U = (t.orderMap c c' σ).U * P ∧
      e' * (t.orderMap c c' σ).D = (t.orderMap c c' σ).D * e

theorem InitPair.similar {t : Transf} {lats lats' stack exc exc' nh nh' form form'}
    (h : InitPair t E E' lats lats' mats mats' stack exc exc' nh nh' form form' c c') :
    ∃ σ : Fin c.nh ≃ Fin c'.nh, (∀ i, c'.harmonics.get (σ i) = t.f (c.harmonics.get i)) ∧
      SimilarMedia (t.orderMap c c' σ) E E' mats mats' := by
  obtain ⟨σ, hσ⟩ := exists_numbering h.nodup h.nodup' t.inj h.orders
  have hi := simInit_ok h.init
  have hi' := simInit_ok h.init'
  have hst : c.stack = stack := hi.stack_eq
  have hst' : c'.stack = stack := hi'.stack_eq
  obtain ⟨wl, th, ph, ps, ph', ps', w1, w2, w3, w4, w5, w6⟩ := h.wave
  obtain ⟨v1, v2, v3, v4, v5, v6, v7⟩ := planeWave_similar t.pos t.hxy t.hd w1 w2 w3 w4 w5 w6
  obtain ⟨r, hr, kx, ky⟩ := hi.recip
  obtain ⟨r', hr', kx', ky'⟩ := hi'.recip
  have hs0 : t.s ≠ 0 := t.pos.ne'
  obtain ⟨r0, hr0⟩ : ∃ r0, stack.head? = some r0 := by
    rcases hs : stack with _ | ⟨r0, tl⟩
    · exact absurd hs hi.ne
    · exact ⟨r0, rfl⟩
  have hr0m : r0 ∈ stack := List.mem_of_mem_head? hr0
  obtain ⟨s1, s2, s3, s4, s5⟩ := hi.sup r0 hr0
  obtain ⟨s1', s2', s3', s4', s5'⟩ := hi'.sup r0 hr0
  have hval := h.value r0 hr0m s1
  have hnsup : csqrt ((mats' r0).epsilon.value * (mats' r0).mu) = csqrt ((mats r0).epsilon.value * (mats r0).mu) := by
    rw [hval, h.mu r0 hr0m, h.mu' r0 hr0m]
  have kC : ∀ {a b c d e f : ℝ}, a * b = c * d - e * f → (a : ℂ) * b = c * d - e * f := by
    intro a b c d e f hh
    exact_mod_cast congrArg (fun t : ℝ => (t : ℂ)) hh
  have kC' : ∀ {a b c d e f : ℝ}, a * b = c * d + e * f → (a : ℂ) * b = c * d + e * f := by
    intro a b c d e f hh
    exact_mod_cast congrArg (fun t : ℝ => (t : ℂ)) hh
  refine ⟨σ, hσ, ?_⟩
  refine ⟨hst ▸ h.mu, hst ▸ h.mu', h.eigc, h.eigc', hst'.trans hst.symm, hst ▸ h.placed, hst ▸ h.placed', ?_, ?_, ?_, ?_,
    ?_, ?_, ?_, ?_⟩
  · rw [hi.omega_eq, hi'.omega_eq, v7]
    change _ = t.s * _
    field_simp
  · constructor
    · intro i
      change (t.s : ℂ) * c'.kx (σ i) = t.d * t.x * c.kx i - t.y * c.ky i
      obtain ⟨l1, l2⟩ := h.lattice r r' hr hr' _ (List.get_mem c.harmonics i)
      have l1C := congrArg (fun t : ℝ => (t : ℂ)) l1
      have v2C := congrArg (fun t : ℝ => (t : ℂ)) v2
      push_cast at l1C v2C
      rw [kx', kx, ky, hσ i, s5, s5', hnsup]
      unfold kxOf kyOf k0para
      dsimp only
      linear_combination l1C + csqrt ((mats r0).epsilon.value * (mats r0).mu) * v2C
    · intro i
      change (t.s : ℂ) * c'.ky (σ i) = t.d * t.y * c.kx i + t.x * c.ky i
      obtain ⟨l1, l2⟩ := h.lattice r r' hr hr' _ (List.get_mem c.harmonics i)
      have l2C := congrArg (fun t : ℝ => (t : ℂ)) l2
      have v3C := congrArg (fun t : ℝ => (t : ℂ)) v3
      push_cast at l2C v3C
      rw [ky', kx, ky, hσ i, s5, s5', hnsup]
      unfold kxOf kyOf k0para
      dsimp only
      linear_combination l2C + csqrt ((mats r0).epsilon.value * (mats r0).mu) * v3C
  · intro r hr
    rw [h.thick r (hst ▸ hr)]
    change _ = t.s * _
    rcases (mats r).thickness with _ | z <;> simp
  · intro r hr
    exact h.med σ hσ r (hst ▸ hr)
  · intro r hr
    rw [hst, hr0] at hr
    obtain rfl := Option.some.inj hr
    exact ⟨s1, s1', hval⟩
  · intro r hr
    exact h.unif r (hst ▸ List.mem_of_getLast? hr)
  · funext k
    have hz : ∀ i : Fin c.nh, ((σ i : ℕ) = c'.indexZerothOrder ↔ (i : ℕ) = c.indexZerothOrder) := by
      intro i
      have hzero' : ((0 : ℤ), (0 : ℤ)) ∈ c'.harmonics := (h.orders (0, 0)).mpr ⟨_, h.zero, t.f0.symm⟩
      rw [hi.idx, hi'.idx, zerothIndex_eq h.nodup h.zero, zerothIndex_eq h.nodup' hzero', hσ]
      constructor
      · intro hh
        exact t.inj (hh.trans t.f0.symm)
      · intro hh
        rw [hh, t.f0]
    have hph : ∀ i : Fin c.nh, (i : ℕ) = c.indexZerothOrder → (t.orderMap c c' σ).p i = 1 := by
      intro i hh
      rw [hi.idx, zerothIndex_eq h.nodup h.zero] at hh
      change t.p (c.harmonics.get i) = 1
      rw [hh, t.p0]
    rcases k with k | k
    · obtain ⟨i, rfl⟩ := σ.surjective k
      rw [(hi'.a0 (σ i)).1]
      have := (t.orderMap c c' σ).U_inl c.a0 i
      change _ = ((t.orderMap c c' σ).U *ᵥ c.a0) (Sum.inl ((t.orderMap c c' σ).σ i))
      rw [this, (hi.a0 i).1, (hi.a0 i).2]
      by_cases hh : (i : ℕ) = c.indexZerothOrder
      · rw [if_pos ((hz i).mpr hh), if_pos hh, if_pos hh, hph i hh, v4]
        change _ = 1 * ((t.x : ℂ) * _ - t.d * t.y * _)
        push_cast
        ring
      · rw [if_neg (fun h2 => hh ((hz i).mp h2)), if_neg hh, if_neg hh]
        ring
    · obtain ⟨i, rfl⟩ := σ.surjective k
      rw [(hi'.a0 (σ i)).2]
      have := (t.orderMap c c' σ).U_inr c.a0 i
      change _ = ((t.orderMap c c' σ).U *ᵥ c.a0) (Sum.inr ((t.orderMap c c' σ).σ i))
      rw [this, (hi.a0 i).1, (hi.a0 i).2]
      by_cases hh : (i : ℕ) = c.indexZerothOrder
      · rw [if_pos ((hz i).mpr hh), if_pos hh, if_pos hh, hph i hh, v5]
        change _ = 1 * ((t.y : ℂ) * _ + t.d * t.x * _)
        push_cast
        ring
      · rw [if_neg (fun h2 => hh ((hz i).mp h2)), if_neg hh, if_neg hh]
        ring
  · rw [s4, s4', v1, hnsup]

/-- Results of the two simulations. -/
theorem InitPair.results {t : Transf} {lats lats' stack exc exc' nh nh' form form'}
    (h : InitPair t E E' lats lats' mats mats' stack exc exc' nh nh' form form' c c')
    (hist : List (Call c.nh)) (hist' : List (Call c'.nh)) :
    (∀ orders X X',
      (diffractionEfficiencies E c orders (afterCalls E c hist (Dyn.fresh mats (unsolved c.nh)))).1 = .ok X →
      (diffractionEfficiencies E' c' orders (afterCalls E' c' hist' (Dyn.fresh mats' (unsolved c'.nh)))).1 = .ok X' →
      EfficienciesAlong t.f c c' X X') ∧
    ∀ id zs Fs Fs',
      (getFieldFourier E c id zs (afterCalls E c hist (Dyn.fresh mats (unsolved c.nh)))).1 = .ok Fs →
      (getFieldFourier E' c' id (zs.map (t.s * ·))
        (afterCalls E' c' hist' (Dyn.fresh mats' (unsolved c'.nh)))).1 = .ok Fs' →
      List.Forall₂ (FieldsAlong t.f t.p t.R3 c c') Fs Fs' := by
  obtain ⟨σ, hσ, hm⟩ := h.similar
  obtain ⟨wl, th, ph, ps, ph', ps', w1, -⟩ := h.wave
  exact hm.results h.init h.init' (omega_ne_zero h.init w1) h.name (fun i => rfl)
    (fun i j hij => (List.nodup_iff_injective_get.mp h.nodup') (hij.trans (hσ i).symm)) hist hist'

end Nannos
