import Verif.Proofs.MovedInit

/-! Simulations of displaced and reflected structures. -/

namespace Nannos

open Matrix Spec

theorem sign_cases {e : ℤ} (h : e * e = 1) : e = 1 ∨ e = -1 := mul_self_eq_one_iff.mp h

/-- Reflection and displacement as a motion. -/
noncomputable def reflMotion (e1 e2 : ℤ) (h1 : e1 * e1 = 1) (h2 : e2 * e2 = 1) (u v : ℝ) : Motion where
  ex := e1
  ey := e2
  hex := h1
  hey := h2
  u := u
  v := v
  x := e2
  y := 0
  d := e1 * e2
  hxy := by
    have : (e2 : ℝ) * e2 = 1 := by exact_mod_cast h2
    linear_combination this
  hd := by
    have a : (e1 : ℝ) * e1 = 1 := by exact_mod_cast h1
    have : (e2 : ℝ) * e2 = 1 := by exact_mod_cast h2
    linear_combination e1 * e1 * this + a
  s := 1
  pos := one_pos

theorem pixel_mv {N : ℕ} (e s : ℤ) (x : Fin N) : ((mv e s x : Fin N) : ℕ) = pixel N (e * (x : ℕ) - s) := rfl

variable {e1 e2 : ℤ} {h1 : e1 * e1 = 1} {h2 : e2 * e2 = 1} {u v : ℝ}

theorem shift_of_whole {Nx Ny : ℕ} {sx sy : ℤ} (h : WholePixels u v Nx Ny sx sy) :
    (reflMotion e1 e2 h1 h2 u v).Shift Nx Ny sx sy := ⟨h.1, h.2⟩

theorem gridMoved_of {w w' : PGrid} (h : (reflMotion e1 e2 h1 h2 u v).GridMoved 1 w w') : Spec.GridMoved e1 e2 u v w w' := by
  obtain ⟨Nx, Ny, a, a', sx, sy, rfl, rfl, hs, hh⟩ := h
  refine ⟨Nx, Ny, a, a', sx, sy, rfl, rfl, ⟨hs.hx, hs.hy⟩, fun x y x' y' hx hy => ?_⟩
  rw [hh x y, one_mul]
  congr 1
  · exact Fin.ext hx.symm
  · exact Fin.ext hy.symm

theorem fieldMoved_of {t t' : Field2} (h : VectorsMoved e1 e2 u v t t') : (reflMotion e1 e2 h1 h2 u v).FieldMoved t t' := by
  obtain ⟨Nx, Ny, a, b, a', b', sx, sy, rfl, rfl, hs, hh⟩ := h
  refine ⟨Nx, Ny, a, b, a', b', sx, sy, rfl, rfl, shift_of_whole hs, fun x y => ?_⟩
  obtain ⟨k1, k2⟩ := hh x y (mv e1 sx x) (mv e2 sy y) rfl rfl
  refine ⟨1, rfl, ?_, ?_⟩
  all_goals rw [one_mul, show (reflMotion e1 e2 h1 h2 u v).y = 0 from rfl]
  · rw [k1, Complex.ofReal_zero, zero_mul, sub_zero]
    have : ((e1 * e2 * e2 : ℝ)) = e1 := by
      have : (e2 : ℝ) * e2 = 1 := by exact_mod_cast h2
      linear_combination e1 * this
    change _ = (((e1 * e2 : ℝ) * e2 : ℝ) : ℂ) * a (mv e1 sx x) (mv e2 sy y)
    rw [this]
    push_cast
    rfl
  · rw [k2, mul_zero, Complex.ofReal_zero, zero_mul, zero_add]
    change _ = ((e2 : ℝ) : ℂ) * b (mv e1 sx x) (mv e2 sy y)
    push_cast
    rfl

theorem squareTensors_of_iso {form : String} {mats : ℕ → LayerSpec} {stack : List ℕ}
    (h : ∀ r ∈ stack, (mats r).isAnisotropic = false) : SquareTensors form mats stack := by
  refine .inr fun r hr Nx Ny hs => ?_
  have := h r hr
  unfold LayerSpec.isAnisotropic isAnisotropic at this
  rw [hs] at this
  simp at this

theorem layerMoved_of {fm : String} (hj : fm = "jones" → e1 = e2) {L L' : LayerSpec} (h : PatternMoved e1 e2 u v L L')
    (hsq : fm = "original" ∨ ∀ Nx Ny, L.epsilon.shape = [3, 3, Nx, Ny] → Nx = Ny) :
    (reflMotion e1 e2 h1 h2 u v).LayerMoved fm L L' := by
  have hs := h.same
  refine ⟨by rw [hs], by rw [hs], by rw [hs], by rw [hs], ?_, h.shape, h.uniform, ?_, ?_, .inr (.inl rfl), hsq.imp_right .inl, ?_⟩
  · rw [hs]
    change L.thickness = L.thickness.map ((1 : ℝ) * ·)
    rcases L.thickness with _ | z <;> simp
  · intro Nx Ny hu hsh
    obtain ⟨sx, sy, k1, k2⟩ := h.numbers Nx Ny hu hsh
    exact ⟨sx, sy, shift_of_whole k1, fun x y => k2 x x.2 y y.2⟩
  · intro Nx Ny hsh
    obtain ⟨sx, sy, k1, k2⟩ := h.tensors Nx Ny hsh
    refine .inl ⟨rfl, sx, sy, shift_of_whole k1, fun x y => ⟨fun i hi => ?_, ?_, ?_⟩⟩
    · rw [k2 x x.2 y y.2 i hi i hi]
      have : ([e1, e2, 1].getD i 0 * [e1, e2, 1].getD i 0 : ℤ) = 1 := by
        interval_cases i <;> simp [h1, h2]
      rw [this, Int.cast_one, one_mul]
      rfl
    · rw [k2 x x.2 y y.2 0 (by norm_num) 1 (by norm_num)]
      change ((e1 * e2 : ℤ) : ℂ) * _ = (((e1 * e2 : ℝ)) : ℂ) * _
      push_cast
      rfl
    · rw [k2 x x.2 y y.2 1 (by norm_num) 0 (by norm_num)]
      change ((e2 * e1 : ℤ) : ℂ) * _ = (((e1 * e2 : ℝ)) : ℂ) * _
      push_cast
      rw [mul_comm (e2 : ℂ)]
      rfl
  · intro hh
    obtain rfl := hj hh
    change (e1 : ℝ) * e1 = 1
    exact_mod_cast h1

/-- Harmonics do not depend on the materials. -/
theorem same_harmonics {E lats mats mats' stack exc exc' nh form c c'}
    (h : simInit E lats mats stack exc nh form = .ok c) (h' : simInit E lats mats' stack exc' nh form = .ok c')
    (hl : ∀ r ∈ stack, (mats' r).lattice = (mats r).lattice)
    (hs : ∀ r ∈ stack, (mats' r).epsilon.shape = (mats r).epsilon.shape) :
    c'.lattice = c.lattice ∧ c'.harmonics = c.harmonics := by
  have hi := simInit_ok h
  have hi' := simInit_ok h'
  obtain ⟨r0, hr0⟩ : ∃ r0, stack.head? = some r0 := by
    rcases hs : stack with _ | ⟨r0, tl⟩
    · exact absurd hs hi.ne
    · exact ⟨r0, rfl⟩
  have hlat : c'.lattice = c.lattice := by
    rw [hi.lat_eq r0 hr0, hi'.lat_eq r0 hr0, hl r0 (List.mem_of_mem_head? hr0)]
  refine ⟨hlat, ?_⟩
  obtain ⟨n, hn⟩ := hi.harm
  obtain ⟨n', hn'⟩ := hi'.harm
  have : (stack.all fun r => (mats' r).isUniform) = stack.all fun r => (mats r).isUniform := by
    rw [Bool.eq_iff_iff, List.all_eq_true, List.all_eq_true]
    refine forall₂_congr fun r hr => ?_
    unfold LayerSpec.isUniform
    rw [hs r hr]
  rw [this, hlat, hn] at hn'
  simp only [Except.ok.injEq, Prod.mk.injEq] at hn'
  exact hn'.1.symm

theorem refl_setup {E lats mats mats' stack exc exc' nh form c c'}
    (hE : EigContract E) (hinit : simInit E lats mats stack exc nh form = .ok c)
    (hinit' : simInit E lats mats' stack exc' nh form = .ok c') (hw : WellPlaced mats stack)
    (hw' : WellPlaced mats' stack) (hmu : ∀ r ∈ stack, (mats r).mu = 1)
    (hm : ∀ r ∈ stack, PatternMoved e1 e2 u v (mats r) (mats' r)) (hsq : SquareTensors form mats stack)
    (hwave : ∃ wl th ph ps ph' ps', planeWave wl (th, ph, ps) = .ok exc ∧ planeWave wl (th, ph', ps') = .ok exc' ∧
      AnglesReflected e1 e2 ph ps ph' ps')
    (hnd : c.harmonics.Nodup) (hzero : ((0 : ℤ), (0 : ℤ)) ∈ c.harmonics)
    (hsym : ∀ g ∈ c.harmonics, (e1 * g.1, e2 * g.2) ∈ c.harmonics)
    (hlat : (c.lattice.basis 0 1 = 0 ∧ c.lattice.basis 1 0 = 0) ∨ e1 = e2)
    (hj : form = "jones" → e1 = e2)
    (hgen : UsesGenerator form c.lattice.is1D mats stack → GeneratorMoves e1 e2 u v E mats mats' stack) :
    (reflMotion e1 e2 h1 h2 u v).Setup E E lats lats mats mats' stack exc exc' nh nh form c c' := by
  obtain ⟨hl, hh⟩ := same_harmonics hinit hinit' (fun r hr => by rw [(hm r hr).same]) fun r hr => (hm r hr).shape
  have r1 : (e1 : ℝ) * e1 = 1 := by exact_mod_cast h1
  have r2 : (e2 : ℝ) * e2 = 1 := by exact_mod_cast h2
  refine ⟨hinit, hinit', hE, hE, hw, hw', hmu, hnd, by rw [hh]; exact hnd, hzero, ?_, ?_, by rw [hl], .inl ?_,
    fun r hr => layerMoved_of hj (hm r hr) (hsq.imp_right fun h => h r hr), .inr (.inl rfl), ?_⟩
  · intro g'
    rw [hh]
    constructor
    · intro hg
      refine ⟨_, hsym g' hg, ?_⟩
      change g' = (e1 * (e1 * g'.1), e2 * (e2 * g'.2))
      rw [← mul_assoc, ← mul_assoc, h1, h2, one_mul, one_mul]
    · rintro ⟨g, hg, rfl⟩
      exact hsym g hg
  · obtain ⟨wl, th, ph, ps, ph', ps', a1, a2, a3, a4, a5, a6⟩ := hwave
    refine ⟨wl, th, ph, ps, ph', ps', a1, ?_, ?_, ?_, a5, a6⟩
    · change planeWave (1 * wl) _ = _
      rw [one_mul]
      exact a2
    · rw [a3]
      change _ = e1 * e2 * e2 * Real.cos _ - 0 * _
      linear_combination -(e1 * Real.cos (ph * (Real.pi / 180))) * r2
    · rw [a4]
      change _ = e1 * e2 * 0 * Real.cos _ + e2 * _
      ring
  · intro i
    rw [hl]
    change c.lattice.basis 0 i = 1 * e1 * (![e1 * e2 * e2 * c.lattice.basis 0 0 - 0 * _, e1 * e2 * 0 * _ + e2 * c.lattice.basis 0 1] i) ∧
      c.lattice.basis 1 i = 1 * e2 * (![e1 * e2 * e2 * c.lattice.basis 1 0 - 0 * _, e1 * e2 * 0 * _ + e2 * c.lattice.basis 1 1] i)
    have r12 : (c.lattice.basis 0 1 = 0 ∧ c.lattice.basis 1 0 = 0) ∨ (e1 : ℝ) = e2 := hlat.imp_right fun hh => by rw [hh]
    fin_cases i
    · refine ⟨?_, ?_⟩
      · simp only [Fin.zero_eta, cons_val_zero]
        linear_combination -(c.lattice.basis 0 0) * (e2 * e2 * r1 + r2)
      · simp only [Fin.zero_eta, cons_val_zero]
        rcases r12 with ⟨k1, k2⟩ | hh
        · rw [k2]; ring
        · rw [hh]
          linear_combination -(c.lattice.basis 1 0) * (e2 * e2 * r2 + r2)
    · refine ⟨?_, ?_⟩
      · simp only [Fin.mk_one, cons_val_one, cons_val_fin_one]
        rcases r12 with ⟨k1, k2⟩ | hh
        · rw [k1]; ring
        · rw [hh]
          linear_combination -(c.lattice.basis 0 1) * r2
      · simp only [Fin.mk_one, cons_val_one, cons_val_fin_one]
        linear_combination -(c.lattice.basis 1 1) * r2
  · intro hno r hr w w' H H' k k' nrm t t' p1 p2 b1 b2 b3 b4 b5
    have hnh : c'.nh = c.nh := by unfold Static.nh; rw [hh]
    rw [hl, hnh, b1] at b2
    simp only [Except.ok.injEq, Prod.mk.injEq] at b2
    obtain ⟨rfl, rfl⟩ := b2
    unfold getTangentField at b4 b5
    rcases (hm r hr).vectors with ⟨k1, k2⟩ | ⟨t0, t0', k1, k2, k3⟩
    · rw [k1] at b4
      rw [k2] at b5
      have hty : (mats' r).tangentFieldType = (mats r).tangentFieldType := by rw [(hm r hr).same]
      rw [hty] at b5
      dsimp only at b4 b5
      split at b4
      · rename_i hc
        rw [if_pos hc] at b5
        push Not at hno
        exact fieldMoved_of (hgen ⟨hno.1, fun hh => absurd hh.2 (hno.2 hh.1), r, hr, k1⟩ r hr k1 _ _ _ _ _ _ p1 p2 (gridMoved_of b3) b4 b5)
      · simp at b4
    · rw [k1] at b4
      rw [k2] at b5
      simp only [Except.ok.injEq] at b4 b5
      subst b4 b5
      exact fieldMoved_of k3


theorem refl_transf : (reflMotion e1 e2 h1 h2 u v).transf.f = (fun g => (e1 * g.1, e2 * g.2)) ∧
    (reflMotion e1 e2 h1 h2 u v).transf.p = displacementPhase u v ∧
    (reflMotion e1 e2 h1 h2 u v).transf.R3 = reflection e1 e2 := by
  refine ⟨rfl, rfl, ?_⟩
  have r2 : (e2 : ℝ) * e2 = 1 := by exact_mod_cast h2
  unfold Transf.R3 reflection
  change !![(e1 : ℝ) * e2 * e2, -0, 0; e1 * e2 * 0, e2, 0; 0, 0, 1] = _
  have : (e1 : ℝ) * e2 * e2 = e1 := by linear_combination e1 * r2
  rw [this]
  ext i j
  fin_cases i <;> fin_cases j <;> simp [Matrix.diagonal]

end Nannos
