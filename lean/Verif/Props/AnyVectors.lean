import Verif.Props.Constitutive
import Verif.Props.GeneratorOrders
import Verif.Props.EnergyVectors

/-! C55, C95 for vectors from any source: given by the user, generated, or made from those by the formulation `jones`. -/

namespace Nannos

open Matrix

variable {E : Ext} {c : Static} {Nx Ny : ℕ} {mats : ℕ → LayerSpec}

namespace Spec

/-- The vectors which a simulation uses for the layer `L` with the pattern `w`: those given with the layer, or else those its
generator returns for the orders it is asked for; in the formulation `jones`, the Jones vectors made from them. -/
def VectorsUsed (E : Ext) (c : Static) (L : LayerSpec) (w : PGrid) (t : Field2) : Prop :=
  ∃ s, (L.tangentField = some s ∨ L.tangentField = none ∧ ∃ H m, c.lattice.getHarmonics E.argsort c.nh true = .ok (H, m) ∧
      E.tangent L.tangentFieldType w H (c.formulation == "tangent") = .ok s) ∧
    if c.formulation = "jones" then jonesField s = .ok t else s = t

/-- Li's rules for complex unit vectors `t`, of which `pxx = tx tx*`, `pxy = tx ty*`, `pyx = ty tx*`, `pyy = ty ty*`: `A` for the
component along `t`, `B` for the component across `t`, that is `D = A E - (A - B) N E` with the projector
`N = [[pyy, -pxy], [-pyx, pxx]]`. -/
noncomputable def normalLawC (c : Static) (A B : Matrix (Fin c.nh) (Fin c.nh) ℂ) (pxx pxy pyx pyy : Grid Nx Ny) : Law c.nh :=
  fun ex ey => (A *ᵥ ex - (A - B) *ᵥ (conv c pyy *ᵥ ex - conv c pxy *ᵥ ey), A *ᵥ ey - (A - B) *ᵥ (conv c pxx *ᵥ ey - conv c pyx *ᵥ ex))

/-- `a b* / (|t| + eps)^2`. -/
noncomputable def cdyad (t : Field2) (a b : Grid t.Nx t.Ny) : Grid t.Nx t.Ny := fun x y =>
  a x y * star (b x y) / (((Real.sqrt (‖t.t0 x y‖ ^ 2 + ‖t.t1 x y‖ ^ 2) + 1 / 2 ^ 52) ^ 2 : ℝ) : ℂ)

/-- The formulations which use vectors on the lattice of the simulation. -/
def UsesVectors (c : Static) : Prop :=
  c.formulation = "tangent" ∧ c.lattice.is1D = false ∨ c.formulation = "pol" ∨ c.formulation = "jones"

end Spec

open Spec

theorem projField_cdyad (t : Field2) (f : ℂ → ℂ → ℂ) (a b : Grid t.Nx t.Ny) (h : ∀ x y, f (t.t0 x y) (t.t1 x y) = a x y * star (b x y)) :
    projField t f = ⟨t.Nx, t.Ny, cdyad t a b⟩ := by
  unfold projField cdyad
  congr 1
  funext x y
  rw [h]
  congr 2
  unfold normPt
  rw [sq_abs, add_comm, Complex.normSq_eq_norm_sq, Complex.normSq_eq_norm_sq]

/-- The operators of an isotropic patterned layer, whatever the vectors. -/
theorem iso_peps_any {L : LayerSpec} {M p Q} (hmu : L.mu = 1) (hb : buildPure E c L = .ok (.patterned M p Q))
    {eps : Grid Nx Ny} (hs : L.epsilon = NdArr.ofGrid eps) (hf : UsesVectors c) :
    ∃ t, VectorsUsed E c L ⟨Nx, Ny, eps⟩ t ∧ p.epsHat = conv c eps ∧ (conv c fun x y => 1 / eps x y).det ≠ 0 ∧
    (∃ X, c.toep ⟨t.Nx, t.Ny, cdyad t t.t0 t.t0⟩ = .ok X) ∧ (∃ X, c.toep ⟨t.Nx, t.Ny, cdyad t t.t1 t.t1⟩ = .ok X) ∧
    (∃ X, c.toep ⟨t.Nx, t.Ny, cdyad t t.t0 t.t1⟩ = .ok X) ∧ (∃ X, c.toep ⟨t.Nx, t.Ny, cdyad t t.t1 t.t0⟩ = .ok X) ∧
    p.Peps = diag2 p.epsHat - (diag2 p.epsHat - diag2 (conv c fun x y => 1 / eps x y)⁻¹) *
      fromBlocks (conv c (cdyad t t.t1 t.t1)) (conv c (cdyad t t.t1 t.t0)) (conv c (cdyad t t.t0 t.t1)) (conv c (cdyad t t.t0 t.t0)) := by
  obtain ⟨hu, -, -, -, -, -, -, epszz, para, eph, Ht, n, h1, h2, h3, h4, h5, h6⟩ := buildPure_patterned_ok hmu hb
  obtain ⟨ha, hg⟩ := iso_of_grid hs hu
  rw [ha] at h1
  simp only [Bool.false_eq_true, if_false] at h1
  rw [hg] at h1
  cases h1
  unfold paraOf at h3
  rw [ha] at h3
  simp only [Bool.false_eq_true, if_false] at h3
  cases h3
  have h4' : diag2 p.epsHat = eph := Except.ok.inj h4
  have hgt : ∀ {s}, getTangentField E L ⟨Nx, Ny, eps⟩ Ht (c.formulation == "tangent") = .ok s →
      (L.tangentField = some s ∨ L.tangentField = none ∧ ∃ H m, c.lattice.getHarmonics E.argsort c.nh true = .ok (H, m) ∧
        E.tangent L.tangentFieldType ⟨Nx, Ny, eps⟩ H (c.formulation == "tangent") = .ok s) := by
    intro s hs
    unfold getTangentField at hs
    split at hs
    · rename_i t ht
      obtain rfl := Except.ok.inj hs
      exact .inl ht
    · rename_i ht
      split at hs
      · exact .inr ⟨ht, Ht, n, h5, hs⟩
      · cases hs
  have h7 : ∃ N t, VectorsUsed E c L ⟨Nx, Ny, eps⟩ t ∧ nuHatInvIso c ⟨Nx, Ny, eps⟩ = .ok N ∧
      getPeps c (diag2 p.epsHat) (diag2 N) t = .ok p.Peps := by
    unfold pepsOf at h6
    rcases hf with ⟨hf, h2d⟩ | hf | hf
    · rw [if_neg (by rw [hf]; decide), if_pos hf, h2d] at h6
      simp only [Bool.false_eq_true, if_false, bind_eq_ok] at h6
      obtain ⟨s, hs, nu, ⟨N, hN, h8⟩, h9⟩ := h6
      cases h8
      refine ⟨N, s, ⟨s, hgt (by rw [hf]; exact hs), ?_⟩, hN, by rw [h4']; exact h9⟩
      rw [hf]; simp
    · rw [if_neg (by rw [hf]; decide), if_neg (by rw [hf]; decide), if_neg (by rw [hf]; decide)] at h6
      simp only [bind_eq_ok] at h6
      obtain ⟨s, hs, nu, ⟨N, hN, h8⟩, h9⟩ := h6
      cases h8
      refine ⟨N, s, ⟨s, hgt (by rw [hf]; exact hs), ?_⟩, hN, by rw [h4']; exact h9⟩
      rw [hf]; simp
    · rw [if_neg (by rw [hf]; decide), if_neg (by rw [hf]; decide), if_pos hf] at h6
      simp only [bind_eq_ok] at h6
      obtain ⟨s, hs, J, hJ, nu, ⟨N, hN, h8⟩, h9⟩ := h6
      cases h8
      refine ⟨N, J, ⟨s, hgt (by rw [hf]; exact hs), ?_⟩, hN, by rw [h4']; exact h9⟩
      rw [if_pos hf]; exact hJ
  obtain ⟨N, t, ht, hN, hP⟩ := h7
  have hN' := nuHatInv_conv hN
  unfold getPeps at hP
  simp only [bind_eq_ok] at hP
  obtain ⟨Pxx, p1, Pyy, p2, Pxy, p3, Pyx, p4, hP⟩ := hP
  have hP' := Except.ok.inj hP
  rw [projField_cdyad t _ t.t0 t.t0 fun _ _ => rfl] at p1
  rw [projField_cdyad t _ t.t1 t.t1 fun _ _ => rfl] at p2
  rw [projField_cdyad t _ t.t0 t.t1 fun _ _ => rfl] at p3
  rw [projField_cdyad t _ t.t1 t.t0 fun _ _ => rfl] at p4
  refine ⟨t, ht, toep_conv h2, hN'.1, ⟨Pxx, p1⟩, ⟨Pyy, p2⟩, ⟨Pxy, p3⟩, ⟨Pyx, p4⟩, ?_⟩
  rw [← hP', toep_conv p1, toep_conv p2, toep_conv p3, toep_conv p4, hN'.2]

theorem lawOf_projected (A B : Matrix (Fin c.nh) (Fin c.nh) ℂ) {Tx Ty : ℕ} (pxx pxy pyx pyy : Grid Tx Ty) :
    lawOf (diag2 A - (diag2 A - diag2 B) * fromBlocks (conv c pyy) (conv c pyx) (conv c pxy) (conv c pxx)) =
      normalLawC c A B pyy pxy pyx pxx := by
  funext ex ey
  unfold diag2 normalLawC
  rw [sub_eq_add_neg (fromBlocks _ _ _ _) (fromBlocks _ _ _ _), fromBlocks_neg, fromBlocks_add, fromBlocks_multiply,
    sub_eq_add_neg (fromBlocks _ _ _ _) (fromBlocks _ _ _ _), fromBlocks_neg, fromBlocks_add, lawOf_fromBlocks]
  simp only [neg_zero, add_zero, zero_add, Matrix.zero_mul, ← sub_eq_add_neg]
  ext i
  · simp only [sub_mulVec, neg_mulVec, mulVec_sub, ← mulVec_mulVec, Pi.sub_apply, Pi.neg_apply, zero_sub, zero_mulVec, Pi.zero_apply]
    ring
  · simp only [sub_mulVec, neg_mulVec, mulVec_sub, ← mulVec_mulVec, Pi.sub_apply, Pi.neg_apply, zero_sub, zero_mulVec, Pi.zero_apply]
    ring

/-- **C55 fails**, for vectors from any source.  In the formulations with vectors (`tangent`, `pol`, and `jones` whose vectors are
complex), on a bi-periodic lattice, the displacement is that of Li's rules for the vectors used, with the roles of `tx tx*` and
`ty ty*` exchanged. -/
theorem C55_exchanged_projector_any (L : LayerSpec) (M p Q) (hmu : L.mu = 1) (hb : buildPure E c L = .ok (.patterned M p Q))
    (eps : Grid Nx Ny) (hs : L.epsilon = NdArr.ofGrid eps) (hf : UsesVectors c) :
    ∃ t, VectorsUsed E c L ⟨Nx, Ny, eps⟩ t ∧
      lawOf p.Peps = normalLawC c (conv c eps) (conv c fun x y => 1 / eps x y)⁻¹ (cdyad t t.t1 t.t1) (cdyad t t.t0 t.t1)
        (cdyad t t.t1 t.t0) (cdyad t t.t0 t.t0) := by
  obtain ⟨t, ht, h1, -, -, -, -, -, h2⟩ := iso_peps_any hmu hb hs hf
  refine ⟨t, ht, ?_⟩
  rw [h2, h1]
  exact lawOf_projected _ _ _ _ _ _

/-- **C55**, the part that holds, for vectors from any source: Li's rules for the vectors used exactly when the truncated products
with `tx tx*` and with `ty ty*` cannot be told apart after multiplication by the difference of the two rules; in particular if
both components of the vectors have the same modulus at every pixel (interfaces at 45 degrees, or circular polarisation). -/
theorem C55_equal_moduli_partial (L : LayerSpec) (M p Q) (hmu : L.mu = 1) (hb : buildPure E c L = .ok (.patterned M p Q))
    (eps : Grid Nx Ny) (hs : L.epsilon = NdArr.ofGrid eps) (hf : UsesVectors c) :
    ∃ t, VectorsUsed E c L ⟨Nx, Ny, eps⟩ t ∧
      (lawOf p.Peps = normalLawC c (conv c eps) (conv c fun x y => 1 / eps x y)⁻¹ (cdyad t t.t0 t.t0) (cdyad t t.t0 t.t1)
          (cdyad t t.t1 t.t0) (cdyad t t.t1 t.t1) ↔
        (conv c eps - (conv c fun x y => 1 / eps x y)⁻¹) * conv c (cdyad t t.t0 t.t0) =
          (conv c eps - (conv c fun x y => 1 / eps x y)⁻¹) * conv c (cdyad t t.t1 t.t1)) ∧
      ((∀ x y, ‖t.t0 x y‖ = ‖t.t1 x y‖) →
        lawOf p.Peps = normalLawC c (conv c eps) (conv c fun x y => 1 / eps x y)⁻¹ (cdyad t t.t0 t.t0) (cdyad t t.t0 t.t1)
          (cdyad t t.t1 t.t0) (cdyad t t.t1 t.t1)) := by
  obtain ⟨t, ht, key⟩ := C55_exchanged_projector_any L M p Q hmu hb eps hs hf
  refine ⟨t, ht, ?_⟩
  rw [key]
  generalize (conv c fun x y => 1 / eps x y)⁻¹ = B
  constructor
  · constructor
    · intro h
      have h1 : ∀ ex ey, _ := fun ex ey => congrFun (congrFun h ex) ey
      unfold normalLawC at h1
      simp only [Prod.mk.injEq] at h1
      ext i j
      have := congrFun (h1 (Pi.single j 1) 0).1 i
      simp only [mulVec_zero, sub_zero, Pi.sub_apply, sub_right_inj, mulVec_mulVec] at this
      simpa using this
    · intro h
      unfold normalLawC
      funext ex ey
      simp only [mulVec_sub, mulVec_mulVec, h]
  · intro h
    have e : cdyad t t.t0 t.t0 = cdyad t t.t1 t.t1 := by
      funext x y
      unfold cdyad
      congr 1
      have : ∀ z : ℂ, z * star z = ((‖z‖ ^ 2 : ℝ) : ℂ) := fun z => by
        rw [Complex.star_def, Complex.mul_conj, Complex.normSq_eq_norm_sq]
      rw [this, this, h]
    rw [e]

/-- The vectors used in the default simulation with `nh = 9` on the unit square lattice, default generator, are constant. -/
theorem square_nine_constant (argmin : (n : ℕ) → (Unknowns n → ℝ) → Except PyErr (Unknowns n)) (hA : ArgsortContract E.argsort)
    {lats stack exc form} (hinit : simInit (E.withGenerators (optFit argmin)) lats mats stack exc 9 form = .ok c)
    (hp : ∃ r ∈ stack, (mats r).isUniform = false)
    (hl : c.lattice.truncation = .circular) (hu : c.lattice.harmonicsArray = none) (hb : c.lattice.basis = ![![1, 0], ![0, 1]])
    {L : LayerSpec} (ht : L.tangentField = none) (hty : L.tangentFieldType = "opt") :
    ConstantVectorsUsed (E.withGenerators (optFit argmin)) c L := by
  obtain ⟨-, m, h2⟩ := square_nine (E := E.withGenerators (optFit argmin)) hA hinit hp hl hu hb
  rintro w s - (hs | ⟨-, H, m', hH, hs⟩)
  · rw [ht] at hs
    cases hs
  · rw [h2] at hH
    obtain ⟨rfl, -⟩ := Prod.mk.inj (Except.ok.inj hH)
    rw [hty] at hs
    have k' : tangentOpt (optFit argmin) w [(0, 0)] (c.formulation == "tangent") = .ok s := hs
    obtain ⟨u, v, rfl⟩ := C107_one_order_same_vector k'
    exact ⟨_, _, u, v, rfl⟩

/-- **C95** in the default simulation with `nh = 9` on the unit square lattice (circular truncation, vectors from the default
generator, any formulation, whatever the search of the generator finds): energy is conserved by lossless inner layers and not
created by passive ones, since the vectors used do not vary (C107). -/
theorem C95_square_nine (argmin : (n : ℕ) → (Unknowns n → ℝ) → Except PyErr (Unknowns n)) (hA : ArgsortContract E.argsort)
    {lats stack exc form} (hinit : simInit (E.withGenerators (optFit argmin)) lats mats stack exc 9 form = .ok c)
    (hp : ∃ r ∈ stack, (mats r).isUniform = false)
    (hl : c.lattice.truncation = .circular) (hu : c.lattice.harmonicsArray = none) (hb : c.lattice.basis = ![![1, 0], ![0, 1]])
    (hE : EigContract E) (hw : WellPlaced mats stack) (hmu : ∀ r ∈ stack, (mats r).mu = 1)
    (wl : ℝ) (ang : ℝ × ℝ × ℝ) (hpw : planeWave wl ang = .ok exc) (hwl : 0 < wl) (hcos : 0 < Real.cos exc.theta)
    (e : ℝ) (hpos : 0 < e) (hsup : ∀ r0, stack.head? = some r0 → (mats r0).epsilon.value = (e : ℂ))
    (hiso : ∀ r ∈ stack, (mats r).isUniform = false →
      (mats r).isAnisotropic = false ∧ (mats r).tangentField = none ∧ (mats r).tangentFieldType = "opt")
    (hist : List (Call c.nh)) (R T : ℝ)
    (h : (diffractionEfficiencies (E.withGenerators (optFit argmin)) c false
      (afterCalls (E.withGenerators (optFit argmin)) c hist (Dyn.fresh mats (unsolved c.nh)))).1 = .ok (.total R T)) :
    ((∀ k r, 0 < k → k + 1 < stack.length → stack[k]? = some r → Lossless (mats r)) → R + T = 1) ∧
    ((∀ k r, 0 < k → k + 1 < stack.length → stack[k]? = some r →
      Passive (mats r) ∧ ∀ t, (mats r).thickness = some t → 0 ≤ t) → 0 ≤ R ∧ R + T ≤ 1) := by
  obtain ⟨⟨h5, hm⟩, -⟩ := square_nine (E := E.withGenerators (optFit argmin)) hA hinit hp hl hu hb
  have hnd : c.harmonics.Nodup := by
    rw [← Multiset.coe_nodup, ← Multiset.toFinset_card_eq_card_iff_nodup, Multiset.coe_card]
    have e : (c.harmonics : Multiset (ℤ × ℤ)).toFinset = [((0 : ℤ), (0 : ℤ)), (1, 0), (-1, 0), (0, 1), (0, -1)].toFinset := by
      ext g
      rw [Multiset.mem_toFinset, Multiset.mem_coe, hm, List.mem_toFinset]
    rw [e, show c.harmonics.length = 5 from h5]
    rfl
  exact C95_constant_vectors_used_partial hinit hE hw hmu wl ang hpw hwl hcos ((hm _).mpr (by simp)) hnd e hpos hsup
    (fun r hr hu' => ⟨(hiso r hr hu').1,
      square_nine_constant argmin hA hinit hp hl hu hb (hiso r hr hu').2.1 (hiso r hr hu').2.2⟩) hist R T h

/-- **C55 fails** in that simulation: the rules do not follow the interfaces.  Whatever the pattern, there is one matrix `n` of four
numbers such that the component `n E` of the field gets the inverse rule at every point of the cell. -/
theorem C55_square_nine (argmin : (n : ℕ) → (Unknowns n → ℝ) → Except PyErr (Unknowns n)) (hA : ArgsortContract E.argsort)
    {lats stack exc form} (hinit : simInit (E.withGenerators (optFit argmin)) lats mats stack exc 9 form = .ok c)
    (hl : c.lattice.truncation = .circular) (hu : c.lattice.harmonicsArray = none) (hb : c.lattice.basis = ![![1, 0], ![0, 1]])
    (r : ℕ) (hr : r ∈ stack) (M p Q) (hmu : (mats r).mu = 1)
    (hbuild : buildPure (E.withGenerators (optFit argmin)) c (mats r) = .ok (.patterned M p Q))
    (eps : Grid Nx Ny) (hs : (mats r).epsilon = NdArr.ofGrid eps) (ht : (mats r).tangentField = none)
    (hty : (mats r).tangentFieldType = "opt") (hf : UsesVectors c) :
    ∃ n : Fin 2 → Fin 2 → ℂ, ∀ ex ey, lawOf p.Peps ex ey =
      (conv c eps *ᵥ ex - (conv c eps - (conv c fun x y => 1 / eps x y)⁻¹) *ᵥ (n 0 0 • ex + n 0 1 • ey),
        conv c eps *ᵥ ey - (conv c eps - (conv c fun x y => 1 / eps x y)⁻¹) *ᵥ (n 1 0 • ex + n 1 1 • ey)) := by
  obtain ⟨hun, hdet, -, -, -, -, -, epszz, -, -, -, -, -, hA', -⟩ := buildPure_patterned_ok hmu hbuild
  have hcv := square_nine_constant argmin hA hinit ⟨r, hr, hun⟩ hl hu hb ht hty
  obtain ⟨t, hvu, h1, -, ⟨X0, g0⟩, ⟨X1, g1⟩, ⟨X2, g2⟩, ⟨X3, g3⟩, hP⟩ := iso_peps_any hmu hbuild hs hf
  obtain ⟨ha, hg⟩ := iso_of_grid hs hun
  obtain ⟨s, hs1, hs2⟩ := hvu
  obtain ⟨Tx, Ty, a, b, rfl⟩ := hcv _ s hg hs1
  obtain ⟨a', b', rfl⟩ : ∃ a' b', t = ⟨Tx, Ty, fun _ _ => a', fun _ _ => b'⟩ := by
    split at hs2
    · unfold jonesField at hs2
      split at hs2
      · simp at hs2
      · exact ⟨(jonesPt a.re b.re).1, (jonesPt a.re b.re).2, (Except.ok.inj hs2).symm⟩
    · exact ⟨a, b, hs2.symm⟩
  have hc : ∀ (u v : ℂ), cdyad ⟨Tx, Ty, fun _ _ => a', fun _ _ => b'⟩ (fun _ _ => u) (fun _ _ => v) = fun _ _ =>
      u * star v / (((Real.sqrt (‖a'‖ ^ 2 + ‖b'‖ ^ 2) + 1 / 2 ^ 52) ^ 2 : ℝ) : ℂ) := fun u v => rfl
  dsimp only at g0 g1 g2 g3 hP
  rw [hc] at g0 g1 g2 g3
  have z0 := conv_const g0 hA' hdet
  have z1 := conv_const g1 hA' hdet
  have z2 := conv_const g2 hA' hdet
  have z3 := conv_const g3 hA' hdet
  rw [h1] at hP
  generalize ((Real.sqrt (‖a'‖ ^ 2 + ‖b'‖ ^ 2) + 1 / 2 ^ 52) ^ 2 : ℝ) = k at hc z0 z1 z2 z3
  refine ⟨![![a' * star a' / k, -(a' * star b' / k)], ![-(b' * star a' / k), b' * star b' / k]], fun ex ey => ?_⟩
  rw [hP, lawOf_projected]
  unfold normalLawC
  rw [hc, hc, hc, hc, z0, z1, z2, z3]
  simp only [smul_mulVec, one_mulVec, cons_val_zero, cons_val_one, cons_val_fin_one, neg_smul]
  rw [sub_eq_add_neg (_ • ex), sub_eq_add_neg (_ • ey), add_comm (_ • ey)]

end Nannos
