import Verif.Spec.Constitutive
import Verif.Examples.Square
import Verif.Props.Fields
import Verif.Props.Layer
import Verif.Proofs.Pixelated

/-! C55, C56: which permittivity the fields experience. -/

namespace Nannos

open Matrix Spec

variable {E : Ext} {c : Static} {Nx Ny : ℕ}

theorem toep_conv {u : PGrid} {A} (h : c.toep u = .ok A) : A = conv c u.g := by
  ext i j
  obtain ⟨h1, h2⟩ := toep_pos h i
  haveI : NeZero u.Nx := ⟨h1⟩
  haveI : NeZero u.Ny := ⟨h2⟩
  unfold Static.toep at h
  rw [(toeplitz_ok h).2]
  rfl

theorem lawOf_fromBlocks {nh : ℕ} (a b d e : Matrix (Fin nh) (Fin nh) ℂ) (ex ey : Fin nh → ℂ) :
    lawOf (fromBlocks a b d e) ex ey = (e *ᵥ ex - d *ᵥ ey, a *ᵥ ey - b *ᵥ ex) := by
  unfold lawOf dispX dispY
  ext i
  · simp only [fromBlocks_apply₂₁, fromBlocks_apply₂₂, mulVec, dotProduct, Pi.sub_apply, Finset.sum_add_distrib, mul_neg,
      Finset.sum_neg_distrib]
    ring
  · simp only [fromBlocks_apply₁₁, fromBlocks_apply₁₂, mulVec, dotProduct, Pi.sub_apply, Finset.sum_add_distrib, mul_neg,
      Finset.sum_neg_distrib]
    ring

theorem coeff_neg (u : Grid Nx Ny) (a b : ℤ) : coeff (fun x y => -u x y) a b = -coeff u a b := by
  unfold coeff
  simp only [neg_mul, Finset.sum_neg_distrib, neg_div]

theorem conv_neg (u : Grid Nx Ny) : conv c (fun x y => -u x y) = -conv c u := by
  ext i j
  simp only [conv, of_apply, Matrix.neg_apply, coeff_neg]

/-- Component `(a, b)` of a `(3, 3, Nx, Ny)` permittivity. -/
def Spec.tensorComp (L : LayerSpec) (Nx Ny a b : ℕ) : Grid Nx Ny := fun x y => L.epsilon.data [a, b, x, y]

theorem comp_toGrid {L : LayerSpec} (hs : L.epsilon.shape = [3, 3, Nx, Ny]) (a b : ℕ) :
    (L.epsilon.comp a b).toGrid = .ok ⟨Nx, Ny, tensorComp L Nx Ny a b⟩ := by
  have : (L.epsilon.comp a b).shape = [Nx, Ny] := by
    unfold NdArr.comp
    rw [hs]
    rfl
  unfold NdArr.toGrid
  rw [this]
  rfl

theorem aniso_of_shape {L : LayerSpec} (hs : L.epsilon.shape = [3, 3, Nx, Ny]) : L.isAnisotropic = true := by
  unfold LayerSpec.isAnisotropic isAnisotropic
  rw [hs]
  rfl

theorem aniso_peps {L : LayerSpec} {M p Q} (hmu : L.mu = 1) (hb : buildPure E c L = .ok (.patterned M p Q))
    (hf : c.formulation = "original") (hs : L.epsilon.shape = [3, 3, Nx, Ny]) :
    p.epsHat = conv c (tensorComp L Nx Ny 2 2) ∧
    p.Peps = fromBlocks (conv c (tensorComp L Nx Ny 0 0)) (conv c (tensorComp L Nx Ny 0 1)) (conv c (tensorComp L Nx Ny 1 0))
      (conv c (tensorComp L Nx Ny 1 1)) := by
  obtain ⟨-, -, -, -, -, -, -, epszz, para, eph, Ht, n, h1, h2, h3, h4, h5, h6⟩ := buildPure_patterned_ok hmu hb
  rw [if_pos (aniso_of_shape hs), comp_toGrid hs] at h1
  cases h1
  refine ⟨toep_conv h2, ?_⟩
  unfold pepsOf at h6
  rw [if_pos hf] at h6
  have hP : eph = p.Peps := Except.ok.inj h6
  unfold paraOf at h3
  rw [if_pos (aniso_of_shape hs)] at h3
  unfold NdArr.trans Trans4.mapM at h3
  simp only [comp_toGrid hs, except_bind_ok] at h3
  cases h3
  unfold epsParaHatOf Trans4.mapM at h4
  simp only [bind_eq_ok] at h4
  obtain ⟨T, ⟨a, ha, b, hb, d, hd, e, he, hT⟩, h4⟩ := h4
  cases hT
  have h4' : Trans4.block ⟨a, b, d, e⟩ = eph := Except.ok.inj h4
  rw [← hP, ← h4', toep_conv ha, toep_conv hb, toep_conv hd, toep_conv he]
  rfl

/-- **C56 fails.**  In a layer with a patterned permittivity tensor (formulation `original`) the fields experience the tensor with
its axes exchanged, `[[eyy, -eyx], [-exy, exx]]` instead of `[[exx, exy], [eyx, eyy]]`. -/
theorem C56_axes_are_exchanged (L : LayerSpec) (M p Q) (hmu : L.mu = 1) (hb : buildPure E c L = .ok (.patterned M p Q))
    (hf : c.formulation = "original") (hs : L.epsilon.shape = [3, 3, Nx, Ny]) :
    lawOf p.Peps = tensorLaw c (tensorComp L Nx Ny 1 1) (fun x y => -tensorComp L Nx Ny 1 0 x y)
      (fun x y => -tensorComp L Nx Ny 0 1 x y) (tensorComp L Nx Ny 0 0) := by
  rw [(aniso_peps hmu hb hf hs).2]
  funext ex ey
  rw [lawOf_fromBlocks]
  unfold tensorLaw
  rw [conv_neg, conv_neg, neg_mulVec, neg_mulVec]
  ext i
  · simp only [Pi.add_apply, Pi.sub_apply, Pi.neg_apply]; ring
  · simp only [Pi.add_apply, Pi.sub_apply, Pi.neg_apply]; ring

/-- **C56**, the part that holds: the law of the layer is that of its tensor exactly when `exx` and `eyy`, and `eyx` and `-exy`,
have the same truncated products; in particular for tensors with `exx = eyy` and `eyx = -exy` at every pixel. -/
theorem C56_transversely_isotropic_partial (L : LayerSpec) (M p Q) (hmu : L.mu = 1)
    (hb : buildPure E c L = .ok (.patterned M p Q)) (hf : c.formulation = "original") (hs : L.epsilon.shape = [3, 3, Nx, Ny]) :
    (lawOf p.Peps = tensorLaw c (tensorComp L Nx Ny 0 0) (tensorComp L Nx Ny 0 1) (tensorComp L Nx Ny 1 0) (tensorComp L Nx Ny 1 1) ↔
      conv c (tensorComp L Nx Ny 0 0) = conv c (tensorComp L Nx Ny 1 1) ∧
      conv c (tensorComp L Nx Ny 1 0) = -conv c (tensorComp L Nx Ny 0 1)) ∧
    ((∀ x y, tensorComp L Nx Ny 0 0 x y = tensorComp L Nx Ny 1 1 x y ∧ tensorComp L Nx Ny 1 0 x y = -tensorComp L Nx Ny 0 1 x y) →
      lawOf p.Peps = tensorLaw c (tensorComp L Nx Ny 0 0) (tensorComp L Nx Ny 0 1) (tensorComp L Nx Ny 1 0)
        (tensorComp L Nx Ny 1 1)) := by
  have key := C56_axes_are_exchanged L M p Q hmu hb hf hs
  have hiff : lawOf p.Peps = tensorLaw c (tensorComp L Nx Ny 0 0) (tensorComp L Nx Ny 0 1) (tensorComp L Nx Ny 1 0)
      (tensorComp L Nx Ny 1 1) ↔ conv c (tensorComp L Nx Ny 0 0) = conv c (tensorComp L Nx Ny 1 1) ∧
      conv c (tensorComp L Nx Ny 1 0) = -conv c (tensorComp L Nx Ny 0 1) := by
    rw [key]
    constructor
    · intro h
      have h1 : ∀ ex ey, _ := fun ex ey => congrFun (congrFun h ex) ey
      unfold tensorLaw at h1
      simp only [conv_neg, neg_mulVec, Prod.mk.injEq] at h1
      constructor
      · ext i j
        have := congrFun (h1 (Pi.single j 1) 0).1 i
        simpa using this.symm
      · ext i j
        have := congrFun (h1 (Pi.single j 1) 0).2 i
        simpa using this.symm
    · rintro ⟨h1, h2⟩
      unfold tensorLaw
      rw [conv_neg, conv_neg, h1, h2, neg_neg]
  refine ⟨hiff, fun h => hiff.2 ⟨?_, ?_⟩⟩
  · congr 1
    funext x y
    exact (h x y).1
  · rw [← conv_neg]
    congr 1
    funext x y
    exact (h x y).2

/-- **C56 fails**, for the returned fields: whatever was called before, the fields retrieved in a layer with a patterned tensor
(not a copy) satisfy Maxwell's equations with the exchanged tensor. -/
theorem C56_returned_fields {lats mats stack exc nh form} (hinit : simInit E lats mats stack exc nh form = .ok c)
    (hE : EigContract E) (hw : WellPlaced mats stack) (hmu : ∀ r ∈ stack, (mats r).mu = 1)
    (hist : List (Call c.nh)) (id : LayerId) (zs : List ℝ) (hz : zs ≠ []) (Fs : List (FieldF c.nh))
    (h : (getFieldFourier E c id zs (afterCalls E c hist (Dyn.fresh mats (unsolved c.nh)))).1 = .ok Fs)
    (hf : form = "original") (r : ℕ) (i : ℤ) (hl : getLayer c id = .ok (r, i)) (hc : (mats r).iscopy = false)
    (hs : (mats r).epsilon.shape = [3, 3, Nx, Ny]) :
    ∃ P F, Fs = zs.map F ∧ Maxwell c.omega c.kx c.ky P (conv c (tensorComp (mats r) Nx Ny 2 2)) F ∧
      lawOf P = tensorLaw c (tensorComp (mats r) Nx Ny 1 1) (fun x y => -tensorComp (mats r) Nx Ny 1 0 x y)
        (fun x y => -tensorComp (mats r) Nx Ny 0 1 x y) (tensorComp (mats r) Nx Ny 0 0) := by
  obtain ⟨r', i', F, h1, ⟨P, e, h2⟩, h3, h4⟩ := C30_fields_satisfy_maxwell hinit hE hw hmu hist id zs hz Fs h
  rw [hl] at h1
  cases h1
  have hr : r ∈ stack := by
    have := getLayer_pyGet hl
    rw [← (simInit_ok hinit).stack_eq]
    exact pyGet_mem this
  have hform : c.formulation = "original" := by rw [(simInit_ok hinit).form_eq, hf]
  have hm := h4 P e h2
  rw [h3 zs, Except.ok.injEq] at h
  cases h2 with
  | uniform _ hc' hu ha => rw [aniso_of_shape hs] at ha; cases ha
  | patterned _ M p Q hc' hb =>
    refine ⟨p.Peps, F, h.symm, ?_, C56_axes_are_exchanged _ M p Q (hmu r hr) hb hform hs⟩
    rw [← (aniso_peps (hmu r hr) hb hform hs).1]
    exact hm
  | copy _ P e hc' ho => rw [hc] at hc'; cases hc'

theorem iso_of_grid {L : LayerSpec} {eps : Grid Nx Ny} (hs : L.epsilon = NdArr.ofGrid eps) (hu : L.isUniform = false) :
    L.isAnisotropic = false ∧ L.epsilon.toGrid = .ok ⟨Nx, Ny, eps⟩ := by
  have hsh : L.epsilon.shape = [Nx, Ny] := by rw [hs]; rfl
  have ha : L.isAnisotropic = false := by
    by_contra hc
    rw [Bool.not_eq_false] at hc
    have h33 := (C53_material_classification L).2.1.1 hc
    obtain ⟨s, h33⟩ := h33
    rw [hsh] at h33
    simp only [List.cons.injEq] at h33
    have hu' := (C53_material_classification L).1.2 (.inr (.inr (by rw [hsh, h33.1, h33.2.1])))
    rw [hu] at hu'
    cases hu'
  have hg : L.epsilon.toGrid = .ok ⟨Nx, Ny, eps⟩ := by
    rw [hs]
    unfold NdArr.toGrid NdArr.ofGrid
    dsimp only
    congr 2
    funext x y
    simp
  exact ⟨ha, hg⟩

theorem nuHatInv_conv {eps : Grid Nx Ny} {N} (hN : nuHatInvIso c ⟨Nx, Ny, eps⟩ = .ok N) :
    (conv c fun x y => 1 / eps x y).det ≠ 0 ∧ N = (conv c fun x y => 1 / eps x y)⁻¹ := by
  unfold nuHatInvIso at hN
  simp only [bind_eq_ok] at hN
  obtain ⟨nu, g1, X, g2, g3⟩ := hN
  rw [linInv_ok] at g3
  unfold recipGrid at g1
  split at g1
  · cases g1
  · cases g1
    rw [← toep_conv g2]
    exact g3

/-- The operators of an isotropic patterned layer with a real tangent field given by the user. -/
theorem iso_peps {L : LayerSpec} {M p Q} (hmu : L.mu = 1) (hb : buildPure E c L = .ok (.patterned M p Q))
    {eps : Grid Nx Ny} (hs : L.epsilon = NdArr.ofGrid eps) {Tx Ty : ℕ} {t0 t1 : Fin Tx → Fin Ty → ℝ}
    (ht : L.tangentField = some ⟨Tx, Ty, fun x y => (t0 x y : ℂ), fun x y => (t1 x y : ℂ)⟩)
    (hf : c.formulation = "tangent" ∧ c.lattice.is1D = false ∨ c.formulation = "pol") :
    p.epsHat = conv c eps ∧ (conv c fun x y => 1 / eps x y).det ≠ 0 ∧
    (∃ X, c.toep ⟨Tx, Ty, dyad t0 t1 t0 t0⟩ = .ok X) ∧ (∃ X, c.toep ⟨Tx, Ty, dyad t0 t1 t1 t1⟩ = .ok X) ∧
    p.Peps = diag2 p.epsHat - (diag2 p.epsHat - diag2 (conv c fun x y => 1 / eps x y)⁻¹) *
      fromBlocks (conv c (dyad t0 t1 t1 t1)) (conv c (dyad t0 t1 t0 t1)) (conv c (dyad t0 t1 t0 t1)) (conv c (dyad t0 t1 t0 t0)) := by
  obtain ⟨hu, -, -, -, -, -, -, epszz, para, eph, Ht, n, h1, h2, h3, h4, h5, h6⟩ := buildPure_patterned_ok hmu hb
  obtain ⟨ha, hg⟩ := iso_of_grid hs hu
  rw [ha] at h1
  simp only [Bool.false_eq_true, if_false] at h1
  rw [hg] at h1
  cases h1
  unfold paraOf at h3
  rw [ha] at h3
  simp only [Bool.false_eq_true, if_false] at h3
  cases h3
  have h4' : diag2 p.epsHat = eph := Except.ok.inj h4
  have hgt : ∀ b, getTangentField E L ⟨Nx, Ny, eps⟩ Ht b = .ok ⟨Tx, Ty, fun x y => (t0 x y : ℂ), fun x y => (t1 x y : ℂ)⟩ := by
    intro b
    unfold getTangentField
    rw [ht]
  have h7 : ∃ N, nuHatInvIso c ⟨Nx, Ny, eps⟩ = .ok N ∧ getPeps c (diag2 p.epsHat) (diag2 N)
      ⟨Tx, Ty, fun x y => (t0 x y : ℂ), fun x y => (t1 x y : ℂ)⟩ = .ok p.Peps := by
    unfold pepsOf at h6
    rcases hf with ⟨hf, h2d⟩ | hf
    · rw [if_neg (by rw [hf]; decide), if_pos hf, h2d] at h6
      simp only [Bool.false_eq_true, if_false] at h6
      rw [hgt] at h6
      simp only [except_bind_ok, bind_eq_ok] at h6
      obtain ⟨nu, ⟨N, hN, h8⟩, h9⟩ := h6
      cases h8
      exact ⟨N, hN, by rw [h4']; exact h9⟩
    · rw [if_neg (by rw [hf]; decide), if_neg (by rw [hf]; decide), if_neg (by rw [hf]; decide), hgt] at h6
      simp only [except_bind_ok, bind_eq_ok] at h6
      obtain ⟨nu, ⟨N, hN, h8⟩, h9⟩ := h6
      cases h8
      exact ⟨N, hN, by rw [h4']; exact h9⟩
  obtain ⟨N, hN, hP⟩ := h7
  have hN' := nuHatInv_conv hN
  have hn : ∀ x y, |normPt (t0 x y : ℂ) (t1 x y : ℂ)| ^ 2 = (Real.sqrt (t0 x y ^ 2 + t1 x y ^ 2) + 1 / 2 ^ 52) ^ 2 := by
    intro x y
    unfold normPt
    rw [sq_abs, Complex.normSq_ofReal, Complex.normSq_ofReal, add_comm, ← pow_two, ← pow_two]
  have hp : ∀ (f : ℂ → ℂ → ℂ) (g : ℝ → ℝ → ℝ), (∀ a b : ℝ, f a b = (g a b : ℝ)) →
      projField ⟨Tx, Ty, fun x y => (t0 x y : ℂ), fun x y => (t1 x y : ℂ)⟩ f =
        ⟨Tx, Ty, fun x y => ((g (t0 x y) (t1 x y) / (Real.sqrt (t0 x y ^ 2 + t1 x y ^ 2) + 1 / 2 ^ 52) ^ 2 : ℝ) : ℂ)⟩ := by
    intro f g h
    unfold projField
    dsimp only
    congr 1
    funext x y
    rw [hn, h, ← Complex.ofReal_div]
  unfold getPeps at hP
  simp only [bind_eq_ok] at hP
  obtain ⟨Pxx, p1, Pyy, p2, Pxy, p3, Pyx, p4, hP⟩ := hP
  have hP' := Except.ok.inj hP
  rw [hp _ (fun a _ => a * a) (by intro a b; simp)] at p1
  rw [hp _ (fun _ b => b * b) (by intro a b; simp)] at p2
  rw [hp _ (fun a b => a * b) (by intro a b; simp)] at p3
  rw [hp _ (fun a b => a * b) (by intro a b; simp [mul_comm])] at p4
  refine ⟨toep_conv h2, hN'.1, ⟨Pxx, p1⟩, ⟨Pyy, p2⟩, ?_⟩
  rw [← hP', toep_conv p1, toep_conv p2, toep_conv p3, toep_conv p4, hN'.2]
  rfl

/-- **C55 fails.**  In the formulations with a tangent field, on a bi-periodic lattice, the displacement is that of Li's rules with
the roles of `tx tx` and `ty ty` exchanged: the rule for the component across the interfaces is applied to the component
along the mirror image `(tx, -ty)` of the tangent vector.  Tangent fields given by the user, real. -/
theorem C55_exchanged_projector (L : LayerSpec) (M p Q) (hmu : L.mu = 1) (hb : buildPure E c L = .ok (.patterned M p Q))
    (eps : Grid Nx Ny) (hs : L.epsilon = NdArr.ofGrid eps) (Tx Ty : ℕ) (t0 t1 : Fin Tx → Fin Ty → ℝ)
    (ht : L.tangentField = some ⟨Tx, Ty, fun x y => (t0 x y : ℂ), fun x y => (t1 x y : ℂ)⟩)
    (hf : c.formulation = "tangent" ∧ c.lattice.is1D = false ∨ c.formulation = "pol") :
    lawOf p.Peps = normalLaw c (conv c eps) (conv c fun x y => 1 / eps x y)⁻¹ (dyad t0 t1 t1 t1) (dyad t0 t1 t0 t1)
      (dyad t0 t1 t0 t0) := by
  obtain ⟨h1, -, -, -, h2⟩ := iso_peps hmu hb hs ht hf
  rw [h2, h1]
  funext ex ey
  unfold diag2 normalLaw
  rw [sub_eq_add_neg (fromBlocks _ _ _ _) (fromBlocks _ _ _ _), fromBlocks_neg, fromBlocks_add, fromBlocks_multiply,
    sub_eq_add_neg (fromBlocks _ _ _ _) (fromBlocks _ _ _ _), fromBlocks_neg, fromBlocks_add, lawOf_fromBlocks]
  simp only [neg_zero, add_zero, zero_add, Matrix.zero_mul, ← sub_eq_add_neg]
  ext i
  · simp only [sub_mulVec, neg_mulVec, mulVec_sub, ← mulVec_mulVec, Pi.sub_apply, Pi.neg_apply, zero_sub, zero_mulVec, Pi.zero_apply]
    ring
  · simp only [sub_mulVec, neg_mulVec, mulVec_sub, ← mulVec_mulVec, Pi.sub_apply, Pi.neg_apply, zero_sub, zero_mulVec, Pi.zero_apply]
    ring

/-- **C55**, the part that holds: the law is that of Li's rules exactly when the truncated products with `tx tx` and with `ty ty`
cannot be told apart after multiplication by the difference of the two rules; in particular if the interfaces are at 45 degrees to
the axes. -/
theorem C55_diagonal_interfaces_partial (L : LayerSpec) (M p Q) (hmu : L.mu = 1)
    (hb : buildPure E c L = .ok (.patterned M p Q))
    (eps : Grid Nx Ny) (hs : L.epsilon = NdArr.ofGrid eps) (Tx Ty : ℕ) (t0 t1 : Fin Tx → Fin Ty → ℝ)
    (ht : L.tangentField = some ⟨Tx, Ty, fun x y => (t0 x y : ℂ), fun x y => (t1 x y : ℂ)⟩)
    (hf : c.formulation = "tangent" ∧ c.lattice.is1D = false ∨ c.formulation = "pol") :
    (lawOf p.Peps = normalLaw c (conv c eps) (conv c fun x y => 1 / eps x y)⁻¹ (dyad t0 t1 t0 t0) (dyad t0 t1 t0 t1)
        (dyad t0 t1 t1 t1) ↔
      (conv c eps - (conv c fun x y => 1 / eps x y)⁻¹) * conv c (dyad t0 t1 t0 t0) =
        (conv c eps - (conv c fun x y => 1 / eps x y)⁻¹) * conv c (dyad t0 t1 t1 t1)) ∧
    ((∀ x y, t0 x y ^ 2 = t1 x y ^ 2) →
      lawOf p.Peps = normalLaw c (conv c eps) (conv c fun x y => 1 / eps x y)⁻¹ (dyad t0 t1 t0 t0) (dyad t0 t1 t0 t1)
        (dyad t0 t1 t1 t1)) := by
  have key := C55_exchanged_projector L M p Q hmu hb eps hs Tx Ty t0 t1 ht hf
  rw [key]
  generalize (conv c fun x y => 1 / eps x y)⁻¹ = B
  constructor
  · constructor
    · intro h
      have h1 : ∀ ex ey, _ := fun ex ey => congrFun (congrFun h ex) ey
      unfold normalLaw at h1
      simp only [Prod.mk.injEq] at h1
      ext i j
      have := congrFun (h1 (Pi.single j 1) 0).1 i
      simp only [mulVec_zero, sub_zero, Pi.sub_apply, sub_right_inj, mulVec_mulVec] at this
      simpa using this
    · intro h
      unfold normalLaw
      funext ex ey
      simp only [mulVec_sub, mulVec_mulVec, h]
  · intro h
    have : dyad t0 t1 t0 t0 = dyad t0 t1 t1 t1 := by
      unfold dyad
      funext x y
      have := h x y
      rw [pow_two, pow_two] at this
      rw [this]
    rw [this]

theorem conv_const {Tx Ty : ℕ} {v : ℂ} {X A : Matrix (Fin c.nh) (Fin c.nh) ℂ} (h : c.toep ⟨Tx, Ty, fun _ _ => v⟩ = .ok X) {u : PGrid}
    (hA : c.toep u = .ok A) (hd : A.det ≠ 0) : conv c (fun (_ : Fin Tx) (_ : Fin Ty) => v) = v • 1 := by
  have hinj : Function.Injective c.harmonics.get := by
    intro i j hij
    by_contra hne
    refine hd (det_zero_of_row_eq hne ?_)
    funext k
    have := toep_conv hA
    rw [this]
    unfold conv
    simp only [of_apply]
    rw [hij]
  ext i j
  obtain ⟨h1, h2⟩ := toep_pos h i
  dsimp only at h1 h2
  haveI : NeZero Tx := ⟨h1⟩
  haveI : NeZero Ty := ⟨h2⟩
  obtain ⟨b, -⟩ := toeplitz_ok (Nx := Tx) (Ny := Ty) h
  unfold conv
  rw [of_apply, coeff_const]
  by_cases hij : i = j
  · subst hij
    simp
  · rw [if_neg, Matrix.smul_apply, one_apply_ne hij, smul_zero]
    rintro ⟨d1, d2⟩
    have b1 := b i j
    have b2 := b j i
    have e1 := Int.eq_zero_of_abs_lt_dvd d1 (by rw [abs_lt]; omega)
    have e2 := Int.eq_zero_of_abs_lt_dvd d2 (by rw [abs_lt]; omega)
    exact hij (hinj (Prod.ext (by omega) (by omega)))

/-- The factor left by the regularisation of unit tangent vectors. -/
noncomputable def Spec.unitFactor : ℝ := 1 / (1 + 1 / 2 ^ 52) ^ 2

/-- **C55 fails** on lamellae along `y`: with tangent vectors `(0, 1)` or `(0, -1)`, the field across the lamellae experiences the
direct rule and, up to rounding, the field along the lamellae the inverse rule. -/
theorem C55_lamellae_exchanged (L : LayerSpec) (M p Q) (hmu : L.mu = 1) (hb : buildPure E c L = .ok (.patterned M p Q))
    (eps : Grid Nx Ny) (hs : L.epsilon = NdArr.ofGrid eps) (Tx Ty : ℕ) (t0 t1 : Fin Tx → Fin Ty → ℝ)
    (ht : L.tangentField = some ⟨Tx, Ty, fun x y => (t0 x y : ℂ), fun x y => (t1 x y : ℂ)⟩)
    (hf : c.formulation = "tangent" ∧ c.lattice.is1D = false ∨ c.formulation = "pol")
    (h0 : ∀ x y, t0 x y = 0) (h1 : ∀ x y, t1 x y = 1 ∨ t1 x y = -1) (ex ey : Fin c.nh → ℂ) :
    lawOf p.Peps ex ey = (conv c eps *ᵥ ex,
      (unitFactor : ℂ) • ((conv c fun x y => 1 / eps x y)⁻¹ *ᵥ ey) + (1 - (unitFactor : ℂ)) • (conv c eps *ᵥ ey)) := by
  obtain ⟨g1, -, ⟨X, g2⟩, ⟨Y, g3⟩, -⟩ := iso_peps hmu hb hs ht hf
  obtain ⟨-, hd, -, -, -, -, -, epszz, -, -, -, -, -, hA, -⟩ := buildPure_patterned_ok hmu hb
  have e00 : dyad t0 t1 t0 t0 = fun _ _ => 0 := by
    funext x y
    unfold dyad
    rw [h0 x y]
    simp
  have e01 : dyad t0 t1 t0 t1 = fun _ _ => 0 := by
    funext x y
    unfold dyad
    rw [h0 x y]
    simp
  have e11 : dyad t0 t1 t1 t1 = fun _ _ => (unitFactor : ℂ) := by
    funext x y
    unfold dyad unitFactor
    have : t1 x y * t1 x y = 1 := by rcases h1 x y with h | h <;> rw [h] <;> norm_num
    rw [pow_two (t0 x y), pow_two (t1 x y), this, h0 x y]
    norm_num
  rw [e00] at g2
  rw [e11] at g3
  have z := conv_const g2 hA hd
  have o := conv_const g3 hA hd
  rw [C55_exchanged_projector L M p Q hmu hb eps hs Tx Ty t0 t1 ht hf]
  unfold normalLaw
  rw [e00, e01, e11, z, o]
  generalize (conv c fun x y => 1 / eps x y)⁻¹ = B
  ext i
  · simp
  · simp only [zero_smul, zero_mulVec, sub_zero, smul_mulVec, one_mulVec, mulVec_smul, Pi.sub_apply, Pi.smul_apply, sub_mulVec,
      smul_eq_mul, Pi.add_apply]
    ring

/-- On a mono-periodic lattice the formulation `tangent` has the rules the right way round: inverse rule for the field across the
lamellae, direct rule for the field along them. -/
theorem C55_one_dimensional (L : LayerSpec) (M p Q) (hmu : L.mu = 1) (hb : buildPure E c L = .ok (.patterned M p Q))
    (eps : Grid Nx Ny) (hs : L.epsilon = NdArr.ofGrid eps) (hf : c.formulation = "tangent") (h1d : c.lattice.is1D = true)
    (ex ey : Fin c.nh → ℂ) :
    lawOf p.Peps ex ey = ((conv c fun x y => 1 / eps x y)⁻¹ *ᵥ ex, conv c eps *ᵥ ey) := by
  obtain ⟨hu, -, -, -, -, -, -, epszz, para, eph, Ht, n, h1, h2, h3, h4, h5, h6⟩ := buildPure_patterned_ok hmu hb
  obtain ⟨ha, hg⟩ := iso_of_grid hs hu
  rw [ha] at h1
  simp only [Bool.false_eq_true, if_false] at h1
  rw [hg] at h1
  cases h1
  unfold paraOf at h3
  rw [ha] at h3
  simp only [Bool.false_eq_true, if_false] at h3
  cases h3
  unfold pepsOf at h6
  rw [if_neg (by rw [hf]; decide), if_pos hf, h1d, if_pos rfl] at h6
  simp only [bind_eq_ok] at h6
  obtain ⟨N, hN, h7⟩ := h6
  have hP : fromBlocks p.epsHat 0 0 N = p.Peps := Except.ok.inj h7
  rw [← hP, lawOf_fromBlocks, (nuHatInv_conv hN).2, toep_conv h2]
  simp

namespace Examples

variable {b : Bool} {form : String}

theorem sq_conv (h : SquareSim b c form) (u : Grid Nx Ny) : conv c u = mean u • 1 := by
  ext i j
  rw [sqSub b h i j]
  simp [conv, sqGet b h, coeff_zero_zero]

theorem sq_toep (h : SquareSim b c form) (u : Grid Nx Ny) (hx : Nx ≠ 0) (hy : Ny ≠ 0) : c.toep ⟨Nx, Ny, u⟩ = .ok (mean u • 1) := by
  obtain ⟨A, hA⟩ := toeplitz_exists (H := c.harmonics.get) u (fun i j => by simp only [sqGet b h]; omega)
  have : c.toep ⟨Nx, Ny, u⟩ = .ok A := hA
  rw [this, toep_conv this]
  dsimp only
  rw [sq_conv h]

theorem smul_one_det {n : ℕ} {v : ℂ} (hv : v ≠ 0) : (v • (1 : Matrix (Fin n) (Fin n) ℂ)).det ≠ 0 := by
  rw [det_smul]
  simp [hv]

theorem sq_inv {v : ℂ} (hv : v ≠ 0) {n : ℕ} : linInv (v • (1 : Matrix (Fin n) (Fin n) ℂ)) = .ok (v • 1)⁻¹ :=
  (linInv_ok _ _).2 ⟨smul_one_det hv, rfl⟩

/-- Two lamellae along `y`, permittivities 1 and 3. -/
noncomputable def lamellae : Grid 2 1 := fun x _ => if x = 0 then 1 else 3

/-- The layer with its tangent vectors. -/
noncomputable def lamLayer : LayerSpec :=
  ⟨"Grating", some 1, NdArr.ofGrid lamellae, 1, 0, some ⟨2, 1, fun _ _ => ((0 : ℝ) : ℂ), fun _ _ => ((1 : ℝ) : ℂ)⟩, "fft", false, 1⟩

theorem lam_means : mean lamellae = 2 ∧ (mean fun x y => 1 / lamellae x y) = 2 / 3 := by
  unfold mean lamellae
  constructor
  · simp [Fin.sum_univ_succ]
    norm_num
  · simp [Fin.sum_univ_succ]
    norm_num

theorem lam_build (h : SquareSim b c "tangent") : ∃ M p Q, buildPure exE c lamLayer = .ok (.patterned M p Q) := by
  obtain ⟨m1, m2⟩ := lam_means
  have hg : lamLayer.epsilon.toGrid = .ok ⟨2, 1, lamellae⟩ := (iso_of_grid (L := lamLayer) rfl rfl).2
  have ht : ∀ u : Grid 2 1, c.toep ⟨2, 1, u⟩ = .ok (mean u • 1) := fun u => sq_toep h u (by norm_num) (by norm_num)
  have hn : nuHatInvIso c ⟨2, 1, lamellae⟩ = .ok ((2 / 3 : ℂ) • 1)⁻¹ := by
    unfold nuHatInvIso recipGrid
    rw [if_neg]
    · simp only [except_bind_ok]
      rw [ht, m2]
      simp only [except_bind_ok]
      rw [sq_inv (by norm_num)]
    · rintro ⟨x, y, h0⟩
      unfold lamellae at h0
      dsimp only at h0
      split at h0 <;> norm_num at h0
  have hP : ∀ A B, ∃ P, getPeps c A B ⟨2, 1, fun _ _ => ((0 : ℝ) : ℂ), fun _ _ => ((1 : ℝ) : ℂ)⟩ = .ok P := by
    intro A B
    unfold getPeps projField
    simp only [ht, except_bind_ok]
    exact ⟨_, rfl⟩
  have hpe : ∀ A B Ht, ∃ P, pepsOf exE c lamLayer ⟨2, 1, lamellae⟩ none A B Ht = .ok P := by
    intro A B Ht
    unfold pepsOf getTangentField
    rw [if_neg (by rw [h.form]; decide), if_pos h.form]
    dsimp only
    rw [hn]
    cases b with
    | true =>
      rw [if_pos (by rw [h.lat]; rfl)]
      exact ⟨_, rfl⟩
    | false =>
      rw [if_neg (by rw [h.lat]; simp [sqLat])]
      simp only [except_bind_ok, except_pure_eq_ok, lamLayer]
      exact hP _ _
  unfold buildPure
  dsimp only
  rw [if_neg (by decide), if_neg (by decide), hg]
  simp only [except_bind_ok]
  rw [ht, m1]
  simp only [except_bind_ok]
  rw [sq_inv two_ne_zero, raiseIf_ok (u := ()).mpr (by simp [lamLayer])]
  simp only [except_bind_ok]
  have hpa : paraOf lamLayer = .ok none := rfl
  rw [hpa]
  simp only [except_bind_ok, epsParaHatOf, except_pure_eq_ok]
  rw [h.lat, show exE.argsort = exSort from rfl, sqHarm b]
  simp only [except_bind_ok]
  obtain ⟨P, hP⟩ := hpe ((2 : ℂ) • 1) (diag2 ((2 : ℂ) • 1)) [(0, 0)]
  rw [hP]
  exact ⟨_, _, _, rfl⟩

/-- Air above the lamellae. -/
noncomputable def lamMats : ℕ → LayerSpec := fun r => if r = 0 then exLayer "Superstrate" 1 (NdArr.scalar (((1 : ℝ) ^ 2 : ℝ) : ℂ)) else lamLayer

/-- **C55 fails**: the same lamellae, with their tangent vectors, in the formulation `tangent` on a mono-periodic and on a square
lattice.  On the former a field along the lamellae experiences the mean permittivity 2 and a field across them the harmonic mean
3/2; on the latter the field along them experiences 3/2 (up to `3e-16`) and the field across them 2. -/
theorem C55_formulations_disagree :
    ∃ c1 c2 M1 p1 Q1 M2 p2 Q2,
      simInit exE (fun _ => sqLat true) lamMats [0, 1] exExc 1 "tangent" = .ok c1 ∧
      simInit exE (fun _ => sqLat false) lamMats [0, 1] exExc 1 "tangent" = .ok c2 ∧
      buildPure exE c1 (lamMats 1) = .ok (.patterned M1 p1 Q1) ∧ buildPure exE c2 (lamMats 1) = .ok (.patterned M2 p2 Q2) ∧
      (∀ ex ey, lawOf p1.Peps ex ey = ((3 / 2 : ℂ) • ex, (2 : ℂ) • ey)) ∧
      (∀ ex ey, lawOf p2.Peps ex ey = ((2 : ℂ) • ex, (2 - (unitFactor : ℂ) / 2) • ey)) ∧
      1 - 1 / 2 ^ 51 < unitFactor ∧ unitFactor < 1 := by
  obtain ⟨m1, m2⟩ := lam_means
  obtain ⟨c1, i1, s1, -⟩ := sqInit true "tangent" (by simp) (by simp) lamMats 0 [1] 1 one_pos (by decide) (by decide) rfl rfl
  obtain ⟨c2, i2, s2, -⟩ := sqInit false "tangent" (by simp) (by simp) lamMats 0 [1] 1 one_pos (by decide) (by decide) rfl rfl
  obtain ⟨M1, p1, Q1, b1⟩ := lam_build s1
  obtain ⟨M2, p2, Q2, b2⟩ := lam_build s2
  have hinv : ∀ n, ((2 / 3 : ℂ) • (1 : Matrix (Fin n) (Fin n) ℂ))⁻¹ = (3 / 2 : ℂ) • 1 := by
    intro n
    rw [smul_one_inv (by norm_num)]
    norm_num
  refine ⟨c1, c2, M1, p1, Q1, M2, p2, Q2, i1, i2, b1, b2, fun ex ey => ?_, fun ex ey => ?_, ?_, ?_⟩
  · rw [C55_one_dimensional lamLayer M1 p1 Q1 rfl b1 lamellae rfl s1.form (by rw [s1.lat]; rfl), sq_conv s1, sq_conv s1, m1, m2, hinv]
    simp [smul_mulVec]
  · rw [C55_lamellae_exchanged lamLayer M2 p2 Q2 rfl b2 lamellae rfl 2 1 (fun _ _ => 0) (fun _ _ => 1) rfl
      (.inl ⟨s2.form, by rw [s2.lat]; rfl⟩) (fun _ _ => rfl) (fun _ _ => .inl rfl), sq_conv s2, sq_conv s2, m1, m2, hinv]
    ext i
    · simp [smul_mulVec]
    · simp only [smul_mulVec, one_mulVec, Pi.add_apply, Pi.smul_apply, smul_eq_mul]
      ring
  · unfold unitFactor; norm_num
  · unfold unitFactor; norm_num

/-- A crystal with permittivities 2, 3, 4 along `x`, `y`, `z`, given pixel by pixel. -/
noncomputable def crystal : LayerSpec :=
  ⟨"Crystal", some 1, ⟨[3, 3, 2, 2], fun idx => if idx.take 2 = [0, 0] then 2 else if idx.take 2 = [1, 1] then 3
    else if idx.take 2 = [2, 2] then 4 else 0⟩, 1, 0, none, "fft", false, 1⟩

/-- Air above the crystal. -/
noncomputable def crystalMats : ℕ → LayerSpec :=
  fun r => if r = 0 then exLayer "Superstrate" 1 (NdArr.scalar (((1 : ℝ) ^ 2 : ℝ) : ℂ)) else crystal

theorem mean_const (v : ℂ) : mean (fun (_ : Fin 2) (_ : Fin 2) => v) = v := by
  unfold mean
  simp
  ring

theorem crystal_build (h : SquareSim b c "original") : ∃ M p Q, buildPure exE c crystal = .ok (.patterned M p Q) := by
  have ht : ∀ u : Grid 2 2, c.toep ⟨2, 2, u⟩ = .ok (mean u • 1) := fun u => sq_toep h u (by norm_num) (by norm_num)
  have hg : ∀ a b, (crystal.epsilon.comp a b).toGrid = .ok ⟨2, 2, tensorComp crystal 2 2 a b⟩ := comp_toGrid rfl
  have h4 : tensorComp crystal 2 2 2 2 = fun _ _ => 4 := by
    funext x y
    simp [tensorComp, crystal]
  unfold buildPure
  dsimp only
  rw [if_neg (by decide), if_pos (by decide), hg]
  simp only [except_bind_ok]
  rw [ht, h4, mean_const]
  simp only [except_bind_ok]
  rw [sq_inv (by norm_num), raiseIf_ok (u := ()).mpr (by simp [crystal])]
  simp only [except_bind_ok]
  unfold paraOf NdArr.trans Trans4.mapM
  rw [if_pos (by decide)]
  simp only [hg, except_bind_ok, except_pure_eq_ok, epsParaHatOf]
  unfold Trans4.mapM
  simp only [ht, except_bind_ok, except_pure_eq_ok]
  rw [h.lat, show exE.argsort = exSort from rfl, sqHarm b]
  simp only [except_bind_ok]
  unfold pepsOf
  rw [if_pos h.form]
  exact ⟨_, _, _, rfl⟩

/-- **C56 fails**: in the crystal with `exx = 2` and `eyy = 3` a field along `x` experiences 3 and a field along `y` experiences 2. -/
theorem C56_crystal : ∃ c M p Q, simInit exE (fun _ => sqLat false) crystalMats [0, 1] exExc 1 "original" = .ok c ∧
    buildPure exE c (crystalMats 1) = .ok (.patterned M p Q) ∧
    (∀ x y, tensorComp (crystalMats 1) 2 2 0 0 x y = 2 ∧ tensorComp (crystalMats 1) 2 2 1 1 x y = 3 ∧
      tensorComp (crystalMats 1) 2 2 0 1 x y = 0 ∧ tensorComp (crystalMats 1) 2 2 1 0 x y = 0) ∧
    ∀ ex ey, lawOf p.Peps ex ey = ((3 : ℂ) • ex, (2 : ℂ) • ey) := by
  obtain ⟨c, i, s, -⟩ := sqInit false "original" (by simp) (by simp) crystalMats 0 [1] 1 one_pos (by decide) (by decide) rfl rfl
  obtain ⟨M, p, Q, hb⟩ := crystal_build s
  have hc : ∀ x y, tensorComp crystal 2 2 0 0 x y = 2 ∧ tensorComp crystal 2 2 1 1 x y = 3 ∧
      tensorComp crystal 2 2 0 1 x y = 0 ∧ tensorComp crystal 2 2 1 0 x y = 0 := by
    intro x y
    simp [tensorComp, crystal]
  refine ⟨c, M, p, Q, i, hb, hc, fun ex ey => ?_⟩
  rw [C56_axes_are_exchanged (Nx := 2) (Ny := 2) crystal M p Q rfl hb s.form rfl]
  unfold tensorLaw
  have e0 : tensorComp crystal 2 2 0 0 = fun _ _ => 2 := funext fun x => funext fun y => (hc x y).1
  have e1 : tensorComp crystal 2 2 1 1 = fun _ _ => 3 := funext fun x => funext fun y => (hc x y).2.1
  have e2 : tensorComp crystal 2 2 0 1 = fun _ _ => 0 := funext fun x => funext fun y => (hc x y).2.2.1
  have e3 : tensorComp crystal 2 2 1 0 = fun _ _ => 0 := funext fun x => funext fun y => (hc x y).2.2.2
  rw [e0, e1, e2, e3, sq_conv s, sq_conv s, sq_conv s]
  simp only [neg_zero, mean_const]
  simp [smul_mulVec]

end Examples

end Nannos
