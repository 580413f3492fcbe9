import Verif.Proofs.ParamInit

/-! The media of the layers as functions of the parameters (C89). -/

namespace Nannos

open Matrix Spec Topology

variable {V : Type} [NormedAddCommGroup V] [NormedSpace ℝ V] {n : WithTop ℕ∞} {x0 : V}
variable {E : Ext} {c : Static} {mats : ℕ → LayerSpec} {th : V → ℕ → ℝ} {eps : V → ℕ → List ℕ → ℂ} {W : V → Waves c}

theorem smE_paraOf {r : ℕ} (heps : ∀ idx, ContDiffAt ℝ n (fun x => eps x r idx) x0) :
    SmE (SmPara n x0) x0 fun x => paraOf (withMaterials mats (th x) (eps x) r) := by
  unfold paraOf
  have ha : ∀ x, (withMaterials mats (th x) (eps x) r).isAnisotropic = (mats r).isAnisotropic := fun x => rfl
  simp only [ha]
  by_cases h : (mats r).isAnisotropic = true
  · simp only [h, if_true]
    have hc : ∀ i j, (fun u : V → NdArr => ∃ (s : List ℕ) (d : V → List ℕ → ℂ), (u = fun x => ⟨s, d x⟩) ∧ ∀ idx, ContDiffAt ℝ n (fun x => d x idx) x0)
        (fun x => (withMaterials mats (th x) (eps x) r).epsilon.comp i j) := fun i j =>
      ⟨(mats r).epsilon.shape.drop 2, fun x idx => eps x r (i :: j :: idx), rfl, fun idx => heps (i :: j :: idx)⟩
    refine SmE.bind (smE_mapM (P := fun u : V → NdArr => ∃ (s : List ℕ) (d : V → List ℕ → ℂ), (u = fun x => ⟨s, d x⟩) ∧
      ∀ idx, ContDiffAt ℝ n (fun x => d x idx) x0) (R := SmG n x0) ?_ ⟨hc 0 0, hc 0 1, hc 1 0, hc 1 1⟩) fun t ht =>
        SmE.ok (.inr ⟨t, rfl, ht⟩)
    rintro u ⟨s, d, rfl, hd⟩
    exact smE_toGrid hd
  · simp only [h]
    exact SmE.ok (.inl rfl)

theorem smE_epsParaHat {para : V → Option (Trans4 PGrid)} (hp : SmPara n x0 para)
    {eh : V → Matrix (Fin c.nh) (Fin c.nh) ℂ} (heh : SmM n x0 eh) :
    SmE (SmM n x0) x0 fun x => epsParaHatOf c (para x) (eh x) := by
  unfold epsParaHatOf
  rcases hp with rfl | ⟨t, rfl, ht⟩
  · exact SmE.ok (SmM.fromBlocks heh (SmM.const 0) (SmM.const 0) heh)
  · exact SmE.bind (smE_mapM (f := c.toep) (fun _ hw => smE_toeplitz _ hw) ht) fun w hw => SmE.ok (SmM.block hw)

theorem smooth_patterned {r : ℕ} (heps : ∀ idx, ContDiffAt ℝ n (fun x => eps x r idx) x0)
    (hform : c.formulation = "original" ∨ c.lattice.is1D = true ∧ c.formulation = "tangent" ∨
      (mats r).tangentField ≠ none) {M p Q}
    (h : buildPure E (c.vary (W x0)) (withMaterials mats (th x0) (eps x0) r) = .ok (.patterned M p Q)) :
    ∃ (Pf : V → Matrix (Idx c.nh) (Idx c.nh) ℂ) (ef : V → Matrix (Fin c.nh) (Fin c.nh) ℂ), SmM n x0 Pf ∧ SmM n x0 ef ∧
      (ef x0).det ≠ 0 ∧ ∀ᶠ x in 𝓝 x0, ∃ M p Q,
        buildPure E (c.vary (W x)) (withMaterials mats (th x) (eps x) r) = .ok (.patterned M p Q) ∧ p.Peps = Pf x ∧
        p.epsHat = ef x := by
  obtain ⟨hu, hdet, -, -, -, -, -, hmu, epszz, para, eph, Ht, k, h1, h2, h3, h4, h5, h6⟩ := buildPure_patterned_parts h
  have hgrid : SmE (SmG n x0) x0 fun x => (if (withMaterials mats (th x) (eps x) r).isAnisotropic then
      (withMaterials mats (th x) (eps x) r).epsilon.comp 2 2 else (withMaterials mats (th x) (eps x) r).epsilon).toGrid := by
    have ha : ∀ x, (withMaterials mats (th x) (eps x) r).isAnisotropic = (mats r).isAnisotropic := fun x => rfl
    simp only [ha]
    by_cases hh : (mats r).isAnisotropic = true
    · simp only [hh, if_true]
      exact smE_toGrid (s := (mats r).epsilon.shape.drop 2) (d := fun x idx => eps x r (2 :: 2 :: idx)) fun idx => heps _
    · simp only [hh]
      exact smE_toGrid (s := (mats r).epsilon.shape) (d := fun x => eps x r) heps
  obtain ⟨ez, sez, eez⟩ := hgrid _ h1
  have hez : ez x0 = epszz := Except.ok.inj (eez.self_of_nhds.symm.trans h1)
  obtain ⟨eh, seh, eeh⟩ := smE_toeplitz c.harmonics.get sez p.epsHat (by dsimp only; rw [hez]; exact h2)
  have heh : eh x0 = p.epsHat := Except.ok.inj (eeh.self_of_nhds.symm.trans (by dsimp only; rw [hez]; exact h2))
  obtain ⟨pa, spa, epa⟩ := smE_paraOf (mats := mats) (th := th) heps para h3
  have hpa : pa x0 = para := Except.ok.inj (epa.self_of_nhds.symm.trans h3)
  obtain ⟨ph, sph, eph'⟩ := smE_epsParaHat (c := c) spa seh eph (by dsimp only; rw [hpa, heh]; exact h4)
  have hph : ph x0 = eph := Except.ok.inj (eph'.self_of_nhds.symm.trans (by dsimp only; rw [hpa, heh]; exact h4))
  obtain ⟨Pf, sP, eP⟩ := smE_pepsOf (E := E) (c := c) (L := fun x => withMaterials mats (th x) (eps x) r)
    (tf := (mats r).tangentField) (fun x => rfl) sez spa seh sph Ht hform p.Peps
    (by dsimp only; rw [hez, hpa, heh, hph]; exact h6)
  refine ⟨Pf, eh, sP, seh, by rw [heh]; exact hdet, ?_⟩
  filter_upwards [eez, eeh, epa, eph', eP, seh.det_ne (by rw [heh]; exact hdet)] with x y1 y2 y3 y4 y5 y6
  have hu' : (withMaterials mats (th x) (eps x) r).isUniform = false := hu
  have hmu' : (withMaterials mats (th x) (eps x) r).mu ≠ 0 := hmu
  have y2' : (c.vary (W x)).toep (ez x) = .ok (eh x) := y2
  have y4' : epsParaHatOf (c.vary (W x)) (pa x) (eh x) = .ok (ph x) := y4
  have h5' : (c.vary (W x)).lattice.getHarmonics E.argsort (c.vary (W x)).nh true = .ok (Ht, k) := h5
  have y5' : pepsOf E (c.vary (W x)) (withMaterials mats (th x) (eps x) r) (ez x) (pa x) (eh x) (ph x) Ht = .ok (Pf x) := y5
  have y6' : linInv (eh x) = .ok (eh x)⁻¹ := (linInv_ok _ _).mpr ⟨y6, rfl⟩
  unfold buildPure
  simp only [hu', Bool.false_eq_true, if_false]
  rw [y1]
  simp only [except_bind_ok]
  rw [y2']
  simp only [except_bind_ok]
  rw [y6']
  simp only [except_bind_ok]
  rw [(raiseIf_ok (u := ())).mpr hmu']
  simp only [except_bind_ok]
  rw [y3]
  simp only [except_bind_ok]
  rw [y4']
  simp only [except_bind_ok]
  rw [h5']
  simp only [except_bind_ok]
  rw [y5']
  exact ⟨_, _, _, rfl, rfl, rfl⟩

/-- The media as functions of the parameters. -/
theorem smooth_medium {stack : List ℕ} (hcl : ∀ r ∈ stack, (mats r).iscopy = true → (mats r).original ∈ stack)
    (heps : ∀ r ∈ stack, ∀ idx, ContDiffAt ℝ n (fun x => eps x r idx) x0)
    (hform : c.formulation = "original" ∨ c.lattice.is1D = true ∧ c.formulation = "tangent" ∨
      ∀ r ∈ stack, (mats r).isUniform = false → (mats r).tangentField ≠ none) {r : ℕ} {P e}
    (h : Medium E (c.vary (W x0)) (withMaterials mats (th x0) (eps x0)) r P e) (hr : r ∈ stack) (hd : e.det ≠ 0) :
    ∃ (Pf : V → Matrix (Idx c.nh) (Idx c.nh) ℂ) (ef : V → Matrix (Fin c.nh) (Fin c.nh) ℂ), SmM n x0 Pf ∧ SmM n x0 ef ∧
      (ef x0).det ≠ 0 ∧ ∀ᶠ x in 𝓝 x0, Medium E (c.vary (W x)) (withMaterials mats (th x) (eps x)) r (Pf x) (ef x) := by
  induction h with
  | uniform r hc hu ha =>
    have hv : ContDiffAt ℝ n (fun x => (withMaterials mats (th x) (eps x) r).epsilon.value) x0 :=
      value_smooth (heps r hr)
    refine ⟨fun x => (withMaterials mats (th x) (eps x) r).epsilon.value • 1,
      fun x => (withMaterials mats (th x) (eps x) r).epsilon.value • 1, SmM.smul hv (SmM.const 1), SmM.smul hv (SmM.const 1), hd,
      Filter.Eventually.of_forall fun x => ?_⟩
    exact Medium.uniform (c := c.vary (W x)) r hc hu ha
  | patterned r M p Q hc hb =>
    have hu := buildPure_patterned hb
    obtain ⟨Pf, ef, h1, h2, h3, h4⟩ := smooth_patterned (n := n) (heps r hr) (by
      rcases hform with h | h | h
      · exact .inl h
      · exact .inr (.inl h)
      · exact .inr (.inr (h r hr hu))) hb
    refine ⟨Pf, ef, h1, h2, h3, ?_⟩
    filter_upwards [h4] with x hx
    obtain ⟨M, p, Q, k1, k2, k3⟩ := hx
    rw [← k2, ← k3]
    exact Medium.patterned (c := c.vary (W x)) r M p Q hc k1
  | copy r P e hc ho ih =>
    obtain ⟨Pf, ef, h1, h2, h3, h4⟩ := ih (hcl r hr hc) hd
    refine ⟨Pf, ef, h1, h2, h3, ?_⟩
    filter_upwards [h4] with x hx
    exact Medium.copy (c := c.vary (W x)) r _ _ hc hx

end Nannos
