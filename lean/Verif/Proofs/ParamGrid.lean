import Verif.Proofs.Inverse4
import Verif.Proofs.ParamSmooth
import Verif.Spec.Parameters

/-! Smoothness of the operators of the layers as functions of their permittivities (C89). -/

namespace Nannos

open Matrix Spec Topology

variable {V : Type} [NormedAddCommGroup V] [NormedSpace ℝ V] {n : WithTop ℕ∞} {x0 : V}

/-- Grids of a fixed shape with smooth entries. -/
def SmG (n : WithTop ℕ∞) (x0 : V) (u : V → PGrid) : Prop :=
  ∃ (Nx Ny : ℕ) (g : V → Grid Nx Ny), (u = fun x => ⟨Nx, Ny, g x⟩) ∧ ∀ i j, ContDiffAt ℝ n (fun x => g x i j) x0

theorem SmG.const (u : PGrid) : SmG n x0 fun _ => u := ⟨u.Nx, u.Ny, fun _ => u.g, rfl, fun _ _ => contDiffAt_const⟩

theorem smE_toGrid {s : List ℕ} {d : V → List ℕ → ℂ} (hd : ∀ idx, ContDiffAt ℝ n (fun x => d x idx) x0) :
    SmE (SmG n x0) x0 fun x => NdArr.toGrid ⟨s, d x⟩ := by
  unfold NdArr.toGrid
  rcases s with _ | ⟨a, _ | ⟨b, _ | ⟨c, s⟩⟩⟩
  · exact SmE.error rfl
  · exact SmE.error rfl
  · exact SmE.ok ⟨a, b, fun x i j => d x [i, j], rfl, fun i j => hd _⟩
  · exact SmE.error rfl

theorem smE_toeplitz {nh : ℕ} (H : Fin nh → ℤ × ℤ) {u : V → PGrid} (hu : SmG n x0 u) :
    SmE (SmM n x0) x0 fun x => toeplitz H (u x).g := by
  obtain ⟨Nx, Ny, g, rfl, hg⟩ := hu
  unfold toeplitz
  dsimp only
  by_cases h : ∃ i j, pyFin Nx ((H i).1 - (H j).1) = none ∨ pyFin Ny ((H i).2 - (H j).2) = none
  · simp only [h, if_true]
    exact SmE.error rfl
  simp only [h, if_false]
  refine SmE.ok fun i j => ?_
  simp only [Matrix.of_apply]
  rcases pyFin Nx ((H i).1 - (H j).1) with _ | p
  · exact contDiffAt_const
  rcases pyFin Ny ((H i).2 - (H j).2) with _ | q
  · exact contDiffAt_const
  dsimp only
  unfold fourierTransform fft2
  exact (ContDiffAt.sum fun a _ => ContDiffAt.sum fun b _ => (hg a b).mul contDiffAt_const).div_const _

theorem smE_recipGrid {u : V → PGrid} (hu : SmG n x0 u) : SmE (SmG n x0) x0 fun x => recipGrid (u x) := by
  obtain ⟨Nx, Ny, g, rfl, hg⟩ := hu
  intro v hv
  unfold recipGrid at hv ⊢
  dsimp only at hv ⊢
  split at hv
  · cases hv
  rename_i hne
  push Not at hne
  refine ⟨fun x => ⟨Nx, Ny, fun i j => 1 / g x i j⟩, ⟨Nx, Ny, fun x i j => 1 / g x i j, rfl, fun i j => ?_⟩, ?_⟩
  · simp only [one_div]
    exact (hg i j).inv (hne i j)
  · have : ∀ᶠ x in 𝓝 x0, ∀ i j, g x i j ≠ 0 :=
      Filter.eventually_all.mpr fun i => Filter.eventually_all.mpr fun j => (hg i j).continuousAt.eventually_ne (hne i j)
    filter_upwards [this] with x hx
    rw [if_neg (by push Not; exact hx)]

/-- Four components of a fixed shape with smooth entries. -/
def SmT4 {α : Type} (P : (V → α) → Prop) (t : V → Trans4 α) : Prop :=
  P (fun x => (t x).xx) ∧ P (fun x => (t x).xy) ∧ P (fun x => (t x).yx) ∧ P (fun x => (t x).yy)

theorem smE_mapM {α β : Type} {P : (V → α) → Prop} {R : (V → β) → Prop} {f : α → Except PyErr β}
    (hf : ∀ u, P u → SmE R x0 fun x => f (u x)) {t : V → Trans4 α} (ht : SmT4 P t) :
    SmE (SmT4 R) x0 fun x => (t x).mapM f := by
  unfold Trans4.mapM
  obtain ⟨h1, h2, h3, h4⟩ := ht
  refine SmE.bind (hf _ h1) fun a ha => SmE.bind (hf _ h2) fun b hb => SmE.bind (hf _ h3) fun c hc =>
    SmE.bind (hf _ h4) fun d hd => ?_
  exact SmE.ok (P := SmT4 R) (g := fun x => ⟨a x, b x, c x, d x⟩) ⟨ha, hb, hc, hd⟩

theorem smE_inv4 {N M : ℕ} {a b c d : V → Grid N M} (ha : ∀ i j, ContDiffAt ℝ n (fun x => a x i j) x0)
    (hb : ∀ i j, ContDiffAt ℝ n (fun x => b x i j) x0) (hc : ∀ i j, ContDiffAt ℝ n (fun x => c x i j) x0)
    (hd : ∀ i j, ContDiffAt ℝ n (fun x => d x i j) x0) :
    SmE (SmT4 (SmG n x0)) x0 fun x => inv4 (a x) (b x) (c x) (d x) := by
  unfold inv4
  have hD : ∀ i j, ContDiffAt ℝ n (fun x => a x i j * d x i j - c x i j * b x i j) x0 := fun i j =>
    ((ha i j).mul (hd i j)).sub ((hc i j).mul (hb i j))
  intro v hv
  dsimp only at hv
  split at hv
  · cases hv
  rename_i hne
  push Not at hne
  have hi : ∀ i j, ContDiffAt ℝ n (fun x => (a x i j * d x i j - c x i j * b x i j)⁻¹) x0 := fun i j =>
    (hD i j).inv (hne i j)
  refine ⟨fun x => ⟨⟨_, _, fun i j => d x i j / (a x i j * d x i j - c x i j * b x i j)⟩,
    ⟨_, _, fun i j => -b x i j / (a x i j * d x i j - c x i j * b x i j)⟩,
    ⟨_, _, fun i j => -c x i j / (a x i j * d x i j - c x i j * b x i j)⟩,
    ⟨_, _, fun i j => a x i j / (a x i j * d x i j - c x i j * b x i j)⟩⟩,
    ⟨⟨_, _, _, rfl, fun i j => ?_⟩, ⟨_, _, _, rfl, fun i j => ?_⟩, ⟨_, _, _, rfl, fun i j => ?_⟩,
      ⟨_, _, _, rfl, fun i j => ?_⟩⟩, ?_⟩
  · simp only [div_eq_mul_inv]; exact (hd i j).mul (hi i j)
  · simp only [div_eq_mul_inv]; exact (hb i j).neg.mul (hi i j)
  · simp only [div_eq_mul_inv]; exact (hc i j).neg.mul (hi i j)
  · simp only [div_eq_mul_inv]; exact (ha i j).mul (hi i j)
  · have : ∀ᶠ x in 𝓝 x0, ∀ i j, a x i j * d x i j - c x i j * b x i j ≠ 0 :=
      Filter.eventually_all.mpr fun i => Filter.eventually_all.mpr fun j => (hD i j).continuousAt.eventually_ne (hne i j)
    filter_upwards [this] with x hx
    dsimp only
    rw [if_neg (by push Not; exact hx)]

theorem sm_beside {N M : ℕ} {a b : V → Grid N M} (ha : ∀ i j, ContDiffAt ℝ n (fun x => a x i j) x0)
    (hb : ∀ i j, ContDiffAt ℝ n (fun x => b x i j) x0) (i : Fin N) (k : ℕ) :
    ContDiffAt ℝ n (fun x => beside (a x) (b x) i k) x0 := by
  unfold beside
  split
  · exact ha _ _
  split
  · exact hb _ _
  · exact contDiffAt_const

theorem smE_pointwiseInv {u : V → Trans4 PGrid} (hu : SmT4 (SmG n x0) u) :
    SmE (SmT4 (SmG n x0)) x0 fun x => pointwiseInv (u x).xx (u x).xy (u x).yx (u x).yy := by
  obtain ⟨⟨N1, M1, a, ea, ha⟩, ⟨N2, M2, b, eb, hb⟩, ⟨N3, M3, c, ec, hc⟩, ⟨N4, M4, d, ed, hd⟩⟩ := hu
  have e1 : ∀ x, (u x).xx = ⟨N1, M1, a x⟩ := fun x => congrFun ea x
  have e2 : ∀ x, (u x).xy = ⟨N2, M2, b x⟩ := fun x => congrFun eb x
  have e3 : ∀ x, (u x).yx = ⟨N3, M3, c x⟩ := fun x => congrFun ec x
  have e4 : ∀ x, (u x).yy = ⟨N4, M4, d x⟩ := fun x => congrFun ed x
  simp only [e1, e2, e3, e4]
  by_cases h : N2 = N1 ∧ M2 = M1 ∧ N3 = N1 ∧ M3 = M1 ∧ N4 = N1 ∧ M4 = M1
  swap
  · unfold pointwiseInv
    simp only [h, dif_neg, not_false_iff]
    exact SmE.error rfl
  obtain ⟨rfl, rfl, rfl, rfl, rfl, rfl⟩ := h
  have e : ∀ x, pointwiseInv ⟨_, _, a x⟩ ⟨_, _, b x⟩ ⟨_, _, c x⟩ ⟨_, _, d x⟩ = _ := fun x =>
    pointwiseInv_same (a x) (b x) (c x) (d x)
  simp only [e]
  split
  · exact smE_inv4 ha hb hc hd
  · unfold mixedInv
    split
    · exact SmE.error rfl
    · exact smE_inv4 (fun i j => sm_beside ha hb i _) (fun i j => sm_beside ha hb i _) (fun i j => sm_beside hc hd i _)
        fun i j => sm_beside hc hd i _

theorem smE_linInv {m : Type} [Fintype m] [DecidableEq m] {A : V → Matrix m m ℂ} (hA : SmM n x0 A) :
    SmE (SmM n x0) x0 fun x => linInv (A x) := by
  intro v hv
  obtain ⟨h0, -⟩ := (linInv_ok _ _).mp hv
  refine ⟨fun x => (A x)⁻¹, hA.inv h0, ?_⟩
  filter_upwards [hA.det_ne h0] with x hx
  exact (linInv_ok _ _).mpr ⟨hx, rfl⟩

section
variable {E : Ext} {c : Static}

theorem smE_nuIso {u : V → PGrid} (hu : SmG n x0 u) : SmE (SmM n x0) x0 fun x => nuHatInvIso c (u x) := by
  unfold nuHatInvIso
  exact SmE.bind (smE_recipGrid hu) fun v hv => SmE.bind (smE_toeplitz _ hv) fun w hw => smE_linInv hw

theorem SmM.block {t : V → Trans4 (Matrix (Fin c.nh) (Fin c.nh) ℂ)} (ht : SmT4 (SmM n x0) t) :
    SmM n x0 fun x => (t x).block := SmM.fromBlocks ht.1 ht.2.1 ht.2.2.1 ht.2.2.2

theorem smE_nuAniso {u : V → Trans4 PGrid} (hu : SmT4 (SmG n x0) u) :
    SmE (SmM n x0) x0 fun x => nuHatInvAniso c (u x) := by
  unfold nuHatInvAniso
  exact SmE.bind (smE_pointwiseInv hu) fun v hv =>
    SmE.bind (smE_mapM (f := c.toep) (fun _ hw => smE_toeplitz _ hw) hv) fun w hw => smE_linInv (SmM.block hw)

theorem smE_getPeps {A N : V → Matrix (Idx c.nh) (Idx c.nh) ℂ} (hA : SmM n x0 A) (hN : SmM n x0 N) (t : Field2) :
    SmE (SmM n x0) x0 fun x => getPeps c (A x) (N x) t := by
  unfold getPeps
  refine SmE.bind (SmE.const (P := SmM n x0) (fun _ => SmM.const _) _) fun a ha => ?_
  refine SmE.bind (SmE.const (P := SmM n x0) (fun _ => SmM.const _) _) fun b hb => ?_
  refine SmE.bind (SmE.const (P := SmM n x0) (fun _ => SmM.const _) _) fun d hd => ?_
  refine SmE.bind (SmE.const (P := SmM n x0) (fun _ => SmM.const _) _) fun e he => ?_
  exact SmE.ok (hA.sub ((hA.sub hN).mul (SmM.fromBlocks hb he hd ha)))

/-- Transverse components: absent, or smooth. -/
def SmPara (n : WithTop ℕ∞) (x0 : V) (p : V → Option (Trans4 PGrid)) : Prop :=
  (p = fun _ => none) ∨ ∃ t, (p = fun x => some (t x)) ∧ SmT4 (SmG n x0) t

theorem smE_pepsOf {L : V → LayerSpec} {tf : Option Field2} (hL : ∀ x, (L x).tangentField = tf) {ez : V → PGrid} (hez : SmG n x0 ez)
    {para : V → Option (Trans4 PGrid)} (hp : SmPara n x0 para) {eh : V → Matrix (Fin c.nh) (Fin c.nh) ℂ}
    (heh : SmM n x0 eh) {ep : V → Matrix (Idx c.nh) (Idx c.nh) ℂ} (hep : SmM n x0 ep) (H : List (ℤ × ℤ))
    (hform : c.formulation = "original" ∨ c.lattice.is1D = true ∧ c.formulation = "tangent" ∨ tf ≠ none) :
    SmE (SmM n x0) x0 fun x => pepsOf E c (L x) (ez x) (para x) (eh x) (ep x) H := by
  have hnu : SmE (SmM n x0) x0 fun x => (match para x with
      | some p => nuHatInvAniso c p
      | none => do
        let n ← nuHatInvIso c (ez x)
        pure (diag2 n) : Except PyErr (Matrix (Idx c.nh) (Idx c.nh) ℂ)) := by
    rcases hp with rfl | ⟨t, rfl, ht⟩
    · exact SmE.bind (smE_nuIso hez) fun v hv => SmE.ok (SmM.fromBlocks hv (SmM.const 0) (SmM.const 0) hv)
    · exact smE_nuAniso ht
  unfold pepsOf
  dsimp only
  by_cases h1 : c.formulation = "original"
  · simp only [h1, if_true]
    exact SmE.ok hep
  simp only [h1, if_false]
  have htan : ∀ b, ¬ (c.lattice.is1D = true ∧ c.formulation = "tangent") →
      SmE (fun f => ∃ t : Field2, f = fun _ => t) x0 fun x => getTangentField E (L x) (ez x) H b := by
    intro b hb
    unfold getTangentField
    simp only [hL]
    rcases tf with _ | t
    · rcases hform with h | h | h
      · exact absurd h h1
      · exact absurd h hb
      · exact absurd rfl h
    · exact SmE.ok ⟨t, rfl⟩
  by_cases h2 : c.formulation = "tangent"
  · simp only [h2, if_true]
    by_cases h3 : c.lattice.is1D = true
    · simp only [h3, if_true]
      rcases hp with rfl | ⟨t, rfl, ht⟩
      · exact SmE.bind (smE_nuIso hez) fun v hv => SmE.ok (SmM.fromBlocks heh (SmM.const 0) (SmM.const 0) hv)
      · dsimp only
        exact SmE.bind (smE_nuAniso ht) fun v hv => SmE.error rfl
    · simp only [h3]
      refine SmE.bind (htan true fun hh => h3 hh.1) ?_
      rintro _ ⟨t, rfl⟩
      exact SmE.bind hnu fun v hv => smE_getPeps hep hv t
  simp only [h2, if_false]
  by_cases h3 : c.formulation = "jones"
  · simp only [h3, if_true]
    refine SmE.bind (htan false fun hh => h2 hh.2) ?_
    rintro _ ⟨t, rfl⟩
    refine SmE.bind (P := fun f => ∃ t : Field2, f = fun _ => t) (SmE.const (fun t => ⟨t, rfl⟩) _) ?_
    rintro _ ⟨J, rfl⟩
    exact SmE.bind hnu fun v hv => smE_getPeps hep hv J
  · simp only [h3, if_false]
    refine SmE.bind (htan false fun hh => h2 hh.2) ?_
    rintro _ ⟨t, rfl⟩
    exact SmE.bind hnu fun v hv => smE_getPeps hep hv t

end

end Nannos
