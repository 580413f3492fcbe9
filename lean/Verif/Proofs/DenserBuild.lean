import Verif.Proofs.Inverse4
import Verif.Spec.Denser
import Verif.Proofs.SimilarSim

/-! The matrices of a layer whose refractive indices are multiplied by a number, at a frequency divided by it (C103). -/

namespace Nannos

open Matrix Spec

variable {E : Ext} {c : Static} {p : ℝ} {a : ℂ}

theorem det_smul_eq_zero {m : Type} [Fintype m] [DecidableEq m] (ha : a ≠ 0) (A : Matrix m m ℂ) : (a • A).det = 0 ↔ A.det = 0 := by
  rw [det_smul, mul_eq_zero, pow_eq_zero_iff']
  tauto

theorem inv_smul_ne {m : Type} [Fintype m] [DecidableEq m] (ha : a ≠ 0) {A : Matrix m m ℂ} (hA : A.det ≠ 0) :
    (a • A)⁻¹ = a⁻¹ • A⁻¹ := by
  apply Matrix.inv_eq_right_inv
  rw [Matrix.smul_mul, Matrix.mul_smul, Matrix.mul_nonsing_inv _ (isUnit_iff_ne_zero.mpr hA), smul_smul, mul_inv_cancel₀ ha, one_smul]

theorem linInv_smul {m : Type} [Fintype m] [DecidableEq m] (ha : a ≠ 0) (A : Matrix m m ℂ) :
    linInv (a • A) = (linInv A).map (a⁻¹ • ·) := by
  unfold linInv
  by_cases h : A.det = 0
  · rw [if_pos h, if_pos ((det_smul_eq_zero ha A).mpr h)]; rfl
  · rw [if_neg h, if_neg ((det_smul_eq_zero ha A).not.mpr h), inv_smul_ne ha h]; rfl

theorem toep_times (a : ℂ) (u : PGrid) : c.toep (timesGrid a u) = (c.toep u).map (a • ·) := by
  obtain ⟨Nx, Ny, g⟩ := u
  unfold Static.toep timesGrid toeplitz
  simp only []
  by_cases h : ∃ i j, pyFin Nx ((c.harmonics.get i).1 - (c.harmonics.get j).1) = none ∨
      pyFin Ny ((c.harmonics.get i).2 - (c.harmonics.get j).2) = none
  · rw [if_pos h, if_pos h]; rfl
  · rw [if_neg h, if_neg h]
    simp only [Except.map]
    refine congrArg Except.ok ?_
    ext i j
    simp only [of_apply, Matrix.smul_apply, smul_eq_mul]
    rcases pyFin Nx ((c.harmonics.get i).1 - (c.harmonics.get j).1) with _ | x
    · simp
    rcases pyFin Ny ((c.harmonics.get i).2 - (c.harmonics.get j).2) with _ | y
    · simp
    simp only [fourierTransform, fft2]
    rw [mul_div_assoc', Finset.mul_sum]
    congr 1
    refine Finset.sum_congr rfl fun x _ => ?_
    rw [Finset.mul_sum]
    exact Finset.sum_congr rfl fun y _ => by ring

theorem recip_times (ha : a ≠ 0) (u : PGrid) : recipGrid (timesGrid a u) = (recipGrid u).map (timesGrid a⁻¹) := by
  unfold recipGrid
  have h : (∃ x y, (timesGrid a u).g x y = 0) ↔ ∃ x y, u.g x y = 0 := by
    simp only [timesGrid, mul_eq_zero, ha, false_or]
  by_cases h0 : ∃ x y, u.g x y = 0
  · rw [if_pos h0, if_pos (h.mpr h0)]; rfl
  · rw [if_neg h0, if_neg (h.not.mpr h0)]
    simp only [Except.map, timesGrid]
    congr 2
    funext x y
    rw [one_div, mul_inv, one_div]

theorem inv4_times (ha : a ≠ 0) {n m : ℕ} (u u1 u2 u3 : Grid n m) :
    inv4 (fun x y => a * u x y) (fun x y => a * u1 x y) (fun x y => a * u2 x y) (fun x y => a * u3 x y) =
      (inv4 u u1 u2 u3).map fun t => ⟨timesGrid a⁻¹ t.xx, timesGrid a⁻¹ t.xy, timesGrid a⁻¹ t.yx, timesGrid a⁻¹ t.yy⟩ := by
  unfold inv4 timesGrid
  have hz : (∃ x y, a * u x y * (a * u3 x y) - a * u2 x y * (a * u1 x y) = 0) ↔
      ∃ x y, u x y * u3 x y - u2 x y * u1 x y = 0 := by
    refine exists_congr fun x => exists_congr fun y => ?_
    rw [show a * u x y * (a * u3 x y) - a * u2 x y * (a * u1 x y) = a ^ 2 * (u x y * u3 x y - u2 x y * u1 x y) by ring,
      mul_eq_zero, pow_eq_zero_iff two_ne_zero]
    simp only [ha, false_or]
  dsimp only
  by_cases h0 : ∃ x y, u x y * u3 x y - u2 x y * u1 x y = 0
  · rw [if_pos h0, if_pos (hz.mpr h0)]; rfl
  · rw [if_neg h0, if_neg (hz.not.mpr h0)]
    have hd : ∀ x y, u x y * u3 x y - u2 x y * u1 x y ≠ 0 := fun x y he => h0 ⟨x, y, he⟩
    have key : ∀ x y (v : ℂ), a * v / (a * u x y * (a * u3 x y) - a * u2 x y * (a * u1 x y)) =
        a⁻¹ * (v / (u x y * u3 x y - u2 x y * u1 x y)) := by
      intro x y v
      rw [show a * u x y * (a * u3 x y) - a * u2 x y * (a * u1 x y) = a ^ 2 * (u x y * u3 x y - u2 x y * u1 x y) by ring]
      have := hd x y
      field_simp
    simp only [Except.map, ← mul_neg, key]

theorem beside_times {n m : ℕ} (u v : Grid n m) (x : Fin n) (k : ℕ) :
    beside (fun x y => a * u x y) (fun x y => a * v x y) x k = a * beside u v x k := by
  unfold beside
  split
  · rfl
  split
  · rfl
  · rw [mul_zero]

theorem pointwiseInv_times (ha : a ≠ 0) (xx xy yx yy : PGrid) :
    pointwiseInv (timesGrid a xx) (timesGrid a xy) (timesGrid a yx) (timesGrid a yy) =
      (pointwiseInv xx xy yx yy).map fun t => ⟨timesGrid a⁻¹ t.xx, timesGrid a⁻¹ t.xy, timesGrid a⁻¹ t.yx, timesGrid a⁻¹ t.yy⟩ := by
  obtain ⟨n, m, u⟩ := xx
  obtain ⟨n1, m1, u1⟩ := xy
  obtain ⟨n2, m2, u2⟩ := yx
  obtain ⟨n3, m3, u3⟩ := yy
  by_cases h : n1 = n ∧ m1 = m ∧ n2 = n ∧ m2 = m ∧ n3 = n ∧ m3 = m
  · obtain ⟨rfl, rfl, rfl, rfl, rfl, rfl⟩ := h
    unfold timesGrid
    rw [pointwiseInv_same, pointwiseInv_same]
    split
    · exact inv4_times ha _ _ _ _
    · unfold mixedInv
      split
      · rfl
      · dsimp only
        simp only [beside_times]
        exact inv4_times ha _ _ _ _
  · unfold pointwiseInv timesGrid
    rw [dif_neg h, dif_neg h]; rfl

theorem mapM_times (t : Trans4 PGrid) :
    Trans4.mapM c.toep ⟨timesGrid a t.xx, timesGrid a t.xy, timesGrid a t.yx, timesGrid a t.yy⟩ =
      (t.mapM c.toep).map fun s => ⟨a • s.xx, a • s.xy, a • s.yx, a • s.yy⟩ := by
  unfold Trans4.mapM
  simp only [toep_times]
  rcases c.toep t.xx with e | x1
  · rfl
  rcases c.toep t.xy with e | x2
  · rfl
  rcases c.toep t.yx with e | x3
  · rfl
  rcases c.toep t.yy with e | x4
  · rfl
  rfl

theorem block_smul {nh : ℕ} (s : Trans4 (Matrix (Fin nh) (Fin nh) ℂ)) :
    Trans4.block ⟨a • s.xx, a • s.xy, a • s.yx, a • s.yy⟩ = a • s.block := by
  unfold Trans4.block
  rw [fromBlocks_smul]

theorem nuIso_times (ha : a ≠ 0) (u : PGrid) : nuHatInvIso c (timesGrid a u) = (nuHatInvIso c u).map (a • ·) := by
  unfold nuHatInvIso
  rw [recip_times ha]
  rcases recipGrid u with e | v
  · rfl
  change (c.toep (timesGrid a⁻¹ v) >>= linInv) = (c.toep v >>= linInv).map (a • ·)
  rw [toep_times]
  rcases c.toep v with e | A
  · rfl
  change linInv (a⁻¹ • A) = (linInv A).map (a • ·)
  rw [linInv_smul (inv_ne_zero ha), inv_inv]

theorem nuAniso_times (ha : a ≠ 0) (t : Trans4 PGrid) :
    nuHatInvAniso c ⟨timesGrid a t.xx, timesGrid a t.xy, timesGrid a t.yx, timesGrid a t.yy⟩ = (nuHatInvAniso c t).map (a • ·) := by
  unfold nuHatInvAniso
  simp only [pointwiseInv_times ha]
  rcases pointwiseInv t.xx t.xy t.yx t.yy with e | v
  · rfl
  change (Trans4.mapM c.toep ⟨timesGrid a⁻¹ v.xx, timesGrid a⁻¹ v.xy, timesGrid a⁻¹ v.yx, timesGrid a⁻¹ v.yy⟩ >>=
    fun n => linInv n.block) = (v.mapM c.toep >>= fun n => linInv n.block).map (a • ·)
  rw [mapM_times]
  rcases v.mapM c.toep with e | A
  · rfl
  change linInv (Trans4.block ⟨a⁻¹ • A.xx, a⁻¹ • A.xy, a⁻¹ • A.yx, a⁻¹ • A.yy⟩) = (linInv A.block).map (a • ·)
  rw [block_smul, linInv_smul (inv_ne_zero ha), inv_inv]

theorem getPeps_times (e n : Matrix (Idx c.nh) (Idx c.nh) ℂ) (t : Field2) :
    getPeps c (a • e) (a • n) t = (getPeps c e n t).map (a • ·) := by
  unfold getPeps
  rcases c.toep (projField t fun a _ => a * star a) with e | x1
  · rfl
  rcases c.toep (projField t fun _ b => b * star b) with e | x2
  · rfl
  rcases c.toep (projField t fun a b => a * star b) with e | x3
  · rfl
  rcases c.toep (projField t fun a b => b * star a) with e | x4
  · rfl
  simp only [except_bind_ok]
  change Except.ok _ = Except.ok (a • _)
  rw [smul_sub, ← smul_sub, Matrix.smul_mul]

theorem diag2_smul {nh : ℕ} (A : Matrix (Fin nh) (Fin nh) ℂ) : diag2 (a • A) = a • diag2 A := by
  unfold diag2
  rw [fromBlocks_smul]
  simp

theorem buildK_smul {n : Type} (u Kx Ky : Matrix n n ℂ) : buildK (a • u) Kx Ky = a • buildK u Kx Ky := by
  unfold buildK matmuldiag
  rw [fromBlocks_smul]
  have e : ∀ A B : Matrix n n ℂ, (Matrix.of fun i k => Aᵀ i i * (Matrix.of fun i k => B i i * (a • u) i k)ᵀ i k)ᵀ =
      a • (Matrix.of fun i k => Aᵀ i i * (Matrix.of fun i k => B i i * u i k)ᵀ i k)ᵀ := by
    intro A B
    ext i j
    simp only [Matrix.transpose_apply, Matrix.smul_apply, of_apply, smul_eq_mul]
    ring
  simp only [e]

/-- The transverse components times a number. -/
noncomputable def timesPara (a : ℂ) (t : Option (Trans4 PGrid)) : Option (Trans4 PGrid) :=
  t.map fun t => ⟨timesGrid a t.xx, timesGrid a t.xy, timesGrid a t.yx, timesGrid a t.yy⟩

theorem toGrid_times (u : NdArr) : NdArr.toGrid ⟨u.shape, fun idx => a * u.data idx⟩ = u.toGrid.map (timesGrid a) := by
  obtain ⟨s, f⟩ := u
  unfold NdArr.toGrid
  rcases s with _ | ⟨x, _ | ⟨y, _ | ⟨z, t⟩⟩⟩ <;> rfl

variable (hp : 0 < p)

theorem denser_para (L : LayerSpec) : paraOf (denser p L) = (paraOf L).map (timesPara ((p : ℂ) ^ 2)) := by
  unfold paraOf
  have h1 : (denser p L).isAnisotropic = L.isAnisotropic := rfl
  rw [h1]
  by_cases h : L.isAnisotropic = true
  · simp only [h, if_true]
    unfold Trans4.mapM
    have hc : ∀ i j, ((denser p L).epsilon.comp i j).toGrid = ((L.epsilon.comp i j).toGrid).map (timesGrid ((p : ℂ) ^ 2)) :=
      fun i j => toGrid_times (L.epsilon.comp i j)
    simp only [NdArr.trans, hc]
    rcases (L.epsilon.comp 0 0).toGrid with e | x1
    · rfl
    rcases (L.epsilon.comp 0 1).toGrid with e | x2
    · rfl
    rcases (L.epsilon.comp 1 0).toGrid with e | x3
    · rfl
    rcases (L.epsilon.comp 1 1).toGrid with e | x4
    · rfl
    rfl
  · simp only [h, Bool.false_eq_true, if_false]
    rfl

theorem denser_paraHat (t : Option (Trans4 PGrid)) (e : Matrix (Fin c.nh) (Fin c.nh) ℂ) :
    epsParaHatOf c (timesPara a t) (a • e) = (epsParaHatOf c t e).map (a • ·) := by
  unfold epsParaHatOf timesPara
  rcases t with _ | t
  · simp only [Option.map_none]
    rw [diag2_smul]; rfl
  · simp only [Option.map_some, mapM_times]
    rcases t.mapM c.toep with e | A
    · rfl
    change Except.ok _ = Except.ok _
    rw [block_smul]

theorem denser_tangent {L : LayerSpec} (hg : L.tangentField ≠ none ∨
      ∀ u H b, E.tangent L.tangentFieldType (timesGrid ((p : ℂ) ^ 2) u) H b = E.tangent L.tangentFieldType u H b) (u : PGrid) (H : List (ℤ × ℤ)) (b : Bool) :
    getTangentField E (denser p L) (timesGrid ((p : ℂ) ^ 2) u) H b = getTangentField E L u H b := by
  have h1 : (denser p L).tangentField = L.tangentField := rfl
  have h2 : (denser p L).tangentFieldType = L.tangentFieldType := rfl
  unfold getTangentField
  rw [h1, h2]
  rcases ht : L.tangentField with _ | t
  · rcases hg with hg | hg
    · exact absurd ht hg
    · simp only [hg]
  · rfl

variable {exc : PlaneWave}

include hp in
theorem denser_peps {L : LayerSpec} (hg : FactorUnseen E p c.lattice c.formulation L) (h1d : c.lattice.is1D = true → c.formulation = "original" ∨ c.formulation = "tangent")
    (u : PGrid) (t' : Option (Trans4 PGrid)) (e : Matrix (Fin c.nh) (Fin c.nh) ℂ) (eb : Matrix (Idx c.nh) (Idx c.nh) ℂ) (H : List (ℤ × ℤ)) :
    pepsOf E (c.slow p exc) (denser p L) (timesGrid ((p : ℂ) ^ 2) u) (timesPara ((p : ℂ) ^ 2) t') ((p : ℂ) ^ 2 • e)
        ((p : ℂ) ^ 2 • eb) H = (pepsOf E c L u t' e eb H).map (((p : ℂ) ^ 2) • ·) := by
  have ha : ((p : ℂ) ^ 2) ≠ 0 := pow_ne_zero 2 (by exact_mod_cast hp.ne')
  generalize hA : ((p : ℂ) ^ 2) = a at ha ⊢
  have n1 : ∀ v, nuHatInvIso (c.slow p exc) v = nuHatInvIso c v := fun _ => rfl
  have n2 : ∀ v, nuHatInvAniso (c.slow p exc) v = nuHatInvAniso c v := fun _ => rfl
  have n3 : ∀ x y f, getPeps (c.slow p exc) x y f = getPeps c x y f := fun _ _ _ => rfl
  unfold pepsOf
  have hblock : (match timesPara a t' with
      | some t => nuHatInvAniso (c.slow p exc) t
      | none => do
        let n ← nuHatInvIso (c.slow p exc) (timesGrid a u)
        pure (diag2 n)) = (match t' with
      | some p => nuHatInvAniso c p
      | none => do
        let n ← nuHatInvIso c u
        pure (diag2 n)).map (a • ·) := by
    rcases t' with _ | t
    · simp only [timesPara, Option.map_none, n1, nuIso_times ha]
      rcases nuHatInvIso c u with e | A
      · rfl
      change Except.ok (diag2 (a • A)) = Except.ok (a • diag2 A)
      rw [diag2_smul]
    · simp only [timesPara, Option.map_some, n2, nuAniso_times ha]
  by_cases ho : c.formulation = "original"
  · simp only [ho, if_true]; rfl
  simp only [ho, if_false]
  by_cases ht : c.formulation = "tangent" ∧ c.lattice.is1D = true
  · simp only [ht.1, ht.2, if_true]
    rcases t' with _ | t
    · simp only [timesPara, Option.map_none, n1, nuIso_times ha]
      rcases nuHatInvIso c u with e | A
      · rfl
      change Except.ok (fromBlocks (a • e) 0 0 (a • A)) = Except.ok (a • fromBlocks e 0 0 A)
      rw [fromBlocks_smul]; simp
    · simp only [timesPara, Option.map_some, n2, nuAniso_times ha]
      rcases nuHatInvAniso c t with e | A <;> rfl
  have fin : ∀ (J : Field2) (e' : Except PyErr (Matrix (Idx c.nh) (Idx c.nh) ℂ)),
      ((e'.map (a • ·)) >>= fun nu => getPeps (c.slow p exc) (a • eb) nu J) = (e' >>= fun nu => getPeps c eb nu J).map (a • ·) := by
    intro J e'
    rcases e' with e | A
    · rfl
    change getPeps c (a • eb) (a • A) J = (getPeps c eb A J).map (a • ·)
    exact getPeps_times _ _ _
  have gt : ∀ b, getTangentField E (denser p L) (timesGrid a u) H b = getTangentField E L u H b := by
    intro b
    rcases hg with h | h | h | h
    · exact absurd h ho
    · exact absurd ⟨(h1d h).resolve_left ho, h⟩ ht
    · exact hA ▸ denser_tangent (.inl h) u H b
    · exact hA ▸ denser_tangent (.inr h) u H b
  have last : ∀ b (j : Field2 → Except PyErr Field2) (X X' : Except PyErr (Matrix (Idx c.nh) (Idx c.nh) ℂ)), X' = X.map (a • ·) →
      (getTangentField E L u H b >>= fun t => j t >>= fun J => X' >>= fun nu => getPeps (c.slow p exc) (a • eb) nu J) =
      (getTangentField E L u H b >>= fun t => j t >>= fun J => X >>= fun nu => getPeps c eb nu J).map (a • ·) := by
    rintro b j X _ rfl
    simp only [fin]
    rcases getTangentField E L u H b with e | t
    · rfl
    simp only [except_bind_ok]
    rcases j t with e | J
    · rfl
    rfl
  simp only [gt]
  by_cases h1 : c.formulation = "tangent"
  · have h2 : c.lattice.is1D = false := by
      rcases h : c.lattice.is1D
      · rfl
      · exact absurd ⟨h1, h⟩ ht
    simp only [h1, h2, if_true, Bool.false_eq_true, if_false]
    exact last true Except.ok _ _ hblock
  · simp only [h1, if_false]
    by_cases h2 : c.formulation = "jones"
    · simp only [h2, if_true]
      exact last false jonesField _ _ hblock
    · simp only [h2, if_false]
      exact last false Except.ok _ _ hblock

/-- The attributes of a patterned layer. -/
noncomputable def dilP {nh : ℕ} (p : ℝ) (x : PatAttrs nh) : PatAttrs nh :=
  ⟨x.Kmu, (p : ℂ) ^ 2 • x.epsHat, ((p : ℂ) ^ 2)⁻¹ • x.epsHatInv, x.muHat, x.muHatInv, ((p : ℂ) ^ 2)⁻¹ • x.Keps, (p : ℂ) ^ 2 • x.Peps⟩

/-- What building a layer gives. -/
noncomputable def dilB {nh : ℕ} (p : ℝ) : BuiltLayer nh → BuiltLayer nh
  | .uniform Q => .uniform (((p : ℂ) ^ 2)⁻¹ • Q)
  | .patterned M x Q => .patterned M (dilP p x) (((p : ℂ) ^ 2)⁻¹ • Q)

theorem denser_value (L : LayerSpec) : (denser p L).epsilon.value = (p : ℂ) ^ 2 * L.epsilon.value := by
  unfold NdArr.value denser
  simp only []
  split <;> rfl

include hp in
theorem denser_build {L : LayerSpec} (hg : FactorUnseen E p c.lattice c.formulation L)
    (h1d : c.lattice.is1D = true → c.formulation = "original" ∨ c.formulation = "tangent") :
    buildPure E (c.slow p exc) (denser p L) = (buildPure E c L).map (dilB p) := by
  have hp0 : (p : ℂ) ≠ 0 := by exact_mod_cast hp.ne'
  have ha : ((p : ℂ) ^ 2) ≠ 0 := pow_ne_zero 2 hp0
  have om : ((c.slow p exc).omega : ℂ) ^ 2 = ((p : ℂ) ^ 2)⁻¹ * (c.omega : ℂ) ^ 2 := by
    change ((c.omega / p : ℝ) : ℂ) ^ 2 = _
    push_cast
    rw [div_pow, div_eq_inv_mul]
  have h1 : (denser p L).isUniform = L.isUniform := rfl
  have h2 : (denser p L).isAnisotropic = L.isAnisotropic := rfl
  have h3 : (denser p L).mu = L.mu := rfl
  unfold buildPure
  simp only [h1, h2, h3, om, denser_value]
  by_cases hu : L.isUniform = true
  · simp only [hu, if_true]
    by_cases hani : L.isAnisotropic = true
    · simp only [hani, if_true]
      split_ifs <;> rfl
    simp only [hani, Bool.false_eq_true, if_false, mul_eq_zero, ha, false_or]
    by_cases h0 : L.epsilon.value = 0
    · simp only [h0, if_true]; rfl
    · simp only [h0, if_false]
      change Except.ok (BuiltLayer.uniform _) = Except.ok (BuiltLayer.uniform _)
      congr 2
      rw [one_div, mul_inv, mul_smul, buildK_smul, mul_smul, ← smul_sub, one_div, buildK_smul]
  · simp only [hu, Bool.false_eq_true, if_false]
    have hz : (if L.isAnisotropic = true then (denser p L).epsilon.comp 2 2 else (denser p L).epsilon).toGrid =
        (if L.isAnisotropic = true then L.epsilon.comp 2 2 else L.epsilon).toGrid.map (timesGrid ((p : ℂ) ^ 2)) := by
      split_ifs
      · exact toGrid_times (L.epsilon.comp 2 2)
      · exact toGrid_times L.epsilon
    rw [hz]
    rcases (if L.isAnisotropic = true then L.epsilon.comp 2 2 else L.epsilon).toGrid with e | u
    · rfl
    change (Static.toep (c.slow p exc) (timesGrid ((p : ℂ) ^ 2) u) >>= _) = Except.map _ (c.toep u >>= _)
    have ht : Static.toep (c.slow p exc) (timesGrid ((p : ℂ) ^ 2) u) = (c.toep u).map (((p : ℂ) ^ 2) • ·) := toep_times _ u
    rw [ht]
    rcases c.toep u with e | eh
    · rfl
    change (linInv ((p : ℂ) ^ 2 • eh) >>= _) = Except.map _ (linInv eh >>= _)
    rw [linInv_smul ha]
    rcases linInv eh with e | ehi
    · rfl
    simp only [Except.map, except_bind_ok]
    by_cases hm : L.mu = 0
    · simp only [raiseIf, hm, if_true]; rfl
    simp only [raiseIf, hm, if_false, except_bind_ok, denser_para]
    rcases paraOf L with e | t
    · rfl
    simp only [Except.map, except_bind_ok]
    have hb : epsParaHatOf (c.slow p exc) (timesPara ((p : ℂ) ^ 2) t) ((p : ℂ) ^ 2 • eh) =
      (epsParaHatOf c t eh).map (((p : ℂ) ^ 2) • ·) := denser_paraHat t eh
    rw [hb]
    rcases epsParaHatOf c t eh with e | eb
    · rfl
    simp only [Except.map, except_bind_ok]
    rcases c.lattice.getHarmonics E.argsort c.nh true with e | ⟨H, w⟩
    · rfl
    simp only [except_bind_ok, denser_peps hp hg h1d]
    rcases pepsOf E c L u t eh eb H with e | P
    · rfl
    simp only [Except.map, except_bind_ok]
    change Except.ok (BuiltLayer.patterned _ _ _) = Except.ok (BuiltLayer.patterned _ (dilP p _) _)
    have m1 : (((p : ℂ) ^ 2)⁻¹ * (c.omega : ℂ) ^ 2) • diag2 (L.mu • (1 : Matrix (Fin c.nh) (Fin c.nh) ℂ)) -
        buildK (((p : ℂ) ^ 2)⁻¹ • ehi) (diagonal c.ky) (-diagonal c.kx) =
        ((p : ℂ) ^ 2)⁻¹ • ((c.omega : ℂ) ^ 2 • diag2 (L.mu • (1 : Matrix (Fin c.nh) (Fin c.nh) ℂ)) -
          buildK ehi (diagonal c.ky) (-diagonal c.kx)) := by
      rw [buildK_smul, mul_smul, ← smul_sub]
    have m2 : (((p : ℂ) ^ 2)⁻¹ * (c.omega : ℂ) ^ 2) • (((p : ℂ) ^ 2 • P) * diag2 (L.mu • (1 : Matrix (Fin c.nh) (Fin c.nh) ℂ))) -
        (((p : ℂ) ^ 2 • P) * buildK (((p : ℂ) ^ 2)⁻¹ • ehi) (diagonal c.ky) (-diagonal c.kx) +
          buildK ((1 / L.mu) • 1) (diagonal c.kx) (diagonal c.ky) * diag2 (L.mu • (1 : Matrix (Fin c.nh) (Fin c.nh) ℂ))) =
        (c.omega : ℂ) ^ 2 • (P * diag2 (L.mu • (1 : Matrix (Fin c.nh) (Fin c.nh) ℂ))) -
        (P * buildK ehi (diagonal c.ky) (-diagonal c.kx) +
          buildK ((1 / L.mu) • 1) (diagonal c.kx) (diagonal c.ky) * diag2 (L.mu • (1 : Matrix (Fin c.nh) (Fin c.nh) ℂ))) := by
      rw [buildK_smul, Matrix.smul_mul, Matrix.smul_mul, Matrix.mul_smul, smul_smul, smul_smul, mul_inv_cancel₀ ha, one_smul,
        show ((p : ℂ) ^ 2)⁻¹ * (c.omega : ℂ) ^ 2 * (p : ℂ) ^ 2 = (c.omega : ℂ) ^ 2 by field_simp]
    refine congrArg Except.ok (congr (congr (congrArg BuiltLayer.patterned m2) ?_) m1)
    simp only [dilP]
    congr 1
    exact buildK_smul _ _ _

end Nannos
