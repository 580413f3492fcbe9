import Verif.Examples.Normal
import Verif.Props.Fourier

/-! Solving the concrete simulations. -/

namespace Nannos.Examples

open Matrix Nannos Spec

variable {c : Static} {w : ℝ}

/-- A layer of index `n`: uniform, or patterned with average permittivity `n^2`. -/
def HasIndex (L : LayerSpec) (n : ℝ) : Prop :=
  L.iscopy = false ∧ L.mu = 1 ∧ (L.epsilon = NdArr.scalar ((n ^ 2 : ℝ) : ℂ) ∨
    ∃ (Nx Ny : ℕ) (u : Grid Nx Ny), L.epsilon = NdArr.ofGrid u ∧ 0 < Nx ∧ 0 < Ny ∧ [Nx, Ny] ≠ [3, 3] ∧
      (∑ x, ∑ y, u x y) / ((Nx : ℂ) * Ny) = ((n ^ 2 : ℝ) : ℂ))

theorem NormalSim.nh (h : NormalSim c w) : c.nh = 1 := by unfold Static.nh; rw [h.harm]; rfl

theorem NormalSim.get (h : NormalSim c w) (i) : c.harmonics.get i = (0, 0) := by
  have h0 := List.get_mem c.harmonics i
  have h1 : ∀ x ∈ c.harmonics, x = (0, 0) := by rw [h.harm]; simp
  exact h1 _ h0

theorem NormalSim.kEps (h : NormalSim c w) (e) : Spec.kEps c.kx c.ky e = 0 := by
  ext a b
  rcases a with i | i <;> rcases b with j | j <;> simp [Spec.kEps, h.kx, h.ky]

theorem NormalSim.kMu (h : NormalSim c w) : Spec.kMu c.kx c.ky = 0 := by
  ext a b
  rcases a with i | i <;> rcases b with j | j <;> simp [Spec.kMu, h.kx, h.ky]

theorem NormalSim.toep (h : NormalSim c w) {Nx Ny : ℕ} (hx : 0 < Nx) (hy : 0 < Ny) (u : Grid Nx Ny) :
    c.toep ⟨Nx, Ny, u⟩ = .ok (((∑ x, ∑ y, u x y) / ((Nx : ℂ) * Ny)) • 1) := by
  have hsub : ∀ i j : Fin c.nh, i = j := by
    intro i j
    have := h.nh
    ext
    omega
  have : NeZero Nx := ⟨hx.ne'⟩
  have : NeZero Ny := ⟨hy.ne'⟩
  obtain ⟨A, hA⟩ := toeplitz_exists (H := c.harmonics.get) u (by
    intro i j; simp only [h.get, sub_self]; omega)
  unfold Static.toep
  dsimp only
  rw [hA, (toeplitz_ok hA).2]
  congr 1
  ext i j
  obtain rfl := hsub i j
  simp only [Matrix.of_apply, sub_self, coeff_zero_zero, Matrix.smul_apply, Matrix.one_apply_eq, smul_eq_mul, mul_one]
  rfl

theorem csqrt_scal {n : ℝ} (hn : 0 < n) (h : NormalSim c w) :
    csqrt (((n ^ 2 : ℝ) : ℂ) * (c.omega : ℂ) ^ 2) = (n : ℂ) * c.omega := by
  have ho : 0 < c.omega := h.omega_pos
  rw [show ((n ^ 2 : ℝ) : ℂ) * (c.omega : ℂ) ^ 2 = (((n * c.omega) ^ 2 : ℝ) : ℂ) from by push_cast; ring,
    csqrt_ofReal (by positivity), Real.sqrt_sq (by positivity)]
  push_cast; rfl

/-- A layer with propagation constant `n omega` at normal incidence: uniform, or patterned. -/
def HasIndexC (om : ℝ) (L : LayerSpec) (n : ℂ) : Prop :=
  L.iscopy = false ∧ L.mu = 1 ∧ n ≠ 0 ∧ ((L.epsilon = NdArr.scalar (n ^ 2) ∧ csqrt (n ^ 2 * (om : ℂ) ^ 2) = n * om) ∨
    ∃ (Nx Ny : ℕ) (u : Grid Nx Ny), L.epsilon = NdArr.ofGrid u ∧ 0 < Nx ∧ 0 < Ny ∧ [Nx, Ny] ≠ [3, 3] ∧
      (∑ x, ∑ y, u x y) / ((Nx : ℂ) * Ny) = n ^ 2 ∧ modeSqrt (n ^ 2 * (om : ℂ) ^ 2) = n * om)

theorem HasIndex.toC {L : LayerSpec} {n : ℝ} (hn : 0 < n) (hL : HasIndex L n) (h : NormalSim c w) :
    HasIndexC c.omega L n := by
  obtain ⟨h1, h2, h3⟩ := hL
  have hs := csqrt_scal hn h
  push_cast at hs h3
  have hm : modeSqrt ((n : ℂ) ^ 2 * (c.omega : ℂ) ^ 2) = n * c.omega := by
    unfold modeSqrt
    rw [hs]
    have : ((n : ℂ) * c.omega).im = 0 := by simp
    simp [this]
  refine ⟨h1, h2, by exact_mod_cast hn.ne', ?_⟩
  rcases h3 with h3 | ⟨Nx, Ny, u, a, b, d, e, f⟩
  · exact .inl ⟨h3, hs⟩
  · exact .inr ⟨Nx, Ny, u, a, b, d, e, f, hm⟩

theorem HasIndexC.step {L : LayerSpec} {n : ℂ} (hL : HasIndexC c.omega L n) (h : NormalSim c w)
    (Ao : LayerAttr c.nh) : (stepOut exE c L Ao).1 = .ok () ∧
      ∀ a, ((stepOut exE c L Ao).2 a).eig = some (fun _ => n * c.omega, 1) ∧
        ((stepOut exE c L Ao).2 a).Qeps = some ((c.omega : ℂ) ^ 2 • 1) := by
  obtain ⟨hc, hmu, hn, he⟩ := hL
  have hnc : (n ^ 2) ≠ 0 := pow_ne_zero 2 hn
  rcases he with ⟨he, hq⟩ | ⟨Nx, Ny, u, he, hx, hy, h3, hmean, hq⟩
  · have hu : L.isUniform = true ∧ L.isAnisotropic = false := by
      unfold LayerSpec.isUniform LayerSpec.isAnisotropic
      rw [he]; exact ⟨rfl, rfl⟩
    have hv : L.epsilon.value = (n ^ 2) := by rw [he]; rfl
    obtain ⟨Q, hb⟩ : ∃ Q, buildPure exE c L = .ok (.uniform Q) := by
      unfold buildPure
      simp only [hu, if_true, Bool.false_eq_true, if_false, hv, hnc]
      exact ⟨_, rfl⟩
    obtain ⟨-, -, -, hQ⟩ := buildPure_uniform_ok hmu hb
    rw [h.kEps, sub_zero] at hQ
    have hs : solveUniform L c.omega c.kx c.ky = .ok (fun _ => n * c.omega, 1) := by
      unfold solveUniform
      simp only [hu, Bool.false_eq_true, if_false, hv, hmu, mul_one, h.kx, h.ky, Except.ok.injEq, Prod.mk.injEq,
        and_true]
      funext k
      rcases k with i | i <;> simp only [Sum.elim_inl, Sum.elim_inr] <;>
        rw [← hq] <;> congr 1 <;> ring
    unfold stepOut
    simp only [hc, Bool.false_eq_true, if_false, hb, hs, hQ]
    exact ⟨trivial, fun _ => ⟨trivial, trivial⟩⟩
  · have hu : L.isUniform = false ∧ L.isAnisotropic = false := by
      unfold LayerSpec.isUniform LayerSpec.isAnisotropic
      rw [he]
      have h4 : ¬ (List.take 2 [Nx, Ny] = [3, 3]) := h3
      simp [NdArr.ofGrid, isUniform, isAnisotropic, h3]
    have hg : L.epsilon.toGrid = .ok ⟨Nx, Ny, u⟩ := by
      rw [he]
      unfold NdArr.toGrid NdArr.ofGrid
      simp
    have ht := h.toep hx hy u
    rw [hmean] at ht
    have hdet : ((n ^ 2) • (1 : Matrix (Fin c.nh) (Fin c.nh) ℂ)).det ≠ 0 := by
      rw [det_smul, det_one, mul_one]; exact pow_ne_zero _ hnc
    obtain ⟨M, p, Q, hb⟩ : ∃ M p Q, buildPure exE c L = .ok (.patterned M p Q) := by
      unfold buildPure
      simp only [hu, Bool.false_eq_true, if_false, hg, ht, except_bind_ok, hmu, one_ne_zero]
      rw [(linInv_ok _ (((n ^ 2) • (1 : Matrix (Fin c.nh) (Fin c.nh) ℂ))⁻¹)).mpr ⟨hdet, rfl⟩,
        except_bind_ok, raiseIf_ok (u := ()).mpr (by simp), except_bind_ok]
      unfold paraOf epsParaHatOf
      simp only [hu, Bool.false_eq_true, if_false, except_bind_ok, except_pure_eq_ok]
      rw [h.lat, show exE.argsort = exSort from rfl, exHarm c.nh (by rw [h.nh]; norm_num)]
      unfold pepsOf
      simp only [h.form, if_true, except_bind_ok, except_pure_eq_ok]
      exact ⟨_, _, _, rfl⟩
    obtain ⟨-, h2, h3', h4, h5, -, -, epszz, para, eph, Ht, k, h6, h7, h8, h9, h10, h11⟩ :=
      buildPure_patterned_ok hmu hb
    simp only [hu, Bool.false_eq_true, if_false, hg, Except.ok.injEq] at h6
    subst h6
    rw [ht, Except.ok.injEq] at h7
    unfold paraOf at h8
    simp only [hu, Bool.false_eq_true, if_false, except_pure_eq_ok, Except.ok.injEq] at h8
    subst h8
    unfold epsParaHatOf at h9
    simp only [except_pure_eq_ok, Except.ok.injEq] at h9
    unfold pepsOf at h11
    simp only [h.form, if_true, except_pure_eq_ok, Except.ok.injEq] at h11
    have hP : p.Peps = (n ^ 2) • 1 := by
      rw [← h11, ← h9, ← h7, diag2_smul_one]
    have hM : M = diagonal fun _ => (n ^ 2) * (c.omega : ℂ) ^ 2 := by
      rw [h5, hP]
      unfold waveMatrix
      rw [h.kEps, h.kMu, Matrix.mul_zero, sub_zero, sub_zero, smul_smul, smul_one_eq_diagonal]
      congr 1; funext _; ring
    have hQ : Q = (c.omega : ℂ) ^ 2 • 1 := by rw [h4, h.kEps, sub_zero]
    have hs : solveEigenproblem exE M = .ok (fun _ => n * c.omega, 1) := by
      unfold solveEigenproblem exE
      have : M = diagonal (fun i => M i i) := by rw [hM]; simp
      dsimp only
      rw [if_pos this]
      simp only [except_bind_ok, except_pure_eq_ok, Except.ok.injEq, Prod.mk.injEq, and_true]
      funext k
      rw [hM, diagonal_apply_eq]
      exact hq
    unfold stepOut
    simp only [hc, Bool.false_eq_true, if_false, hb, hs, hQ]
    exact ⟨trivial, fun _ => ⟨trivial, trivial⟩⟩

theorem exSolveAllC (h : NormalSim c w) (n : ℕ → ℂ) : ∀ (rs : List ℕ) (d : Dyn c.nh), rs.Nodup →
    (∀ r ∈ rs, HasIndexC c.omega (d.mats r) (n r)) → (solveAll exE c rs d).1 = .ok () ∧
      ∀ r ∈ rs, ((solveAll exE c rs d).2.attrs r).eig = some (fun _ => n r * c.omega, 1) ∧
        ((solveAll exE c rs d).2.attrs r).Qeps = some ((c.omega : ℂ) ^ 2 • 1) := by
  intro rs
  induction rs with
  | nil => intro d _ _; exact ⟨rfl, by simp⟩
  | cons r rs ih =>
    intro d hnd hr
    obtain ⟨hrn, hnd'⟩ := List.nodup_cons.mp hnd
    obtain ⟨h1, h2⟩ := HasIndexC.step (hr r (by simp)) h (d.attrs (d.mats r).original)
    rw [solveAll_cons, solveLayer_eq, h1]
    dsimp only
    obtain ⟨h3, h4⟩ := ih (d.setAttr r (stepOut exE c (d.mats r) (d.attrs (d.mats r).original)).2) hnd'
      fun s hs => hr s (by simp [hs])
    refine ⟨h3, fun s hs => ?_⟩
    rcases List.mem_cons.mp hs with rfl | hs
    · obtain ⟨A, eA, hA⟩ := solveAll_frame (E := exE) (c := c) rs
        (d.setAttr s (stepOut exE c (d.mats s) (d.attrs (d.mats s).original)).2)
      rw [eA]
      dsimp only
      rw [hA s hrn, setAttr_same]
      exact h2 _
    · exact h4 s hs

/-- The modes of the solved stack. -/
theorem exModesC (h : NormalSim c w) {mats : ℕ → LayerSpec} {A0 A1 : ℕ → LayerAttr c.nh} {res}
    (hs : SolveSpec exE c mats A0 A1 res) (n : ℕ → ℂ) (hnd : c.stack.Nodup)
    (hr : ∀ r ∈ c.stack, HasIndexC c.omega (mats r) (n r)) : res = .ok () ∧
      stackModes c mats A1 = c.stack.map fun r => scal c.omega (n r) (mats r).thickness := by
  have hrun := hs.run (Dyn.fresh mats A0) rfl (.inl rfl)
  obtain ⟨h1, h2⟩ := exSolveAllC h n c.stack (Dyn.fresh mats A0) hnd hr
  rw [hrun] at h1 h2
  refine ⟨h1, ?_⟩
  unfold stackModes
  refine List.map_congr_left fun r hr => ?_
  obtain ⟨h3, h4⟩ := h2 r hr
  have h3 : (A1 r).eig = some (fun _ => n r * c.omega, 1) := h3
  have h4 : (A1 r).Qeps = some ((c.omega : ℂ) ^ 2 • 1) := h4
  unfold modesD scal
  rw [h3, h4]
  rfl

theorem exSolveAll (h : NormalSim c w) (n : ℕ → ℝ) (rs : List ℕ) (d : Dyn c.nh) (hnd : rs.Nodup)
    (hr : ∀ r ∈ rs, 0 < n r ∧ HasIndex (d.mats r) (n r)) : (solveAll exE c rs d).1 = .ok () ∧
      ∀ r ∈ rs, ((solveAll exE c rs d).2.attrs r).eig = some (fun _ => (n r : ℂ) * c.omega, 1) ∧
        ((solveAll exE c rs d).2.attrs r).Qeps = some ((c.omega : ℂ) ^ 2 • 1) :=
  exSolveAllC h (fun r => n r) rs d hnd fun r h' => (hr r h').2.toC (hr r h').1 h

theorem exModes (h : NormalSim c w) {mats : ℕ → LayerSpec} {A0 A1 : ℕ → LayerAttr c.nh} {res}
    (hs : SolveSpec exE c mats A0 A1 res) (n : ℕ → ℝ) (hnd : c.stack.Nodup)
    (hr : ∀ r ∈ c.stack, 0 < n r ∧ HasIndex (mats r) (n r)) : res = .ok () ∧
      stackModes c mats A1 = c.stack.map fun r => scal c.omega (n r) (mats r).thickness :=
  exModesC h hs (fun r => n r) hnd fun r h' => (hr r h').2.toC (hr r h').1 h

end Nannos.Examples
