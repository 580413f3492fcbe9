import Verif.Proofs.EmbeddedSim
import Verif.Proofs.MovedLayers
import Verif.Spec.Supercell

/-! Media of layers whose pattern is repeated in a larger cell. -/

namespace Nannos

open Matrix Spec

/-- Sums over a repeated pattern. -/
theorem tiled_sum {n N : ℕ} [NeZero n] [NeZero N] (F : Fin N → ℂ) (a : ℤ) :
    (∀ b : ℤ, a = n * b → ∑ x : Fin (n * N), F x.modNat * chi (n * N) (-a) (x : ℕ) = n * ∑ x : Fin N, F x * chi N (-b) (x : ℕ)) ∧
    (¬ (n : ℤ) ∣ a → ∑ x : Fin (n * N), F x.modNat * chi (n * N) (-a) (x : ℕ) = 0) := by
  have hn : (n : ℂ) ≠ 0 := by exact_mod_cast NeZero.ne n
  have hN : (N : ℂ) ≠ 0 := by exact_mod_cast NeZero.ne N
  have key : ∑ x : Fin (n * N), F x.modNat * chi (n * N) (-a) (x : ℕ) =
      (∑ p : Fin n, chi n (-a) (p : ℕ)) * ∑ x : Fin N, F x * chi (n * N) (-a) (x : ℕ) := by
    rw [← finProdFinEquiv.sum_comp, Fintype.sum_prod_type, Finset.sum_mul]
    refine Finset.sum_congr rfl fun p _ => ?_
    rw [Finset.mul_sum]
    refine Finset.sum_congr rfl fun x _ => ?_
    have e1 : (finProdFinEquiv (p, x)).modNat = x := by
      have := congrArg Prod.snd (finProdFinEquiv.symm_apply_apply (p, x))
      exact this
    have e2 : ((finProdFinEquiv (p, x) : Fin (n * N)) : ℕ) = (x : ℕ) + N * (p : ℕ) := rfl
    have e3 : chi (n * N) (-a) (N * (p : ℕ) : ℤ) = chi n (-a) (p : ℕ) := by
      unfold chi
      congr 2
      push_cast
      field_simp
    rw [e1, e2]
    push_cast
    rw [chi_add, e3]
    ring
  constructor
  · rintro b rfl
    rw [key, chi_sum, if_pos (by rw [dvd_neg]; exact Dvd.intro b rfl)]
    congr 1
    refine Finset.sum_congr rfl fun x _ => ?_
    congr 1
    unfold chi
    congr 2
    push_cast
    field_simp
  · intro h
    rw [key, chi_sum, if_neg (by rwa [dvd_neg]), zero_mul]

/-- Fourier coefficients of a repeated pattern. -/
theorem coeff_tiled {n1 n2 Nx Ny : ℕ} [NeZero n1] [NeZero n2] [NeZero Nx] [NeZero Ny] {w : Grid Nx Ny}
    {w' : Grid (n1 * Nx) (n2 * Ny)} (h : ∀ x y, w' x y = w x.modNat y.modNat) :
    (∀ a b : ℤ, coeff w' (n1 * a) (n2 * b) = coeff w a b) ∧
    ∀ a b : ℤ, ¬ ((n1 : ℤ) ∣ a ∧ (n2 : ℤ) ∣ b) → coeff w' a b = 0 := by
  have hn1 : (n1 : ℂ) ≠ 0 := by exact_mod_cast NeZero.ne n1
  have hn2 : (n2 : ℂ) ≠ 0 := by exact_mod_cast NeZero.ne n2
  have e : ∀ a b : ℤ, ∑ x : Fin (n1 * Nx), ∑ y : Fin (n2 * Ny), w' x y * (chi (n1 * Nx) (-a) (x : ℕ) * chi (n2 * Ny) (-b) (y : ℕ)) =
      ∑ x : Fin (n1 * Nx), (∑ y : Fin (n2 * Ny), w x.modNat y.modNat * chi (n2 * Ny) (-b) (y : ℕ)) * chi (n1 * Nx) (-a) (x : ℕ) := by
    intro a b
    refine Finset.sum_congr rfl fun x _ => ?_
    rw [Finset.sum_mul]
    refine Finset.sum_congr rfl fun y _ => ?_
    rw [h]; ring
  constructor
  · intro a b
    rw [coeff_eq, coeff_eq, e]
    rw [Finset.sum_congr rfl fun x _ => by rw [(tiled_sum (w (Fin.modNat x)) (n2 * b)).1 b rfl]]
    rw [(tiled_sum (fun x => (n2 : ℂ) * ∑ y : Fin Ny, w x y * chi Ny (-b) (y : ℕ)) (n1 * a)).1 a rfl]
    have e2 : ∑ x : Fin Nx, ((n2 : ℂ) * ∑ y : Fin Ny, w x y * chi Ny (-b) (y : ℕ)) * chi Nx (-a) (x : ℕ) =
        n2 * ∑ x : Fin Nx, ∑ y : Fin Ny, w x y * (chi Nx (-a) (x : ℕ) * chi Ny (-b) (y : ℕ)) := by
      rw [Finset.mul_sum]
      refine Finset.sum_congr rfl fun x _ => ?_
      rw [mul_assoc, Finset.sum_mul]
      congr 1
      refine Finset.sum_congr rfl fun y _ => ?_
      ring
    rw [e2]
    push_cast
    have : (Nx : ℂ) ≠ 0 := by exact_mod_cast NeZero.ne Nx
    have : (Ny : ℂ) ≠ 0 := by exact_mod_cast NeZero.ne Ny
    field_simp
  · intro a b hab
    rw [coeff_eq, e]
    by_cases hb : (n2 : ℤ) ∣ b
    · obtain ⟨b, rfl⟩ := hb
      rw [Finset.sum_congr rfl fun x _ => by rw [(tiled_sum (w (Fin.modNat x)) (n2 * b)).1 b rfl]]
      rw [(tiled_sum (fun x => (n2 : ℂ) * ∑ y : Fin Ny, w x y * chi Ny (-b) (y : ℕ)) a).2
        (fun h => hab ⟨h, Dvd.intro b rfl⟩)]
      simp
    · rw [Finset.sum_congr rfl fun x _ => by rw [(tiled_sum (w (Fin.modNat x)) b).2 hb]]
      simp

variable {E E' : Ext} {c c' : Static}

/-- Orders of a simulation among those of the simulation of a larger cell, as seen by patterns with `M` pixels along the
second direction. -/
structure Nested (c c' : Static) (σ : Fin c.nh → Fin c'.nh) (n1 n2 M : ℕ) : Prop where
  inj : Function.Injective σ
  get : ∀ i, c'.harmonics.get (σ i) = (n1 * (c.harmonics.get i).1, n2 * (c.harmonics.get i).2)
  out : ∀ i', (∀ i, i' ≠ σ i) → ∀ j, (n1 : ℤ) ∣ (c'.harmonics.get i').1 - (c'.harmonics.get (σ j)).1 →
    (n2 : ℤ) ∣ (c'.harmonics.get i').2 - (c'.harmonics.get (σ j)).2 →
    (M : ℤ) ≤ |(c'.harmonics.get i').2 - (c'.harmonics.get (σ j)).2|

variable {σ : Fin c.nh → Fin c'.nh} {n1 n2 : ℕ}

/-- Convolution matrices of a repeated pattern. -/
theorem toep_tiled {u u' : PGrid} (hσ : Nested c c' σ n1 n2 u'.Ny) (h : GridTiled n1 n2 u u') {B B'}
    (hB : c.toep u = .ok B) (hB' : c'.toep u' = .ok B') : B' * embD σ = embD σ * B := by
  rcases Nat.eq_zero_or_pos c.nh with h0 | hpos
  · ext i j
    exact absurd j.2 (by omega)
  obtain ⟨Nx, Ny, w, w', rfl, rfl, hw⟩ := h
  unfold Static.toep at hB hB'
  dsimp only at hB hB' hσ
  have i0 : Fin c.nh := ⟨0, hpos⟩
  obtain ⟨m1, m2⟩ := toep_pos hB i0
  obtain ⟨m1', m2'⟩ := toep_pos hB' (σ i0)
  have : NeZero Nx := ⟨m1⟩
  have : NeZero Ny := ⟨m2⟩
  have : NeZero (n1 * Nx) := ⟨m1'⟩
  have : NeZero (n2 * Ny) := ⟨m2'⟩
  have : NeZero n1 := ⟨left_ne_zero_of_mul m1'⟩
  have : NeZero n2 := ⟨left_ne_zero_of_mul m2'⟩
  obtain ⟨-, rfl⟩ := toeplitz_ok hB
  obtain ⟨hrange, rfl⟩ := toeplitz_ok hB'
  obtain ⟨k1, k2⟩ := coeff_tiled (w := w) (w' := w') (fun x y => hw _ _ x y rfl rfl)
  rw [embD_comm hσ.inj]
  constructor
  · intro i j
    simp only [of_apply]
    change coeff w' ((c'.harmonics.get (σ i)).1 - (c'.harmonics.get (σ j)).1)
      ((c'.harmonics.get (σ i)).2 - (c'.harmonics.get (σ j)).2) = _
    rw [hσ.get i, hσ.get j]
    dsimp only
    rw [← mul_sub, ← mul_sub, k1]
  · intro i' hi j
    simp only [of_apply]
    refine k2 _ _ ?_
    rintro ⟨d1, d2⟩
    have := hσ.out i' hi j d1 d2
    obtain ⟨-, -, r1, r2⟩ := hrange i' (σ j)
    obtain ⟨-, -, r3, r4⟩ := hrange (σ j) i'
    change _ ≤ |(c'.harmonics.get i').2 - (c'.harmonics.get (σ j)).2| at this
    have e : |(c'.harmonics.get i').2 - (c'.harmonics.get (σ j)).2| < ((n2 * Ny : ℕ) : ℤ) := by
      rw [abs_lt]
      simp only [List.get_eq_getElem] at *
      constructor <;> omega
    omega

theorem gridTiled_recip {u u' v v' : PGrid} (h : GridTiled n1 n2 u u') (hv : recipGrid u = .ok v) (hv' : recipGrid u' = .ok v') :
    GridTiled n1 n2 v v' ∧ v'.Ny = u'.Ny := by
  obtain ⟨Nx, Ny, w, w', rfl, rfl, hw⟩ := h
  unfold recipGrid at hv hv'
  split at hv
  · simp at hv
  split at hv'
  · simp at hv'
  simp only [Except.ok.injEq] at hv hv'
  subst hv hv'
  exact ⟨⟨Nx, Ny, _, _, rfl, rfl, fun x y x' y' h1 h2 => by rw [hw x y x' y' h1 h2]⟩, rfl⟩

theorem nuIso_tiled {u u' : PGrid} (hσ : Nested c c' σ n1 n2 u'.Ny) (h : GridTiled n1 n2 u u') {A A'}
    (hA : nuHatInvIso c u = .ok A) (hA' : nuHatInvIso c' u' = .ok A') : A' * embD σ = embD σ * A := by
  unfold nuHatInvIso at hA hA'
  simp only [bind_eq_ok] at hA hA'
  obtain ⟨v, a1, B, a2, a3⟩ := hA
  obtain ⟨v', a1', B', a2', a3'⟩ := hA'
  rw [linInv_ok] at a3 a3'
  rw [a3.2, a3'.2]
  obtain ⟨r1, r2⟩ := gridTiled_recip h a1 a1'
  exact embD_inv (toep_tiled (r2 ▸ hσ) r1 a2 a2') a3'.1 a3.1

/-- A repeated transverse tensor. -/
def TensorTiled (n1 n2 M : ℕ) (p p' : Trans4 PGrid) : Prop :=
  ∃ (Nx Ny : ℕ) (a b c d : Grid Nx Ny) (a' b' c' d' : Grid (n1 * Nx) (n2 * Ny)), M = n2 * Ny ∧
    p = ⟨⟨Nx, Ny, a⟩, ⟨Nx, Ny, b⟩, ⟨Nx, Ny, c⟩, ⟨Nx, Ny, d⟩⟩ ∧
    p' = ⟨⟨n1 * Nx, n2 * Ny, a'⟩, ⟨n1 * Nx, n2 * Ny, b'⟩, ⟨n1 * Nx, n2 * Ny, c'⟩, ⟨n1 * Nx, n2 * Ny, d'⟩⟩ ∧
    ∀ (x : Fin Nx) (y : Fin Ny) (x' : Fin (n1 * Nx)) (y' : Fin (n2 * Ny)), (x : ℕ) = (x' : ℕ) % Nx →
      (y : ℕ) = (y' : ℕ) % Ny → a' x' y' = a x y ∧ b' x' y' = b x y ∧ c' x' y' = c x y ∧ d' x' y' = d x y

theorem TensorTiled.block {M : ℕ} (hσ : Nested c c' σ n1 n2 M) {p p' : Trans4 PGrid} (h : TensorTiled n1 n2 M p p') {B B'}
    (hB : p.mapM c.toep = .ok B) (hB' : p'.mapM c'.toep = .ok B') : B'.block * embU σ = embU σ * B.block := by
  obtain ⟨b1, b2, b3, b4⟩ := trans4_mapM_ok hB
  obtain ⟨b1', b2', b3', b4'⟩ := trans4_mapM_ok hB'
  obtain ⟨Nx, Ny, x1, x2, x3, x4, y1, y2, y3, y4, rfl, rfl, rfl, hh⟩ := h
  unfold Trans4.block
  refine embU_blocks ?_ ?_ ?_ ?_
  · exact toep_tiled hσ ⟨Nx, Ny, _, _, rfl, rfl, fun x y x' y' e1 e2 => (hh x y x' y' e1 e2).1⟩ b1 b1'
  · exact toep_tiled hσ ⟨Nx, Ny, _, _, rfl, rfl, fun x y x' y' e1 e2 => (hh x y x' y' e1 e2).2.1⟩ b2 b2'
  · exact toep_tiled hσ ⟨Nx, Ny, _, _, rfl, rfl, fun x y x' y' e1 e2 => (hh x y x' y' e1 e2).2.2.1⟩ b3 b3'
  · exact toep_tiled hσ ⟨Nx, Ny, _, _, rfl, rfl, fun x y x' y' e1 e2 => (hh x y x' y' e1 e2).2.2.2⟩ b4 b4'

theorem TensorTiled.inv {M : ℕ} {p p' q q' : Trans4 PGrid} (h : TensorTiled n1 n2 M p p')
    (hsq : p.xx.Nx = p.xx.Ny ∧ p'.xx.Nx = p'.xx.Ny)
    (hq : pointwiseInv p.xx p.xy p.yx p.yy = .ok q) (hq' : pointwiseInv p'.xx p'.xy p'.yx p'.yy = .ok q') :
    TensorTiled n1 n2 M q q' := by
  obtain ⟨N, M, a, b, c, d, a', b', c', d', rfl, rfl, rfl, hh⟩ := h
  obtain ⟨s1, s2⟩ := hsq
  dsimp only at hq hq' s1 s2
  rw [pointwiseInv_same, if_pos s1] at hq
  rw [pointwiseInv_same, if_pos s2] at hq'
  obtain ⟨-, rfl⟩ := inv4_ok hq
  obtain ⟨-, rfl⟩ := inv4_ok hq'
  refine ⟨N, M, _, _, _, _, _, _, _, _, rfl, rfl, rfl, fun x y x' y' e1 e2 => ?_⟩
  obtain ⟨h1, h2, h3, h4⟩ := hh x y x' y' e1 e2
  rw [h1, h2, h3, h4]
  exact ⟨rfl, rfl, rfl, rfl⟩

theorem embU_inv {M' : Matrix (Idx c'.nh) (Idx c'.nh) ℂ} {M : Matrix (Idx c.nh) (Idx c.nh) ℂ}
    (h : M' * embU σ = embU σ * M) (hM' : M'.det ≠ 0) (hM : M.det ≠ 0) : M'⁻¹ * embU σ = embU σ * M⁻¹ := by
  have e := congrArg (fun X => M'⁻¹ * X * M⁻¹) h
  rw [← Matrix.mul_assoc, nonsing_inv_mul _ (det_unit hM'), Matrix.one_mul, Matrix.mul_assoc M'⁻¹, Matrix.mul_assoc (embU σ),
    mul_nonsing_inv _ (det_unit hM), Matrix.mul_one] at e
  exact e.symm

theorem nuAniso_tiled {M : ℕ} (hσ : Nested c c' σ n1 n2 M) {p p' : Trans4 PGrid} (h : TensorTiled n1 n2 M p p')
    (hsq : p.xx.Nx = p.xx.Ny ∧ p'.xx.Nx = p'.xx.Ny) {B B'}
    (hB : nuHatInvAniso c p = .ok B) (hB' : nuHatInvAniso c' p' = .ok B') : B' * embU σ = embU σ * B := by
  unfold nuHatInvAniso at hB hB'
  simp only [bind_eq_ok] at hB hB'
  obtain ⟨q, a1, C, a2, a3⟩ := hB
  obtain ⟨q', a1', C', a2', a3'⟩ := hB'
  rw [linInv_ok] at a3 a3'
  rw [a3.2, a3'.2]
  exact embU_inv ((h.inv hsq a1 a1').block hσ a2 a2') a3'.1 a3.1

theorem getPeps_tiled {t t' : Field2} (hσ : Nested c c' σ n1 n2 t'.Ny) (ht : VectorsTiled n1 n2 t t') {P N X P' N' X'}
    (hP : P' * embU σ = embU σ * P) (hN : N' * embU σ = embU σ * N)
    (h : getPeps c P N t = .ok X) (h' : getPeps c' P' N' t' = .ok X') : X' * embU σ = embU σ * X := by
  unfold getPeps at h h'
  simp only [bind_eq_ok] at h h'
  obtain ⟨Pxx, h1, Pyy, h2, Pxy, h3, Pyx, h4, h5⟩ := h
  obtain ⟨Pxx', h1', Pyy', h2', Pxy', h3', Pyx', h4', h5'⟩ := h'
  simp only [except_pure_eq_ok, Except.ok.injEq] at h5 h5'
  subst h5 h5'
  obtain ⟨Nx, Ny, a, b, a', b', rfl, rfl, hab⟩ := ht
  have key : ∀ (f : ℂ → ℂ → ℂ),
      GridTiled n1 n2 (projField ⟨Nx, Ny, a, b⟩ f) (projField ⟨n1 * Nx, n2 * Ny, a', b'⟩ f) := by
    intro f
    refine ⟨Nx, Ny, _, _, rfl, rfl, fun x y x' y' e1 e2 => ?_⟩
    dsimp only
    rw [(hab x y x' y' e1 e2).1, (hab x y x' y' e1 e2).2]
  have q1 := toep_tiled hσ (key _) h1 h1'
  have q2 := toep_tiled hσ (key _) h2 h2'
  have q3 := toep_tiled hσ (key _) h3 h3'
  have q4 := toep_tiled hσ (key _) h4 h4'
  have hPi := embU_blocks q2 q4 q3 q1
  rw [Matrix.sub_mul, Matrix.mul_sub, hP, Matrix.mul_assoc, hPi, ← Matrix.mul_assoc, ← Matrix.mul_assoc, Matrix.sub_mul,
    hP, hN, Matrix.mul_sub]

theorem jones_tiled {t t' J J' : Field2} (h : VectorsTiled n1 n2 t t') (hJ : jonesField t = .ok J)
    (hJ' : jonesField t' = .ok J') : VectorsTiled n1 n2 J J' ∧ J'.Ny = t'.Ny := by
  obtain ⟨Nx, Ny, a, b, a', b', rfl, rfl, hab⟩ := h
  unfold jonesField at hJ hJ'
  split at hJ
  · simp at hJ
  split at hJ'
  · simp at hJ'
  simp only [Except.ok.injEq] at hJ hJ'
  subst hJ hJ'
  refine ⟨⟨Nx, Ny, _, _, _, _, rfl, rfl, fun x y x' y' e1 e2 => ?_⟩, rfl⟩
  obtain ⟨h1, h2⟩ := hab x y x' y' e1 e2
  rw [h1, h2]
  exact ⟨rfl, rfl⟩

/-- The operators of a layer and of the layer with repeated pattern. -/
theorem peps_tiled {L L' : LayerSpec} (h : PatternTiled n1 n2 L L') (hσ : ∀ M, (∀ i, L'.epsilon.shape[i]? = some M →
      i + 1 = L'.epsilon.shape.length → Nested c c' σ n1 n2 M))
    (hmu : L.mu = 1)
    (hsq : c.formulation = "original" ∨ ∀ Nx Ny, (L.epsilon.shape = [3, 3, Nx, Ny] ∨ L'.epsilon.shape = [3, 3, Nx, Ny]) → Nx = Ny)
    (hform : (c.formulation = "original" ∧ c'.formulation = "original") ∨
      (c'.formulation = c.formulation ∧ c'.lattice.is1D = c.lattice.is1D ∧ ∀ M, Nested c c' σ n1 n2 M))
    (htan : ¬ (c.formulation = "original" ∨ (c.formulation = "tangent" ∧ c.lattice.is1D = true)) →
      ∀ u u' H H' n n' nrm t t', c.lattice.getHarmonics E.argsort c.nh true = .ok (H, n) →
        c'.lattice.getHarmonics E'.argsort c'.nh true = .ok (H', n') → patternOf L = .ok u → patternOf L' = .ok u' →
        GridTiled n1 n2 u u' → getTangentField E L u H nrm = .ok t → getTangentField E' L' u' H' nrm = .ok t' → VectorsTiled n1 n2 t t')
    {M p Q M' p' Q'} (hb : buildPure E c L = .ok (.patterned M p Q)) (hb' : buildPure E' c' L' = .ok (.patterned M' p' Q')) :
    p'.Peps * embU σ = embU σ * p.Peps ∧ p'.epsHat * embD σ = embD σ * p.epsHat := by
  have hmu' : L'.mu = 1 := by rw [h.same]; exact hmu
  obtain ⟨b1, b2, b3, b4, b5, b6, b7, u, para, ph, Ht, n, c1, c2, c3, c4, c5, c6⟩ := buildPure_patterned_ok hmu hb
  obtain ⟨b1', b2', b3', b4', b5', b6', b7', u', para', ph', Ht', n', c1', c2', c3', c4', c5', c6'⟩ :=
    buildPure_patterned_ok hmu' hb'
  have main : GridTiled n1 n2 u u' ∧ Nested c c' σ n1 n2 u'.Ny ∧ ∃ nb nb' : Except PyErr (Matrix (Idx _) (Idx _) ℂ),
      nb = (match para with
        | some p => nuHatInvAniso c p
        | none => do
          let n ← nuHatInvIso c u
          pure (diag2 n)) ∧
      nb' = (match para' with
        | some p => nuHatInvAniso c' p
        | none => do
          let n ← nuHatInvIso c' u'
          pure (diag2 n)) ∧
      (c.formulation ≠ "original" → ∀ N N', nb = .ok N → nb' = .ok N' → N' * embU σ = embU σ * N) ∧ ph' * embU σ = embU σ * ph ∧
      (para = none ↔ para' = none) := by
    rcases h.pattern b1 with ⟨Nx, Ny, s1, s2, hw⟩ | ⟨Nx, Ny, s1, s2, hw⟩
    · have ha : L.isAnisotropic = false := by
        by_contra hcon
        have hu := b1
        unfold LayerSpec.isUniform isUniform at hu
        unfold LayerSpec.isAnisotropic at hcon
        rw [Bool.not_eq_false] at hcon
        rw [if_pos hcon, s1] at hu
        unfold isAnisotropic at hcon
        rw [s1] at hcon
        simp at hcon
        simp [hcon] at hu
      have ha' : L'.isAnisotropic = false := by
        by_contra hcon
        have hu := b1'
        unfold LayerSpec.isUniform isUniform at hu
        unfold LayerSpec.isAnisotropic at hcon
        rw [Bool.not_eq_false] at hcon
        rw [if_pos hcon, s2] at hu
        unfold isAnisotropic at hcon
        rw [s2] at hcon
        simp at hcon
        simp [hcon] at hu
      rw [ha] at c1
      rw [ha'] at c1'
      simp only [Bool.false_eq_true, if_false] at c1 c1'
      obtain ⟨Nx1, Ny1, e1, rfl⟩ := toGrid_data c1
      obtain ⟨Nx', Ny', e1', rfl⟩ := toGrid_data c1'
      rw [s1] at e1
      rw [s2] at e1'
      simp only [List.cons.injEq, and_true] at e1 e1'
      obtain ⟨rfl, rfl⟩ := e1
      obtain ⟨rfl, rfl⟩ := e1'
      have hu : GridTiled n1 n2 ⟨Nx, Ny, fun x y => L.epsilon.data [x, y]⟩
          ⟨n1 * Nx, n2 * Ny, fun x y => L'.epsilon.data [x, y]⟩ :=
        ⟨Nx, Ny, _, _, rfl, rfl, fun x y x' y' e1 e2 => by rw [hw x' x'.2 y' y'.2, e1, e2]⟩
      have hne : Nested c c' σ n1 n2 (n2 * Ny) := hσ _ 1 (by rw [s2]; rfl) (by rw [s2]; rfl)
      have he := toep_tiled hne hu c2 c2'
      refine ⟨hu, hne, _, _, rfl, rfl, ?_⟩
      unfold paraOf at c3 c3'
      rw [ha] at c3
      rw [ha'] at c3'
      simp only [Bool.false_eq_true, if_false, except_pure_eq_ok, Except.ok.injEq] at c3 c3'
      subst c3 c3'
      unfold epsParaHatOf at c4 c4'
      simp only [except_pure_eq_ok, Except.ok.injEq] at c4 c4'
      subst c4 c4'
      refine ⟨fun _ N N' hN hN' => ?_, embU_diag2 he, by simp⟩
      simp only [bind_eq_ok, except_pure_eq_ok, Except.ok.injEq] at hN hN'
      obtain ⟨w, z1, rfl⟩ := hN
      obtain ⟨w', z1', rfl⟩ := hN'
      exact embU_diag2 (nuIso_tiled hne hu z1 z1')
    · have ha : L.isAnisotropic = true := by
        unfold LayerSpec.isAnisotropic isAnisotropic
        rw [s1]; rfl
      have ha' : L'.isAnisotropic = true := by
        unfold LayerSpec.isAnisotropic isAnisotropic
        rw [s2]; rfl
      have hN : ∀ {L2 : LayerSpec} {A B : ℕ}, L2.isAnisotropic = true → L2.epsilon.shape = [3, 3, A, B] → ∀ {i j : ℕ} {u : PGrid},
          (L2.epsilon.comp i j).toGrid = .ok u → u = ⟨A, B, fun x y => L2.epsilon.data [i, j, x, y]⟩ := by
        intro L2 A B ha2 hs2 i j u hu2
        obtain ⟨A1, B1, f1, rfl⟩ := aniso_shape ha2 hu2
        rw [hs2] at f1
        simp only [List.cons.injEq, and_true, true_and] at f1
        obtain ⟨rfl, rfl⟩ := f1
        rfl
      rw [ha] at c1
      rw [ha'] at c1'
      simp only [if_true] at c1 c1'
      obtain rfl := hN ha s1 c1
      obtain rfl := hN ha' s2 c1'
      have hne : Nested c c' σ n1 n2 (n2 * Ny) := hσ _ 3 (by rw [s2]; rfl) (by rw [s2]; rfl)
      refine ⟨⟨Nx, Ny, _, _, rfl, rfl, fun x y x' y' e1 e2 => by
        rw [hw x' x'.2 y' y'.2 2 (by norm_num) 2 (by norm_num), e1, e2]⟩, hne, _, _, rfl, rfl, ?_⟩
      unfold paraOf at c3 c3'
      rw [ha] at c3
      rw [ha'] at c3'
      simp only [if_true, bind_eq_ok, except_pure_eq_ok, Except.ok.injEq] at c3 c3'
      obtain ⟨q, q1, rfl⟩ := c3
      obtain ⟨q', q1', rfl⟩ := c3'
      unfold Trans4.mapM at q1 q1'
      simp only [bind_eq_ok, except_pure_eq_ok, Except.ok.injEq] at q1 q1'
      obtain ⟨a1, k1, a2, k2, a3, k3, a4, k4, rfl⟩ := q1
      obtain ⟨a1', k1', a2', k2', a3', k3', a4', k4', rfl⟩ := q1'
      unfold NdArr.trans at k1 k2 k3 k4 k1' k2' k3' k4'
      dsimp only at k1 k2 k3 k4 k1' k2' k3' k4'
      obtain rfl := hN ha s1 k1
      obtain rfl := hN ha s1 k2
      obtain rfl := hN ha s1 k3
      obtain rfl := hN ha s1 k4
      obtain rfl := hN ha' s2 k1'
      obtain rfl := hN ha' s2 k2'
      obtain rfl := hN ha' s2 k3'
      obtain rfl := hN ha' s2 k4'
      have ht : TensorTiled n1 n2 (n2 * Ny) ⟨⟨Nx, Ny, fun x y => L.epsilon.data [0, 0, x, y]⟩, ⟨Nx, Ny, fun x y => L.epsilon.data [0, 1, x, y]⟩,
          ⟨Nx, Ny, fun x y => L.epsilon.data [1, 0, x, y]⟩, ⟨Nx, Ny, fun x y => L.epsilon.data [1, 1, x, y]⟩⟩
          ⟨⟨n1 * Nx, n2 * Ny, fun x y => L'.epsilon.data [0, 0, x, y]⟩, ⟨n1 * Nx, n2 * Ny, fun x y => L'.epsilon.data [0, 1, x, y]⟩,
          ⟨n1 * Nx, n2 * Ny, fun x y => L'.epsilon.data [1, 0, x, y]⟩, ⟨n1 * Nx, n2 * Ny, fun x y => L'.epsilon.data [1, 1, x, y]⟩⟩ := by
        refine ⟨Nx, Ny, _, _, _, _, _, _, _, _, rfl, rfl, rfl, fun x y x' y' e1 e2 => ?_⟩
        have := hw x' x'.2 y' y'.2
        refine ⟨?_, ?_, ?_, ?_⟩ <;> rw [this _ (by norm_num) _ (by norm_num), e1, e2]
      unfold epsParaHatOf at c4 c4'
      simp only [bind_eq_ok, except_pure_eq_ok, Except.ok.injEq] at c4 c4'
      obtain ⟨B, l1, rfl⟩ := c4
      obtain ⟨B', l1', rfl⟩ := c4'
      exact ⟨fun ho N N' hN hN' => nuAniso_tiled hne ht ⟨hsq.resolve_left ho _ _ (.inl s1), hsq.resolve_left ho _ _ (.inr s2)⟩ hN hN', ht.block hne l1 l1', by simp⟩
  obtain ⟨hu, hne, nb, nb', hnb, hnb', hnu, hph, hpara⟩ := main
  have he := toep_tiled hne hu c2 c2'
  refine ⟨?_, he⟩
  unfold pepsOf at c6 c6'
  dsimp only at c6 c6'
  by_cases f1 : c.formulation = "original"
  · have f1' : c'.formulation = "original" := by
      rcases hform with h | h
      · exact h.2
      · rw [h.1, f1]
    rw [if_pos f1] at c6
    rw [if_pos f1'] at c6'
    simp only [except_pure_eq_ok, Except.ok.injEq] at c6 c6'
    rw [← c6, ← c6']
    exact hph
  obtain ⟨hform, h1D, hne⟩ := hform.resolve_left (fun h => f1 h.1)
  rw [hform, h1D] at c6'
  rw [if_neg f1] at c6 c6'
  by_cases f2 : c.formulation = "tangent"
  · rw [if_pos f2] at c6 c6'
    by_cases f3 : c.lattice.is1D = true
    · rw [if_pos f3] at c6 c6'
      rcases para with _ | q
      · have hp' := hpara.mp rfl
        subst hp'
        simp only [bind_eq_ok, except_pure_eq_ok, Except.ok.injEq] at c6 c6'
        obtain ⟨w, z1, z2⟩ := c6
        obtain ⟨w', z1', z2'⟩ := c6'
        rw [← z2, ← z2']
        exact embU_blocks he (by simp) (by simp) (nuIso_tiled (hne _) hu z1 z1')
      · simp only [bind_eq_ok] at c6
        obtain ⟨_, -, hh⟩ := c6
        simp at hh
    · rw [if_neg f3] at c6 c6'
      simp only [bind_eq_ok] at c6 c6'
      obtain ⟨t, z1, N, z2, z3⟩ := c6
      obtain ⟨t', z1', N', z2', z3'⟩ := c6'
      have ht := htan (by rintro (hh | hh); exacts [f1 hh, f3 hh.2]) u u' Ht Ht' _ _ true t t' c5 c5' c1 c1' hu z1 z1'
      exact getPeps_tiled (hne _) ht hph (hnu f1 _ _ (hnb.trans z2) (hnb'.trans z2')) z3 z3'
  rw [if_neg f2] at c6 c6'
  have hno : ¬ (c.formulation = "original" ∨ (c.formulation = "tangent" ∧ c.lattice.is1D = true)) := by
    rintro (hh | hh)
    exacts [f1 hh, f2 hh.1]
  by_cases f3 : c.formulation = "jones"
  · rw [if_pos f3] at c6 c6'
    simp only [bind_eq_ok] at c6 c6'
    obtain ⟨t, z1, J, z2, N, z3, z4⟩ := c6
    obtain ⟨t', z1', J', z2', N', z3', z4'⟩ := c6'
    have ht := htan hno u u' Ht Ht' _ _ false t t' c5 c5' c1 c1' hu z1 z1'
    exact getPeps_tiled (hne _) (jones_tiled ht z2 z2').1 hph (hnu f1 _ _ (hnb.trans z3) (hnb'.trans z3')) z4 z4'
  · rw [if_neg f3] at c6 c6'
    simp only [bind_eq_ok] at c6 c6'
    obtain ⟨t, z1, N, z2, z3⟩ := c6
    obtain ⟨t', z1', N', z2', z3'⟩ := c6'
    have ht := htan hno u u' Ht Ht' _ _ false t t' c5 c5' c1 c1' hu z1 z1'
    exact getPeps_tiled (hne _) ht hph (hnu f1 _ _ (hnb.trans z2) (hnb'.trans z2')) z3 z3'

/-- Media of the two simulations. -/
theorem medium_tiled {mats mats' : ℕ → LayerSpec} {stack : List ℕ} (n2 : ℕ → ℕ)
    (h : ∀ r ∈ stack, PatternTiled n1 (n2 r) (mats r) (mats' r)) (hmu : ∀ r ∈ stack, (mats r).mu = 1)
    (hsq : SquareTensors c.formulation mats stack ∧ SquareTensors c.formulation mats' stack)
    (hw : WellPlaced mats stack) (hinj : Function.Injective σ)
    (hσ : ∀ r ∈ stack, ∀ M, (∀ i, (mats' r).epsilon.shape[i]? = some M →
      i + 1 = (mats' r).epsilon.shape.length → Nested c c' σ n1 (n2 r) M))
    (hform : (c.formulation = "original" ∧ c'.formulation = "original") ∨
      (c'.formulation = c.formulation ∧ c'.lattice.is1D = c.lattice.is1D ∧ ∀ r ∈ stack, ∀ M, Nested c c' σ n1 (n2 r) M))
    (htan : ¬ (c.formulation = "original" ∨ (c.formulation = "tangent" ∧ c.lattice.is1D = true)) → ∀ r ∈ stack,
      ∀ u u' H H' n n' nrm t t', c.lattice.getHarmonics E.argsort c.nh true = .ok (H, n) →
        c'.lattice.getHarmonics E'.argsort c'.nh true = .ok (H', n') → patternOf (mats r) = .ok u →
        patternOf (mats' r) = .ok u' → GridTiled n1 (n2 r) u u' → getTangentField E (mats r) u H nrm = .ok t → getTangentField E' (mats' r) u' H' nrm = .ok t' →
        VectorsTiled n1 (n2 r) t t')
    {r : ℕ} {P e} (hm : Medium E c mats r P e) : r ∈ stack → ∀ P' e', Medium E' c' mats' r P' e' →
      P' * embU σ = embU σ * P ∧ e' * embD σ = embD σ * e := by
  have hcp : ∀ r ∈ stack, (mats' r).iscopy = (mats r).iscopy := fun r hr => by rw [(h r hr).same]
  induction hm with
  | uniform r hc hu ha =>
    intro hr P' e' hm'
    cases hm' with
    | uniform _ =>
      rw [(h r hr).uniform hu]
      constructor <;> simp
    | patterned _ M p Q _ hb =>
      have := buildPure_patterned hb
      rw [(h r hr).unif, hu] at this
      simp at this
    | copy _ _ _ hc' => rw [hcp r hr, hc] at hc'; simp at hc'
  | patterned r M p Q hc hb =>
    intro hr P' e' hm'
    cases hm' with
    | uniform _ _ hu' =>
      rw [(h r hr).unif, buildPure_patterned hb] at hu'
      simp at hu'
    | patterned _ M' p' Q' _ hb' =>
      exact peps_tiled (h r hr) (hσ r hr) (hmu r hr)
        (by
          rcases hsq.1 with k | k
          · exact .inl k
          · rcases hsq.2 with k' | k'
            · exact .inl k'
            · exact .inr fun Nx Ny h => h.elim (k r hr Nx Ny) (k' r hr Nx Ny))
        (hform.imp id fun hh => ⟨hh.1, hh.2.1, hh.2.2 r hr⟩) (fun hh => htan hh r hr) hb hb'
    | copy _ _ _ hc' => rw [hcp r hr, hc] at hc'; simp at hc'
  | copy r P e hc ho ih =>
    intro hr P' e' hm'
    obtain ⟨k, hk⟩ := List.mem_iff_getElem?.mp hr
    obtain ⟨⟨j, -, hj⟩, -⟩ := hw k r hk hc
    cases hm' with
    | uniform _ hc' => rw [hcp r hr, hc] at hc'; simp at hc'
    | patterned _ M' p' Q' hc' => rw [hcp r hr, hc] at hc'; simp at hc'
    | copy _ _ _ _ ho' =>
      rw [show (mats' r).original = (mats r).original by rw [(h r hr).same]] at ho'
      exact ih (List.mem_of_getElem? hj) _ _ ho'

end Nannos
