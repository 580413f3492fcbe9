import Verif.Proofs.EmbeddedInit
import Verif.Props.UnitCell

/-! Properties C81 (supercells) and C82 (a lamellar grating on a lattice with two periods). -/

namespace Nannos

open Matrix Spec

/-- The lattice vectors of a supercell. -/
theorem reciprocal_supercell {n1 n2 : ℕ} {l l' : Lattice} (h : Supercell n1 n2 l l') {r r'} (hr : l.reciprocal = .ok r)
    (hr' : l'.reciprocal = .ok r') (g : ℤ × ℤ) :
    r' 0 0 * (supercellOrder n1 n2 g).1 + r' 0 1 * (supercellOrder n1 n2 g).2 = r 0 0 * g.1 + r 0 1 * g.2 ∧
    r' 1 0 * (supercellOrder n1 n2 g).1 + r' 1 1 * (supercellOrder n1 n2 g).2 = r 1 0 * g.1 + r 1 1 * g.2 := by
  have hc : CellChanged !![(n1 : ℤ), 0; 0, (n2 : ℤ)] 1 l l' := by
    intro k
    ext i
    fin_cases k
    · simpa [Fin.sum_univ_two] using h.1 i
    · simpa [Fin.sum_univ_two] using h.2 i
  have := reciprocal_cell (by simp) hc hr hr' g
  simpa [changedOrder, supercellOrder] using this

theorem planeWave_nonzero {wl : ℝ} {angles : ℝ × ℝ × ℝ} {exc : PlaneWave} (h : planeWave wl angles = .ok exc) :
    exc.wavelength ≠ 0 := by
  obtain ⟨h1, h2, -⟩ := planeWave_ok h
  rw [h2]
  exact h1

section supercell
variable {E E' : Ext} {n1 n2 : ℕ} {lats lats' : ℕ → Lattice} {mats mats' : ℕ → LayerSpec} {stack : List ℕ} {wl : ℝ}
  {angles : ℝ × ℝ × ℝ} {exc : PlaneWave} {nh nh' : ℤ} {form : String} {c c' : Static}

/-- **C81**. One structure described with a cell and with `n1` times `n2` cells taken together, the retained orders which
belong to the smaller cell being the same: each of these orders has the same efficiencies and fields in the two
simulations, and everything vanishes in the other orders of the larger cell. All formulations; those which ask a generator
for tangent vectors need a generator which repeats its vectors along with the pattern, or layers which were given their
tangent vectors, and square arrays of tensors. -/
theorem C81_supercell (hE : EigContract E) (hE' : EigContract E') (hn1 : n1 ≠ 0) (hn2 : n2 ≠ 0)
    (hexc : planeWave wl angles = .ok exc) (hinit : simInit E lats mats stack exc nh form = .ok c)
    (hinit' : simInit E' lats' mats' stack exc nh' form = .ok c')
    (hlat : Supercell n1 n2 c.lattice c'.lattice) (h1D : c'.lattice.is1D = c.lattice.is1D)
    (hord : ∀ g, supercellOrder n1 n2 g ∈ c'.harmonics ↔ g ∈ c.harmonics)
    (hnd : c.harmonics.Nodup) (hnd' : c'.harmonics.Nodup) (hzero : ((0 : ℤ), (0 : ℤ)) ∈ c.harmonics)
    (hm : ∀ r ∈ stack, PatternTiled n1 n2 (mats r) (mats' r)) (ht : ∀ r ∈ stack, TangentsTiled n1 n2 (mats r) (mats' r))
    (hgen : UsesGenerator form c.lattice.is1D mats stack → GeneratorTiles n1 n2 E E' mats mats' stack)
    (hsq : SquareTensors form mats stack) (hsq' : SquareTensors form mats' stack)
    (hw : WellPlaced mats stack) (hw' : WellPlaced mats' stack) (hmu : ∀ r ∈ stack, (mats r).mu = 1)
    (hist : List (Call c.nh)) (hist' : List (Call c'.nh)) :
    (∀ orders X X',
      (diffractionEfficiencies E c orders (afterCalls E c hist (Dyn.fresh mats (unsolved c.nh)))).1 = .ok X →
      (diffractionEfficiencies E' c' orders (afterCalls E' c' hist' (Dyn.fresh mats' (unsolved c'.nh)))).1 = .ok X' →
      EfficienciesAmong (supercellOrder n1 n2) c c' X X') ∧
    ∀ layer zs Fs Fs',
      (getFieldFourier E c layer zs (afterCalls E c hist (Dyn.fresh mats (unsolved c.nh)))).1 = .ok Fs →
      (getFieldFourier E' c' layer zs (afterCalls E' c' hist' (Dyn.fresh mats' (unsolved c'.nh)))).1 = .ok Fs' →
      List.Forall₂ (FieldsAmong (supercellOrder n1 n2) c c') Fs Fs' := by
  have hmu' : ∀ r ∈ stack, (mats' r).mu = 1 := fun r hr => by rw [(hm r hr).same]; exact hmu r hr
  have hf : Function.Injective (supercellOrder n1 n2) := by
    intro a b hab
    simp only [supercellOrder, Prod.mk.injEq] at hab
    have h1 : (n1 : ℤ) ≠ 0 := by exact_mod_cast hn1
    have h2 : (n2 : ℤ) ≠ 0 := by exact_mod_cast hn2
    exact Prod.ext (mul_left_cancel₀ h1 hab.1) (mul_left_cancel₀ h2 hab.2)
  refine InitWithin.results ⟨hinit, hinit', hE, hE', hw, hw', hmu, hmu', hnd, hnd', hzero, by simp [supercellOrder],
    fun _ _ _ _ h => hf h, fun g hg => (hord g).mpr hg, (planeWave_nonzero hexc),
    fun r r' hr hr' g _ => reciprocal_supercell hlat hr hr' g, ?_, ?_, fun r hr => (hm r hr).unif, ?_, ?_⟩ hist hist'
  · intro r hr; rw [(hm r hr).same]
  · intro r hr; rw [(hm r hr).same]
  · intro r hr hu; rw [(hm r hr).uniform hu]
  · intro σ hinj hσ r hr P e P' e' hM hM'
    have hN : ∀ M, Nested c c' σ n1 n2 M := by
      intro M
      refine ⟨hinj, hσ, fun i' hi' j h1 h2 => ?_⟩
      rw [hσ j] at h1 h2
      have d1 : (n1 : ℤ) ∣ (c'.harmonics.get i').1 := (Int.dvd_iff_dvd_of_dvd_sub h1).mpr (Dvd.intro _ rfl)
      have d2 : (n2 : ℤ) ∣ (c'.harmonics.get i').2 := (Int.dvd_iff_dvd_of_dvd_sub h2).mpr (Dvd.intro _ rfl)
      obtain ⟨a, ha⟩ := d1
      obtain ⟨b, hb⟩ := d2
      have hg : c'.harmonics.get i' = supercellOrder n1 n2 (a, b) := Prod.ext ha hb
      have hmem : (a, b) ∈ c.harmonics := (hord _).mp (hg ▸ List.get_mem c'.harmonics i')
      obtain ⟨i, hi⟩ := List.mem_iff_get.mp hmem
      refine absurd ?_ (hi' i)
      exact (List.nodup_iff_injective_get.mp hnd') (by rw [hσ i, hi, hg])
    have hfm := (simInit_ok hinit).form_eq
    refine medium_tiled (fun _ => n2) hm hmu (by rw [hfm]; exact ⟨hsq, hsq'⟩) hw hinj (fun _ _ M _ _ _ => hN M)
      (.inr ⟨(simInit_ok hinit').form_eq.trans hfm.symm, h1D, fun _ _ M => hN M⟩) ?_ hM hr P' e' hM'
    rw [hfm]
    intro hno r hr u u' H H' _ _ nrm t t' _ _ hu hu' htile h1 h2
    unfold getTangentField at h1 h2
    rcases ht r hr with ⟨n, n'⟩ | ⟨s, s', q, q', hv⟩
    · rw [n] at h1
      rw [n'] at h2
      have hty : (mats' r).tangentFieldType = (mats r).tangentFieldType := by rw [(hm r hr).same]
      rw [hty] at h2
      dsimp only at h1 h2
      split at h1
      · rename_i hc
        rw [if_pos hc] at h2
        push Not at hno
        exact hgen ⟨hno.1, by tauto, r, hr, n⟩ r hr n _ _ _ _ _ _ _ hu hu' htile h1 h2
      · simp at h1
    · rw [q] at h1
      rw [q'] at h2
      simp only [Except.ok.injEq] at h1 h2
      subst h1 h2
      exact hv

end supercell

section gratings
variable {E E' : Ext} {n : ℕ} {lats lats' : ℕ → Lattice} {mats mats' : ℕ → LayerSpec} {stack : List ℕ} {wl : ℝ}
  {angles : ℝ × ℝ × ℝ} {nh : ℤ} {form : String}

/-- The orders of a grating. -/
theorem grating_orders (hA : ArgsortContract E.argsort) (hlat : ∀ k, (lats k).truncation = .oneD ∧ (lats k).harmonicsArray = none)
    {exc c} (hc : simInit E lats mats stack exc nh form = .ok c) :
    c.harmonics.Nodup ∧ ∀ g, g ∈ c.harmonics ↔
      g.2 = 0 ∧ |g.1| ≤ max 0 ((effectiveNh nh (stack.all fun r => (mats r).isUniform) - 1) / 2) := by
  obtain ⟨r0, tl, hs⟩ := List.exists_cons_of_ne_nil (simInit_ok hc).ne
  have hl := (simInit_ok hc).lat_eq r0 (by rw [hs]; rfl)
  obtain ⟨k, hk⟩ := (simInit_ok hc).harm
  rw [hl] at hk
  obtain ⟨H, n', h1, h2, h3, -⟩ := C05_mono_periodic_truncation E.argsort hA (lats (mats r0).lattice) (hlat _).1 (hlat _).2
    (effectiveNh nh (stack.all fun r => (mats r).isUniform)) true
  have := hk.symm.trans h1
  simp only [Except.ok.injEq, Prod.mk.injEq] at this
  rw [this.1]
  exact ⟨h3, h2⟩

/-- Multiplying the number of harmonics along with the period keeps the orders. -/
theorem grating_range {n : ℕ} (hn : n ≠ 0) {nh : ℤ} (hnh : 1 ≤ nh) (b : Bool) (a : ℤ) :
    |n * a| ≤ max 0 ((effectiveNh (n * (nh - 1) + 1) b - 1) / 2) ↔ |a| ≤ max 0 ((effectiveNh nh b - 1) / 2) := by
  have hn' : (1 : ℤ) ≤ n := by exact_mod_cast Nat.one_le_iff_ne_zero.mpr hn
  rw [abs_mul, abs_of_nonneg (show (0 : ℤ) ≤ n by omega)]
  have ha := abs_nonneg a
  generalize |a| = x at ha ⊢
  have e : ∀ b k : ℤ, 1 ≤ k → max 0 ((effectiveNh k true - 1) / 2) = 0 ∧ max 0 ((effectiveNh k false - 1) / 2) = (k - 1) / 2 := by
    intro b k hk
    unfold effectiveNh
    simp only [true_and, reduceCtorEq, false_and, if_false]
    constructor
    · split_ifs <;> omega
    · split_ifs <;> omega
  have h1 : 1 ≤ n * (nh - 1) + 1 := by nlinarith
  cases b
  · rw [(e 0 _ h1).2, (e 0 _ hnh).2, add_sub_cancel_right]
    constructor
    · intro h
      by_contra hcon
      have h2 : nh - 1 + 1 ≤ 2 * x := by omega
      have h3 : 2 * (n * x) ≤ n * (nh - 1) := by omega
      nlinarith
    · intro h
      have h2 : 2 * x ≤ nh - 1 := by omega
      have h3 : n * (2 * x) ≤ n * (nh - 1) := by nlinarith
      have h4 : 2 * (n * x) ≤ n * (nh - 1) := by linarith
      omega
  · rw [(e 0 _ h1).1, (e 0 _ hnh).1]
    constructor
    · intro h; nlinarith
    · intro h
      have : x = 0 := le_antisymm h ha
      rw [this, mul_zero]

/-- **C81**, for gratings: a grating described with `n` periods, and with correspondingly more harmonics, has the
efficiencies of the grating described with one period in every `n`-th order, and diffracts nothing into the others. -/
theorem C81_gratings (hE : EigContract E) (hE' : EigContract E') (hA : ArgsortContract E.argsort)
    (hA' : ArgsortContract E'.argsort) (hn : n ≠ 0) (hnh : 1 ≤ nh)
    (hfm : form = "original" ∨ form = "tangent")
    (hlat : ∀ k, (lats k).truncation = .oneD ∧ (lats k).harmonicsArray = none)
    (hlat' : ∀ k, (lats' k).truncation = .oneD ∧ (lats' k).harmonicsArray = none)
    (h1D : ∀ k, (lats k).is1D = true ∧ (lats' k).is1D = true) (hcell : ∀ k, Supercell n 1 (lats k) (lats' k))
    (hm : ∀ r ∈ stack, PatternTiled n 1 (mats r) (mats' r)) (ht : ∀ r ∈ stack, TangentsTiled n 1 (mats r) (mats' r))
    (hsq : SquareTensors form mats stack) (hsq' : SquareTensors form mats' stack)
    (hw : WellPlaced mats stack) (hw' : WellPlaced mats' stack) (hmu : ∀ r ∈ stack, (mats r).mu = 1)
    {a b : ℤ} {R T R' T' : ℝ} (h : OrderEfficiencies E lats mats stack wl angles nh form (a, 0) R T)
    (h' : OrderEfficiencies E' lats' mats' stack wl angles (n * (nh - 1) + 1) form (b, 0) R' T') :
    (b = n * a → R' = R ∧ T' = T) ∧ (¬ (n : ℤ) ∣ b → R' = 0 ∧ T' = 0) := by
  obtain ⟨exc, c, he, hc, hist, Rs, Ts, i, hr, hi, rfl, rfl⟩ := h
  obtain ⟨exc', c', he', hc', hist', Rs', Ts', i', hr', hi', rfl, rfl⟩ := h'
  obtain rfl := Except.ok.inj (he.symm.trans he')
  have hu : (stack.all fun r => (mats' r).isUniform) = stack.all fun r => (mats r).isUniform := by
    rw [Bool.eq_iff_iff]
    simp only [List.all_eq_true]
    exact forall₂_congr fun r hr => by rw [(hm r hr).unif]
  obtain ⟨nd, o⟩ := grating_orders hA hlat hc
  obtain ⟨nd', o'⟩ := grating_orders hA' hlat' hc'
  rw [hu] at o'
  obtain ⟨r0, tl, hs⟩ := List.exists_cons_of_ne_nil (simInit_ok hc).ne
  have hr0 : r0 ∈ stack := by rw [hs]; simp
  have hl := (simInit_ok hc).lat_eq r0 (by rw [hs]; rfl)
  have hl' := (simInit_ok hc').lat_eq r0 (by rw [hs]; rfl)
  have hla : (mats' r0).lattice = (mats r0).lattice := by rw [(hm r0 hr0).same]
  rw [hla] at hl'
  have key := (C81_supercell hE hE' hn one_ne_zero he hc hc' (by rw [hl, hl']; exact hcell _)
    (by rw [hl, hl', (h1D _).1, (h1D _).2]) (fun g => by
      rw [o, o']
      simp only [supercellOrder]
      rw [grating_range hn hnh]
      simp) nd nd' ((o _).mpr ⟨rfl, by simp⟩) hm ht (fun ⟨g1, g2, _⟩ => by
        rw [hl, (h1D _).1] at g2
        rcases hfm with rfl | rfl
        · exact absurd rfl g1
        · exact absurd ⟨rfl, rfl⟩ g2) hsq hsq' hw hw' hmu hist hist').1 true _ _ hr hr'
  refine ⟨fun hb => key.1 i i' (by rw [hi, hi', hb]; simp [supercellOrder]), fun hb => key.2 i' fun g _ hcon => hb ?_⟩
  rw [hi'] at hcon
  exact ⟨g.1, congrArg Prod.fst hcon⟩

end gratings

section lamellar
variable {E E' : Ext} {lats lats' : ℕ → Lattice} {mats mats' : ℕ → LayerSpec} {stack : List ℕ} {wl : ℝ}
  {angles : ℝ × ℝ × ℝ} {exc : PlaneWave} {nh nh' : ℤ} {c c' : Static}

theorem reciprocal_period {l l' : Lattice} (h : SamePeriod l l') {r r'} (hr : l.reciprocal = .ok r)
    (hr' : l'.reciprocal = .ok r') : r' 0 0 = r 0 0 ∧ r' 1 0 = r 1 0 := by
  have D := reciprocal_dual hr
  have D' := reciprocal_dual hr'
  have hdet := (reciprocal_ok.mp hr').1
  rw [Lattice.matrix, det_transpose, det_fin_two] at hdet
  simp only [of_apply] at hdet
  obtain ⟨h1, b, h2⟩ := h
  have a00 := D 0 0
  have a01 := D 0 1
  have b00 := D' 0 0
  have b01 := D' 0 1
  simp only [Fin.sum_univ_two, if_true, show ((0 : Fin 2) = 1) = False from by simp, if_false] at a00 a01 b00 b01
  have key : ∀ p q : ℝ, p * l'.basis 0 0 + q * l'.basis 0 1 = 0 → p * l'.basis 1 0 + q * l'.basis 1 1 = 0 → p = 0 ∧ q = 0 := by
    intro p q h1 h2
    constructor
    · refine (mul_eq_zero.mp (?_ : p * (l'.basis 0 0 * l'.basis 1 1 - l'.basis 0 1 * l'.basis 1 0) = 0)).resolve_right hdet
      linear_combination l'.basis 1 1 * h1 - l'.basis 0 1 * h2
    · refine (mul_eq_zero.mp (?_ : q * (l'.basis 0 0 * l'.basis 1 1 - l'.basis 0 1 * l'.basis 1 0) = 0)).resolve_right hdet
      linear_combination l'.basis 0 0 * h2 - l'.basis 1 0 * h1
  obtain ⟨k1, k2⟩ := key (r' 0 0 - r 0 0) (r' 1 0 - r 1 0) (by rw [h1, h1] at b00 ⊢; linear_combination b00 - a00)
    (by rw [h2, h2] at b01 ⊢; linear_combination b01 - b * a01)
  exact ⟨sub_eq_zero.mp k1, sub_eq_zero.mp k2⟩

theorem lamellar_tiled {L L' : LayerSpec} (h : Lamellar L L') :
    PatternTiled 1 (L'.epsilon.shape.getLastD 1) L L' := by
  refine ⟨h.same, h.unif, h.uniform, fun hu => ?_⟩
  rcases h.pattern hu with ⟨Nx, Ny, s1, s2, s3⟩ | ⟨Nx, Ny, s1, s2, s3⟩
  · refine .inl ⟨Nx, 1, s1, by simp [s2], fun x hx y hy => ?_⟩
    rw [one_mul] at hx
    rw [Nat.mod_one, Nat.mod_eq_of_lt hx]
    exact s3 x hx y (by simpa [s2] using hy)
  · refine .inr ⟨Nx, 1, s1, by simp [s2], fun x hx y hy => ?_⟩
    rw [one_mul] at hx
    rw [Nat.mod_one, Nat.mod_eq_of_lt hx]
    exact s3 x hx y (by simpa [s2] using hy)

/-- **C82**. A lamellar grating simulated on a lattice with one period, and on a lattice which has a second period, of any
length, along the grooves, the retained orders with second number zero being the same: these orders have the same
efficiencies and fields in the two simulations, and everything vanishes in the other orders (formulation `original`). -/
theorem C82_lamellar (hE : EigContract E) (hE' : EigContract E')
    (hexc : planeWave wl angles = .ok exc) (hinit : simInit E lats mats stack exc nh "original" = .ok c)
    (hinit' : simInit E' lats' mats' stack exc nh' "original" = .ok c') (hlat : SamePeriod c.lattice c'.lattice)
    (hone : ∀ g ∈ c.harmonics, g.2 = 0) (hord : ∀ a, (a, 0) ∈ c'.harmonics ↔ (a, 0) ∈ c.harmonics)
    (hnd : c.harmonics.Nodup) (hnd' : c'.harmonics.Nodup) (hzero : ((0 : ℤ), (0 : ℤ)) ∈ c.harmonics)
    (hm : ∀ r ∈ stack, Lamellar (mats r) (mats' r))
    (hw : WellPlaced mats stack) (hw' : WellPlaced mats' stack) (hmu : ∀ r ∈ stack, (mats r).mu = 1)
    (hist : List (Call c.nh)) (hist' : List (Call c'.nh)) :
    (∀ orders X X',
      (diffractionEfficiencies E c orders (afterCalls E c hist (Dyn.fresh mats (unsolved c.nh)))).1 = .ok X →
      (diffractionEfficiencies E' c' orders (afterCalls E' c' hist' (Dyn.fresh mats' (unsolved c'.nh)))).1 = .ok X' →
      EfficienciesAmong id c c' X X') ∧
    ∀ layer zs Fs Fs',
      (getFieldFourier E c layer zs (afterCalls E c hist (Dyn.fresh mats (unsolved c.nh)))).1 = .ok Fs →
      (getFieldFourier E' c' layer zs (afterCalls E' c' hist' (Dyn.fresh mats' (unsolved c'.nh)))).1 = .ok Fs' →
      List.Forall₂ (FieldsAmong id c c') Fs Fs' := by
  have hmu' : ∀ r ∈ stack, (mats' r).mu = 1 := fun r hr => by rw [(hm r hr).same]; exact hmu r hr
  have hmem : ∀ g ∈ c.harmonics, g ∈ c'.harmonics := fun g hg => by
    have : g = (g.1, 0) := Prod.ext rfl (hone g hg)
    rw [this] at hg ⊢
    exact (hord _).mpr hg
  refine InitWithin.results ⟨hinit, hinit', hE, hE', hw, hw', hmu, hmu', hnd, hnd', hzero, rfl,
    fun _ _ _ _ h => h, hmem, planeWave_nonzero hexc,
    fun r r' hr hr' g hg => ?_, ?_, ?_, fun r hr => (hm r hr).unif, ?_, ?_⟩ hist hist'
  · obtain ⟨k1, k2⟩ := reciprocal_period hlat hr hr'
    simp [hone g hg, k1, k2]
  · intro r hr; rw [(hm r hr).same]
  · intro r hr; rw [(hm r hr).same]
  · intro r hr hu; rw [(hm r hr).uniform hu]
  · intro σ hinj hσ r hr P e P' e' hM hM'
    have f1 := (simInit_ok hinit).form_eq
    have f2 := (simInit_ok hinit').form_eq
    refine medium_tiled (n1 := 1) (fun r => (mats' r).epsilon.shape.getLastD 1) (fun r hr => lamellar_tiled (hm r hr)) hmu ⟨.inl f1, .inl f1⟩ hw hinj
      (fun r hr M k hk hk2 => ?_) (.inl ⟨f1, f2⟩) (fun hno => absurd (.inl f1) hno) hM hr P' e' hM'
    have hM : (mats' r).epsilon.shape.getLastD 1 = M := by
      rw [List.getLastD_eq_getLast?, List.getLast?_eq_getElem?, show (mats' r).epsilon.shape.length - 1 = k by omega, hk]
      rfl
    rw [hM]
    refine ⟨hinj, fun i => ?_, fun i' hi' j h1 h2 => ?_⟩
    · rw [hσ i]
      have := hone _ (List.get_mem c.harmonics i)
      rw [this, mul_zero, Nat.cast_one, one_mul]
      exact Prod.ext rfl this
    · rw [hσ j] at h2 ⊢
      change (M : ℤ) ∣ (c'.harmonics.get i').2 - (c.harmonics.get j).2 at h2
      change _ ≤ |(c'.harmonics.get i').2 - (c.harmonics.get j).2|
      refine Int.le_of_dvd ?_ ((dvd_abs _ _).mpr h2)
      rw [abs_pos]
      intro hcon
      rw [hone _ (List.get_mem c.harmonics j), sub_zero] at hcon
      have hg : c'.harmonics.get i' = ((c'.harmonics.get i').1, 0) := Prod.ext rfl hcon
      obtain ⟨i, hi⟩ := List.mem_iff_get.mp ((hord _).mp (hg ▸ List.get_mem c'.harmonics i'))
      exact hi' i ((List.nodup_iff_injective_get.mp hnd') (by rw [hσ i, hi]; exact hg))

end lamellar

namespace Examples

/-- Three orders of a square cell; the same orders, and one more, for two cells taken together. -/
noncomputable def single3 : Lattice := ⟨![![1, 0], ![0, 1]], false, .circular, (64, 64), some [(0, 0), (-1, 0), (0, 1)]⟩
noncomputable def double4 : Lattice := ⟨![![2, 0], ![0, 1]], false, .circular, (64, 64), some [(0, 0), (-2, 0), (0, 1), (1, 0)]⟩

/-- C81: a pattern on one cell, and repeated on two, with tangent vectors given to the patterned layer. -/
example (g : Grid 4 2) (t t' : Field2) (htt : VectorsTiled 2 1 t t') :
    let two : Grid 8 2 := fun x y => g (Fin.ofNat 4 x) y
    let M := fun r => { gridMats "fft" g r with tangentField := if r = 1 then some t else none }
    let M' := fun r => { gridMats "fft" two r with tangentField := if r = 1 then some t' else none }
    ∃ exc c c', planeWave 1 (60, 30, 45) = .ok exc ∧
    simInit exE (fun _ => single3) M [0, 1, 2] exc 3 "pol" = .ok c ∧
    simInit exE (fun _ => double4) M' [0, 1, 2] exc 4 "pol" = .ok c' ∧
    Supercell 2 1 c.lattice c'.lattice ∧ (∀ g, supercellOrder 2 1 g ∈ c'.harmonics ↔ g ∈ c.harmonics) ∧
    c.harmonics.Nodup ∧ c'.harmonics.Nodup ∧ ((0 : ℤ), (0 : ℤ)) ∈ c.harmonics ∧
    (∀ r ∈ [0, 1, 2], PatternTiled 2 1 (M r) (M' r)) ∧ (∀ r ∈ [0, 1, 2], TangentsTiled 2 1 (M r) (M' r)) ∧
    GeneratorTiles 2 1 exE exE M M' [0, 1, 2] := by
  intro two M M'
  obtain ⟨exc, h1⟩ := oblique 1 30 45 one_pos
  obtain ⟨c, hc, hp, hl⟩ := listed_init (E := exE) exSort_spec (l := single3) rfl rfl rfl
    (by simp [single3, Lattice.matrix, det_fin_two]) (by simp) (by simp) "fft" g exc 3 "pol" (by simp)
  obtain ⟨c', hc', hp', hl'⟩ := listed_init (E := exE) exSort_spec (l := double4) rfl rfl rfl
    (by simp [double4, Lattice.matrix, det_fin_two]) (by simp) (by simp) "fft" two exc 4 "pol" (by simp)
  refine ⟨exc, c, c', h1, ?_, ?_, ?_, ?_, hp.nodup_iff.mpr (by decide), hp'.nodup_iff.mpr (by decide),
    hp.mem_iff.mpr (by simp), ?_, ?_, ?_⟩
  · rw [← hc]; rfl
  · rw [← hc']; rfl
  · rw [hl, hl']
    constructor <;> intro i <;> fin_cases i <;> simp [single3, double4]
  · rintro ⟨a, b⟩
    rw [hp.mem_iff, hp'.mem_iff]
    simp only [supercellOrder, List.mem_cons, Prod.mk.injEq, List.not_mem_nil, or_false, Nat.cast_one, one_mul, Nat.cast_ofNat]
    omega
  · intro r hr
    simp only [List.mem_cons, List.not_mem_nil, or_false] at hr
    rcases hr with rfl | rfl | rfl
    · exact ⟨rfl, rfl, fun _ => rfl, fun h => (by cases h)⟩
    · refine ⟨rfl, rfl, fun h => (by cases h), fun _ => .inl ⟨4, 2, rfl, rfl, fun x hx y hy => ?_⟩⟩
      have q1 : x < 8 := hx
      have q2 : y < 2 := hy
      rw [Nat.mod_eq_of_lt q2]
      simp [M, M', gridMats, exLayer, NdArr.ofGrid, q1, q2, Nat.mod_lt, two]
      congr 1
    · exact ⟨rfl, rfl, fun _ => rfl, fun h => (by cases h)⟩
  · intro r hr
    simp only [List.mem_cons, List.not_mem_nil, or_false] at hr
    rcases hr with rfl | rfl | rfl
    · exact .inl ⟨rfl, rfl⟩
    · exact .inr ⟨t, t', rfl, rfl, htt⟩
    · exact .inl ⟨rfl, rfl⟩
  · intro r hr hn w w' H H' nrm s s' hw
    simp only [List.mem_cons, List.not_mem_nil, or_false] at hr
    rcases hr with rfl | rfl | rfl
    · simp [patternOf, M, gridMats, exLayer, NdArr.scalar, NdArr.toGrid, LayerSpec.isAnisotropic, isAnisotropic] at hw
    · cases hn
    · simp [patternOf, M, gridMats, exLayer, NdArr.scalar, NdArr.toGrid, LayerSpec.isAnisotropic, isAnisotropic] at hw

/-- A lattice with one period. -/
noncomputable def mono (a : ℝ) : Lattice := ⟨![![a, 0], ![0, 1]], true, .oneD, (64, 1), none⟩

theorem mono_init {E : Ext} (hA : ArgsortContract E.argsort) {a : ℝ} (ha : a ≠ 0) (ty : String) {N : ℕ} (g : Grid N 1)
    (exc : PlaneWave) {nh : ℤ} (h1 : 2 ≤ nh) (h2 : nh ≤ 15) {form : String} (hf : form = "original" ∨ form = "tangent") :
    ∃ c, simInit E (fun _ => mono a) (gridMats ty g) [0, 1, 2] exc nh form = .ok c ∧ c.lattice = mono a ∧
      c.harmonics.Nodup ∧ ∀ g, g ∈ c.harmonics ↔ g.2 = 0 ∧ |g.1| ≤ (nh - 1) / 2 := by
  have hu : ((0 :: [1, 2]).all fun r => (gridMats ty g r).isUniform) = false := by
    simp [gridMats, exLayer, LayerSpec.isUniform, NdArr.ofGrid, isUniform, isAnisotropic]
  have he : effectiveNh nh false = nh := by
    unfold effectiveNh
    simp
    omega
  obtain ⟨H, n, c1, c2, c3, -⟩ := C05_mono_periodic_truncation E.argsort hA (mono a) rfl rfl nh true
  have hmax : max 0 ((nh - 1) / 2) = (nh - 1) / 2 := by omega
  rw [hmax] at c2
  have hny : checkNyquist (mono a) H = .ok () := by
    refine checkNyquist_of ⟨(0, 0), (c2 _).mpr ⟨rfl, by simp; omega⟩⟩ (M := 7) (fun g hg => ?_) (by simp [mono]) (.inl rfl)
    obtain ⟨q1, q2⟩ := (c2 g).mp hg
    rw [abs_le] at q2
    omega
  have hdet : (mono a).matrix.det ≠ 0 := by simpa [mono, Lattice.matrix, det_fin_two] using ha
  obtain ⟨c, hc⟩ := simInit_exists (E := E) (lats := fun _ => mono a) (mats := gridMats ty g)
    (r0 := 0) (tl := [1, 2]) (exc := exc) (nh := nh) (form := form) (H := H) (n := n)
    (r := (2 * Real.pi) • (mono a).matrix⁻¹ᵀ)
    (by simp [gridMats, exLayer]) (fun r _ => by rw [(gridMats_cases ty g r).2.2.1, (gridMats_cases ty g 0).2.2.1])
    (by tauto) (fun _ => hf) (by rw [hu, he]; exact c1) hny ⟨rfl, rfl⟩
    (by simp [gridMats, exLayer, NdArr.scalar, NdArr.value]) (reciprocal_ok.mpr ⟨hdet, rfl⟩)
  have hi := simInit_ok hc
  have hl := hi.lat_eq 0 rfl
  have hH : c.harmonics = H := by
    obtain ⟨k, hk⟩ := hi.harm
    rw [hl, hu, he, c1] at hk
    simp only [Except.ok.injEq, Prod.mk.injEq] at hk
    exact hk.1.symm
  exact ⟨c, hc, hl, hH ▸ c3, hH ▸ c2⟩

theorem gridMats_tiled (ty : String) (n : ℕ) (g : Grid (N + 1) 1) (r : ℕ) :
    PatternTiled n 1 (gridMats ty g r) (gridMats ty (fun (x : Fin (n * (N + 1))) (y : Fin 1) => g (Fin.ofNat (N + 1) x) y) r) := by
  by_cases h1 : r = 1
  · subst h1
    refine ⟨rfl, ?_, fun h => ?_, fun _ => .inl ⟨N + 1, 1, rfl, by simp [gridMats, exLayer, NdArr.ofGrid], fun x hx y hy => ?_⟩⟩
    · simp [gridMats, exLayer, LayerSpec.isUniform, NdArr.ofGrid, isUniform, isAnisotropic]
    · simp [gridMats, exLayer, LayerSpec.isUniform, NdArr.ofGrid, isUniform, isAnisotropic] at h
    · have q2 : y = 0 := by omega
      subst q2
      simp [gridMats, exLayer, NdArr.ofGrid, hx]
      rw [dif_pos (Nat.le_of_lt_succ (Nat.mod_lt _ (Nat.succ_pos _)))]
      congr 1
  · have : ∀ {A B : ℕ} (g' : Grid A B), gridMats ty g' r =
      { exLayer (if r = 0 then "Superstrate" else "Substrate") 1 (NdArr.scalar 1) with tangentFieldType := ty } := by
      intro A B g'
      simp [gridMats, h1]
    rw [this, this]
    exact ⟨rfl, rfl, fun _ => rfl, fun h => (by cases h)⟩

/-- C81 for gratings: one period with three orders, `n` periods with `2 n + 1` orders. -/
example (n : ℕ) (hn : n = 1 ∨ n = 2 ∨ n = 3) (g : Grid (N + 1) 1) :
    let M' := gridMats "fft" (fun (x : Fin (n * (N + 1))) (y : Fin 1) => g (Fin.ofNat (N + 1) x) y)
    ∃ exc c c', planeWave 1 (60, 30, 45) = .ok exc ∧
      simInit exE (fun _ => mono 1) (gridMats "fft" g) [0, 1, 2] exc 3 "tangent" = .ok c ∧
      simInit exE (fun _ => mono n) M' [0, 1, 2] exc (n * (3 - 1) + 1) "tangent" = .ok c' ∧
      Supercell n 1 (mono 1) (mono n) ∧ (∀ r ∈ [0, 1, 2], PatternTiled n 1 (gridMats "fft" g r) (M' r)) ∧
      (∀ r ∈ [0, 1, 2], TangentsTiled n 1 (gridMats "fft" g r) (M' r)) ∧ c.nh = 3 := by
  intro M'
  obtain ⟨exc, h1⟩ := oblique 1 30 45 one_pos
  obtain ⟨c, hc, -, k1, k2⟩ := mono_init (E := exE) exSort_spec (a := 1) one_ne_zero "fft" g exc (nh := 3) (by norm_num) (by norm_num)
    (form := "tangent") (.inr rfl)
  have hn0 : (n : ℝ) ≠ 0 := by rcases hn with rfl | rfl | rfl <;> norm_num
  obtain ⟨c', hc', -⟩ := mono_init (E := exE) exSort_spec (a := n) hn0 "fft"
    (fun (x : Fin (n * (N + 1))) (y : Fin 1) => g (Fin.ofNat (N + 1) x) y) exc (nh := n * (3 - 1) + 1)
    (by rcases hn with rfl | rfl | rfl <;> norm_num) (by rcases hn with rfl | rfl | rfl <;> norm_num) (form := "tangent") (.inr rfl)
  refine ⟨exc, c, c', h1, hc, hc', ⟨fun i => ?_, fun i => ?_⟩, fun r _ => gridMats_tiled _ _ _ _, fun r _ =>
    .inl ⟨(gridMats_cases _ _ _).2.2.2, (gridMats_cases _ _ _).2.2.2⟩, ?_⟩
  · fin_cases i <;> simp [mono]
  · fin_cases i <;> simp [mono]
  · have hp : c.harmonics.Perm [(0, 0), (1, 0), (-1, 0)] := by
      rw [List.perm_ext_iff_of_nodup k1 (by decide)]
      rintro ⟨a, b⟩
      rw [k2, abs_le]
      simp only [List.mem_cons, Prod.mk.injEq, List.not_mem_nil, or_false]
      omega
    exact hp.length_eq

/-- Four orders on a lattice with two periods. -/
noncomputable def bi4 (b : ℝ) : Lattice := ⟨![![1, 0], ![0, b]], false, .circular, (64, 64), some [(0, 0), (-1, 0), (1, 0), (0, 1)]⟩

/-- C82: a lamellar grating, on a lattice with one period and on a lattice with two. -/
example (b : ℝ) (hb : b ≠ 0) (g : Fin 4 → ℂ) :
    let g1 : Grid 4 1 := fun x _ => g x
    let g2 : Grid 4 6 := fun x _ => g x
    ∃ exc c c', planeWave 1 (60, 30, 45) = .ok exc ∧
      simInit exE (fun _ => mono 1) (gridMats "fft" g1) [0, 1, 2] exc 3 "original" = .ok c ∧
      simInit exE (fun _ => bi4 b) (gridMats "fft" g2) [0, 1, 2] exc 4 "original" = .ok c' ∧
      SamePeriod c.lattice c'.lattice ∧ (∀ g ∈ c.harmonics, g.2 = 0) ∧ (∀ a, (a, 0) ∈ c'.harmonics ↔ (a, 0) ∈ c.harmonics) ∧
      c.harmonics.Nodup ∧ c'.harmonics.Nodup ∧ ((0 : ℤ), (0 : ℤ)) ∈ c.harmonics ∧
      ∀ r ∈ [0, 1, 2], Lamellar (gridMats "fft" g1 r) (gridMats "fft" g2 r) := by
  intro g1 g2
  obtain ⟨exc, h1⟩ := oblique 1 30 45 one_pos
  obtain ⟨c, hc, hl, k1, k2⟩ := mono_init (E := exE) exSort_spec (a := 1) one_ne_zero "fft" g1 exc (nh := 3) (by norm_num) (by norm_num)
    (form := "original") (.inl rfl)
  obtain ⟨c', hc', hp', hl'⟩ := listed_init (E := exE) exSort_spec (l := bi4 b) rfl rfl rfl
    (by simpa [bi4, Lattice.matrix, det_fin_two] using hb) (by simp) (by simp) "fft" g2 exc 4 "original" (.inl rfl)
  refine ⟨exc, c, c', h1, hc, hc', ?_, fun g hg => ((k2 g).mp hg).1, fun a => ?_, k1, hp'.nodup_iff.mpr (by decide),
    (k2 _).mpr (by simp), fun r hr => ?_⟩
  · rw [hl, hl']
    refine ⟨fun i => ?_, b, fun i => ?_⟩ <;> fin_cases i <;> simp [mono, bi4]
  · rw [k2, hp'.mem_iff, abs_le]
    simp only [List.mem_cons, Prod.mk.injEq, List.not_mem_nil, or_false, and_true, true_and, zero_ne_one, and_false]
    omega
  · simp only [List.mem_cons, List.not_mem_nil, or_false] at hr
    rcases hr with rfl | rfl | rfl
    · exact ⟨rfl, rfl, fun _ => rfl, fun h => (by cases h)⟩
    · refine ⟨rfl, rfl, fun h => (by cases h), fun _ => .inl ⟨4, 6, rfl, rfl, fun x hx y hy => ?_⟩⟩
      simp [gridMats, exLayer, NdArr.ofGrid, hx, hy, g1, g2]
    · exact ⟨rfl, rfl, fun _ => rfl, fun h => (by cases h)⟩

end Examples

end Nannos
