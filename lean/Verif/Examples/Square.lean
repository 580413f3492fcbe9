import Verif.Examples.Normal

/-! Simulations on a mono-periodic or on a square lattice with one harmonic, any formulation. -/

namespace Nannos.Examples

open Matrix Nannos Spec

/-- Unit square cell with 256 by 256 points or, with `b`, period 1 with 256 points; the specular order only. -/
def sqLat (b : Bool) : Lattice :=
  if b then ⟨![![1, 0], ![0, 1]], true, .oneD, (256, 1), some [(0, 0)]⟩
  else ⟨![![1, 0], ![0, 1]], false, .circular, (256, 256), some [(0, 0)]⟩

theorem sqLat_mk : mkLattice (.vectors ![![1, 0], ![0, 1]]) (.int 256) "circular" (some [(0, 0)]) = .ok (sqLat false) ∧
    mkLattice (.period 1) (.int 256) "circular" (some [(0, 0)]) = .ok (sqLat true) := ⟨rfl, rfl⟩

variable (b : Bool)

theorem sqHarm (n : ℤ) : (sqLat b).getHarmonics exSort n true = .ok ([(0, 0)], 1) := by
  unfold Lattice.getHarmonics
  have : (sqLat b).getHarmonics' exSort n = .ok ([(0, 0)], 1) := by cases b <;> rfl
  rw [this]
  simp only [except_bind_ok, if_true, except_pure_eq_ok, Except.ok.injEq, Prod.mk.injEq, and_true]
  exact List.perm_singleton.mp (argsort_gather_perm [((0 : ℤ), (0 : ℤ))] (fun g => (g.1 : ℝ)) (exSort_spec _))

theorem sqRecip : (sqLat b).reciprocal = .ok ((2 * Real.pi) • (1 : Matrix (Fin 2) (Fin 2) ℝ)) := by
  cases b <;> exact exRecip

/-- What is known of the constructed object. -/
structure SquareSim (b : Bool) (c : Static) (form : String) : Prop where
  harm : c.harmonics = [(0, 0)]
  kx : ∀ i, c.kx i = 0
  ky : ∀ i, c.ky i = 0
  omega : c.omega = 2 * Real.pi
  form : c.formulation = form
  lat : c.lattice = sqLat b

theorem sqInit (form : String) (hform : form = "original" ∨ form = "tangent" ∨ form = "jones" ∨ form = "pol")
    (hb : b = true → form = "original" ∨ form = "tangent")
    (mats : ℕ → LayerSpec) (r0 : ℕ) (tl : List ℕ) (n : ℝ) (hn : 0 < n)
    (hnames : ((r0 :: tl).map fun r => (mats r).name).Nodup)
    (hlat : ∀ r ∈ r0 :: tl, (mats r).lattice = 0) (hmu : (mats r0).mu = 1)
    (he : (mats r0).epsilon = NdArr.scalar ((n ^ 2 : ℝ) : ℂ)) :
    ∃ c, simInit exE (fun _ => sqLat b) mats (r0 :: tl) exExc 1 form = .ok c ∧ SquareSim b c form ∧ c.stack = r0 :: tl := by
  have hval : (mats r0).epsilon.value * (mats r0).mu = ((n ^ 2 : ℝ) : ℂ) := by
    rw [he, hmu, mul_one]; rfl
  have hu : (mats r0).isUniform = true ∧ (mats r0).isAnisotropic = false := by
    unfold LayerSpec.isUniform LayerSpec.isAnisotropic
    rw [he]; exact ⟨rfl, rfl⟩
  have hex : ∃ c, simInit exE (fun _ => sqLat b) mats (r0 :: tl) exExc 1 form = .ok c := by
    unfold simInit
    dsimp only
    rw [(unique_iff _).mpr hnames]
    have hall : ((r0 :: tl).all fun r => decide ((mats r).lattice = (mats r0).lattice)) = true := by
      simp only [List.all_eq_true, decide_eq_true_eq]
      intro r hr
      rw [hlat r hr, hlat r0 (by simp)]
    rw [hall]
    simp only [Bool.not_true, Bool.false_eq_true, if_false, hform, not_true]
    rw [if_neg (by
      rintro ⟨h1, h2⟩
      cases b with
      | true => exact h2 (hb rfl)
      | false => simp [sqLat] at h1), show exE.argsort = exSort from rfl, sqHarm b]
    simp only [except_bind_ok]
    have hny : checkNyquist (sqLat b) [(0, 0)] = .ok () := by
      unfold checkNyquist maxHarmonic
      cases b <;> simp [sqLat]
    rw [hny, raiseIf_ok (u := ()).mpr (by simp [hu]), raiseIf_ok (u := ()).mpr (by
      rw [hval]; exact_mod_cast pow_ne_zero 2 hn.ne'), sqRecip b]
    exact ⟨_, rfl⟩
  obtain ⟨c, hc⟩ := hex
  have hi := simInit_ok hc
  have hlatc : c.lattice = sqLat b := hi.lat_eq r0 rfl
  obtain ⟨-, -, -, hf, hk⟩ := hi.sup r0 rfl
  have hharm : c.harmonics = [(0, 0)] := by
    obtain ⟨k, hk⟩ := hi.harm
    rw [hlatc, show exE.argsort = exSort from rfl, sqHarm b] at hk
    simp only [Except.ok.injEq, Prod.mk.injEq] at hk
    exact hk.1.symm
  have hget : ∀ i, c.harmonics.get i = (0, 0) := by
    intro i
    have h0 := List.get_mem c.harmonics i
    have h1 : ∀ x ∈ c.harmonics, x = (0, 0) := by rw [hharm]; simp
    exact h1 _ h0
  obtain ⟨r, hr, hkx, hky⟩ := hi.recip
  refine ⟨c, hc, ⟨hharm, ?_, ?_, ?_, hi.form_eq, hlatc⟩, hi.stack_eq⟩
  · intro i; rw [hkx, hget, hk]; simp [kxOf, k0para, exExc]
  · intro i; rw [hky, hget, hk]; simp [kyOf, k0para, exExc]
  · rw [hi.omega_eq]; simp [exExc]

theorem sqGet {c : Static} {form : String} (h : SquareSim b c form) (i : Fin c.nh) : c.harmonics.get i = (0, 0) := by
  have h0 := List.get_mem c.harmonics i
  have h1 : ∀ x ∈ c.harmonics, x = (0, 0) := by rw [h.harm]; simp
  exact h1 _ h0

theorem sqSub {c : Static} {form : String} (h : SquareSim b c form) (i j : Fin c.nh) : i = j := by
  have h1 := i.isLt
  have h1' := j.isLt
  have h2 : c.nh = 1 := by unfold Static.nh; rw [h.harm]; rfl
  ext; omega

end Nannos.Examples
