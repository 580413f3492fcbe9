import Verif.Proofs.Full
import Verif.Props.Supercell

/-! C105: with as many orders as pixels all formulations agree. -/

namespace Nannos

open Matrix Spec

variable {E : Ext} {c : Static}

/-- **C105**. If the retained orders are as many as the pixels of the patterns, and no two of them are the same frequency on
the pixels, the formulation does not matter, whatever the vector fields: every call returns or raises exactly the same after every
history. -/
theorem C105_as_many_orders_as_pixels {lats mats stack exc nh form} (hinit : simInit E lats mats stack exc nh form = .ok c)
    (h : ∀ r ∈ stack, FullyResolved E c (mats r)) (form' : String)
    (hf : form' = "original" ∨ form' = "tangent" ∨ (c.lattice.is1D = false ∧ (form' = "jones" ∨ form' = "pol"))) :
    simInit E lats mats stack exc nh form' = .ok { c with formulation := form' } ∧
    ∀ (hist : List (Call c.nh)) (a : Call c.nh),
      Call.result E { c with formulation := form' } a
          (afterCalls E { c with formulation := form' } hist (Dyn.fresh mats (unsolved c.nh))) =
        a.result E c (afterCalls E c hist (Dyn.fresh mats (unsolved c.nh))) := by
  have hi := simInit_ok hinit
  refine ⟨simInit_reform hinit form' hf E.tangent, fun hist a => ?_⟩
  refine results_alike (t := E.tangent) (g := form') (fun r hr => ⟨rfl, rfl, rfl, rfl, rfl, ?_, fun _ => rfl⟩) hist a
  refine buildPure_full (by tauto) ?_ (h r (hi.stack_eq ▸ hr))
  rw [hi.form_eq]
  by_cases h1 : c.lattice.is1D = true
  · obtain ⟨r0, tl, hs⟩ := List.exists_cons_of_ne_nil hi.ne
    have := hi.form1 r0 (by rw [hs]; rfl) (by rw [← hi.lat_eq r0 (by rw [hs]; rfl)]; exact h1)
    tauto
  · exact .inr (.inr (by simpa using h1))

/-- Distinct orders closer than the number of pixels are distinct frequencies. -/
theorem distinct_frequencies {H : List (ℤ × ℤ)} {Nx Ny : ℕ} (hnd : H.Nodup)
    (hx : ∀ g ∈ H, ∀ k ∈ H, |g.1 - k.1| < Nx) (hy : ∀ g ∈ H, ∀ k ∈ H, |g.2 - k.2| < Ny) (i j : Fin H.length)
    (h1 : (Nx : ℤ) ∣ (H.get i).1 - (H.get j).1) (h2 : (Ny : ℤ) ∣ (H.get i).2 - (H.get j).2) : i = j := by
  have e1 := Int.eq_zero_of_abs_lt_dvd h1 (hx _ (List.get_mem _ _) _ (List.get_mem _ _))
  have e2 := Int.eq_zero_of_abs_lt_dvd h2 (hy _ (List.get_mem _ _) _ (List.get_mem _ _))
  exact hnd.get_inj_iff.mp (Prod.ext (by omega) (by omega))

/-- **C105**, gratings. A mono-periodic lattice whose patterns have an odd number of pixels, and a simulation with as many
harmonics as pixels: the `'original'` and `'tangent'` formulations return or raise exactly the same, after every history. -/
theorem C105_gratings (hA : ArgsortContract E.argsort) {lats mats stack exc form} (M : ℕ)
    (hinit : simInit E lats mats stack exc (2 * M + 1) form = .ok c)
    (hlat : ∀ k, (lats k).truncation = .oneD ∧ (lats k).harmonicsArray = none ∧ (lats k).is1D = true)
    (h : ∀ r ∈ stack, (mats r).isUniform = true ∨ ∃ g : Grid (2 * M + 1) 1, HasPixels (mats r) ⟨_, _, g⟩)
    (form' : String) (hf : form' = "original" ∨ form' = "tangent") :
    simInit E lats mats stack exc (2 * M + 1) form' = .ok { c with formulation := form' } ∧
    ∀ (hist : List (Call c.nh)) (a : Call c.nh),
      Call.result E { c with formulation := form' } a
          (afterCalls E { c with formulation := form' } hist (Dyn.fresh mats (unsolved c.nh))) =
        a.result E c (afterCalls E c hist (Dyn.fresh mats (unsolved c.nh))) := by
  refine C105_as_many_orders_as_pixels hinit (fun r hr => ?_) form' (by tauto)
  rcases h r hr with hu | ⟨g, hg⟩
  · exact .inl hu
  refine .inr (.inl ⟨_, hg, ?_, ?_⟩)
  · have hall : (stack.all fun r => (mats r).isUniform) = false := by
      rw [List.all_eq_false]
      exact ⟨r, hr, by rw [hg.1]; simp⟩
    have hi := simInit_ok hinit
    obtain ⟨r0, tl, hs⟩ := List.exists_cons_of_ne_nil hi.ne
    have hl := hi.lat_eq r0 (by rw [hs]; rfl)
    obtain ⟨k, hk⟩ := hi.harm
    rw [hl, hall] at hk
    obtain ⟨H, n', h1, h2, h3, h4, h5, -⟩ := C05_mono_periodic_truncation E.argsort hA (lats (mats r0).lattice) (hlat _).1
      (hlat _).2.1 (effectiveNh (2 * M + 1) false) true
    have := hk.symm.trans h1
    simp only [Except.ok.injEq, Prod.mk.injEq] at this
    rw [← this.1] at h2 h3 h4
    have hm : max 0 ((effectiveNh (2 * M + 1) false - 1) / 2) = M := by
      simp only [effectiveNh, Bool.false_eq_true, false_and, if_false]
      split_ifs <;> omega
    rw [hm] at h2 h5
    refine ⟨by simp, by simp, ?_, distinct_frequencies h3 (fun g hg k hk => ?_) (fun g hg k hk => ?_)⟩
    · have : (c.nh : ℤ) = 2 * M + 1 := h4.symm.trans h5
      simp only [mul_one]
      omega
    · have a1 := abs_le.mp ((h2 g).mp hg).2
      have a2 := abs_le.mp ((h2 k).mp hk).2
      rw [abs_lt]
      push_cast
      omega
    · rw [((h2 g).mp hg).1, ((h2 k).mp hk).1]
      simp
  · obtain ⟨r0, tl, hs⟩ := List.exists_cons_of_ne_nil (simInit_ok hinit).ne
    rw [(simInit_ok hinit).lat_eq r0 (by rw [hs]; rfl)]
    exact .inl (hlat _).2.2

/-- **C105**, crossed gratings. A bi-periodic lattice with the parallelogrammic truncation whose patterns have `N × N`
pixels, `N` odd, and a simulation with `N²` harmonics: all four formulations return or raise exactly the same, after every
history, whatever the real vector fields on the pixels. -/
theorem C105_crossed_gratings (hA : ArgsortContract E.argsort) {lats mats stack exc form} (M : ℕ)
    (hinit : simInit E lats mats stack exc ((2 * M + 1) ^ 2) form = .ok c)
    (hlat : ∀ k, (lats k).truncation = .parallelogrammic ∧ (lats k).harmonicsArray = none ∧ (lats k).is1D = false)
    (h : ∀ r ∈ stack, (mats r).isUniform = true ∨ (∃ g : Grid (2 * M + 1) (2 * M + 1), HasPixels (mats r) ⟨_, _, g⟩ ∧
        VectorFieldOn E (mats r) ⟨_, _, g⟩) ∨
      ∃ e, HasTensorPixels (mats r) (2 * M + 1) e ∧ VectorFieldOn E (mats r) ⟨_, _, e 2 2⟩ ∧
        ∀ x y, e 0 0 x y * e 1 1 x y - e 1 0 x y * e 0 1 x y ≠ 0)
    (form' : String) (hf : form' = "original" ∨ form' = "tangent" ∨ form' = "jones" ∨ form' = "pol") :
    simInit E lats mats stack exc ((2 * M + 1) ^ 2) form' = .ok { c with formulation := form' } ∧
    ∀ (hist : List (Call c.nh)) (a : Call c.nh),
      Call.result E { c with formulation := form' } a
          (afterCalls E { c with formulation := form' } hist (Dyn.fresh mats (unsolved c.nh))) =
        a.result E c (afterCalls E c hist (Dyn.fresh mats (unsolved c.nh))) := by
  have hi := simInit_ok hinit
  obtain ⟨r0, tl, hs⟩ := List.exists_cons_of_ne_nil hi.ne
  have hl := hi.lat_eq r0 (by rw [hs]; rfl)
  have h1D : c.lattice.is1D = false := by rw [hl]; exact (hlat _).2.2
  have hfull : ∀ r ∈ stack, (mats r).isUniform = false → AsManyOrdersAsPixels c (2 * M + 1) (2 * M + 1) := by
    intro r hr hu
    have hall : (stack.all fun r => (mats r).isUniform) = false := by
      rw [List.all_eq_false]
      exact ⟨r, hr, by rw [hu]; simp⟩
    obtain ⟨k, hk⟩ := hi.harm
    have hpos : (1 : ℤ) ≤ (2 * M + 1) ^ 2 := by nlinarith [(Nat.cast_nonneg M : (0 : ℤ) ≤ M)]
    have he : (2 * (M : ℤ) + 1) ^ 2 ≤ effectiveNh ((2 * M + 1) ^ 2) false ∧
        effectiveNh ((2 * M + 1) ^ 2) false < (2 * M + 3) ^ 2 := by
      have := (Nat.cast_nonneg M : (0 : ℤ) ≤ M)
      simp only [effectiveNh, Bool.false_eq_true, false_and, if_false]
      split_ifs <;> constructor <;> nlinarith
    rw [hall] at hk
    obtain ⟨rr, hrr, -⟩ := hi.recip
    obtain ⟨H, n', K, h1, h2, h3, h4, h5, h6, h7, h8⟩ := C06_parallelogrammic_truncation E.argsort hA c.lattice
      (by rw [hl]; exact (hlat _).1) (by rw [hl]; exact (hlat _).2.1) ((det_ne_zero_iff _).mp (reciprocal_ok.mp hrr).1)
      (effectiveNh ((2 * M + 1) ^ 2) false) (hpos.trans he.1) true
    have := hk.symm.trans h1
    simp only [Except.ok.injEq, Prod.mk.injEq] at this
    rw [← this.1] at h5 h6 h7
    obtain rfl : K = M := by
      have := (Nat.cast_nonneg M : (0 : ℤ) ≤ M)
      apply le_antisymm
      · by_contra hlt
        push Not at hlt
        nlinarith
      · by_contra hlt
        push Not at hlt
        nlinarith
    refine ⟨by simp, by simp, ?_, distinct_frequencies h6 (fun g hg k hk => ?_) (fun g hg k hk => ?_)⟩
    · have : (c.nh : ℤ) = (2 * M + 1) ^ 2 := h7.symm.trans h8
      zify
      rw [this]
      ring
    · have a1 := abs_le.mp ((h5 g).mp hg).1
      have a2 := abs_le.mp ((h5 k).mp hk).1
      rw [abs_lt]
      push_cast
      omega
    · have a1 := abs_le.mp ((h5 g).mp hg).2
      have a2 := abs_le.mp ((h5 k).mp hk).2
      rw [abs_lt]
      push_cast
      omega
  refine C105_as_many_orders_as_pixels hinit (fun r hr => ?_) form' (by tauto)
  rcases h r hr with hu | ⟨g, hg, hv⟩ | ⟨e, he, hv, hd⟩
  · exact .inl hu
  · exact .inr (.inl ⟨_, hg, hfull r hr hg.1, .inr hv⟩)
  · exact .inr (.inr ⟨_, e, he, hfull r hr he.1, h1D, hv, hd⟩)

namespace Examples

/-- Three pixels of different permittivities, three harmonics: the efficiencies of the two formulations are the same. -/
example (E : Ext) (hA : ArgsortContract E.argsort) (exc : PlaneWave) :
    ∃ c, simInit E (fun _ => mono 1) (gridMats "fft" (fun (x : Fin 3) (_ : Fin 1) => ((x : ℕ) : ℂ) + 1)) [0, 1, 2] exc 3
        "original" = .ok c ∧
      simInit E (fun _ => mono 1) (gridMats "fft" (fun (x : Fin 3) (_ : Fin 1) => ((x : ℕ) : ℂ) + 1)) [0, 1, 2] exc 3
        "tangent" = .ok { c with formulation := "tangent" } ∧
      (Call.diffractionEfficiencies true).result E c (Dyn.fresh
          (gridMats "fft" (fun (x : Fin 3) (_ : Fin 1) => ((x : ℕ) : ℂ) + 1)) (unsolved c.nh)) =
        (Call.diffractionEfficiencies true).result E { c with formulation := "tangent" } (Dyn.fresh
          (gridMats "fft" (fun (x : Fin 3) (_ : Fin 1) => ((x : ℕ) : ℂ) + 1)) (unsolved c.nh)) := by
  obtain ⟨c, h, -⟩ := mono_init hA one_ne_zero "fft" (fun (x : Fin 3) (_ : Fin 1) => ((x : ℕ) : ℂ) + 1) exc (nh := 3)
    (by norm_num) (by norm_num) (.inl rfl)
  obtain ⟨h1, h2⟩ := C105_gratings hA 1 h (fun _ => ⟨rfl, rfl, rfl⟩) (fun r hr => by
    by_cases e : r = 1
    · subst e
      refine .inr ⟨fun x _ => ((x : ℕ) : ℂ) + 1, by rfl, by rfl, ?_⟩
      unfold NdArr.toGrid gridMats exLayer NdArr.ofGrid
      simp
    · left
      unfold gridMats
      rw [if_neg e]
      rfl) "tangent" (.inr rfl)
  exact ⟨c, h, h1, (h2 [] _).symm⟩

/-- The simulations of vacuum, a pattern and vacuum on the unit square. -/
theorem cell_init {E : Ext} (hA : ArgsortContract E.argsort) {mats : ℕ → LayerSpec} (M : ℕ) (hM : 1 ≤ M) (hM' : M ≤ 10)
    (hn : ([0, 1, 2].map fun r => (mats r).name).Nodup) (hl : ∀ r, (mats r).lattice = 0) (hp : (mats 1).isUniform = false)
    (h0 : mats 0 = exLayer "Superstrate" 1 (NdArr.scalar 1)) (exc : PlaneWave) {form : String}
    (hf : form = "original" ∨ form = "tangent" ∨ form = "jones" ∨ form = "pol") :
    ∃ c, simInit E (fun _ => cell) mats [0, 1, 2] exc ((2 * M + 1) ^ 2) form = .ok c := by
  have hi : LinearIndependent ℝ cell.basis := (det_ne_zero_iff cell).mp (by simp [cell, Lattice.matrix, det_fin_two])
  have h1 : (1 : ℤ) ≤ M := by exact_mod_cast hM
  obtain ⟨H, n, K, c1, c2, c3, c4, c5, c6, -⟩ := C06_parallelogrammic_truncation E.argsort hA cell rfl rfl hi
    ((2 * M + 1) ^ 2) (by nlinarith) true
  obtain rfl : K = M := by
    apply le_antisymm
    · by_contra hlt
      push Not at hlt
      nlinarith
    · by_contra hlt
      push Not at hlt
      nlinarith
  have hu : ((0 :: [1, 2]).all fun r => (mats r).isUniform) = false := by simp [hp]
  have he : effectiveNh ((2 * M + 1) ^ 2) false = (2 * M + 1) ^ 2 := by
    simp only [effectiveNh, Bool.false_eq_true, false_and, if_false]
    rw [if_neg (by nlinarith)]
  have hny : checkNyquist cell H = .ok () := by
    refine checkNyquist_of ⟨(0, 0), (c5 _).mpr (by simp)⟩ (M := M) (fun g hg => ?_) (by simp [cell]; omega)
      (.inr (by simp [cell]; omega))
    obtain ⟨q1, q2⟩ := (c5 g).mp hg
    rw [abs_le] at q1 q2
    exact ⟨q1.2, q2.2⟩
  exact simInit_exists (E := E) (lats := fun _ => cell) (mats := mats)
    (r0 := 0) (tl := [1, 2]) (exc := exc) (nh := (2 * M + 1) ^ 2) (form := form) (H := H) (n := n)
    (r := (2 * Real.pi) • cell.matrix⁻¹ᵀ) hn (fun r _ => by rw [hl, hl]) hf (fun h => by cases h) (by rw [hu, he]; exact c1) hny
    (by rw [h0]; exact ⟨rfl, rfl⟩) (by rw [h0]; simp [exLayer, NdArr.scalar, NdArr.value])
    (reciprocal_ok.mpr ⟨(det_ne_zero_iff cell).mpr hi, rfl⟩)

/-- Vacuum, a layer with a vector field along the first axis, vacuum. -/
noncomputable def fieldMats (eps : NdArr) (N : ℕ) : ℕ → LayerSpec := fun r =>
  if r = 1 then { exLayer "Slab" (1 / 8) eps with tangentField := some ⟨N, N, fun _ _ => 1, fun _ _ => 0⟩ }
  else exLayer (if r = 0 then "Superstrate" else "Substrate") 1 (NdArr.scalar 1)

theorem fieldMats_lattice (eps : NdArr) (N r : ℕ) : (fieldMats eps N r).lattice = 0 := by
  unfold fieldMats
  split_ifs <;> rfl

/-- Five by five pixels, twenty-five harmonics: all formulations give the same. -/
example (E : Ext) (hA : ArgsortContract E.argsort) (exc : PlaneWave) (g : Grid 5 5) (form form' : String)
    (hf : form = "original" ∨ form = "tangent" ∨ form = "jones" ∨ form = "pol")
    (hf' : form' = "original" ∨ form' = "tangent" ∨ form' = "jones" ∨ form' = "pol") :
    ∃ c, simInit E (fun _ => cell) (fieldMats (NdArr.ofGrid g) 5) [0, 1, 2] exc 25 form = .ok c ∧
      simInit E (fun _ => cell) (fieldMats (NdArr.ofGrid g) 5) [0, 1, 2] exc 25 form' = .ok { c with formulation := form' } ∧
      (Call.diffractionEfficiencies true).result E c (Dyn.fresh (fieldMats (NdArr.ofGrid g) 5) (unsolved c.nh)) =
        (Call.diffractionEfficiencies true).result E { c with formulation := form' } (Dyn.fresh (fieldMats (NdArr.ofGrid g) 5) (unsolved c.nh)) := by
  obtain ⟨c, h⟩ := cell_init hA (mats := fieldMats (NdArr.ofGrid g) 5) 2 (by norm_num) (by norm_num)
    (by simp [fieldMats, exLayer]) (fieldMats_lattice _ _) rfl rfl exc hf
  have e : (NdArr.ofGrid g).toGrid = .ok ⟨5, 5, g⟩ := by
    unfold NdArr.toGrid NdArr.ofGrid
    simp
  obtain ⟨h1, h2⟩ := C105_crossed_gratings hA 2 h (fun _ => ⟨rfl, rfl, rfl⟩) (fun r hr => by
    by_cases e1 : r = 1
    · subst e1
      exact .inr (.inl ⟨g, ⟨by rfl, by rfl, e⟩, .inl ⟨_, by rfl, rfl, rfl, fun _ _ => ⟨by simp, by simp⟩⟩⟩)
    · left
      unfold fieldMats
      rw [if_neg e1]
      rfl) form' hf'
  exact ⟨c, h, h1, (h2 [] _).symm⟩

/-- A tensor of permittivities 2, 3 and 4 along the axes, coupled by 1 in the plane, on three by three pixels, with one
pixel that differs. -/
noncomputable def tensorPixels : NdArr := ⟨[3, 3, 3, 3], fun idx => match idx with
  | [0, 0, x, y] => if x = 0 ∧ y = 0 then 5 else 2
  | [1, 1, _, _] => 3
  | [2, 2, _, _] => 4
  | [0, 1, _, _] => 1
  | [1, 0, _, _] => 1
  | _ => 0⟩

/-- Tensors on three by three pixels, nine harmonics: all formulations give the same. -/
example (E : Ext) (hA : ArgsortContract E.argsort) (exc : PlaneWave) (form form' : String)
    (hf : form = "original" ∨ form = "tangent" ∨ form = "jones" ∨ form = "pol")
    (hf' : form' = "original" ∨ form' = "tangent" ∨ form' = "jones" ∨ form' = "pol") :
    ∃ c, simInit E (fun _ => cell) (fieldMats tensorPixels 3) [0, 1, 2] exc 9 form = .ok c ∧
      simInit E (fun _ => cell) (fieldMats tensorPixels 3) [0, 1, 2] exc 9 form' = .ok { c with formulation := form' } ∧
      (Call.diffractionEfficiencies true).result E c (Dyn.fresh (fieldMats tensorPixels 3) (unsolved c.nh)) =
        (Call.diffractionEfficiencies true).result E { c with formulation := form' } (Dyn.fresh (fieldMats tensorPixels 3) (unsolved c.nh)) := by
  obtain ⟨c, h⟩ := cell_init hA (mats := fieldMats tensorPixels 3) 1 (by norm_num) (by norm_num)
    (by simp [fieldMats, exLayer]) (fieldMats_lattice _ _) (by simp [fieldMats, exLayer, LayerSpec.isUniform, tensorPixels, isUniform, isAnisotropic]) rfl exc hf
  obtain ⟨h1, h2⟩ := C105_crossed_gratings hA 1 h (fun _ => ⟨rfl, rfl, rfl⟩) (fun r hr => by
    by_cases e1 : r = 1
    · subst e1
      refine .inr (.inr ⟨fun i j x y => tensorPixels.data [i, j, x, y], ⟨?_, by rfl, fun i j => by rfl⟩,
        .inl ⟨_, by rfl, rfl, rfl, fun _ _ => ⟨by simp, by simp⟩⟩, fun x y => ?_⟩)
      · simp [fieldMats, exLayer, LayerSpec.isUniform, tensorPixels, isUniform, isAnisotropic]
      · simp only [tensorPixels, Fin.val_zero, Fin.val_one]
        split_ifs <;> norm_num
    · left
      unfold fieldMats
      rw [if_neg e1]
      rfl) form' hf'
  exact ⟨c, h, h1, (h2 [] _).symm⟩

end Examples

end Nannos
