import Verif.Props.Planar

/-!
C79: layers with a relative permeability (an attribute of the layers, which the constructor only accepts equal to 1 and which can be
assigned afterwards).

What holds: the retrieved fields satisfy Maxwell's equations with the permeability if the normal magnetic field is divided by it; they
are continuous; the efficiencies add up to the permeability of the superstrate. What does not: the normal magnetic field is the
induction; the efficiencies do not add up to 1 under a magnetic superstrate; a substrate with negative permittivity and permeability
gives a reflection above 1 and a negative transmission.
-/

namespace Nannos

open Matrix Spec

variable {E : Ext} {lats : ℕ → Lattice} {mats : ℕ → LayerSpec} {stack : List ℕ} {exc : PlaneWave} {nh : ℤ}
  {form : String} {c : Static}

/-- See `fields_of_history_raw`; the medium of the layer. -/
theorem magnetic_fields (hinit : simInit E lats mats stack exc nh form = .ok c)
    (hE : EigContract E) (hw : WellPlaced mats stack) (hmu : Magnetic mats stack) :
    ∃ A1 : ℕ → LayerAttr c.nh, (∀ hist : List (Call c.nh), ∀ id zs Fs, zs ≠ [] →
      (getFieldFourier E c id zs (afterCalls E c hist (Dyn.fresh mats (unsolved c.nh)))).1 = .ok Fs →
      (∀ r ∈ c.stack, LayerFix E c mats A1 r) ∧
      ∃ r i ab, getLayer c id = .ok (r, i) ∧ AmpV c mats A1 (.ok ()) i ab ∧
      (∃ P e, Medium E c mats r P e ∧ MagModes c (mats r) (A1 r) (mats r).mu P e) ∧
      ∃ M t F, modesOf (mats r) (A1 r) = .ok M ∧ M.thickness = some t ∧ (∀ k, (c.omega : ℂ) * M.q k ≠ 0) ∧
        (∀ z, FieldSpec c (mats r) (A1 r) M ab.1 ab.2 z (F z)) ∧
        (∀ zs', (getFieldFourier E c id zs'
          (afterCalls E c hist (Dyn.fresh mats (unsolved c.nh)))).1 = .ok (zs'.map F)) ∧
        Fs = zs.map F) := by
  have hst : c.stack = stack := (simInit_ok hinit).stack_eq
  obtain ⟨A1, res, -, h⟩ := fields_of_history_raw (E := E) (c := c) hinit
  refine ⟨A1, fun hist id zs Fs hz hF => ?_⟩
  obtain ⟨hfix, r, i, ab, h1, h2, h3⟩ := h hist id zs Fs hz hF
  obtain ⟨k, hk⟩ := List.getElem?_of_mem (hst ▸ getLayer_mem h1)
  exact ⟨hfix, r, i, ab, h1, h2, solved_magnetic hmu hE hw (hst ▸ hfix) k r hk, h3⟩

/-- **C79**, fields. When `get_field_fourier(id, zs)` returns (after any history), the fields it returns, as functions of the depth and
with the normal magnetic field divided by the permeability of the layer, satisfy Maxwell's equations in the medium of the layer. Missing:
the division is left to the user, see `C79_normal_field_is_induction`. -/
theorem C79_magnetic_maxwell_partial (hinit : simInit E lats mats stack exc nh form = .ok c)
    (hE : EigContract E) (hw : WellPlaced mats stack) (hmu : Magnetic mats stack)
    (hist : List (Call c.nh)) (id : LayerId) (zs : List ℝ) (hz : zs ≠ []) (Fs : List (FieldF c.nh))
    (h : (getFieldFourier E c id zs (afterCalls E c hist (Dyn.fresh mats (unsolved c.nh)))).1 = .ok Fs) :
    ∃ r i F, getLayer c id = .ok (r, i) ∧ (∃ P epsz, Medium E c mats r P epsz) ∧
      (∀ zs', (getFieldFourier E c id zs'
        (afterCalls E c hist (Dyn.fresh mats (unsolved c.nh)))).1 = .ok (zs'.map F)) ∧
      ∀ P epsz, Medium E c mats r P epsz →
        MagneticMaxwell c.omega c.kx c.ky (mats r).mu P epsz fun z => FieldF.divHz (mats r).mu (F z) := by
  have hst : c.stack = stack := (simInit_ok hinit).stack_eq
  obtain ⟨A1, hA⟩ := magnetic_fields hinit hE hw hmu
  obtain ⟨hfix, r, i, ab, h1, h2, ⟨P, e, h3, h4⟩, M, t, F, h5, h6, h7, h8, h9, h10⟩ := hA hist id zs Fs hz h
  refine ⟨r, i, F, h1, ⟨P, e, h3⟩, h9, fun P' e' h' => ?_⟩
  obtain ⟨rfl, rfl⟩ := Medium.unique h3 h'
  exact magnetic_of_spec (hmu r (hst ▸ getLayer_mem h1)).1 h4 h5 h7 h8

/-- **C79**, fields. The fields as they are returned satisfy Maxwell's equations with the permeability of the layer exactly when this
permeability is 1 or the normal magnetic field vanishes. -/
theorem C79_normal_field_is_induction (hinit : simInit E lats mats stack exc nh form = .ok c)
    (hE : EigContract E) (hw : WellPlaced mats stack) (hmu : Magnetic mats stack) (hom : c.omega ≠ 0)
    (hist : List (Call c.nh)) (id : LayerId) (zs : List ℝ) (hz : zs ≠ []) (Fs : List (FieldF c.nh))
    (h : (getFieldFourier E c id zs (afterCalls E c hist (Dyn.fresh mats (unsolved c.nh)))).1 = .ok Fs) :
    ∃ r i F, getLayer c id = .ok (r, i) ∧
      (∀ zs', (getFieldFourier E c id zs'
        (afterCalls E c hist (Dyn.fresh mats (unsolved c.nh)))).1 = .ok (zs'.map F)) ∧
      ∀ P epsz, Medium E c mats r P epsz →
        (MagneticMaxwell c.omega c.kx c.ky (mats r).mu P epsz F ↔ (mats r).mu = 1 ∨ ∀ z j, (F z).hz j = 0) := by
  obtain ⟨r, i, F, h1, -, h2, h3⟩ := C79_magnetic_maxwell_partial hinit hE hw hmu hist id zs hz Fs h
  refine ⟨r, i, F, h1, h2, fun P e hM => ?_⟩
  have hm := h3 P e hM
  have hom' : (c.omega : ℂ) ≠ 0 := by exact_mod_cast hom
  have hst : c.stack = stack := (simInit_ok hinit).stack_eq
  have hm0 := (hmu r (hst ▸ getLayer_mem h1)).1
  constructor
  · intro hF
    by_cases h1 : (mats r).mu = 1
    · exact .inl h1
    refine .inr fun z j => ?_
    have e1 := hm.curlEz z j
    have e2 := hF.curlEz z j
    dsimp only [FieldF.divHz] at e1
    rw [e1, mul_div_cancel₀ _ hm0] at e2
    have e3 := mul_left_cancel₀ hom' e2
    have : (1 - (mats r).mu) * (F z).hz j = 0 := by linear_combination e3
    exact (mul_eq_zero.mp this).resolve_left (sub_ne_zero.mpr fun hc => h1 hc.symm)
  · intro hF
    have : (fun z => FieldF.divHz (mats r).mu (F z)) = F := by
      funext z
      unfold FieldF.divHz
      rcases hF with hF | hF
      · simp only [hF, div_one]
      · have e : (fun j => (F z).hz j / (mats r).mu) = (F z).hz := by
          funext j; rw [hF]; simp
        rw [e]
    rwa [this] at hm

/-- **C79**, interfaces. The tangential fields, the normal induction (which is what is returned) and the normal displacement retrieved at
the bottom of layer `k` equal those retrieved at the top of layer `k + 1`, whatever was called before each retrieval. -/
theorem C79_magnetic_continuity (hinit : simInit E lats mats stack exc nh form = .ok c)
    (hE : EigContract E) (hw : WellPlaced mats stack) (hmu : Magnetic mats stack)
    (hist hist' : List (Call c.nh)) (k : ℕ) (r r' : ℕ) (hr : stack[k]? = some r)
    (hr' : stack[k + 1]? = some r') (t : ℝ) (ht : (mats r).thickness = some t) (F F' : FieldF c.nh)
    (h : (getFieldFourier E c (.idx k) [t]
      (afterCalls E c hist (Dyn.fresh mats (unsolved c.nh)))).1 = .ok [F])
    (h' : (getFieldFourier E c (.idx (k + 1 : ℕ)) [0]
      (afterCalls E c hist' (Dyn.fresh mats (unsolved c.nh)))).1 = .ok [F']) :
    F.ex = F'.ex ∧ F.ey = F'.ey ∧ F.hx = F'.hx ∧ F.hy = F'.hy ∧ F.hz = F'.hz ∧
    (∃ P e, Medium E c mats r P e) ∧ (∃ P e, Medium E c mats r' P e) ∧
    ∀ P e P' e', Medium E c mats r P e → Medium E c mats r' P' e' → e *ᵥ F.ez = e' *ᵥ F'.ez := by
  obtain ⟨A1, hA⟩ := magnetic_fields hinit hE hw hmu
  obtain ⟨hfix, s, i, ab, h1, h2, ⟨P, e, h3, h4⟩, M, d, G, h5, h6, h7, h8, h9, h10⟩ :=
    hA hist _ _ _ (by simp) h
  obtain ⟨-, s', i', ab', h1', h2', ⟨P', e', h3', h4'⟩, M', d', G', h5', h6', h7', h8', h9', h10'⟩ :=
    hA hist' _ _ _ (by simp) h'
  have hst : c.stack = stack := (simInit_ok hinit).stack_eq
  rw [← hst] at hr hr'
  have hk : k < c.stack.length := (List.getElem?_eq_some_iff.mp hr).1
  have hk' : k + 1 < c.stack.length := (List.getElem?_eq_some_iff.mp hr').1
  have pk : ∀ j : ℕ, j < c.stack.length → pyIdx c.stack.length (j : ℤ) = some j := by
    intro j hj
    unfold pyIdx
    simp [hj]
  have gl : ∀ (j s : ℕ), c.stack[j]? = some s → getLayer c (.idx (j : ℤ)) = .ok (s, (j : ℤ)) := by
    intro j s hj
    unfold getLayer pyGet
    simp only [pk j (List.getElem?_eq_some_iff.mp hj).1, hj]
    rfl
  rw [gl k r hr] at h1
  obtain ⟨rfl, rfl⟩ := Prod.mk.inj (Except.ok.inj h1)
  rw [gl (k + 1) r' hr'] at h1'
  obtain ⟨rfl, rfl⟩ := Prod.mk.inj (Except.ok.inj h1')
  obtain ⟨k1, u1, amp, v1, v2, v3⟩ := ampV_solution hfix h2
  obtain ⟨k2, u2, amp', v1', v2', v3'⟩ := ampV_solution hfix h2'
  rw [pk k hk] at u1
  rw [pk (k + 1) hk'] at u2
  obtain rfl := Option.some.inj u1
  obtain rfl := Option.some.inj u2
  have hm : ∀ (j s : ℕ) (N : Modes (Idx c.nh)), c.stack[j]? = some s → modesOf (mats s) (A1 s) = .ok N →
      (stackModes c mats A1)[j]? = some N := by
    intro j s N hj hN
    have hs := hfix s (List.mem_of_getElem? hj)
    rw [hs.form.modesD] at hN
    unfold stackModes
    rw [List.getElem?_map, hj, ← Except.ok.inj hN]
    rfl
  have hmatch := v1.1 k M M' (Nat.zero_le _) (by rw [stackModes_length]; omega) (hm k r M hr h5)
    (hm (k + 1) r' M' hr' h5')
  rw [v2, ← v3 amp' v1' (k + 1) hk', v2'] at hmatch
  have hMz : M.z = t := by
    have : M.thickness = (mats r).thickness := by
      unfold modesOf at h5
      rw [bind_eq_ok] at h5
      obtain ⟨ev, -, h5⟩ := h5
      rw [bind_eq_ok] at h5
      obtain ⟨Q, -, h5⟩ := h5
      simp only [except_pure_eq_ok, Except.ok.injEq] at h5
      rw [← h5]
    simp [Modes.z, this, ht]
  unfold Match at hmatch
  rw [hMz] at hmatch
  have hF : F = G t := by simpa using h10
  have hF' : F' = G' 0 := by simpa using h10'
  have S1 := h8 t
  have S2 := h8' 0
  rw [← hF] at S1
  rw [← hF'] at S2
  have hx : F.hx = F'.hx := funext fun j => by rw [S1.hx, S2.hx, hmatch.2]
  have hy : F.hy = F'.hy := funext fun j => by rw [S1.hy, S2.hy, hmatch.2]
  have ex : F.ex = F'.ex := funext fun j => by rw [S1.ex, S2.ex, hmatch.1]
  have ey : F.ey = F'.ey := funext fun j => by rw [S1.ey, S2.ey, hmatch.1]
  have hz : F.hz = F'.hz := funext fun j => by rw [S1.hz, S2.hz, ex, ey]
  refine ⟨ex, ey, hx, hy, hz, ⟨P, e, h3⟩, ⟨P', e', h3'⟩, fun P2 e2 P2' e2' g g' => ?_⟩
  obtain ⟨rfl, rfl⟩ := Medium.unique h3 g
  obtain ⟨rfl, rfl⟩ := Medium.unique h3' g'
  rw [h4.normal _ _ S1.ez, h4'.normal _ _ S2.ez, hx, hy]

section
variable (hinit : simInit E lats mats stack exc nh form = .ok c) (hE : EigContract E) (hw : WellPlaced mats stack)
  (hmu : Magnetic mats stack) {wl : ℝ} {ang : ℝ × ℝ × ℝ} (hp : planeWave wl ang = .ok exc) (hwl : 0 < wl)
  (hcos : 0 < Real.cos exc.theta) (h00 : ((0 : ℤ), (0 : ℤ)) ∈ c.harmonics)
  (hform : form = "original" ∨ c.lattice.is1D = true ∨ (c.harmonics.Nodup ∧ ∀ r ∈ stack, (mats r).isUniform = false →
      (mats r).isAnisotropic = false ∧ ConstantVectorsUsed E c (mats r))) {e m : ℝ} (hpos : 0 < e) (hmpos : 0 < m)
  (hsup : ∀ r0, stack.head? = some r0 → (mats r0).epsilon.value = (e : ℂ) ∧ (mats r0).mu = (m : ℂ))
include hinit hE hw hmu hp hwl hcos h00 hform hpos hmpos hsup

/-- **C79**, energy. Between lossless media (real permeabilities, real or Hermitian permittivities) the efficiencies add up to the
permeability of the superstrate. Missing: they should add up to 1, see `C79_energy_magnetic_superstrate`. -/
theorem C79_magnetic_energy_partial
    (hin : ∀ k r, 0 < k → k + 1 < stack.length → stack[k]? = some r → Lossless (mats r) ∧ (mats r).mu.im = 0)
    (hist : List (Call c.nh)) (RT : (Fin c.nh → ℝ) × (Fin c.nh → ℝ))
    (h : (efficienciesByOrder E c (afterCalls E c hist (Dyn.fresh mats (unsolved c.nh)))).1 = .ok RT) :
    ∑ i, RT.1 i + ∑ i, RT.2 i = m := by
  obtain ⟨⟨κ, hκ, h1⟩, -⟩ := magnetic_balance lossCone_zero hinit hE hw hmu hp hwl hcos h00 hform hpos hmpos hsup
    (fun k r a b d => ⟨(hin k r a b d).1, (hin k r a b d).2, fun _ _ => trivial⟩) hist RT h
  have := (mul_eq_zero.mp h1).resolve_left hκ.ne'
  linarith

/-- **C79**, energy. Under passive layers (permittivities and permeabilities with non-negative imaginary part) the efficiencies do not
add up to more than the permeability of the superstrate, and are not negative (those transmitted if the substrate has a positive
permeability). -/
theorem C79_magnetic_passive
    (hin : ∀ k r, 0 < k → k + 1 < stack.length → stack[k]? = some r → Passive (mats r) ∧ 0 ≤ (mats r).mu.im ∧
      ∀ t, (mats r).thickness = some t → 0 ≤ t)
    (hist : List (Call c.nh)) (RT : (Fin c.nh → ℝ) × (Fin c.nh → ℝ))
    (h : (efficienciesByOrder E c (afterCalls E c hist (Dyn.fresh mats (unsolved c.nh)))).1 = .ok RT) :
    ∑ i, RT.1 i + ∑ i, RT.2 i ≤ m ∧ (∀ i, 0 ≤ RT.1 i) ∧
    ∀ rN, stack.getLast? = some rN → (mats rN).isUniform = true → ∀ mN : ℝ, 0 < mN → (mats rN).mu = (mN : ℂ) →
      ∀ i, 0 ≤ RT.2 i := by
  obtain ⟨⟨κ, hκ, h1⟩, h2⟩ := magnetic_balance lossCone_nonneg hinit hE hw hmu hp hwl hcos h00 hform hpos hmpos hsup
    (fun k r a b d => ⟨(hin k r a b d).1, (hin k r a b d).2.1, (hin k r a b d).2.2⟩) hist RT h
  refine ⟨?_, h2⟩
  have : 0 ≤ κ * (m - ∑ i, RT.1 i - ∑ i, RT.2 i) := h1
  have := nonneg_of_mul_nonneg_right this hκ
  linarith

end

namespace Examples

theorem film_placed (eps mu : ℕ → ℂ) (d : ℕ → ℝ) (l : List ℕ) : WellPlaced (filmMats eps mu d) l := by
  intro k r _ hc
  simp [filmMats, exLayer] at hc

theorem film_magnetic (eps mu : ℕ → ℂ) (d : ℕ → ℝ) (l : List ℕ) (h : ∀ r, mu r ≠ 0) : Magnetic (filmMats eps mu d) l := by
  intro r _
  refine ⟨h r, fun hc => ?_⟩
  simp [filmMats, exLayer] at hc

/-- Permittivities and permeabilities of two layers. -/
noncomputable def pair (x y : ℝ) (r : ℕ) : ℂ := if r = 0 then x else y

/-- Two media with impedances `m0/n0` and `m1/n1` at normal incidence. -/
theorem normal_pair {e0 m0 n0 e1 m1 n1 : ℝ} (he0 : 0 < e0) (hm0 : 0 < m0) (hn0 : 0 < n0) (hn1 : 0 < n1) (h0 : e0 * m0 = n0 ^ 2)
    (h1 : e1 * m1 = n1 ^ 2) (hz : m0 / n0 + m1 / n1 ≠ 0) :
    ∃ (exc : PlaneWave) (c : Static), planeWave 1 (0, 0, 30) = .ok exc ∧
      simInit exE (fun _ => exLat) (filmMats (pair e0 e1) (pair m0 m1) 0) [0, 1] exc 1 "original" = .ok c ∧
      ∃ RT, (efficienciesByOrder exE c (afterCalls exE c [] (Dyn.fresh (filmMats (pair e0 e1) (pair m0 m1) 0) (unsolved c.nh)))).1 = .ok RT ∧
        ∑ i, RT.1 i = m0 * ((m0 / n0 - m1 / n1) / (m0 / n0 + m1 / n1)) ^ 2 ∧
        ∑ i, RT.2 i = m0 * (4 * (m0 / n0) * (m1 / n1) / (m0 / n0 + m1 / n1) ^ 2) := by
  obtain ⟨exc, hp, hs, hc, hpsi⟩ := normal_incidence 1 30 one_pos
  obtain ⟨mats, hmats⟩ : ∃ mats, mats = filmMats (pair e0 e1) (pair m0 m1) 0 := ⟨_, rfl⟩
  rw [← hmats]
  have hh : ∀ r, Homogeneous (mats r) := by rw [hmats]; exact fun r => filmMats_hom _ _ _ r
  have he1 : e1 ≠ 0 := by rintro rfl; rw [zero_mul] at h1; have := pow_pos hn1 2; linarith
  have hm1 : m1 ≠ 0 := by rintro rfl; rw [mul_zero] at h1; have := pow_pos hn1 2; linarith
  have E0 : (mats 0).epsilon.value = (e0 : ℂ) := by rw [hmats]; rfl
  have E1 : (mats 1).epsilon.value = (e1 : ℂ) := by rw [hmats]; rfl
  have M0 : (mats 0).mu = (m0 : ℂ) := by rw [hmats]; rfl
  have M1 : (mats 1).mu = (m1 : ℂ) := by rw [hmats]; rfl
  have D0 : (mats 0).thickness.getD 0 = 0 := by rw [hmats]; rfl
  have e0c : (e0 : ℂ) ≠ 0 := by exact_mod_cast he0.ne'
  have e1c : (e1 : ℂ) ≠ 0 := by exact_mod_cast he1
  have m0c : (m0 : ℂ) ≠ 0 := by exact_mod_cast hm0.ne'
  have m1c : (m1 : ℂ) ≠ 0 := by exact_mod_cast hm1
  obtain ⟨c, hi, hH, hl⟩ := planar_init mats 0 [1] exc (by rw [hmats]; simp [filmMats, exLayer])
    (by rw [hmats]; simp [filmMats, exLayer]) (hh 0) (by rw [E0, M0]; exact mul_ne_zero e0c m0c)
  have hcos : 0 < Real.cos exc.theta := by rw [hc]; norm_num
  have h00 : ((0 : ℤ), (0 : ℤ)) ∈ c.harmonics := by rw [hH]; simp
  obtain ⟨hom, -⟩ := planar_incoming hi hp one_pos hcos h00 he0 hm0 rfl E0 M0
  have hwc : (c.omega : ℂ) ≠ 0 := by exact_mod_cast hom.ne'
  have n0c : (n0 : ℂ) ≠ 0 := by exact_mod_cast hn0.ne'
  have n1c : (n1 : ℂ) ≠ 0 := by exact_mod_cast hn1.ne'
  have K0 : normalK c.omega 0 (mats 0) = ((c.omega * n0 : ℝ) : ℂ) := by
    unfold normalK
    rw [E0, M0, show (e0 : ℂ) * m0 * (c.omega : ℂ) ^ 2 - ((0 : ℝ) : ℂ) ^ 2 = (((c.omega * n0) ^ 2 : ℝ) : ℂ) from by
      rw [← Complex.ofReal_mul, h0]; push_cast; ring, csqrt_ofReal (by positivity), Real.sqrt_sq (by positivity)]
  have K1 : normalK c.omega 0 (mats 1) = ((c.omega * n1 : ℝ) : ℂ) := by
    unfold normalK
    rw [E1, M1, show (e1 : ℂ) * m1 * (c.omega : ℂ) ^ 2 - ((0 : ℝ) : ℂ) ^ 2 = (((c.omega * n1) ^ 2 : ℝ) : ℂ) from by
      rw [← Complex.ofReal_mul, h1]; push_cast; ring, csqrt_ofReal (by positivity), Real.sqrt_sq (by positivity)]
  have S0 : (filmS c.omega 0 (mats 0)).Z = ((c.omega * (m0 / n0) : ℝ) : ℂ) := by
    simp only [filmS, K0, M0]; push_cast; field_simp
  have S1 : (filmS c.omega 0 (mats 1)).Z = ((c.omega * (m1 / n1) : ℝ) : ℂ) := by
    simp only [filmS, K1, M1]; push_cast; field_simp
  have P0 : (filmP c.omega 0 (mats 0)).Z = ((c.omega * (m0 / n0) : ℝ) : ℂ) := by
    simp only [filmP, K0, E0]
    norm_cast
    rw [div_eq_iff he0.ne', show c.omega * (m0 / n0) * e0 = c.omega / n0 * (e0 * m0) from by ring, h0]
    field_simp
  have P1 : (filmP c.omega 0 (mats 1)).Z = ((c.omega * (m1 / n1) : ℝ) : ℂ) := by
    simp only [filmP, K1, E1]
    norm_cast
    rw [div_eq_iff he1, show c.omega * (m1 / n1) * e1 = c.omega / n1 * (e1 * m1) from by ring, h1]
    field_simp
  have hsum : ((c.omega * (m0 / n0) : ℝ) : ℂ) + ((c.omega * (m1 / n1) : ℝ) : ℂ) ≠ 0 := by
    rw [← Complex.ofReal_add, ← mul_add]
    exact_mod_cast mul_ne_zero hom.ne' hz
  have hk0 : c.omega * Real.sqrt (e0 * m0) * Real.sin exc.theta = 0 := by rw [hs, mul_zero]
  have mem : ∀ r ∈ [0, 1], r = 0 ∨ r = 1 := by simp
  obtain ⟨RT, h⟩ := two_exists hi exSort_spec (fun r _ => hh r) (by rw [hl]; rfl) hp one_pos hcos h00 (by simp) he0 hm0 rfl E0 M0
    (fun r hr => by rcases mem r hr with rfl | rfl; · rw [E0]; exact e0c
                    · rw [E1]; exact e1c)
    (fun r hr => by
      rw [hs]
      simp only [ne_eq, OfNat.ofNat_ne_zero, not_false_eq_true, zero_pow, mul_zero, Complex.ofReal_zero]
      rcases mem r hr with rfl | rfl
      · rw [E0, M0]; exact mul_ne_zero e0c m0c
      · rw [E1, M1]; exact mul_ne_zero e1c m1c) (r1 := 1) rfl (by rw [M1]; exact m1c)
    (by rw [hk0, S0, S1]; exact hsum) (by rw [hk0, P0, P1]; exact hsum) []
  refine ⟨exc, c, hp, hi, RT, h, ?_⟩
  obtain ⟨-, -, as, bs, ap, bp, h3, h4, h5, h6⟩ := planar_total hi (fun r _ => hh r) hp one_pos hcos h00 he0 hm0 rfl (rN := 1) rfl E0 M0 [] RT h
    hk0.symm
  simp only [List.map_cons, List.map_nil, List.length_cons, List.length_nil, zero_add, Nat.reduceAdd, Nat.add_one_sub_one] at h3 h4 h6
  obtain ⟨a1, a2⟩ := film_two h3
  obtain ⟨b1, b2⟩ := film_two h4
  have d1 : Complex.exp (Complex.I * (filmS c.omega 0 (mats 0)).q * (filmS c.omega 0 (mats 0)).d) = 1 := by simp [filmS, D0]
  have d2 : Complex.exp (Complex.I * (filmP c.omega 0 (mats 0)).q * (filmP c.omega 0 (mats 0)).d) = 1 := by simp [filmP, D0]
  rw [d1, S0, S1] at a1 a2
  rw [d2, P0, P1] at b1 b2
  rw [S0, S1, P0, P1] at h6
  have p := Real.sin_sq_add_cos_sq exc.psi
  have z0 : m0 / n0 ≠ 0 := (div_pos hm0 hn0).ne'
  generalize m0 / n0 = x at *
  generalize m1 / n1 = y at *
  have xy : (x : ℂ) + y ≠ 0 := by exact_mod_cast hz
  have q1 : ∀ b : ℂ, (((c.omega * x : ℝ) : ℂ) + ((c.omega * y : ℝ) : ℂ)) * b = (((c.omega * x : ℝ) : ℂ) - ((c.omega * y : ℝ) : ℂ)) * 1 →
      Complex.normSq b = ((x - y) / (x + y)) ^ 2 := by
    intro b hb
    have : b = (((x - y) / (x + y) : ℝ) : ℂ) := by
      push_cast at hb ⊢
      rw [eq_div_iff xy]
      apply mul_left_cancel₀ hwc
      linear_combination hb
    rw [this, Complex.normSq_ofReal]; ring
  have q2 : ∀ b : ℂ, (((c.omega * x : ℝ) : ℂ) + ((c.omega * y : ℝ) : ℂ)) * b = 2 * ((c.omega * x : ℝ) : ℂ) * 1 →
      Complex.normSq b = (2 * x / (x + y)) ^ 2 := by
    intro b hb
    have : b = ((2 * x / (x + y) : ℝ) : ℂ) := by
      push_cast at hb ⊢
      rw [eq_div_iff xy]
      apply mul_left_cancel₀ hwc
      linear_combination hb
    rw [this, Complex.normSq_ofReal]; ring
  rw [h5, h6, q1 _ a1, q1 _ b1, q2 _ a2, q2 _ b2, Complex.div_ofReal_re, Complex.ofReal_re]
  have hxr : c.omega * y / (c.omega * x) = y / x := by field_simp
  rw [hxr]
  constructor
  · linear_combination (m0 * ((x - y) / (x + y)) ^ 2) * p
  · rw [show m0 * (4 * x * y / (x + y) ^ 2) = m0 * ((2 * x / (x + y)) ^ 2 * (y / x)) from by field_simp; ring]
    linear_combination (m0 * ((2 * x / (x + y)) ^ 2 * (y / x))) * p

end Examples

open Examples

/-- **C79**, energy: the efficiencies do not add up to 1 under a magnetic superstrate. Permittivity and permeability 2 above and below,
normal incidence: everything is transmitted and the transmission returned is 2. -/
theorem C79_energy_magnetic_superstrate : ∃ (exc : PlaneWave) (c : Static), planeWave 1 (0, 0, 30) = .ok exc ∧
    simInit exE (fun _ => exLat) (filmMats (fun _ => 2) (fun _ => 2) 0) [0, 1] exc 1 "original" = .ok c ∧
    ∃ RT, (efficienciesByOrder exE c (afterCalls exE c [] (Dyn.fresh (filmMats (fun _ => 2) (fun _ => 2) 0) (unsolved c.nh)))).1 = .ok RT ∧
      ∑ i, RT.1 i = 0 ∧ ∑ i, RT.2 i = 2 := by
  obtain ⟨exc, c, h1, h2, RT, h3, h4, h5⟩ := normal_pair (e0 := 2) (m0 := 2) (n0 := 2) (e1 := 2) (m1 := 2) (n1 := 2) two_pos two_pos two_pos
    two_pos (by norm_num) (by norm_num) (by norm_num)
  have e : pair 2 2 = fun _ => 2 := by funext r; unfold pair; split_ifs <;> norm_num
  rw [e] at h2 h3
  exact ⟨exc, c, h1, h2, RT, h3, by rw [h4]; norm_num, by rw [h5]; norm_num⟩

/-- **C79**, energy: a substrate of negative permittivity and permeability (-4 and -1, no losses) below air reflects 9 times and transmits
-8 times what arrives: the normal wave number is taken with the wrong sign. -/
theorem C79_negative_index : ∃ (exc : PlaneWave) (c : Static), planeWave 1 (0, 0, 30) = .ok exc ∧
    simInit exE (fun _ => exLat) (filmMats (pair 1 (-4)) (pair 1 (-1)) 0) [0, 1] exc 1 "original" = .ok c ∧
    ∃ RT, (efficienciesByOrder exE c (afterCalls exE c [] (Dyn.fresh (filmMats (pair 1 (-4)) (pair 1 (-1)) 0) (unsolved c.nh)))).1 = .ok RT ∧
      ∑ i, RT.1 i = 9 ∧ ∑ i, RT.2 i = -8 := by
  obtain ⟨exc, c, h1, h2, RT, h3, h4, h5⟩ := normal_pair (e0 := 1) (m0 := 1) (n0 := 1) (e1 := -4) (m1 := -1) (n1 := 2) one_pos one_pos one_pos
    two_pos (by norm_num) (by norm_num) (by norm_num)
  exact ⟨exc, c, h1, h2, RT, h3, by rw [h4]; norm_num, by rw [h5]; norm_num⟩

/-- **C79**, fields: the equations fail for the fields as returned. A substrate of permeability 2 below air, at 60 degrees, with the
electric field parallel to the interface. -/
theorem C79_returned_fields_fail : ∃ (exc : PlaneWave) (c : Static) (F : ℝ → FieldF c.nh), planeWave 1 (60, 0, 90) = .ok exc ∧
    simInit exE (fun _ => exLat) (filmMats 1 (pair 1 2) 0) [0, 1] exc 1 "original" = .ok c ∧
    (∀ zs, (getFieldFourier exE c (.idx (1 : ℕ)) zs
      (afterCalls exE c [] (Dyn.fresh (filmMats 1 (pair 1 2) 0) (unsolved c.nh)))).1 = .ok (zs.map F)) ∧
    (∃ P e, Medium exE c (filmMats 1 (pair 1 2) 0) 1 P e) ∧
    ∀ P e, Medium exE c (filmMats 1 (pair 1 2) 0) 1 P e → ¬ MagneticMaxwell c.omega c.kx c.ky 2 P e F := by
  obtain ⟨exc, hp, hs, hc, hpsi⟩ := oblique_wave 1 0 90 one_pos
  obtain ⟨mats, hmats⟩ : ∃ mats, mats = filmMats 1 (pair 1 2) 0 := ⟨_, rfl⟩
  have hh : ∀ r, Homogeneous (mats r) := by rw [hmats]; exact fun r => filmMats_hom _ _ _ r
  have hwp : WellPlaced mats [0, 1] := by rw [hmats]; exact film_placed _ _ _ _
  have hmag : Magnetic mats [0, 1] := by
    rw [hmats]
    refine film_magnetic _ _ _ _ fun r => ?_
    unfold pair
    split_ifs <;> norm_num
  have E0 : (mats 0).epsilon.value = ((1 : ℝ) : ℂ) := by rw [hmats, filmMats_eps]; simp
  have E1 : (mats 1).epsilon.value = 1 := by rw [hmats, filmMats_eps]; simp
  have M0 : (mats 0).mu = ((1 : ℝ) : ℂ) := by rw [hmats, filmMats_mu]; rfl
  have M1 : (mats 1).mu = 2 := by rw [hmats, filmMats_mu]; simp [pair]
  have D0 : (mats 0).thickness.getD 0 = 0 := by rw [hmats]; rfl
  have D1 : (mats 1).thickness = some 0 := by rw [hmats]; rfl
  obtain ⟨c, hi, hH, hl⟩ := planar_init mats 0 [1] exc (by rw [hmats]; simp [filmMats, exLayer])
    (by rw [hmats]; simp [filmMats, exLayer]) (hh 0) (by rw [E0, M0]; norm_num)
  have hcos : 0 < Real.cos exc.theta := by rw [hc]; norm_num
  have h00 : ((0 : ℤ), (0 : ℤ)) ∈ c.harmonics := by rw [hH]; simp
  obtain ⟨hom, -, i0, hi0, -⟩ := planar_incoming hi hp one_pos hcos h00 one_pos one_pos rfl E0 M0
  have hwc : (c.omega : ℂ) ≠ 0 := by exact_mod_cast hom.ne'
  obtain ⟨k, hk⟩ : ∃ k, k = c.omega * Real.sqrt (1 * 1) * Real.sin exc.theta := ⟨_, rfl⟩
  have hk2 : (k : ℂ) ^ 2 = ((c.omega ^ 2 * (3 / 4) : ℝ) : ℂ) := by
    rw [hk, mul_one, Real.sqrt_one, mul_one]; norm_cast; rw [mul_pow, hs]
  have hkn : (k : ℂ) ≠ 0 := by
    intro h0
    rw [h0] at hk2
    norm_cast at hk2
    have : 0 < c.omega ^ 2 * (3 / 4 : ℝ) := by positivity
    rw [← hk2] at this
    norm_num at this
  have K0 : normalK c.omega k (mats 0) = ((c.omega * (1 / 2) : ℝ) : ℂ) := by
    unfold normalK
    rw [E0, M0, hk2, show ((1 : ℝ) : ℂ) * ((1 : ℝ) : ℂ) * (c.omega : ℂ) ^ 2 - ((c.omega ^ 2 * (3 / 4) : ℝ) : ℂ) = (((c.omega * (1 / 2)) ^ 2 : ℝ) : ℂ) from by
      push_cast; ring, csqrt_ofReal (by positivity), Real.sqrt_sq (by positivity)]
  have K1 : normalK c.omega k (mats 1) = ((c.omega * (Real.sqrt 5 / 2) : ℝ) : ℂ) := by
    have h5 := Real.sq_sqrt (show (0 : ℝ) ≤ 5 by norm_num)
    unfold normalK
    rw [E1, M1, hk2, show (1 : ℂ) * 2 * (c.omega : ℂ) ^ 2 - ((c.omega ^ 2 * (3 / 4) : ℝ) : ℂ) = (((c.omega * (Real.sqrt 5 / 2)) ^ 2 : ℝ) : ℂ) from by
      rw [mul_pow, div_pow, h5]; push_cast; ring, csqrt_ofReal (by positivity), Real.sqrt_sq (by positivity)]
  have S0 : (filmS c.omega k (mats 0)).Z = ((c.omega * 2 : ℝ) : ℂ) := by
    simp only [filmS, K0, M0]; push_cast; field_simp
  have h5c : ((Real.sqrt 5 : ℝ) : ℂ) ≠ 0 := by
    have : 0 < Real.sqrt 5 := by positivity
    exact_mod_cast this.ne'
  have S1 : (filmS c.omega k (mats 1)).Z = ((c.omega * (4 / Real.sqrt 5) : ℝ) : ℂ) := by
    simp only [filmS, K1, M1]; push_cast; field_simp; norm_num
  have P0 : (filmP c.omega k (mats 0)).Z = ((c.omega * (1 / 2) : ℝ) : ℂ) := by
    simp only [filmP, K0, E0]; push_cast; ring
  have P1 : (filmP c.omega k (mats 1)).Z = ((c.omega * (Real.sqrt 5 / 2) : ℝ) : ℂ) := by
    simp only [filmP, K1, E1]; ring
  have mem : ∀ r ∈ [0, 1], r = 0 ∨ r = 1 := by simp
  obtain ⟨RT, h⟩ := two_exists hi exSort_spec (fun r _ => hh r) (by rw [hl]; rfl) hp one_pos hcos h00 (by simp) one_pos one_pos rfl E0 M0
    (fun r hr => by rcases mem r hr with rfl | rfl; · rw [E0]; norm_num
                    · rw [E1]; norm_num)
    (fun r hr => by
      rw [hs]
      rcases mem r hr with rfl | rfl
      · rw [E0, M0]; norm_cast; norm_num
      · rw [E1, M1]; norm_num [Complex.ext_iff]) (r1 := 1) rfl (by rw [M1]; norm_num)
    (by
      rw [← hk, S0, S1, ← Complex.ofReal_add]
      have : 0 < c.omega * 2 + c.omega * (4 / Real.sqrt 5) := by positivity
      exact_mod_cast this.ne')
    (by
      rw [← hk, P0, P1, ← Complex.ofReal_add]
      have : 0 < c.omega * (1 / 2) + c.omega * (Real.sqrt 5 / 2) := by positivity
      exact_mod_cast this.ne') []
  obtain ⟨Fs, hFs⟩ := planar_retrieves hi (fun r _ => hh r) hom.ne' [] h (k := 1) (.inr rfl) rfl D1 [] [0]
  obtain ⟨w, k', -, hw', hk', -, as, bs, ap, bp, f1, f2, -, -, -, -, r, n, F, g1, j, g2, g3, g4, g5⟩ := planar_fields hi (fun r _ => hh r) hp
    one_pos hcos h00 one_pos one_pos rfl E0 M0 [] (.idx (1 : ℕ)) [0] (by simp) Fs hFs
  subst hw'
  obtain rfl : k' = k := by rw [hk', hk]
  obtain ⟨r', i', F', c1, c2, c3⟩ := C79_normal_field_is_induction hi exE_eig hwp hmag hom.ne' [] (.idx (1 : ℕ)) [0] (by simp) Fs hFs
  obtain ⟨r2, i2, -, b1, b2, -⟩ := C79_magnetic_maxwell_partial hi exE_eig hwp hmag [] (.idx (1 : ℕ)) [0] (by simp) Fs hFs
  have hst : c.stack = [0, 1] := (simInit_ok hi).stack_eq
  have gl : getLayer c (.idx ((1 : ℕ) : ℤ)) = .ok (1, 1) := by
    unfold getLayer pyGet pyIdx
    rw [hst]
    rfl
  rw [gl] at g1 c1 b1
  obtain ⟨rfl, rfl⟩ := Prod.mk.inj (Except.ok.inj g1)
  obtain ⟨rfl, rfl⟩ := Prod.mk.inj (Except.ok.inj c1)
  obtain ⟨rfl, rfl⟩ := Prod.mk.inj (Except.ok.inj b1)
  obtain rfl : j = 1 := by
    unfold pyIdx at g2
    simp at g2
    omega
  have hFF : F' = F := by
    funext z
    have := (c2 [z]).symm.trans (g4 [z])
    simpa using this
  subst hFF
  subst hmats
  refine ⟨exc, c, F', hp, hi, c2, b2, fun P e hM hMax => ?_⟩
  rcases (c3 P e hM).mp (by rw [M1]; exact hMax) with h1 | h1
  · rw [M1] at h1; norm_num at h1
  · have q := ((g5 0 i0).2 hi0).2.2.2.2.1
    rw [h1 0 i0, mul_zero] at q
    have q := (mul_eq_zero.mp (neg_eq_zero.mp q.symm)).resolve_left hkn
    have e1 := f1.electric 0 _ _ rfl rfl
    have e2 := f1.magnetic 0 _ _ rfl rfl
    have e3 : bs 1 = 0 := f1.below
    simp only [zero_add, e3, zero_mul, sub_zero, add_zero] at e1 e2
    unfold Film.ele at q
    rw [e3, zero_mul, sub_zero, S1] at q
    have hz1 : ((c.omega * (4 / Real.sqrt 5) : ℝ) : ℂ) ≠ 0 := by
      have : 0 < c.omega * (4 / Real.sqrt 5) := by positivity
      exact_mod_cast this.ne'
    have q := (mul_eq_zero.mp ((mul_eq_zero.mp q).resolve_left hz1)).resolve_right (Complex.exp_ne_zero _)
    rw [q, mul_zero, S0] at e1
    rw [q] at e2
    have hz0 : ((c.omega * 2 : ℝ) : ℂ) ≠ 0 := by
      have : 0 < c.omega * 2 := by positivity
      exact_mod_cast this.ne'
    have e1 := (mul_eq_zero.mp e1).resolve_left hz0
    have e4 : as 0 * Complex.exp (Complex.I * (filmS c.omega k' (filmMats 1 (pair 1 2) 0 0)).q * (filmS c.omega k' (filmMats 1 (pair 1 2) 0 0)).d) = 0 := by
      linear_combination (e1 + e2) / 2
    have e4 := (mul_eq_zero.mp e4).resolve_right (Complex.exp_ne_zero _)
    rw [f2, hc, hpsi, show (90 : ℝ) * (Real.pi / 180) = Real.pi / 2 from by ring, Real.sin_pi_div_two] at e4
    norm_num at e4

/-- C79 (fields, continuity, energy): the hypotheses are met by the same two layers; after a computation of the efficiencies the fields at
the two sides of the interface are retrieved. -/
example : ∃ (exc : PlaneWave) (c : Static), planeWave 1 (0, 0, 30) = .ok exc ∧
    simInit exE (fun _ => exLat) (filmMats (pair 1 1) (pair 1 4) 0) [0, 1] exc 1 "original" = .ok c ∧
    ∃ RT, (efficienciesByOrder exE c (afterCalls exE c [] (Dyn.fresh (filmMats (pair 1 1) (pair 1 4) 0) (unsolved c.nh)))).1 = .ok RT ∧
      ∑ i, RT.1 i + ∑ i, RT.2 i = 1 ∧ ∃ F F' : FieldF c.nh,
      (getFieldFourier exE c (.idx (0 : ℕ)) [0]
        (afterCalls exE c [.getSMatrix none] (Dyn.fresh (filmMats (pair 1 1) (pair 1 4) 0) (unsolved c.nh)))).1 = .ok [F] ∧
      (getFieldFourier exE c (.idx (1 : ℕ)) [0]
        (afterCalls exE c [] (Dyn.fresh (filmMats (pair 1 1) (pair 1 4) 0) (unsolved c.nh)))).1 = .ok [F'] ∧
      F.ex = F'.ex ∧ F.hy = F'.hy := by
  obtain ⟨exc, c, hp, hi, RT, h3, h4, h5⟩ := normal_pair (e0 := 1) (m0 := 1) (n0 := 1) (e1 := 1) (m1 := 4) (n1 := 2) one_pos one_pos one_pos
    two_pos (by norm_num) (by norm_num) (by norm_num)
  have hwp : WellPlaced (filmMats (pair 1 1) (pair 1 4) 0) [0, 1] := film_placed _ _ _ _
  have hmag : Magnetic (filmMats (pair 1 1) (pair 1 4) 0) [0, 1] := film_magnetic _ _ _ _ fun r => by
    unfold pair
    split_ifs <;> norm_num
  obtain ⟨exc', hp', -, hc, -⟩ := normal_incidence 1 30 one_pos
  obtain rfl : exc = exc' := Except.ok.inj (hp.symm.trans hp')
  have hcos : 0 < Real.cos exc.theta := by rw [hc]; norm_num
  obtain ⟨c', hi', hH, -⟩ := planar_init (filmMats (pair 1 1) (pair 1 4) 0) 0 [1] exc (by simp [filmMats, exLayer])
    (by simp [filmMats, exLayer]) (filmMats_hom _ _ _ _) (by rw [filmMats_eps, filmMats_mu]; simp [pair])
  obtain rfl : c = c' := Except.ok.inj (hi.symm.trans hi')
  have h00 : ((0 : ℤ), (0 : ℤ)) ∈ c.harmonics := by rw [hH]; simp
  have hsup : ∀ r0, ([0, 1] : List ℕ).head? = some r0 → (filmMats (pair 1 1) (pair 1 4) 0 r0).epsilon.value = ((1 : ℝ) : ℂ) ∧
      (filmMats (pair 1 1) (pair 1 4) 0 r0).mu = ((1 : ℝ) : ℂ) := by
    intro r0 h
    simp only [List.head?_cons, Option.some.injEq] at h
    subst h
    exact ⟨rfl, rfl⟩
  obtain ⟨hom, -⟩ := planar_incoming hi hp one_pos hcos h00 one_pos one_pos rfl (hsup 0 rfl).1 (hsup 0 rfl).2
  refine ⟨exc, c, hp, hi, RT, h3, C79_magnetic_energy_partial hi exE_eig hwp hmag hp one_pos hcos h00 (.inl rfl) one_pos one_pos hsup
    (fun k r a b => by simp at b; omega) [] RT h3, ?_⟩
  obtain ⟨Fs, hF⟩ := planar_retrieves hi (fun r _ => filmMats_hom _ _ _ r) hom.ne' [] h3 (k := 0) (.inl rfl) rfl rfl [.getSMatrix none] [0]
  obtain ⟨Fs', hF'⟩ := planar_retrieves hi (fun r _ => filmMats_hom _ _ _ r) hom.ne' [] h3 (k := 1) (.inr rfl) rfl rfl [] [0]
  obtain ⟨-, -, G, -, -, g, -⟩ := C79_magnetic_maxwell_partial hi exE_eig hwp hmag _ _ _ (by simp) _ hF
  obtain ⟨-, -, G', -, -, g', -⟩ := C79_magnetic_maxwell_partial hi exE_eig hwp hmag _ _ _ (by simp) _ hF'
  obtain ⟨x1, -, -, x4, -⟩ := C79_magnetic_continuity hi exE_eig hwp hmag [.getSMatrix none] [] 0 0 1 rfl rfl 0 rfl _ _ (g [0]) (g' [0])
  exact ⟨_, _, g [0], g' [0], x1, x4⟩

end Nannos
