import Verif.Props.SMatrix
import Verif.Props.Reversed
import Verif.Proofs.ProfileInit

/-! **C22**-**C25** for `get_S_matrix` called on a simulation after any history of calls. -/

namespace Nannos

open Matrix Spec

variable {E : Ext} {lats : ℕ → Lattice} {mats : ℕ → LayerSpec} {stack : List ℕ} {exc : PlaneWave} {nh : ℤ} {form : String}
  {c : Static}

/-- What `get_S_matrix` computes, in terms of the modes stored in the layers once it has returned. -/
theorem getS_fresh (hinit : simInit E lats mats stack exc nh form = .ok c) : ∃ A1 : ℕ → LayerAttr c.nh,
    ∀ (hist : List (Call c.nh)) (i j : ℕ) (S : SMat (Idx c.nh)),
      (getS E c (some ((i : ℤ), (j : ℤ))) (afterCalls E c hist (Dyn.fresh mats (unsolved c.nh)))).1 = .ok S →
      (∀ r ∈ c.stack, LayerFix E c mats A1 r) ∧ freshS (stackModes c mats A1) i j = .ok S ∧
      ∀ k : ℤ, layerModes c (getS E c (some ((i : ℤ), (j : ℤ))) (afterCalls E c hist (Dyn.fresh mats (unsolved c.nh)))).2 k =
        pyGet (stackModes c mats A1) k := by
  have hi := simInit_ok hinit
  obtain ⟨A1, res, hs, -⟩ := solveSpec_of_noStale (E := E) (mats := mats) hi.nodup (noStale_unsolved (c := c) mats c.stack)
  refine ⟨A1, fun hist i j S h => ?_⟩
  have hI : Inv E c mats (unsolved c.nh) A1 res (afterCalls E c hist (Dyn.fresh mats (unsolved c.nh))) :=
    (inv_fresh _ (.inl rfl)).calls hs hist
  obtain ⟨h1, h2, h3⟩ := det_getS' hs (some ((i : ℤ), (j : ℤ))) _ hI
  rw [h1] at h
  obtain ⟨h4, h5⟩ := h3 S h
  obtain rfl := valS_ok h
  have hf := hs.fix hi.nodup rfl
  rw [valS_solved hf] at h
  refine ⟨hf, h, fun k => ?_⟩
  rw [← lmodes_solved hf]
  unfold layerModes lmodes
  rw [h4.mats_eq, (h4.solved h5).2]

/-- **C22**. There are modes of the layers such that, whenever `get_S_matrix((i, j))` returns, after whatever calls, these
are the modes the layers hold, and for all incoming amplitudes there is exactly one assignment of amplitudes to the layers
`i..j` with continuous tangential fields, whose outgoing amplitudes are those given by the matrix returned. -/
theorem C22_get_S_matrix (hinit : simInit E lats mats stack exc nh form = .ok c) :
    ∃ layers : List (Modes (Idx c.nh)), layers.length = stack.length ∧
    ∀ (hist : List (Call c.nh)) (i j : ℕ) (S : SMat (Idx c.nh)),
      (getS E c (some ((i : ℤ), (j : ℤ))) (afterCalls E c hist (Dyn.fresh mats (unsolved c.nh)))).1 = .ok S →
      (∀ (k : ℕ) L, layers[k]? = some L → layerModes c (getS E c (some ((i : ℤ), (j : ℤ)))
        (afterCalls E c hist (Dyn.fresh mats (unsolved c.nh)))).2 (k : ℤ) = .ok L) ∧
      i < j ∧ j < stack.length ∧
      (∀ amp, Consistent layers i j amp →
        (amp j).1 = S.s11 *ᵥ (amp i).1 + S.s12 *ᵥ (amp j).2 ∧
        (amp i).2 = S.s21 *ᵥ (amp i).1 + S.s22 *ᵥ (amp j).2) ∧
      ∀ a b : Idx c.nh → ℂ, ∃ amp, Consistent layers i j amp ∧ (amp i).1 = a ∧ (amp j).2 = b ∧
        ∀ amp', Consistent layers i j amp' → (amp' i).1 = a → (amp' j).2 = b →
          ∀ k, i ≤ k → k ≤ j → amp' k = amp k := by
  obtain ⟨A1, hA⟩ := getS_fresh hinit
  have hlen : (stackModes c mats A1).length = stack.length := by
    rw [stackModes_length, (simInit_ok hinit).stack_eq]
  refine ⟨stackModes c mats A1, hlen, fun hist i j S h => ?_⟩
  obtain ⟨-, h1, h2⟩ := hA hist i j S h
  obtain ⟨a1, a2, a3, a4⟩ := C22_scattering_matrix_solves_stack _ i j S h1
  refine ⟨fun k L hk => ?_, a1, hlen ▸ a2, a3, a4⟩
  rw [h2]
  obtain ⟨hk', hk⟩ := List.getElem?_eq_some_iff.mp hk
  unfold pyGet pyIdx
  simp [hk', hk]

/-- **C23**. What `get_S_matrix((i, k))` returns is the star product of what `get_S_matrix((i, j))` and
`get_S_matrix((j, k))` return, each after whatever calls. -/
theorem C23_get_S_matrix (hinit : simInit E lats mats stack exc nh form = .ok c) (hist1 hist2 hist3 : List (Call c.nh))
    {i j k : ℕ} {S P T : SMat (Idx c.nh)}
    (hS : (getS E c (some ((i : ℤ), (j : ℤ))) (afterCalls E c hist1 (Dyn.fresh mats (unsolved c.nh)))).1 = .ok S)
    (hP : (getS E c (some ((j : ℤ), (k : ℤ))) (afterCalls E c hist2 (Dyn.fresh mats (unsolved c.nh)))).1 = .ok P)
    (hT : (getS E c (some ((i : ℤ), (k : ℤ))) (afterCalls E c hist3 (Dyn.fresh mats (unsolved c.nh)))).1 = .ok T) :
    (1 - S.s12 * P.s21).det ≠ 0 ∧ T = cascade S P := by
  obtain ⟨A1, hA⟩ := getS_fresh hinit
  exact C23_partial_scattering_matrices_compose _ i j k S P T (hA _ _ _ _ hS).2.1 (hA _ _ _ _ hP).2.1 (hA _ _ _ _ hT).2.1

theorem stepOut_restack {c : Static} (s : List ℕ) (n : List String) (L : LayerSpec) (a : LayerAttr c.nh) :
    stepOut E { c with stack := s, layerNames := n } L a = stepOut E c L a := by
  have h1 : solveUniform L ({ c with stack := s, layerNames := n } : Static).omega ({ c with stack := s, layerNames := n } : Static).kx
    ({ c with stack := s, layerNames := n } : Static).ky = solveUniform L c.omega c.kx c.ky := rfl
  have h2 : buildPure E { c with stack := s, layerNames := n } L = buildPure E c L := rfl
  unfold stepOut
  rw [h1, h2]
  by_cases h : L.iscopy = true
  · simp only [h, if_true]
    obtain ⟨M, p, Q, ev⟩ := a
    rcases M with _ | M <;> rcases p with _ | p <;> rcases Q with _ | Q <;> try rfl
    dsimp only
    rcases (if L.isUniform = true then solveUniform L c.omega c.kx c.ky else attr ev) with _ | _ <;> rfl
  · simp only [h]
    rcases buildPure E c L with e | (Q | ⟨M, p, Q⟩)
    · rfl
    · rcases solveUniform L c.omega c.kx c.ky with _ | _ <;> rfl
    · dsimp only
      rcases solveEigenproblem E M with _ | _ <;> rfl

theorem layerFix_restack {c : Static} {s : List ℕ} {n : List String} {A : ℕ → LayerAttr c.nh} {r : ℕ} :
    LayerFix E { c with stack := s, layerNames := n } mats A r ↔ LayerFix E c mats A r := by
  unfold LayerFix
  rw [stepOut_restack]

/-- **C24**. Inserting a layer of no thickness between two layers changes no result of `get_S_matrix()`, after whatever
calls on the two simulations. -/
theorem C24_get_S_matrix {pre post : List ℕ} {z : ℕ} {names : List String} (hpre : pre ≠ []) (hpost : post ≠ [])
    (hinit : simInit E lats mats (pre ++ post) exc nh form = .ok c)
    (hinit' : simInit E lats mats (pre ++ z :: post) exc nh form = .ok { c with stack := pre ++ z :: post, layerNames := names })
    (hcp : ∀ r ∈ pre ++ z :: post, (mats r).iscopy = false)
    (hz : (mats z).thickness = none ∨ (mats z).thickness = some 0)
    (hist : List (Call c.nh)) (hist' : List (Call c.nh)) {S S' : SMat (Idx c.nh)}
    (hS : (getS E c none (afterCalls E c hist (Dyn.fresh mats (unsolved c.nh)))).1 = .ok S)
    (hS' : (getS E { c with stack := pre ++ z :: post, layerNames := names } none
      (afterCalls E { c with stack := pre ++ z :: post, layerNames := names } hist' (Dyn.fresh mats (unsolved c.nh)))).1 = .ok S') :
    S' = S := by
  have hi := simInit_ok hinit
  have hi' := simInit_ok hinit'
  rw [getS_none_eq hi.nodup, hi.stack_eq] at hS
  rw [getS_none_eq hi'.nodup] at hS'
  obtain ⟨A1, hA⟩ := getS_fresh hinit
  obtain ⟨A2, hA'⟩ := getS_fresh hinit'
  have e1 : (((pre ++ post).length : ℤ) - 1) = (((pre ++ post).length - 1 : ℕ) : ℤ) := by
    have := List.length_pos_iff.mpr hpre
    simp only [List.length_append]
    omega
  have e2 : (((pre ++ z :: post).length : ℤ) - 1) = (((pre ++ z :: post).length - 1 : ℕ) : ℤ) := by
    have := List.length_pos_iff.mpr hpre
    simp only [List.length_append]
    omega
  rw [e1] at hS
  obtain ⟨f1, g1, -⟩ := hA hist 0 _ S hS
  erw [e2] at hS'
  obtain ⟨f2, g2, -⟩ := hA' hist' 0 _ S' hS'
  have hmodes : ∀ r ∈ pre ++ post, modesD (mats r) (A2 r) = modesD (mats r) (A1 r) := by
    intro r hr
    have hr' : r ∈ pre ++ z :: post := by
      rw [List.mem_append] at hr ⊢
      rcases hr with h | h
      · exact .inl h
      · exact .inr (List.mem_cons_of_mem _ h)
    exact modesD_of_form (c := c) (hcp r hr') (f1 r (by rw [hi.stack_eq]; exact hr)).form ((layerFix_restack.mp (f2 r hr')).form)
  have s1 : stackModes c mats A1 = pre.map (fun r => modesD (mats r) (A1 r)) ++ post.map (fun r => modesD (mats r) (A1 r)) := by
    unfold stackModes
    rw [hi.stack_eq, List.map_append]
  have s2 : stackModes { c with stack := pre ++ z :: post, layerNames := names } mats A2 =
      pre.map (fun r => modesD (mats r) (A1 r)) ++ modesD (mats z) (A2 z) :: post.map (fun r => modesD (mats r) (A1 r)) := by
    unfold stackModes
    dsimp only
    rw [List.map_append, List.map_cons]
    congr 1
    · exact List.map_congr_left fun r hr => hmodes r (List.mem_append_left _ hr)
    · congr 1
      exact List.map_congr_left fun r hr => hmodes r (List.mem_append_right _ hr)
  rw [s1] at g1
  rw [s2] at g2
  refine C24_zero_thickness_layer_is_transparent (pre.map fun r => modesD (mats r) (A1 r))
    (post.map fun r => modesD (mats r) (A1 r)) (modesD (mats z) (A2 z)) hz (by simpa using hpre) (by simpa using hpost) S S' ?_ ?_
  · simpa using g1
  · simpa using g2

theorem form_thickness {c : Static} {L : LayerSpec} {n : String} {t : Option ℝ} {Ao a : LayerAttr c.nh}
    (h : SolvedForm E c { L with name := n, thickness := t } Ao a) : SolvedForm E c L Ao a := by
  rcases h with ⟨Q, ev, hc, hb, he, hQ, ha⟩ | ⟨M, p, Q, ev, hc, hb, he, ha⟩ | ⟨M, p, Q, ev, hc, hu, hM, hp, hQ, he, ha⟩ |
    ⟨M, p, Q, ev, hc, hu, ho, ha⟩
  · exact .uniform Q ev hc hb he hQ ha
  · exact .patterned M p Q ev hc hb he ha
  · exact .copyUniform M p Q ev hc hu hM hp hQ he ha
  · exact .copyPatterned M p Q ev hc hu ho ha

/-- **C25**. Replacing an inner layer by two layers of the same material whose thicknesses add up to its thickness
changes no result of `get_S_matrix()`, after whatever calls on the two simulations. -/
theorem C25_get_S_matrix {pre post : List ℕ} {r r1 r2 : ℕ} {n1 n2 : String} {d d1 d2 : ℝ} {names : List String}
    (hpre : pre ≠ []) (hpost : post ≠ [])
    (hinit : simInit E lats mats (pre ++ r :: post) exc nh form = .ok c)
    (hinit' : simInit E lats mats (pre ++ r1 :: r2 :: post) exc nh form =
      .ok { c with stack := pre ++ r1 :: r2 :: post, layerNames := names })
    (hcp : ∀ q ∈ pre ++ r :: post, (mats q).iscopy = false)
    (hd : (mats r).thickness = some d)
    (h1 : mats r1 = { mats r with name := n1, thickness := some d1 })
    (h2 : mats r2 = { mats r with name := n2, thickness := some d2 }) (hsum : d = d1 + d2)
    (hist : List (Call c.nh)) (hist' : List (Call c.nh)) {S S' : SMat (Idx c.nh)}
    (hS : (getS E c none (afterCalls E c hist (Dyn.fresh mats (unsolved c.nh)))).1 = .ok S)
    (hS' : (getS E { c with stack := pre ++ r1 :: r2 :: post, layerNames := names } none
      (afterCalls E { c with stack := pre ++ r1 :: r2 :: post, layerNames := names } hist'
        (Dyn.fresh mats (unsolved c.nh)))).1 = .ok S') :
    S' = S := by
  have hi := simInit_ok hinit
  have hi' := simInit_ok hinit'
  rw [getS_none_eq hi.nodup, hi.stack_eq] at hS
  rw [getS_none_eq hi'.nodup] at hS'
  obtain ⟨A1, hA⟩ := getS_fresh hinit
  obtain ⟨A2, hA'⟩ := getS_fresh hinit'
  have e1 : (((pre ++ r :: post).length : ℤ) - 1) = (((pre ++ r :: post).length - 1 : ℕ) : ℤ) := by
    have := List.length_pos_iff.mpr hpre
    simp only [List.length_append]
    omega
  have e2 : (((pre ++ r1 :: r2 :: post).length : ℤ) - 1) = (((pre ++ r1 :: r2 :: post).length - 1 : ℕ) : ℤ) := by
    have := List.length_pos_iff.mpr hpre
    simp only [List.length_append]
    omega
  rw [e1] at hS
  obtain ⟨f1, g1, -⟩ := hA hist 0 _ S hS
  erw [e2] at hS'
  obtain ⟨f2, g2, -⟩ := hA' hist' 0 _ S' hS'
  have hmem : ∀ q, q ∈ pre ∨ q ∈ post → q ∈ pre ++ r :: post ∧ q ∈ pre ++ r1 :: r2 :: post := by
    intro q hq
    simp only [List.mem_append, List.mem_cons]
    tauto
  have hmodes : ∀ q, q ∈ pre ∨ q ∈ post → modesD (mats q) (A2 q) = modesD (mats q) (A1 q) := by
    intro q hq
    obtain ⟨q1, q2⟩ := hmem q hq
    exact modesD_of_form (c := c) (hcp q q1) (f1 q (by rw [hi.stack_eq]; exact q1)).form ((layerFix_restack.mp (f2 q q2)).form)
  have hr : SolvedForm E c (mats r) (A1 (mats r).original) (A1 r) := (f1 r (by rw [hi.stack_eq]; simp)).form
  have hr1 := (layerFix_restack.mp (f2 r1 (by simp))).form
  have hr2 := (layerFix_restack.mp (f2 r2 (by simp))).form
  have k1 : modesD (mats r) (A2 r1) = modesD (mats r) (A1 r) := by
    rw [h1] at hr1
    exact modesD_of_form (c := c) (hcp r (by simp)) hr (form_thickness hr1)
  have k2 : modesD (mats r) (A2 r2) = modesD (mats r) (A1 r) := by
    rw [h2] at hr2
    exact modesD_of_form (c := c) (hcp r (by simp)) hr (form_thickness hr2)
  have s1 : stackModes c mats A1 = pre.map (fun r => modesD (mats r) (A1 r)) ++ modesD (mats r) (A1 r) ::
      post.map (fun r => modesD (mats r) (A1 r)) := by
    unfold stackModes
    rw [hi.stack_eq, List.map_append, List.map_cons]
  have s2 : stackModes { c with stack := pre ++ r1 :: r2 :: post, layerNames := names } mats A2 =
      pre.map (fun r => modesD (mats r) (A1 r)) ++ modesD (mats r1) (A2 r1) :: modesD (mats r2) (A2 r2) ::
        post.map (fun r => modesD (mats r) (A1 r)) := by
    unfold stackModes
    dsimp only
    rw [List.map_append, List.map_cons, List.map_cons]
    congr 1
    · exact List.map_congr_left fun q hq => hmodes q (.inl hq)
    · congr 2
      exact List.map_congr_left fun q hq => hmodes q (.inr hq)
  rw [s1] at g1
  rw [s2] at g2
  have t1 : SameModes (modesD (mats r) (A1 r)) (modesD (mats r1) (A2 r1)) := by
    rw [← k1, h1]
    exact ⟨rfl, rfl, rfl⟩
  have t2 : SameModes (modesD (mats r) (A1 r)) (modesD (mats r2) (A2 r2)) := by
    rw [← k2, h2]
    exact ⟨rfl, rfl, rfl⟩
  refine C25_splitting_a_layer_changes_nothing (pre.map fun r => modesD (mats r) (A1 r))
    (post.map fun r => modesD (mats r) (A1 r)) _ _ _ d d1 d2 t1 t2 hd (by rw [h1]; rfl) (by rw [h2]; rfl) hsum
    (by simpa using hpre) (by simpa using hpost) S S' ?_ ?_
  · simpa using g1
  · simpa using g2

namespace Examples

/-- C22, C23: a film of permittivity 2 between 1 and 4. -/
example : ∃ (exc : PlaneWave) (c : Static) (S : SMat (Idx c.nh)), planeWave 1 (0, 0, 30) = .ok exc ∧
    simInit exE (fun _ => exLat) (filmMats (fun r => ((2 ^ r : ℝ) : ℂ)) 1 1) [0, 1, 2] exc 1 "original" = .ok c ∧
    (getS exE c (some (((0 : ℕ) : ℤ), ((2 : ℕ) : ℤ))) (Dyn.fresh (filmMats (fun r => ((2 ^ r : ℝ) : ℂ)) 1 1) (unsolved c.nh))).1 = .ok S := by
  obtain ⟨exc, hp, -⟩ := normal_incidence 1 30 one_pos
  have hpos : ∀ r : ℕ, (0 : ℝ) < 2 ^ r := fun r => by positivity
  obtain ⟨c, hi, hH, hl⟩ := planar_init (filmMats (fun r => ((2 ^ r : ℝ) : ℂ)) 1 1) 0 [1, 2] exc (by simp [filmMats, exLayer])
    (by simp [filmMats, exLayer]) (filmMats_hom _ _ _ _) (by rw [filmMats_eps, filmMats_mu]; simp)
  obtain ⟨S, hS⟩ := films_getS (fun r => 2 ^ r) 1 (fun _ => zero_le_one) hpos 0 1 2 one_pos hp hi hH hl
  refine ⟨exc, c, S, hp, hi, ?_⟩
  rw [getS_none_eq (simInit_ok hi).nodup, (simInit_ok hi).stack_eq] at hS
  exact hS

/-- Homogeneous layers: objects 0 to 4 of permittivities 1, 2, 4, 2, 2 and thicknesses 1, 3, 1, 1, 2, and object 5 of no
thickness. -/
noncomputable def fiveMats (r : ℕ) : LayerSpec :=
  exLayer (["Superstrate", "Film", "Substrate", "Upper half", "Lower half"].getD r "Nothing") ([1, 3, 1, 1, 2].getD r 0)
    (NdArr.scalar (([1, 2, 4, 2, 2] : List ℝ).getD r 3 : ℂ))

theorem fiveMats_eps (r : ℕ) : (fiveMats r).epsilon.value = (([1, 2, 4, 2, 2] : List ℝ).getD r 3 : ℂ) := rfl

theorem five_pos (r : ℕ) : (0 : ℝ) < ([1, 2, 4, 2, 2] : List ℝ).getD r 3 := by
  rcases r with _ | _ | _ | _ | _ | r <;> simp

theorem five_thick (r : ℕ) : (0 : ℝ) ≤ ([1, 3, 1, 1, 2] : List ℝ).getD r 0 := by
  rcases r with _ | _ | _ | _ | _ | r <;> simp

theorem five_getS (r0 r1 : ℕ) (tl : List ℕ) {exc : PlaneWave} {wl ps : ℝ} (hwl : 0 < wl) (hp : planeWave wl (0, 0, ps) = .ok exc)
    (hn : ((r0 :: r1 :: tl).map fun r => (fiveMats r).name).Nodup) :
    ∃ c, simInit exE (fun _ => exLat) fiveMats (r0 :: r1 :: tl) exc 1 "original" = .ok c ∧
      ∃ S, (getS exE c none (afterCalls exE c [] (Dyn.fresh fiveMats (unsolved c.nh)))).1 = .ok S := by
  have ht : exc.theta = 0 := by rw [(planeWave_ok hp).2.2.1]; simp
  obtain ⟨c, hi, hH, hl⟩ := planar_init fiveMats r0 (r1 :: tl) exc hn (fun r _ => rfl) ⟨rfl, rfl, rfl⟩
    (by rw [fiveMats_eps]; exact mul_ne_zero (by exact_mod_cast (five_pos r0).ne') one_ne_zero)
  refine ⟨c, hi, ?_⟩
  obtain ⟨RT, h⟩ := C80_planar_defined (e := ([1, 2, 4, 2, 2] : List ℝ).getD r0 3) hi (fun r _ => ⟨rfl, rfl, rfl⟩) hp hwl (by rw [ht]; simp)
    (by rw [hH]; simp) (five_pos r0) rfl
    (fiveMats_eps _) rfl exSort_spec (by rw [hl]; rfl) (by simp) (fun r _ => rfl)
    (fun r _ => by rw [fiveMats_eps]; exact_mod_cast (five_pos r).ne')
    (fun r _ => by rw [fiveMats_eps, ht]; simpa using (five_pos r).ne')
    (fun k r _ _ _ => ⟨by rw [fiveMats_eps]; simp, fun t h => by rw [← Option.some.inj h]; exact five_thick r⟩) []
  exact getS_of_eff (simInit_ok hi).nodup h

/-- C24: a layer of no thickness between permittivities 1 and 4. -/
example : ∃ (exc : PlaneWave) (c : Static) (names : List String) (S S' : SMat (Idx c.nh)), planeWave 1 (0, 0, 30) = .ok exc ∧
    simInit exE (fun _ => exLat) fiveMats ([0] ++ [2]) exc 1 "original" = .ok c ∧
    simInit exE (fun _ => exLat) fiveMats ([0] ++ 5 :: [2]) exc 1 "original" =
      .ok { c with stack := [0] ++ 5 :: [2], layerNames := names } ∧
    (getS exE c none (Dyn.fresh fiveMats (unsolved c.nh))).1 = .ok S ∧
    (getS exE { c with stack := [0] ++ 5 :: [2], layerNames := names } none
      (Dyn.fresh fiveMats (unsolved c.nh))).1 = .ok S' ∧ S' = S := by
  obtain ⟨exc, hp, -⟩ := normal_incidence 1 30 one_pos
  obtain ⟨c, hi, S, hS⟩ := five_getS 0 2 [] one_pos hp (by simp [fiveMats, exLayer])
  obtain ⟨c', hi', hS'⟩ := five_getS 0 5 [2] one_pos hp (by simp [fiveMats, exLayer])
  obtain rfl := simInit_restack rfl hi hi' rfl (by rintro r r' ⟨⟩ ⟨⟩; exact ⟨rfl, rfl, rfl⟩)
  obtain ⟨S', hS'⟩ := hS'
  refine ⟨exc, c, _, S, S', hp, hi, hi', hS, hS', ?_⟩
  exact C24_get_S_matrix (pre := [0]) (post := [2]) (z := 5) (by simp) (by simp) hi hi' (fun r _ => rfl) (.inr rfl) [] [] hS hS'

/-- C25: a film of thickness 3 is the same as two films of thicknesses 1 and 2. -/
example : ∃ (exc : PlaneWave) (c : Static) (names : List String) (S S' : SMat (Idx c.nh)), planeWave 1 (0, 0, 30) = .ok exc ∧
    simInit exE (fun _ => exLat) fiveMats ([0] ++ 1 :: [2]) exc 1 "original" = .ok c ∧
    simInit exE (fun _ => exLat) fiveMats ([0] ++ 3 :: 4 :: [2]) exc 1 "original" =
      .ok { c with stack := [0] ++ 3 :: 4 :: [2], layerNames := names } ∧
    (getS exE c none (Dyn.fresh fiveMats (unsolved c.nh))).1 = .ok S ∧
    (getS exE { c with stack := [0] ++ 3 :: 4 :: [2], layerNames := names } none
      (Dyn.fresh fiveMats (unsolved c.nh))).1 = .ok S' ∧ S' = S := by
  obtain ⟨exc, hp, -⟩ := normal_incidence 1 30 one_pos
  obtain ⟨c, hi, S, hS⟩ := five_getS 0 1 [2] one_pos hp (by simp [fiveMats, exLayer])
  obtain ⟨c', hi', hS'⟩ := five_getS 0 3 [4, 2] one_pos hp (by simp [fiveMats, exLayer])
  obtain rfl := simInit_restack rfl hi hi' rfl (by rintro r r' ⟨⟩ ⟨⟩; exact ⟨rfl, rfl, rfl⟩)
  obtain ⟨S', hS'⟩ := hS'
  refine ⟨exc, c, _, S, S', hp, hi, hi', hS, hS', ?_⟩
  exact C25_get_S_matrix (pre := [0]) (post := [2]) (r := 1) (r1 := 3) (r2 := 4) (n1 := "Upper half") (n2 := "Lower half") (d := 3) (d1 := 1) (d2 := 2) (by simp) (by simp) hi hi' (fun r _ => rfl)
    rfl rfl rfl (by norm_num) [] [] hS hS'

end Examples

end Nannos
