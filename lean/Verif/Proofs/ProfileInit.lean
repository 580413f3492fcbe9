import Verif.Proofs.ProfileSim
import Verif.Proofs.EmbeddedInit

/-! The constructor for two stacks describing one structure (C83). -/

namespace Nannos

open Matrix Spec

variable {E E' : Ext} {c c' : Static} {mats mats' : ℕ → LayerSpec}

/-- The constructor gives the same data apart from the stack. -/
theorem simInit_restack {lats stack stack' exc nh form} (hs : E'.argsort = E.argsort)
    (hinit : simInit E lats mats stack exc nh form = .ok c)
    (hinit' : simInit E' lats mats' stack' exc nh form = .ok c')
    (hu : (stack'.all fun r => (mats' r).isUniform) = stack.all fun r => (mats r).isUniform)
    (h0 : ∀ r r', stack.head? = some r → stack'.head? = some r' → (mats' r').epsilon = (mats r).epsilon ∧
      (mats' r').mu = (mats r).mu ∧ (mats' r').lattice = (mats r).lattice) :
    c' = { c with stack := stack', layerNames := stack'.map fun r => (mats' r).name } := by
  have hi := simInit_ok hinit
  have hi' := simInit_ok hinit'
  obtain ⟨r0, tl, rfl⟩ := List.exists_cons_of_ne_nil hi.ne
  obtain ⟨r0', tl', rfl⟩ := List.exists_cons_of_ne_nil hi'.ne
  obtain ⟨e1, e2, e3⟩ := h0 r0 r0' rfl rfl
  have x1 := hi.stack_eq
  have x2 := hi.names_eq
  have x3 := hi.lat_eq r0 rfl
  have x4 := hi.form_eq
  have x5 := hi.exc_eq
  have x6 := hi.omega_eq
  obtain ⟨n, x7⟩ := hi.harm
  obtain ⟨-, -, -, x8, x9⟩ := hi.sup r0 rfl
  obtain ⟨r, x10, x11, x12⟩ := hi.recip
  have x13 := hi.idx
  have x14 := hi.a0
  have y1 := hi'.stack_eq
  have y2 := hi'.names_eq
  have y3 := hi'.lat_eq r0' rfl
  have y4 := hi'.form_eq
  have y5 := hi'.exc_eq
  have y6 := hi'.omega_eq
  obtain ⟨n', y7⟩ := hi'.harm
  obtain ⟨-, -, -, y8, y9⟩ := hi'.sup r0' rfl
  obtain ⟨r', y10, y11, y12⟩ := hi'.recip
  have y13 := hi'.idx
  have y14 := hi'.a0
  rw [hu, hs, y3, e3, ← x3, x7] at y7
  rw [y3, e3, ← x3, x10] at y10
  rw [e1, e2] at y8 y9
  rw [e3, ← x3] at y3
  obtain rfl := Except.ok.inj y10
  have hH := (Prod.mk.inj (Except.ok.inj y7)).1
  clear hi hi' hinit hinit' x7 y7 x10 y10
  rcases c with ⟨a1, a2, a3, a4, a5, a6, a7, a8, a9, a10, a11, a12, a13⟩
  rcases c' with ⟨b1, b2, b3, b4, b5, b6, b7, b8, b9, b10, b11, b12, b13⟩
  dsimp only at *
  subst hH
  have k1 : b7 = a7 := y9.trans x9.symm
  have k2 : b10 = a10 := y13.trans x13.symm
  have k3 : b8 = a8 := by funext i; rw [x11, y11, k1]
  have k4 : b9 = a9 := by funext i; rw [x12, y12, k1]
  have k5 : b11 = a11 := by
    funext k
    rcases k with i | i
    · rw [(x14 i).1, (y14 i).1, k2]
    · rw [(x14 i).2, (y14 i).2, k2]
  rw [y3, y4, y5, y6, y8, k1, k2, k3, k4, k5, y1, y2, x4, x5, x6, x8]

/-- `build_matrix` depends on the material only. -/
theorem buildPure_material (h1 : E'.argsort = E.argsort) (h2 : E'.tangent = E.tangent) {st : List ℕ} {nm : List String}
    {L L' : LayerSpec} (hL : materialOf L' = materialOf L) (hmu : L'.mu = L.mu) :
    buildPure E' { c with stack := st, layerNames := nm } L' = buildPure E c L := by
  cases E; cases E'; cases L; cases L'
  simp only [materialOf, Material.mk.injEq] at hL hmu h1 h2
  obtain ⟨rfl, rfl, rfl⟩ := hL
  subst hmu h1 h2
  rfl

/-- The operators of a layer are those of a layer of the same material which is not a copy. -/
theorem medium_base {stack : List ℕ} (hw : WellPlaced mats stack) (hfc : FaithfulCopies mats stack)
    (hmu : ∀ r ∈ stack, (mats r).mu = 1) {r P e} (hM : Medium E c mats r P e) (hr : r ∈ stack) :
    ∃ b, (mats b).iscopy = false ∧ (mats b).mu = 1 ∧ materialOf (mats b) = materialOf (mats r) ∧ Medium E c mats b P e := by
  induction hM with
  | uniform r hc hu ha => exact ⟨r, hc, hmu r hr, rfl, .uniform r hc hu ha⟩
  | patterned r M p Q hc hb => exact ⟨r, hc, hmu r hr, rfl, .patterned r M p Q hc hb⟩
  | copy r P e hc ho ih =>
    obtain ⟨k, hk⟩ := List.mem_iff_getElem?.mp hr
    obtain ⟨⟨j, -, hj⟩, -, -⟩ := hw k r hk hc
    obtain ⟨f1, f2, f3, f4⟩ := hfc r hr hc
    obtain ⟨b, b1, b2, b3, b4⟩ := ih (List.mem_of_getElem? hj)
    refine ⟨b, b1, b2, b3.trans ?_, b4⟩
    unfold materialOf
    rw [f1, f3, f4]

theorem medium_cases {r P e} (hM : Medium E c mats r P e) (hc : (mats r).iscopy = false) :
    ((mats r).isUniform = true ∧ P = (mats r).epsilon.value • 1 ∧ e = (mats r).epsilon.value • 1) ∨
    ∃ M p Q, buildPure E c (mats r) = .ok (.patterned M p Q) ∧ P = p.Peps ∧ e = p.epsHat := by
  cases hM with
  | copy _ _ _ hc' _ => rw [hc] at hc'; cases hc'
  | uniform _ _ hu ha => exact .inl ⟨hu, rfl, rfl⟩
  | patterned _ M p Q _ hb => exact .inr ⟨M, p, Q, hb, rfl, rfl⟩

/-- Layers of one material have the same operators. -/
theorem medium_material {stack stack' : List ℕ} (h1 : E'.argsort = E.argsort) (h2 : E'.tangent = E.tangent)
    {st : List ℕ} {nm : List String} (hw : WellPlaced mats stack) (hfc : FaithfulCopies mats stack)
    (hmu : ∀ r ∈ stack, (mats r).mu = 1) (hw' : WellPlaced mats' stack') (hfc' : FaithfulCopies mats' stack')
    (hmu' : ∀ r ∈ stack', (mats' r).mu = 1) {r r' : ℕ} {P P' : Matrix (Idx c.nh) (Idx c.nh) ℂ}
    {e e' : Matrix (Fin c.nh) (Fin c.nh) ℂ} (hr : r ∈ stack)
    (hr' : r' ∈ stack') (hm : materialOf (mats' r') = materialOf (mats r)) (hM : Medium E c mats r P e)
    (hM' : Medium E' { c with stack := st, layerNames := nm } mats' r' P' e') : P' = P ∧ e' = e := by
  obtain ⟨b, b1, b2, b3, b4⟩ := medium_base hw hfc hmu hM hr
  obtain ⟨b', b1', b2', b3', b4'⟩ := medium_base hw' hfc' hmu' hM' hr'
  have hb : materialOf (mats' b') = materialOf (mats b) := by rw [b3', hm, b3]
  have heps : (mats' b').epsilon = (mats b).epsilon := congrArg Material.epsilon hb
  have hun := material_uniform hb
  rcases medium_cases b4 b1 with ⟨hu, rfl, rfl⟩ | ⟨M, p, Q, hbp, rfl, rfl⟩ <;>
    rcases medium_cases b4' b1' with ⟨hu', rfl, rfl⟩ | ⟨M', p', Q', hb', rfl, rfl⟩
  · rw [heps]; exact ⟨rfl, rfl⟩
  · have := (buildPure_patterned_ok (L := mats' b') b2' hb').1
    rw [hun, hu] at this
    cases this
  · have hnu := (buildPure_patterned_ok b2 hbp).1
    rw [hun, hnu] at hu'
    cases hu'
  · rw [buildPure_material h1 h2 hb (b2'.trans b2.symm), hbp] at hb'
    simp only [Except.ok.injEq, BuiltLayer.patterned.injEq] at hb'
    rw [hb'.2.1]
    exact ⟨rfl, rfl⟩

theorem embD_id {n : ℕ} : embD (id : Fin n → Fin n) = 1 := by
  ext i j
  simp [embD, Matrix.one_apply]

theorem embU_id {n : ℕ} : embU (id : Fin n → Fin n) = 1 := by
  unfold embU
  rw [embD_id, fromBlocks_one]

/-- A stack of at least two layers. -/
theorem stack_parts {st : List ℕ} (h : 2 ≤ st.length) :
    ∃ r0 rN, st = r0 :: (st.tail.dropLast ++ [rN]) ∧ st.head? = some r0 ∧ st.getLast? = some rN := by
  rcases st with _ | ⟨r0, t⟩
  · simp at h
  · have ht : t ≠ [] := by rintro rfl; simp at h
    refine ⟨r0, t.getLast ht, ?_, rfl, ?_⟩
    · rw [List.tail_cons, List.dropLast_append_getLast]
    · rw [List.getLast?_eq_getLast_of_ne_nil (by simp), List.getLast_cons ht]

end Nannos
