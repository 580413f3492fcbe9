import Verif.Proofs.ProfileInit
import Verif.Props.Supercell

/-! Simulations of one structure, up to the thickness of the superstrate (C83, C84). -/

namespace Nannos

open Matrix Spec

variable {E E' : Ext} {lats : ℕ → Lattice} {mats mats' : ℕ → LayerSpec} {stack stack' : List ℕ} {wl : ℝ}
  {angles : ℝ × ℝ × ℝ} {exc : PlaneWave} {nh : ℤ} {form : String} {c c' : Static}

/-- What is needed of the superstrate for the efficiencies: its thickness only turns the phase of the incident wave. -/
structure DelayOnly (c : Static) (L0 : Modes (Idx c.nh)) (lam : ℂ) : Prop where
  back : ∀ b f g, poyntingFlux c L0 c.a0 b = .ok f → poyntingFlux c L0 c.a0 (lam • b) = .ok g → g.2 = f.2
  norm : ‖lam‖ = 1

theorem structure_core (hE : EigContract E) (hE' : EigContract E') (hsort : E'.argsort = E.argsort)
    (htan : E'.tangent = E.tangent) (hexc : planeWave wl angles = .ok exc)
    (hinit : simInit E lats mats stack exc nh form = .ok c)
    (hinit' : simInit E' lats mats' stack' exc nh form = .ok c')
    (hlat : ∀ r ∈ stack, ∀ r' ∈ stack', (mats' r').lattice = (mats r).lattice)
    (huni : (stack'.all fun r => (mats' r).isUniform) = stack.all fun r => (mats r).isUniform)
    (hsame : SameBelow mats stack mats' stack')
    (hpos : ∀ r ∈ stack, 0 ≤ thicknessOf (mats r)) (hpos' : ∀ r ∈ stack', 0 ≤ thicknessOf (mats' r))
    (hmu : ∀ r ∈ stack, (mats r).mu = 1) (hmu' : ∀ r ∈ stack', (mats' r).mu = 1)
    (hw : WellPlaced mats stack) (hw' : WellPlaced mats' stack')
    (hfc : FaithfulCopies mats stack) (hfc' : FaithfulCopies mats' stack') (lam : ℂ)
    (hlam : ∀ r0 (A : ℕ → LayerAttr c.nh), stack.head? = some r0 → LayerFix E c mats A r0 →
      Delay c (modesD (mats r0) (A r0)) (superstrateThickness mats' stack') lam)
    (hist : List (Call c.nh)) (hist' : List (Call c'.nh)) :
    c'.harmonics = c.harmonics ∧
    ((∀ r0 (A : ℕ → LayerAttr c.nh), stack.head? = some r0 → LayerFix E c mats A r0 →
        DelayOnly c (modesD (mats r0) (A r0)) lam) → ∀ orders X X',
      (diffractionEfficiencies E c orders (afterCalls E c hist (Dyn.fresh mats (unsolved c.nh)))).1 = .ok X →
      (diffractionEfficiencies E' c' orders (afterCalls E' c' hist' (Dyn.fresh mats' (unsolved c'.nh)))).1 = .ok X' →
      EqualEfficiencies X X') ∧
    ∀ (k k' : ℕ) zs zs' Fs Fs',
      (getFieldFourier E c (.idx k) zs (afterCalls E c hist (Dyn.fresh mats (unsolved c.nh)))).1 = .ok Fs →
      (getFieldFourier E' c' (.idx k') zs' (afterCalls E' c' hist' (Dyn.fresh mats' (unsolved c'.nh)))).1 = .ok Fs' →
      ∀ r r', stack[k]? = some r → stack'[k']? = some r' → materialOf (mats' r') = materialOf (mats r) →
      ∀ (n n' : ℕ) z z' F F', zs[n]? = some z → Fs[n]? = some F → zs'[n']? = some z' → Fs'[n']? = some F' →
        InsideLayer mats stack k z → InsideLayer mats' stack' k' z' →
        depthOf mats stack k z - superstrateThickness mats stack =
          depthOf mats' stack' k' z' - superstrateThickness mats' stack' → MultipliedFields lam F F' := by
  have h0 : ∀ r r', stack.head? = some r → stack'.head? = some r' → (mats' r').epsilon = (mats r).epsilon ∧
      (mats' r').mu = (mats r).mu ∧ (mats' r').lattice = (mats r).lattice := by
    intro r r' hr hr'
    have m := List.mem_of_mem_head? hr
    have m' := List.mem_of_mem_head? hr'
    exact ⟨congrArg Material.epsilon (hsame.superstrate r r' hr hr'), by rw [hmu r m, hmu' r' m'], hlat r m r' m'⟩
  have hc := simInit_restack hsort hinit hinit' huni h0
  have hi := simInit_ok hinit
  have hst : c.stack = stack := hi.stack_eq
  have hom : c.omega ≠ 0 := by
    rw [hi.omega_eq]
    have := planeWave_nonzero hexc
    have := Real.pi_pos
    positivity
  generalize hnm : (stack'.map fun r => (mats' r).name) = nm at hc
  subst hc
  -- the two simulations, once both stacks are known to have two layers
  have alike : 2 ≤ stack.length → 2 ≤ stack'.length → ∃ r0 rN r0' rN', (stack.head? = some r0 ∧ stack'.head? = some r0') ∧
      MediaAlike (c := c) (c' := { c with stack := stack', layerNames := nm }) (id : Fin c.nh → Fin c.nh) E E' mats mats'
        r0 rN stack.tail.dropLast r0' rN' stack'.tail.dropLast := by
    intro l l'
    obtain ⟨r0, rN, p1, p2, p3⟩ := stack_parts l
    obtain ⟨r0', rN', p1', p2', p3'⟩ := stack_parts l'
    refine ⟨r0, rN, r0', rN', ⟨p2, p2'⟩, ?_⟩
    have sub : ∀ r ∈ stack.tail.dropLast, r ∈ stack := fun r hr => List.mem_of_mem_tail (List.mem_of_mem_dropLast hr)
    have sub' : ∀ r ∈ stack'.tail.dropLast, r ∈ stack' := fun r hr => List.mem_of_mem_tail (List.mem_of_mem_dropLast hr)
    refine ⟨hst.trans p1, p1', Function.injective_id, hst ▸ hmu, hmu', hE, hE', hst ▸ hw, hw', rfl, hom, fun _ => rfl,
      fun _ => rfl, fun r hr => hpos r (sub r hr), fun r hr => hpos' r (sub' r hr), hsame.superstrate _ _ p2 p2',
      hsame.substrate _ _ p3 p3', hsame.inside, ?_, (hi.sup r0 p2).1, ?_, rfl⟩
    · intro r hr r' hr' hm P e P' e' hM hM'
      obtain ⟨rfl, rfl⟩ := medium_material hsort htan hw hfc hmu hw' hfc' hmu' (hst ▸ hr) hr' hm hM hM'
      rw [show embU (id : Fin c.nh → Fin c.nh) = 1 from embU_id, show embD (id : Fin c.nh → Fin c.nh) = 1 from embD_id]
      simp only [Matrix.mul_one, Matrix.one_mul]
      exact ⟨trivial, trivial⟩
    · rw [show embU (id : Fin c.nh → Fin c.nh) = 1 from embU_id, one_mulVec]
  refine ⟨rfl, ?_, ?_⟩
  · intro hdelay o X X' hX hX'
    obtain ⟨RT, e1, rfl⟩ := diffraction_eq hX
    obtain ⟨RT', e1', rfl⟩ := diffraction_eq hX'
    obtain ⟨A, hA⟩ := efficiencies_of_history hinit
    obtain ⟨A', hA'⟩ := efficiencies_of_history hinit'
    obtain ⟨fx, v⟩ := hA _ _ e1
    obtain ⟨fx', v'⟩ := hA' _ _ e1'
    have l : 2 ≤ stack.length := by
      obtain ⟨-, S, -, -, -, -, -, -, hS, -⟩ := v
      have := (steps_of_valS fx hS).1
      rwa [stackModes_length, hst] at this
    have l' : 2 ≤ stack'.length := by
      obtain ⟨-, S, -, -, -, -, -, -, hS, -⟩ := v'
      have := (steps_of_valS fx' hS).1
      rwa [stackModes_length] at this
    obtain ⟨r0, rN, r0', rN', ⟨p2, p2'⟩, hm⟩ := alike l l'
    have hl := hlam r0 A p2 (fx r0 (hst ▸ List.mem_of_mem_head? p2))
    have hdo := hdelay r0 A p2 (fx r0 (hst ▸ List.mem_of_mem_head? p2))
    rw [show superstrateThickness mats' stack' = thicknessOf (mats' r0') by simp [superstrateThickness, p2']] at hl
    obtain ⟨key, -⟩ := hm.efficiencies fx fx' hl hdo.back hdo.norm v v'
    cases o
    · exact ⟨Finset.sum_congr rfl fun i _ => (key i).1, Finset.sum_congr rfl fun i _ => (key i).2⟩
    · intro i j hij
      obtain rfl : i = j := Fin.ext hij
      exact key i
  · intro k k' zs zs' Fs Fs' hF hF' r r' hr hr' hmat n n' z z' G G' z1 z2 z3 z4 hin hin' hd
    obtain ⟨A, hA⟩ := fields_of_history hinit hE hw hmu
    obtain ⟨A', hA'⟩ := fields_of_history hinit' hE' hw' hmu'
    obtain ⟨fx, s, i, ab, g1, g2, -, M, t, F, g3, g4, g5, g6, g7, rfl⟩ :=
      hA _ _ _ _ (by rintro rfl; simp at z1) hF
    obtain ⟨fx', s', i', ab', g1', g2', -, M', t', F', g3', g4', g5', g6', g7', rfl⟩ :=
      hA' _ _ _ _ (by rintro rfl; simp at z3) hF'
    have at_ : ∀ {b : Static} {k : ℕ} {s : ℕ} {i : ℤ} {r : ℕ}, getLayer b (.idx k) = .ok (s, i) → b.stack[k]? = some r →
        s = r ∧ i = k := by
      intro b k s i r hg hk
      unfold getLayer at hg
      dsimp only at hg
      rw [(pyGet_nat b.stack k r).mpr hk] at hg
      exact ⟨(Prod.mk.inj (Except.ok.inj hg)).1.symm, (Prod.mk.inj (Except.ok.inj hg)).2.symm⟩
    have hr2 : c.stack[k]? = some r := by rw [hst]; exact hr
    obtain ⟨rfl, rfl⟩ := at_ g1 hr2
    obtain ⟨rfl, rfl⟩ := at_ g1' hr'
    have l : 2 ≤ stack.length := by
      have := (steps_of_ampV fx g2).1
      rwa [stackModes_length, hst] at this
    have l' : 2 ≤ stack'.length := by
      have := (steps_of_ampV fx' g2').1
      rwa [stackModes_length] at this
    obtain ⟨r0, rN, r0', rN', ⟨p2, p2'⟩, hm⟩ := alike l l'
    have hl := hlam r0 A p2 (fx r0 (hst ▸ List.mem_of_mem_head? p2))
    have s1 : superstrateThickness mats stack = thicknessOf (mats r0) := by simp [superstrateThickness, p2]
    have s2 : superstrateThickness mats' stack' = thicknessOf (mats' r0') := by simp [superstrateThickness, p2']
    rw [s2] at hl
    rw [s1, s2] at hd
    have idx : ∀ {st : List ℕ} {k r : ℕ}, st[k]? = some r → pyIdx st.length (k : ℤ) = some k := by
      intro st k r hk
      have := (List.getElem?_eq_some_iff.mp hk).1
      unfold pyIdx
      rw [if_pos (by positivity), if_pos (by exact_mod_cast this), Int.toNat_natCast]
    have hG : F z = G := by
      rw [List.getElem?_map, z1] at z2
      exact Option.some.inj z2
    have hG' : F' z' = G' := by
      rw [List.getElem?_map, z3] at z4
      exact Option.some.inj z4
    have key := hm.fields fx fx' hl (getLayer_pyGet g1) (getLayer_pyGet g1') g2 g2' g3 g3' (g6 z) (g6' z') (idx hr2) (idx hr')
      (hst.symm ▸ hin) hin' (hst.symm ▸ hd) hmat
    rw [hG, hG'] at key
    intro a b hab
    obtain rfl : a = b := Fin.ext hab
    have one : ∀ v : Fin c.nh → ℂ, embD (id : Fin c.nh → Fin c.nh) *ᵥ v = v := by
      intro v
      rw [embD_id, one_mulVec]
    unfold eVec hVec
    rw [key.ex, key.ey, key.ez, key.hx, key.hy, key.hz]
    simp only [one, scaleF]
    constructor <;> simp

end Nannos
