import Verif.Proofs.Orders
import Verif.Props.Energy
import Verif.Props.Lattice

/-!
Properties C10 and C11: lookup of diffraction orders, and efficiencies returned as dictionaries.
-/

namespace Nannos

open Spec

variable {E : Ext} {lats : ℕ → Lattice} {mats : ℕ → LayerSpec} {stack : List ℕ} {exc : PlaneWave} {nh : ℤ}
  {form : String} {c : Static} {V : Type}

/-- The harmonics table of a simulation has distinct entries, unless the user supplied repeated ones. -/
theorem harmonics_distinct (hA : ArgsortContract E.argsort) (hinit : simInit E lats mats stack exc nh form = .ok c)
    (hn : 1 ≤ nh) (hu : ∀ H, c.lattice.harmonicsArray = some H → H.Nodup) : c.harmonics.Nodup := by
  obtain ⟨n, hH⟩ := (simInit_ok hinit).harm
  obtain ⟨r, hr, -⟩ := (simInit_ok hinit).recip
  have hn' : 1 ≤ effectiveNh nh (stack.all fun r => (mats r).isUniform) := by
    unfold effectiveNh
    dsimp only
    split_ifs <;> omega
  obtain ⟨H', h1, hp, -⟩ := getHarmonics_ok hA hH
  rcases hH' : c.lattice.harmonicsArray with _ | H
  · rcases ht : c.lattice.truncation
    · obtain ⟨H, n', h2, -, h3, -⟩ := C05_mono_periodic_truncation E.argsort hA c.lattice ht hH' _ true
      rw [hH] at h2
      cases h2
      exact h3
    · obtain ⟨H, n', h2, -, -, h3, -⟩ := C07_circular_truncation E.argsort hA c.lattice ht hH' r hr _ hn' true
      rw [hH] at h2
      cases h2
      exact h3
    · unfold Lattice.getHarmonics' at h1
      rw [hH', ht] at h1
      simp only [hr, except_bind_ok] at h1
      obtain ⟨M, -, -, -, -, m4, -⟩ := parallelogramic_ok hA hn' h1
      exact hp.nodup_iff.mpr m4
  · unfold Lattice.getHarmonics' at h1
    rw [hH'] at h1
    cases h1
    exact hp.nodup_iff.mpr (hu _ hH')

theorem getOrderIndex_pair (is1D : Bool) (s : OrderDicts V) (i j : ℤ) (l : List ℤ) :
    getOrderIndex is1D s (.seq (i :: j :: l)) = s.read s.outer i j := by
  unfold getOrderIndex OrderDicts.read
  have h0 : pyGet (i :: j :: l) 0 = .ok i := by
    have : (0 : ℤ) < (l.length : ℤ) + 1 + 1 := by positivity
    simp [pyGet, pyIdx, this]
  have h1 : pyGet (i :: j :: l) 1 = .ok j := by
    have : (1 : ℤ) < (l.length : ℤ) + 1 + 1 := by omega
    simp [pyGet, pyIdx, this]
  dsimp only
  rw [except_bind_ok, h0, except_bind_ok]
  rcases dget s.outer i with _ | r
  · rfl
  · dsimp only
    rw [h1, except_bind_ok]

/-- **C10**. On a simulation just constructed with distinct harmonics: `get_order_index((i, j))` returns `k`
exactly when `(i, j)` is the `k`-th harmonic, and raises `KeyError` exactly when it is not retained; a bare
integer `n` is `(n, 0)` for a mono-periodic lattice and raises `ValueError` otherwise; `get_order(A, (i, j))`
is the entry of `A` at that position. -/
theorem C10_order_lookup (hnd : c.harmonics.Nodup) :
    (∀ (i j : ℤ) (k : ℕ), getOrderIndex c.lattice.is1D (OrderDicts.build V c.harmonics) (.seq [i, j]) = .ok (.index k) ↔
      c.harmonics[k]? = some (i, j)) ∧
    (∀ i j : ℤ, getOrderIndex c.lattice.is1D (OrderDicts.build V c.harmonics) (.seq [i, j]) = .error .keyError ↔
      (i, j) ∉ c.harmonics) ∧
    (∀ n : ℤ, getOrderIndex c.lattice.is1D (OrderDicts.build V c.harmonics) (.int n) =
      if c.lattice.is1D = true then getOrderIndex c.lattice.is1D (OrderDicts.build V c.harmonics) (.seq [n, 0])
      else .error .valueError) ∧
    (∀ {α : Type} (A : List α) (i j : ℤ) (k : ℕ) (x : α), c.harmonics[k]? = some (i, j) → A[k]? = some x →
      getOrder c.lattice.is1D (OrderDicts.build V c.harmonics) A (.seq [i, j]) = .ok x) ∧
    ∀ {α : Type} (A : List α) (i j : ℤ), (i, j) ∉ c.harmonics →
      getOrder c.lattice.is1D (OrderDicts.build V c.harmonics) A (.seq [i, j]) = .error .keyError := by
  obtain ⟨-, h2, h3⟩ := OrderDicts.build_spec (V := V) hnd
  refine ⟨fun i j k => ?_, fun i j => ?_, fun n => ?_, ?_, ?_⟩
  · rw [getOrderIndex_pair]
    constructor
    · intro h
      by_cases hm : (i, j) ∈ c.harmonics
      · obtain ⟨k', hk'⟩ := List.getElem?_of_mem hm
        have := h2 k' (i, j) hk'
        rw [h] at this
        cases this
        exact hk'
      · rw [h3 (i, j) hm] at h
        simp at h
    · exact h2 k (i, j)
  · rw [getOrderIndex_pair]
    constructor
    · intro h hm
      obtain ⟨k', hk'⟩ := List.getElem?_of_mem hm
      rw [h2 k' (i, j) hk'] at h
      simp at h
    · exact h3 (i, j)
  · unfold getOrderIndex
    by_cases h : c.lattice.is1D = true <;> simp [h]
  · intro α A i j k x hk hx
    unfold getOrder
    rw [getOrderIndex_pair, h2 k (i, j) hk, except_bind_ok, cellGet_index.1 x hx]
  · intro α A i j hg
    unfold getOrder
    rw [getOrderIndex_pair, h3 (i, j) hg]
    rfl

/-- **C10**, the other arguments: only the first two entries of a sequence matter; a sequence of length at most
one never gives a position; an argument without length raises `ValueError`. -/
theorem C10_other_arguments (is1D : Bool) (s : OrderDicts V) :
    (∀ i j l, getOrderIndex is1D s (.seq (i :: j :: l)) = getOrderIndex is1D s (.seq [i, j])) ∧
    (∀ l : List ℤ, l.length < 2 → ∀ x, getOrderIndex is1D s (.seq l) ≠ .ok x) ∧
    getOrderIndex is1D s .other = .error .valueError := by
  refine ⟨fun i j l => by rw [getOrderIndex_pair, getOrderIndex_pair], fun l hl x hx => ?_, rfl⟩
  match l, hl with
  | [], _ => simp [getOrderIndex, pyGet, pyIdx, bind, Except.bind] at hx
  | [i], _ =>
    unfold getOrderIndex at hx
    dsimp only at hx
    rw [except_bind_ok, show pyGet [i] 0 = .ok i by simp [pyGet, pyIdx], except_bind_ok] at hx
    rcases h : dget s.outer i with _ | r
    · rw [h] at hx; simp at hx
    · rw [h] at hx
      dsimp only at hx
      rw [show pyGet [i] 1 = .error .indexError by simp [pyGet, pyIdx]] at hx
      simp [bind, Except.bind] at hx

/-- **C10**, `get_order` with the other arguments: a bare integer `n` is the order `(n, 0)` for a mono-periodic lattice and
raises `ValueError` otherwise; only the first two entries of a sequence matter, a shorter one and an argument without length
never give a value. -/
theorem C10_get_order_arguments {α : Type} (is1D : Bool) (s : OrderDicts V) (A : List α) :
    (∀ n : ℤ, getOrder true s A (.int n) = getOrder true s A (.seq [n, 0])) ∧
    (∀ n : ℤ, getOrder false s A (.int n) = .error .valueError) ∧
    (∀ i j l, getOrder is1D s A (.seq (i :: j :: l)) = getOrder is1D s A (.seq [i, j])) ∧
    (∀ l : List ℤ, l.length < 2 → ∀ x, getOrder is1D s A (.seq l) ≠ .ok x) ∧
    getOrder is1D s A .other = .error .valueError := by
  obtain ⟨h1, h2, h3⟩ := C10_other_arguments is1D s
  refine ⟨fun n => rfl, fun n => rfl, fun i j l => ?_, fun l hl x hx => ?_, ?_⟩
  · unfold getOrder; rw [h1]
  · unfold getOrder at hx
    rcases h : getOrderIndex is1D s (.seq l) with e | y
    · rw [h] at hx; cases hx
    · exact h2 l hl y h
  · unfold getOrder; rw [h3]; rfl

/-- The call with `return_dict` on a simulation whose dictionary of orders is as built. -/
theorem diffractionDicts_first (hnd : c.harmonics.Nodup) {d : Dyn c.nh} {R T : Fin c.nh → ℝ}
    (h : (diffractionEfficiencies E c true d).1 = .ok (.byOrder R T)) :
    ∃ s', diffractionDicts E c (d, OrderDicts.build ℝ c.harmonics) =
        (.ok ((OrderDicts.build ℝ c.harmonics).outer, (OrderDicts.build ℝ c.harmonics).outer),
          ((diffractionEfficiencies E c true d).2, s')) ∧
      s'.outer = (OrderDicts.build ℝ c.harmonics).outer ∧
      (∀ k : Fin c.nh, s'.read s'.outer (c.harmonics.get k).1 (c.harmonics.get k).2 = .ok (.val (T k))) ∧
      ∀ g, g ∉ c.harmonics → s'.read s'.outer g.1 g.2 = .error .keyError := by
  obtain ⟨s', e1, e2, e3, e4⟩ := efficiencyDicts_first hnd (R := List.ofFn R) (T := List.ofFn T)
    (by simp [Static.nh]) (by simp [Static.nh])
  have h' := efficiencies_by_order h
  rcases he : efficienciesByOrder E c d with ⟨x, d'⟩
  rw [he] at h'
  dsimp only at h'
  subst h'
  refine ⟨s', ?_, e2, ?_, e4⟩
  · unfold diffractionDicts diffractionEfficiencies
    dsimp only
    rw [he, PyM.bind_ok he]
    dsimp only
    rw [e1]
    rfl
  · intro k
    refine e3 k (c.harmonics.get k) (T k) ?_ ?_
    · simp
    · simp

/-- **C11**, the part that holds. On the first call with `return_dict=True`, after any history of the other
calls, the second dictionary returned holds the transmission of each retained order and nothing else, and the
rest of the object is in the state the call without `return_dict` leaves.  Missing: the first dictionary and
later lookups are wrong, see `C11_dictionaries_fail`. -/
theorem C11_dictionaries_partial (hnd : c.harmonics.Nodup) {d : Dyn c.nh} {R T : Fin c.nh → ℝ}
    (h : (diffractionEfficiencies E c true d).1 = .ok (.byOrder R T)) :
    ∃ Rd Td s', diffractionDicts E c (d, OrderDicts.build ℝ c.harmonics) =
        (.ok (Rd, Td), ((diffractionEfficiencies E c true d).2, s')) ∧
      (∀ k : Fin c.nh, s'.read Td (c.harmonics.get k).1 (c.harmonics.get k).2 = .ok (.val (T k))) ∧
      ∀ g, g ∉ c.harmonics → s'.read Td g.1 g.2 = .error .keyError ∧ s'.read Rd g.1 g.2 = .error .keyError := by
  obtain ⟨s', h1, h2, h3, h4⟩ := diffractionDicts_first hnd h
  rw [h2] at h3 h4
  exact ⟨_, _, s', h1, h3, fun g hg => ⟨h4 g hg, h4 g hg⟩⟩

/-- **C11** is violated, by every simulation. The first dictionary holds the transmission too; afterwards
`get_order_index` returns transmissions, `get_order` raises `IndexError` for every retained order, and a second
call with `return_dict=True` raises `IndexError`. -/
theorem C11_dictionaries_fail (hnd : c.harmonics.Nodup) {d : Dyn c.nh} {R T : Fin c.nh → ℝ}
    (h : (diffractionEfficiencies E c true d).1 = .ok (.byOrder R T)) :
    ∃ Rd Td s', diffractionDicts E c (d, OrderDicts.build ℝ c.harmonics) =
        (.ok (Rd, Td), ((diffractionEfficiencies E c true d).2, s')) ∧
      (∀ k : Fin c.nh, s'.read Rd (c.harmonics.get k).1 (c.harmonics.get k).2 = .ok (.val (T k))) ∧
      (∀ k : Fin c.nh, getOrderIndex c.lattice.is1D s'
        (.seq [(c.harmonics.get k).1, (c.harmonics.get k).2]) = .ok (.val (T k))) ∧
      (∀ {α : Type} (A : List α), ∀ g ∈ c.harmonics,
        getOrder c.lattice.is1D s' A (.seq [g.1, g.2]) = .error .indexError) ∧
      ∀ (d' : Dyn c.nh) (R' T' : Fin c.nh → ℝ), c.harmonics ≠ [] →
        (diffractionEfficiencies E c true d').1 = .ok (.byOrder R' T') →
        (diffractionDicts E c (d', s')).1 = .error .indexError := by
  obtain ⟨s', h1, h2, h3, h4⟩ := diffractionDicts_first hnd h
  refine ⟨_, _, s', h1, by rw [← h2]; exact h3, ?_, ?_, ?_⟩
  · intro k
    rw [getOrderIndex_pair]
    exact h3 k
  · intro α A g hg
    obtain ⟨k, rfl⟩ := List.get_of_mem hg
    unfold getOrder
    rw [getOrderIndex_pair, h3 k, except_bind_ok]
    rfl
  · intro d' R' T' hne h'
    rcases hH : c.harmonics with _ | ⟨g, H⟩
    · exact absurd hH hne
    · have hg : g ∈ c.harmonics := by rw [hH]; simp
      obtain ⟨k, hk⟩ := List.get_of_mem hg
      have h'' := efficiencies_by_order h'
      rcases he : efficienciesByOrder E c d' with ⟨x, d2⟩
      rw [he] at h''
      dsimp only at h''
      subst h''
      unfold diffractionDicts
      dsimp only
      rw [he]
      dsimp only
      unfold efficiencyDicts
      have := h3 k
      rw [hk] at this
      rw [hH, dictLoop_val this]

/-- **C11** for complex amplitudes: the arrays have one row per component, the loop indexes them by order.
With more than three orders `return_dict=True` raises `IndexError`. -/
theorem C11_complex_dictionaries_raise (hnd : c.harmonics.Nodup) (hn : 3 < c.nh) {d : Dyn c.nh}
    {A : ComplexOrders c.nh} (h : (complexEfficiencies E c d).1 = .ok A) :
    (complexDicts E c (d, OrderDicts.build (Fin c.nh → ℂ) c.harmonics)).1 = .error .indexError := by
  rcases he : complexEfficiencies E c d with ⟨x, d'⟩
  rw [he] at h
  dsimp only at h
  subst h
  unfold complexDicts
  dsimp only
  rw [he]
  dsimp only
  obtain ⟨h1, h2, h3⟩ := OrderDicts.build_spec (V := Fin c.nh → ℂ) hnd
  have := dictLoop_short (R := List.ofFn A.r) (T := List.ofFn A.t) (by simp) c.harmonics h1 hnd (by
    intro g hg
    obtain ⟨k, hk⟩ := List.getElem?_of_mem hg
    exact ⟨k, h2 k g hk⟩) ⟨c.harmonics[3]'hn, List.getElem_mem _, 3, h2 3 _ (List.getElem?_eq_getElem _), by simp⟩
  unfold efficiencyDicts
  rcases hl : dictLoop (OrderDicts.build (Fin c.nh → ℂ) c.harmonics).outer (OrderDicts.build (Fin c.nh → ℂ) c.harmonics).outer (List.ofFn A.r)
    (List.ofFn A.t) c.harmonics (OrderDicts.build (Fin c.nh → ℂ) c.harmonics) with ⟨x, s'⟩
  rw [hl] at this
  dsimp only at this
  subst this
  rfl

/-- With a single order the complex dictionaries hold the x components of the transmitted amplitudes of all
orders instead of the three components of the order. -/
theorem C11_complex_dictionaries_one_order {g : ℤ × ℤ} (hH : c.harmonics = [g]) {d : Dyn c.nh}
    {A : ComplexOrders c.nh} (h : (complexEfficiencies E c d).1 = .ok A) :
    ∃ Rd Td s' d', complexDicts E c (d, OrderDicts.build (Fin c.nh → ℂ) c.harmonics) = (.ok (Rd, Td), (d', s')) ∧
      s'.read Td g.1 g.2 = .ok (.val (A.t 0)) ∧ s'.read Rd g.1 g.2 = .ok (.val (A.t 0)) := by
  rcases he : complexEfficiencies E c d with ⟨x, d'⟩
  rw [he] at h
  dsimp only at h
  subst h
  have hnd : c.harmonics.Nodup := by rw [hH]; simp
  obtain ⟨h1, h2, h3⟩ := OrderDicts.build_spec (V := Fin c.nh → ℂ) hnd
  obtain ⟨s', e1, -, -, e4, -⟩ := dictLoop_ok (R := List.ofFn A.r) (T := List.ofFn A.t) c.harmonics h1 hnd (by
    intro g' hg'
    have : g' = g := by rw [hH] at hg'; simpa using hg'
    subst this
    exact ⟨0, A.r 0, A.t 0, h2 0 g' (by rw [hH]; rfl), by simp, by simp⟩)
  have e5 := e4 g (by rw [hH]; simp) 0 (A.t 0) (h2 0 g (by rw [hH]; rfl)) (by simp)
  refine ⟨_, _, s', d', ?_, e5, e5⟩
  unfold complexDicts
  dsimp only
  rw [he]
  dsimp only
  unfold efficiencyDicts
  rw [e1]

open Examples in
/-- The grating: `R = 9/25`, but after any history of other calls the dictionary returned for the reflection
holds `16/25`, and `get_order` then raises. -/
example : ∃ c, simInit exE (fun _ => exLat) slabMats [0, 1, 2] exExc 1 "original" = .ok c ∧ c.harmonics = [(0, 0)] ∧
    ∃ R T, (diffractionEfficiencies exE c true (Dyn.fresh slabMats (unsolved c.nh))).1 = .ok (.byOrder R T) ∧
      (∀ i, R i = 9 / 25) ∧
      (∀ x : ℝ, getOrder c.lattice.is1D (OrderDicts.build ℝ c.harmonics) [x] (.seq [0, 0]) = .ok x) ∧
      ∃ Rd Td s' d', diffractionDicts exE c (Dyn.fresh slabMats (unsolved c.nh), OrderDicts.build ℝ c.harmonics) =
        (.ok (Rd, Td), (d', s')) ∧ s'.read Rd 0 0 = .ok (.val (16 / 25)) ∧ s'.read Td 0 0 = .ok (.val (16 / 25)) ∧
        ∀ x : ℝ, getOrder c.lattice.is1D s' [x] (.seq [0, 0]) = .error .indexError := by
  obtain ⟨c, hc, hn, hst, -, hfl⟩ := slab_init
  have htot := slab_total hn hst hfl
  obtain ⟨-, -, ⟨R, T⟩, hRT⟩ := slab_runs hc hn hst hfl []
  change (efficienciesByOrder exE c (Dyn.fresh slabMats (unsolved c.nh))).1 = _ at hRT
  have hH := hn.harm
  have hnd : c.harmonics.Nodup := by rw [hH]; simp
  have hnh : c.nh = 1 := by simp [Static.nh, hH]
  have hone : ∀ (f : Fin c.nh → ℝ) i, f i = ∑ j, f j := by
    generalize c.nh = n at hnh
    subst hnh
    intro f i
    rw [Fin.sum_univ_one, Subsingleton.elim i 0]
  have hget : ∀ k, c.harmonics.get k = (0, 0) := by
    intro k
    have : ∀ g ∈ c.harmonics, g = (0, 0) := by rw [hH]; simp
    exact this _ (List.get_mem c.harmonics k)
  have hb : (diffractionEfficiencies exE c true (Dyn.fresh slabMats (unsolved c.nh))).1 = .ok (.byOrder R T) ∧
      (∑ i, R i) = 9 / 25 ∧ (∑ i, T i) = 16 / 25 := by
    unfold diffractionEfficiencies at htot ⊢
    rcases he : efficienciesByOrder exE c (Dyn.fresh slabMats (unsolved c.nh)) with ⟨x, d'⟩
    rw [he] at hRT
    dsimp only at hRT
    subst hRT
    rw [PyM.bind_ok he] at htot ⊢
    simpa [PyM.pure_def] using htot
  have k0 : Fin c.nh := ⟨0, by omega⟩
  refine ⟨c, hc, hH, R, T, hb.1, fun i => by rw [hone R i, hb.2.1], fun x => ?_, ?_⟩
  · exact (C10_order_lookup hnd).2.2.2.1 [x] 0 0 0 x (by rw [hH]; rfl) rfl
  · obtain ⟨Rd, Td, s', h1, h2, -⟩ := C11_dictionaries_partial hnd hb.1
    obtain ⟨Rd', Td', s'', h1', h2', -, h3', -⟩ := C11_dictionaries_fail hnd hb.1
    rw [h1] at h1'
    cases h1'
    have e1 := h2 k0
    have e2 := h2' k0
    rw [hget, hone T, hb.2.2] at e1 e2
    exact ⟨Rd, Td, s', _, h1, e2, e1, fun x => h3' [x] (0, 0) (by rw [hH]; simp)⟩

end Nannos
