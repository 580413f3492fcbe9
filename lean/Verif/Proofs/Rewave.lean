import Verif.Proofs.Alike
import Verif.Spec.Calls

/-! Simulations which differ by the attributes of the wave that are not read after construction. -/

namespace Nannos

open Spec Matrix

variable {E : Ext} {c : Static} (e : PlaneWave) (w : ℝ)

/-- The same object with another wave, of which only the polarisation vector is read after construction, and another
incident flux. -/
abbrev Static.rewave (c : Static) (e : PlaneWave) (w : ℝ) : Static := { c with excitation := e, incidentFlux := w }

theorem pym_bind_congr {σ α β : Type} (x : PyM σ α) {f g : α → PyM σ β} (h : ∀ a, f a = g a) : x >>= f = x >>= g := by
  rw [show f = g from funext h]

theorem pym_bind_ok {σ α β : Type} {x : PyM σ α} {f : α → PyM σ β} {s s' : σ} {a : α} (h : x s = (.ok a, s')) :
    (x >>= f) s = f a s' := by
  show (match x s with
    | (.ok a, s') => f a s'
    | (.error e, s') => (.error e, s')) = _
  rw [h]

theorem pym_bind_error {σ α β : Type} {x : PyM σ α} {f : α → PyM σ β} {s s' : σ} {e : PyErr} (h : x s = (.error e, s')) :
    (x >>= f) s = (.error e, s') := by
  show (match x s with
    | (.ok a, s') => f a s'
    | (.error e, s') => (.error e, s')) = _
  rw [h]

theorem pym_bind_map {σ α β γ : Type} (g : β → γ) (x : PyM σ α) {f : α → PyM σ β} {f' : α → PyM σ γ}
    (h : ∀ a s, f' a s = ((f a s).1.map g, (f a s).2)) (s : σ) :
    (x >>= f') s = (((x >>= f) s).1.map g, ((x >>= f) s).2) := by
  rcases hx : x s with ⟨_ | a, s'⟩
  · rw [pym_bind_error hx, pym_bind_error hx]
    rfl
  · rw [pym_bind_ok hx, pym_bind_ok hx]
    exact h a s'

theorem buildMatrix_rewave (r : ℕ) : buildMatrix E (c.rewave e w) r = buildMatrix E c r := by
  have h : ∀ L, buildPure E (c.rewave e w) L = buildPure E c L := fun _ => rfl
  funext d
  unfold buildMatrix
  dsimp only
  split
  · rcases (d.attrs (d.mats r).original).matrix with _ | M <;> rcases (d.attrs (d.mats r).original).pat with _ | p <;>
      rcases (d.attrs (d.mats r).original).Qeps with _ | Q <;> rfl
  · rw [h]
    rcases buildPure E c (d.mats r) with _ | (_ | _) <;> rfl

theorem solveModes_rewave (r : ℕ) : solveModes E (c.rewave e w) r = solveModes E c r := by
  funext d
  unfold solveModes
  dsimp only
  generalize (if (d.mats r).isUniform = true then solveUniform (d.mats r) c.omega c.kx c.ky
    else if (d.mats r).iscopy = true then attr (d.attrs (d.mats r).original).eig
      else do
        let M ← attr (d.attrs r).matrix
        solveEigenproblem E M) = res
  rcases res with _ | _ <;> rfl

theorem solveLayer_rewave (L) : solveLayer E (c.rewave e w) L = solveLayer E c L := by
  unfold solveLayer
  rw [buildMatrix_rewave, solveModes_rewave]

theorem solveAll_rewave (L) : solveAll E (c.rewave e w) L = solveAll E c L := by
  induction L with
  | nil => rfl
  | cons a l ih => unfold solveAll; rw [ih, solveLayer_rewave]

theorem solve_rewave  : solve E (c.rewave e w) = solve E c := by unfold solve; rw [solveAll_rewave]

theorem ensureSolved_rewave : ensureSolved E (c.rewave e w) = ensureSolved E c := by
  funext d
  unfold ensureSolved; rw [solve_rewave]

theorem layerModes_rewave : layerModes (c.rewave e w) = layerModes c := rfl

theorem sBody_rewave (f i : ℤ) : sBody (c.rewave e w) f i = sBody c f i := by
  funext S d
  unfold sBody
  rw [layerModes_rewave]
  generalize (do
    let L ← layerModes c d i
    let L' ← layerModes c d (i + 1)
    stepS S L L') = res
  rcases res with _ | _ <;> rfl

theorem sLoop_rewave (f : ℤ) (l) : sLoop (c.rewave e w) f l = sLoop c f l := by
  induction l with
  | nil => rfl
  | cons i l ih =>
    funext S
    unfold sLoop
    rw [sBody_rewave, ih]

theorem cachedLoop_rewave (l) : cachedLoop (c.rewave e w) l = cachedLoop c l := by
  funext d
  unfold cachedLoop
  simp only [sLoop_rewave]
  rcases l.head? with _ | a <;> rcases l.getLast? with _ | b
  · rfl
  · rfl
  · rfl
  · dsimp only
    rcases d.inter (a, b) with _ | S <;> rfl

theorem getS_rewave (o) : getS E (c.rewave e w) o = getS E c o := by
  unfold getS; rw [ensureSolved_rewave, cachedLoop_rewave]; rfl

theorem solveExt_rewave : solveExt E (c.rewave e w) = solveExt E c := by
  unfold solveExt
  rw [getS_rewave]
  congr 1
  funext d
  rcases d.S with _ | S <;> rfl

theorem solveInt_rewave (i) : solveInt E (c.rewave e w) i = solveInt E c i := by
  unfold solveInt
  simp only [getS_rewave]

theorem getAmplitudes_rewave (i) : getAmplitudes E (c.rewave e w) i = getAmplitudes E c i := by
  unfold getAmplitudes; rw [solveExt_rewave, solveInt_rewave]

theorem getLayer_rewave (i) : getLayer (c.rewave e w) i = getLayer c i := rfl

theorem getFieldFourier_rewave (i z) : getFieldFourier E (c.rewave e w) i z = getFieldFourier E c i z := by
  unfold getFieldFourier
  rw [ensureSolved_rewave, getLayer_rewave]
  refine pym_bind_congr _ fun p => ?_
  obtain ⟨r, k⟩ := p
  refine pym_bind_congr _ fun _ => ?_
  rw [getAmplitudes_rewave]
  refine pym_bind_congr _ fun q => ?_
  obtain ⟨a, b⟩ := q
  rfl

theorem flux_rewave (o a b) : getZPoyntingFlux E (c.rewave e w) o a b = getZPoyntingFlux E c o a b := by
  unfold getZPoyntingFlux; rw [ensureSolved_rewave]; rfl

theorem ensureS_rewave : ensureS E (c.rewave e w) = ensureS E c := by
  unfold ensureS
  rw [getS_rewave]
  congr 1
  funext d
  rcases d.S with _ | S <;> rfl

/-- The efficiencies, up to the incident flux. -/
theorem efficiencies_rewave {t : ℝ} (ht : t ≠ 0) (hw : c.incidentFlux = t * w) (d : Dyn c.nh) : efficienciesByOrder E (c.rewave e w) d =
    (((efficienciesByOrder E c d).1.map fun X => (fun i => X.1 i * t, fun i => X.2 i * t)),
      (efficienciesByOrder E c d).2) := by
  unfold efficienciesByOrder
  rw [ensureS_rewave, solveExt_rewave]
  refine pym_bind_map _ _ (fun _ s => ?_) d
  refine pym_bind_map _ _ (fun p s => ?_) s
  obtain ⟨aN, b0⟩ := p
  dsimp only
  rw [flux_rewave]
  refine pym_bind_map _ _ (fun fin s => ?_) s
  rw [flux_rewave]
  refine pym_bind_map _ _ (fun fout s => ?_) s
  by_cases h0 : c.incidentFlux = 0
  · have h1 : w = 0 := by rw [h0] at hw; exact (mul_eq_zero.mp hw.symm).resolve_left ht
    simp only [raiseIf, h0, h1, if_true]
    rfl
  · have h1 : w ≠ 0 := fun h => h0 (by rw [hw, h, mul_zero])
    simp only [raiseIf, h0, h1, if_false]
    show (Except.ok _, s) = ((Except.ok _ : Except PyErr _).map _, s)
    simp only [Except.map]
    congr 3
    · funext i
      rw [hw]
      field_simp
    · funext i
      rw [hw]
      field_simp

/-- All efficiencies multiplied by a number. -/
def Spec.timesAll {nh : ℕ} (s : ℝ) : Efficiencies nh → Efficiencies nh
  | .byOrder R T => .byOrder (fun i => R i * s) (fun i => T i * s)
  | .total R T => .total (R * s) (T * s)

theorem diffraction_rewave {t : ℝ} (ht : t ≠ 0) (hw : c.incidentFlux = t * w) (o : Bool) (d : Dyn c.nh) :
    diffractionEfficiencies E (c.rewave e w) o d =
      ((diffractionEfficiencies E c o d).1.map (timesAll t), (diffractionEfficiencies E c o d).2) := by
  have h := efficiencies_rewave (E := E) e w ht hw d
  unfold diffractionEfficiencies
  rcases hx : efficienciesByOrder E c d with ⟨_ | p, s⟩
  · rw [hx] at h
    rw [pym_bind_error hx, pym_bind_error h]
    rfl
  · rw [hx] at h
    rw [pym_bind_ok hx, pym_bind_ok h]
    cases o
    · show ((Except.ok _, s) : Except PyErr (Efficiencies c.nh) × Dyn c.nh) = (Except.ok _, s)
      simp only [timesAll, Finset.sum_mul]
    · rfl

theorem diffraction_same (o : Bool) :
    diffractionEfficiencies E (c.rewave e c.incidentFlux) o = diffractionEfficiencies E c o := by
  have : efficienciesByOrder E (c.rewave e c.incidentFlux) = efficienciesByOrder E c := by
    unfold efficienciesByOrder
    rw [ensureS_rewave, solveExt_rewave]
    refine pym_bind_congr _ fun _ => pym_bind_congr _ fun p => ?_
    obtain ⟨aN, b0⟩ := p
    dsimp only
    rw [flux_rewave]
    refine pym_bind_congr _ fun _ => ?_
    rw [flux_rewave]
  unfold diffractionEfficiencies
  rw [this]

theorem complex_rewave (d : Dyn c.nh) : complexEfficiencies E (c.rewave e w) d =
    ((complexEfficiencies E c d).1.map (fun X => ⟨fun k i => X.r k i +
        (if (i : ℕ) = c.indexZerothOrder then 1 else 0) * ((c.excitation.amplitude k : ℂ) - (e.amplitude k : ℂ)), X.t⟩),
      (complexEfficiencies E c d).2) := by
  unfold complexEfficiencies
  rw [ensureS_rewave]
  refine pym_bind_map _ _ (fun _ s => ?_) d
  unfold complexOrders
  refine pym_bind_map _ _ (fun d s => pym_bind_map _ _ (fun r0 s => pym_bind_map _ _ (fun rN s => ?_) s) s) s
  refine pym_bind_map _ _ (fun _ s => ?_) s
  refine pym_bind_map _ _ (fun _ s => ?_) s
  refine pym_bind_map _ _ (fun nt s => ?_) s
  refine pym_bind_map _ _ (fun nr s => ?_) s
  rw [getFieldFourier_rewave]
  refine pym_bind_map _ _ (fun x s => ?_) s
  rw [getFieldFourier_rewave]
  refine pym_bind_map _ _ (fun y s => ?_) s
  rcases x with _ | ⟨x, _ | ⟨x', l⟩⟩
  · rfl
  · rcases y with _ | ⟨y, _ | ⟨y', m⟩⟩
    · rfl
    · show (Except.ok _, s) = (Except.ok _, s)
      congr 3
      funext k i
      ring
    · rfl
  · rfl

theorem Call.after_rewave (a : Call c.nh) {t : ℝ} (ht : t ≠ 0) (hw : c.incidentFlux = t * w) (d : Dyn c.nh) :
    Call.after E (c.rewave e w) a d = a.after E c d := by
  cases a with
  | getSMatrix o => simp only [Call.after]; rw [getS_rewave]
  | solve => simp only [Call.after]; rw [solve_rewave]
  | reset p => rfl
  | getFieldFourier l z => simp only [Call.after]; rw [getFieldFourier_rewave]
  | getZPoyntingFlux l x y => simp only [Call.after]; rw [flux_rewave]
  | diffractionEfficiencies o => simp only [Call.after]; rw [diffraction_rewave e w ht hw]
  | complexEfficiencies => simp only [Call.after]; rw [complex_rewave e w]

theorem afterCalls_rewave (hist : List (Call c.nh)) {t : ℝ} (ht : t ≠ 0) (hw : c.incidentFlux = t * w) (d : Dyn c.nh) :
    afterCalls E (c.rewave e w) hist d = afterCalls E c hist d := by
  unfold afterCalls
  induction hist generalizing d with
  | nil => rfl
  | cons a l ih =>
    rw [List.foldl_cons, List.foldl_cons]
    refine Eq.trans ?_ (ih _)
    congr 1
    exact Call.after_rewave e w a ht hw d

theorem Call.result_rewave (a : Call c.nh) (h : e.amplitude = c.excitation.amplitude) (d : Dyn c.nh) :
    Call.result E (c.rewave e c.incidentFlux) a d = a.result E c d := by
  cases a with
  | getSMatrix o => simp only [Call.result]; rw [getS_rewave]
  | solve => simp only [Call.result]; rw [solve_rewave]
  | reset p => rfl
  | getFieldFourier l z => simp only [Call.result]; rw [getFieldFourier_rewave]
  | getZPoyntingFlux l x y => simp only [Call.result]; rw [flux_rewave]
  | diffractionEfficiencies o =>
    simp only [Call.result]
    rw [diffraction_same]
  | complexEfficiencies =>
    simp only [Call.result]
    rw [complex_rewave e, h]
    rcases (complexEfficiencies E c d).1 with _ | X
    · rfl
    · simp only [Except.map, sub_self, mul_zero, add_zero]

end Nannos
