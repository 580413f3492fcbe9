import Verif.Spec.Config
import Mathlib.Tactic.SplitIfs
import Mathlib.Tactic.Set
import Mathlib.Tactic.ByContra

/-! Helper lemmas about the package configuration. -/

namespace Nannos

variable {e : PkgEnv} {g : Globals} {r : Globals → Globals}

/-- The module body will call neither `set_backend` nor `use_gpu`. -/
structure BackendSettled (e : PkgEnv) (g : Globals) : Prop where
  avail : e.available g.getBackend = true
  var : ∀ b, e.backendVar.bind Backend.ofName = some b → e.available b = true → g.forceBackend = false →
    g.getBackend = b

def GpuSettled (e : PkgEnv) (g : Globals) : Prop := e.gpuVar.isSome = true → g.forceGpu = true

/-- The assignments of an execution of the body that calls nothing. -/
def Globals.again (g : Globals) : Globals :=
  { g with module := g.getBackend.module, grad := g.getBackend.gradient }.refresh

theorem envBackend_id (h1 : g.backendName = g.getBackend)
    (h2 : ∀ b, e.backendVar.bind Backend.ofName = some b → e.available b = true → g.forceBackend = false →
      g.getBackend = b) : pkgEnvBackend r e g = g := by
  unfold pkgEnvBackend
  split
  · rename_i b hb
    rw [if_neg]
    rintro ⟨a1, a2, a3⟩
    exact a2 (h1.trans (h2 b hb a1 a3))
  · rfl

theorem envGpu_id (h : GpuSettled e g) : pkgEnvGpu r e g = g := by
  unfold pkgEnvGpu
  rw [if_neg]
  rintro ⟨a1, a2⟩
  rw [h a1] at a2
  simp at a2

theorem select_avail (h : e.available g.getBackend = true) :
    pkgSelect r e g = { g with module := g.getBackend.module, grad := g.getBackend.gradient } := by
  unfold pkgSelect
  rw [if_pos h]

theorem body_backend (h : BackendSettled e g) : pkgBody r e g = pkgEnvGpu r e g.again := by
  unfold pkgBody
  rw [select_avail h.avail]
  change pkgEnvGpu r e (pkgEnvBackend r e g.again) = _
  rw [envBackend_id (g := g.again) rfl h.var]

theorem body_settled (h : BackendSettled e g) (hg : GpuSettled e g) : pkgBody r e g = g.again := by
  rw [body_backend h]
  exact envGpu_id (g := g.again) hg

theorem again_settled (h : BackendSettled e g) : BackendSettled e g.again := ⟨h.avail, h.var⟩

theorem reload_settled (h : BackendSettled e g) (hg : GpuSettled e g) : pkgReload e g = g.again.relog := by
  unfold pkgReload
  rw [body_settled h hg, body_settled (again_settled h) hg]
  rfl

theorem chooseGpu_fields (b : Bool) : (g.chooseGpu e b).getBackend = g.getBackend ∧
    (g.chooseGpu e b).forceBackend = g.forceBackend ∧ (g.chooseGpu e b).forceGpu = true ∧
    (g.chooseGpu e b).use32 = g.use32 ∧ (g.chooseGpu e b).log = g.log ∧
    (g.chooseGpu e b).gpuDevice = (b && Spec.gpuCapable e g.backendName) := by
  unfold Globals.chooseGpu
  dsimp only
  cases b <;> cases hb : g.backendName <;> cases h1 : e.hasTorch <;> cases h2 : e.hasCuda <;> cases h3 : e.hasJax <;>
    exact ⟨by simp [Globals.getBackend], by simp, by simp, by simp, by simp, by simp [Spec.gpuCapable, h1, h2, h3]⟩

theorem choose_getBackend (b : Backend) : (g.choose b).getBackend = b := by
  cases b <;> simp [Globals.choose, Globals.getBackend]

theorem choose_fields (b : Backend) : (g.choose b).forceBackend = g.forceBackend ∧ (g.choose b).forceGpu = g.forceGpu ∧
    (g.choose b).gpuDevice = g.gpuDevice ∧ (g.choose b).use32 = g.use32 ∧ (g.choose b).log = g.log := by
  cases b <;> exact ⟨rfl, rfl, rfl, rfl, rfl⟩

theorem settled_of_force (h : e.available g.getBackend = true) (hf : g.forceBackend = true) : BackendSettled e g :=
  ⟨h, fun _ _ _ h => by rw [hf] at h; simp at h⟩

/-! ### The logger -/

/-- Exactly one handler, created by nannos, at the level of the logger. -/
def LogOk (s : LogState) : Prop := ∃ h : Handler, s.handlers = [h] ∧ h.own = true ∧ h.level = s.level

theorem removeLoop_nil : removeLoop 0 [] = [] := by unfold removeLoop; simp

theorem removeLoop_one (h : Handler) : removeLoop 0 [h] = [] := by
  unfold removeLoop
  simp
  unfold removeLoop
  simp

theorem setLogLevel_ok {s : LogState} {l : String} (hl : l ∈ logLevels) (h : LogOk s ∨ s.handlers = []) :
    (setLogLevel l s).1 = .ok () ∧ LogOk (setLogLevel l s).2 ∧ (setLogLevel l s).2.level = l := by
  have : removeLoop 0 s.handlers = [] := by
    rcases h with ⟨h, e, -⟩ | e
    · rw [e, removeLoop_one]
    · rw [e, removeLoop_nil]
  unfold setLogLevel
  rw [if_pos hl, this]
  exact ⟨rfl, ⟨_, rfl, rfl, rfl⟩, rfl⟩

theorem relog_ok (h : LogOk g.log) : LogOk g.relog.log ∧ g.relog.log.level = "WARNING" := by
  obtain ⟨-, h1, h2⟩ := setLogLevel_ok (l := "WARNING") (by decide) (.inl h)
  exact ⟨h1, h2⟩

/-! ### Reachable states -/

/-- What holds between calls. -/
structure ConfigInv (e : PkgEnv) (g : Globals) : Prop where
  bk : BackendSettled e g
  gpu : GpuSettled e g
  name : g.backendName = g.getBackend
  dev : g.cuda = g.gpuDevice
  prec : g.single = g.use32
  mod : g.module = g.getBackend.module
  grd : g.grad = g.getBackend.gradient
  log : LogOk g.log

/-- The observable configuration. -/
def Globals.obs (g : Globals) : Spec.Config := ⟨g.getBackend, g.gpuDevice, g.use32, g.log.level⟩

theorem module_arrays (b : Backend) : b.module = Spec.arrays b := by cases b <;> rfl

theorem gradient_iff (b : Backend) : b.gradient = true ↔ b ∈ Spec.differentiates := by cases b <;> decide

theorem ConfigInv.shows (h : ConfigInv e g) : Spec.Shows g g.obs := by
  obtain ⟨x, h1, h2, h3⟩ := h.log
  exact ⟨rfl, h.name, h.mod.trans (module_arrays _), rfl, h.dev, h.prec, x, h1, h2, h3, rfl⟩

theorem again_relog_inv (h : BackendSettled e g) (hg : GpuSettled e g) (hl : LogOk g.log) :
    ConfigInv e g.again.relog ∧ g.again.relog.obs = { g.obs with level := "WARNING" } := by
  have := relog_ok (g := g.again) hl
  refine ⟨⟨⟨h.avail, h.var⟩, hg, rfl, rfl, rfl, rfl, rfl, this.1⟩, ?_⟩
  change Spec.Config.mk _ _ _ _ = _
  rw [this.2]
  rfl

theorem gpu_step (h : ConfigInv e g) (b : Bool) : ConfigInv e (pkgGpu (pkgReload e) e b g) ∧
    (pkgGpu (pkgReload e) e b g).obs = { g.obs with gpu := b && Spec.gpuCapable e g.getBackend, level := "WARNING" } := by
  obtain ⟨f1, f2, f3, f4, f5, f6⟩ := chooseGpu_fields (e := e) (g := g) b
  have hs : BackendSettled e (g.chooseGpu e b) := ⟨by rw [f1]; exact h.bk.avail, by rw [f1, f2]; exact h.bk.var⟩
  have hg : GpuSettled e (g.chooseGpu e b) := fun _ => f3
  unfold pkgGpu
  rw [reload_settled hs hg]
  obtain ⟨i, o⟩ := again_relog_inv hs hg (by rw [f5]; exact h.log)
  refine ⟨i, o.trans ?_⟩
  unfold Globals.obs
  rw [f1, f4, f6, h.name]

/-- Reload when the requested backend is not installed. -/
theorem reload_missing (hb : e.available g.getBackend = false) (hg : GpuSettled e g) (hl : LogOk g.log) :
    ConfigInv e (pkgReload e g) ∧ (pkgReload e g).obs = ⟨.numpy, g.gpuDevice, g.use32, "WARNING"⟩ := by
  have hne : ¬ Backend.numpy = g.getBackend := by
    intro h
    rw [← h] at hb
    simp [PkgEnv.available] at hb
  set g1 : Globals := (({ g with forceBackend := true } : Globals).choose .numpy).relog with hg1
  have hsel : pkgSelect Globals.relog e g = g1 := by
    unfold pkgSelect pkgSet
    rw [if_neg (by rw [hb]; simp), if_neg hne]
  have h1 : BackendSettled e g1.refresh := settled_of_force rfl rfl
  have hb1 : pkgBody Globals.relog e g = g1.refresh := by
    unfold pkgBody
    rw [hsel, envBackend_id (g := g1.refresh) rfl h1.var, envGpu_id (g := g1.refresh) hg]
  unfold pkgReload
  rw [hb1, body_settled (g := g1.refresh) h1 hg]
  obtain ⟨i, o⟩ := again_relog_inv (e := e) (g := g1.refresh) h1 hg
    (relog_ok (g := ({ g with forceBackend := true } : Globals).choose .numpy) hl).1
  exact ⟨i, o⟩

theorem set_step (h : ConfigInv e g) (b : Backend) : ConfigInv e (pkgSet (pkgReload e) b g) ∧
    (pkgSet (pkgReload e) b g).obs =
      if b = g.getBackend then g.obs else { g.obs with backend := Spec.installed e b, level := "WARNING" } := by
  unfold pkgSet
  by_cases hb : b = g.getBackend
  · rw [if_pos hb, if_pos hb]
    exact ⟨⟨settled_of_force h.bk.avail rfl, h.gpu, h.name, h.dev, h.prec, h.mod, h.grd, h.log⟩, rfl⟩
  · rw [if_neg hb, if_neg hb]
    obtain ⟨c1, c2, c3, c4, c5⟩ := choose_fields (g := { g with forceBackend := true }) b
    have c0 := choose_getBackend (g := { g with forceBackend := true }) b
    set g1 := ({ g with forceBackend := true } : Globals).choose b
    have hg : GpuSettled e g1 := fun a => c2.trans (h.gpu a)
    have hl : LogOk g1.log := by rw [c5]; exact h.log
    by_cases ha : e.available b = true
    · have hs : BackendSettled e g1 := settled_of_force (by rw [c0]; exact ha) c1
      rw [reload_settled hs hg]
      obtain ⟨i, o⟩ := again_relog_inv hs hg hl
      refine ⟨i, o.trans ?_⟩
      unfold Globals.obs Spec.installed
      rw [c0, c3, c4, if_pos ha]
    · have ha' : e.available b = false := by simpa using ha
      obtain ⟨i, o⟩ := reload_missing (g := g1) (by rw [c0]; exact ha') hg hl
      refine ⟨i, o.trans ?_⟩
      unfold Globals.obs Spec.installed
      rw [c3, c4, if_neg ha]

theorem step_refines (h : ConfigInv e g) (c : ConfigCall) : ConfigInv e (configStep e c g).2 ∧
    (configStep e c g).1 = (Spec.configStep e c g.obs).1 ∧
    (configStep e c g).2.obs = (Spec.configStep e c g.obs).2 := by
  cases c with
  | setBackend s =>
    unfold configStep Spec.configStep
    dsimp only
    cases hb : Backend.ofName s with
    | none =>
      refine ⟨⟨settled_of_force h.bk.avail rfl, h.gpu, h.name, h.dev, h.prec, h.mod, h.grd, h.log⟩, rfl, rfl⟩
    | some b =>
      obtain ⟨i, o⟩ := set_step h b
      exact ⟨i, rfl, o⟩
  | useGpu b =>
    obtain ⟨i, o⟩ := gpu_step h b
    exact ⟨i, rfl, o⟩
  | use32 b =>
    have hs : BackendSettled e { g with use32 := b } := ⟨h.bk.avail, h.bk.var⟩
    have hg : GpuSettled e { g with use32 := b } := h.gpu
    have hr := reload_settled hs hg
    obtain ⟨i, o⟩ := again_relog_inv hs hg h.log
    unfold configStep
    dsimp only
    rw [hr]
    exact ⟨i, rfl, o⟩
  | setLogLevel l =>
    by_cases hl : l ∈ logLevels
    · obtain ⟨a1, a2, a3⟩ := setLogLevel_ok hl (.inl h.log)
      refine ⟨⟨⟨h.bk.avail, h.bk.var⟩, h.gpu, h.name, h.dev, h.prec, h.mod, h.grd, a2⟩, ?_, ?_⟩
      · change (setLogLevel l g.log).1 = (if l ∈ logLevels then _ else _ : Except PyErr Unit × Spec.Config).1
        rw [if_pos hl, a1]
      · change Spec.Config.mk _ _ _ (setLogLevel l g.log).2.level =
          (if l ∈ logLevels then _ else _ : Except PyErr Unit × Spec.Config).2
        rw [if_pos hl, a3]
        rfl
    · have hs : setLogLevel l g.log = (.error .keyError, g.log) := by
        unfold setLogLevel
        rw [if_neg hl]
      have hc : configStep e (.setLogLevel l) g = (.error .keyError, g) := by
        unfold configStep
        dsimp only
        rw [hs]
      have hp : Spec.configStep e (.setLogLevel l) g.obs = (.error .keyError, g.obs) := by
        unfold Spec.configStep
        exact if_neg hl
      rw [hc, hp]
      exact ⟨h, rfl, rfl⟩

/-- Reload with an installed backend while the device is still to be chosen. -/
theorem reload_gpu (h : BackendSettled e g) (hl : LogOk g.log) :
    ConfigInv e (pkgReload e g) ∧ (pkgReload e g).obs =
      ⟨g.getBackend, if e.gpuVar.isSome ∧ g.forceGpu = false then Spec.gpuCapable e g.getBackend else g.gpuDevice,
        g.use32, "WARNING"⟩ := by
  by_cases hc : e.gpuVar.isSome ∧ g.forceGpu = false
  · obtain ⟨f1, f2, f3, f4, f5, f6⟩ := chooseGpu_fields (e := e) (g := g.again) true
    have hb1 : pkgBody Globals.relog e g = (g.again.chooseGpu e true).relog := by
      rw [body_backend h]
      unfold pkgEnvGpu pkgGpu
      rw [if_pos (show e.gpuVar.isSome ∧ g.again.forceGpu = false from hc)]
    have hs : BackendSettled e (g.again.chooseGpu e true).relog :=
      ⟨by change e.available (g.again.chooseGpu e true).getBackend = true; rw [f1]; exact h.avail,
        by change ∀ b, _ → _ → (g.again.chooseGpu e true).forceBackend = false → (g.again.chooseGpu e true).getBackend = b
           rw [f1, f2]; exact h.var⟩
    have hg : GpuSettled e (g.again.chooseGpu e true).relog := fun _ => f3
    have hl' : LogOk (g.again.chooseGpu e true).relog.log := (relog_ok (by rw [f5]; exact hl)).1
    unfold pkgReload
    rw [hb1, body_settled hs hg]
    obtain ⟨i, o⟩ := again_relog_inv hs hg hl'
    refine ⟨i, o.trans ?_⟩
    rw [if_pos hc]
    change Spec.Config.mk (g.again.chooseGpu e true).getBackend (g.again.chooseGpu e true).gpuDevice
      (g.again.chooseGpu e true).use32 _ = _
    rw [f1, f4, f6]
    rfl
  · have hg : GpuSettled e g := by
      intro h1
      rcases hf : g.forceGpu
      · exact absurd ⟨h1, hf⟩ hc
      · rfl
    rw [reload_settled h hg, if_neg hc]
    exact again_relog_inv h hg hl

theorem empty_log : LogOk Globals.empty.relog.log ∧ Globals.empty.relog.log.level = "WARNING" := by
  obtain ⟨-, h1, h2⟩ := setLogLevel_ok (s := Globals.empty.log) (l := "WARNING") (by decide) (.inr rfl)
  exact ⟨h1, h2⟩

theorem import_refines (e : PkgEnv) : ConfigInv e (pkgImport e) ∧ (pkgImport e).obs = Spec.importConfig e := by
  obtain ⟨hlog, hlev⟩ := empty_log
  set g0 : Globals := Globals.empty.relog.again with hg0
  have hn : g0.getBackend = .numpy := rfl
  have hsel : (pkgSelect (pkgReload e) e Globals.empty.relog).refresh = g0 := rfl
  by_cases hc : ∃ b, e.backendVar.bind Backend.ofName = some b ∧ e.available b = true ∧ b ≠ .numpy
  · obtain ⟨b, hb, ha, hnb⟩ := hc
    obtain ⟨c1, c2, c3, c4, c5⟩ := choose_fields (g := { g0 with forceBackend := true }) b
    have c0 := choose_getBackend (g := { g0 with forceBackend := true }) b
    have hs : BackendSettled e (({ g0 with forceBackend := true } : Globals).choose b) :=
      settled_of_force (by rw [c0]; exact ha) c1
    have hl : LogOk (({ g0 with forceBackend := true } : Globals).choose b).log := by rw [c5]; exact hlog
    have h1 : pkgEnvBackend (pkgReload e) e g0 =
        pkgReload e (({ g0 with forceBackend := true } : Globals).choose b) := by
      unfold pkgEnvBackend pkgSet
      rw [hb]
      dsimp only
      rw [if_pos ⟨ha, fun h => hnb h.symm, rfl⟩, if_neg (show ¬ b = g0.getBackend from hnb)]
    obtain ⟨i, o⟩ := reload_gpu hs hl
    have himp : pkgImport e = pkgReload e (({ g0 with forceBackend := true } : Globals).choose b) := by
      unfold pkgImport pkgBody
      rw [hsel, h1, envGpu_id i.gpu]
    rw [himp]
    refine ⟨i, o.trans ?_⟩
    unfold Spec.importConfig Spec.envBackend Spec.installed
    rw [hb]
    dsimp only
    rw [if_pos ha, c0, c2, c3, c4]
    change Spec.Config.mk b (if e.gpuVar.isSome = true ∧ false = false then _ else false) false _ = _
    cases e.gpuVar.isSome <;> simp
  · have hs : BackendSettled e Globals.empty.relog := by
      refine ⟨rfl, fun b h1 h2 _ => ?_⟩
      by_contra hne
      exact hc ⟨b, h1, h2, fun h => hne h.symm⟩
    have himp : pkgImport e = pkgEnvGpu (pkgReload e) e g0 := by
      unfold pkgImport
      rw [body_backend hs]
    have hspec : Spec.importConfig e = ⟨.numpy, false, false, "WARNING"⟩ := by
      have hbk : Spec.envBackend e = Backend.numpy := by
        unfold Spec.envBackend
        split
        · rename_i b hb
          unfold Spec.installed
          split_ifs with ha
          · by_contra hne
            exact hc ⟨b, hb, ha, hne⟩
          · rfl
        · rfl
      unfold Spec.importConfig
      rw [hbk]
      simp [Spec.gpuCapable]
    rw [himp, hspec]
    unfold pkgEnvGpu
    by_cases hgv : e.gpuVar.isSome ∧ g0.forceGpu = false
    · rw [if_pos hgv]
      unfold pkgGpu
      obtain ⟨f1, f2, f3, f4, f5, f6⟩ := chooseGpu_fields (e := e) (g := g0) true
      have hs' : BackendSettled e (g0.chooseGpu e true) := ⟨by rw [f1]; rfl, by rw [f1, f2]; exact hs.var⟩
      have hg' : GpuSettled e (g0.chooseGpu e true) := fun _ => f3
      rw [reload_settled hs' hg']
      obtain ⟨i, o⟩ := again_relog_inv hs' hg' (by rw [f5]; exact hlog)
      refine ⟨i, o.trans ?_⟩
      unfold Globals.obs
      rw [f1, f4, f6]
      rfl
    · rw [if_neg hgv]
      refine ⟨⟨⟨rfl, hs.var⟩, ?_, rfl, rfl, rfl, rfl, rfl, hlog⟩, ?_⟩
      · intro h1
        exact absurd ⟨h1, rfl⟩ hgv
      · change Spec.Config.mk _ _ _ Globals.empty.relog.log.level = _
        rw [hlev]
        rfl

theorem fold_refines (h : ConfigInv e g) (hist : List ConfigCall) :
    ConfigInv e (hist.foldl (fun g c => (configStep e c g).2) g) ∧
      (hist.foldl (fun g c => (configStep e c g).2) g).obs =
        hist.foldl (fun s c => (Spec.configStep e c s).2) g.obs := by
  induction hist generalizing g with
  | nil => exact ⟨h, rfl⟩
  | cons c r ih =>
    obtain ⟨i, -, o⟩ := step_refines h c
    obtain ⟨j, p⟩ := ih i
    refine ⟨j, ?_⟩
    change _ = List.foldl _ (Spec.configStep e c g.obs).2 r
    rw [← o]
    exact p

theorem after_refines (e : PkgEnv) (hist : List ConfigCall) :
    ConfigInv e (configAfter e hist) ∧ (configAfter e hist).obs = Spec.configAfter e hist := by
  obtain ⟨i, o⟩ := import_refines e
  obtain ⟨j, p⟩ := fold_refines i hist
  refine ⟨j, p.trans ?_⟩
  rw [o]
  rfl

end Nannos
