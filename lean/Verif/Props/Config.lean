import Verif.Proofs.Config
import Mathlib.Data.List.Induction

/-!
C39, C40, C41, C42: backend, device, precision and logging.
`configAfter e hist` are the globals of the package after `import nannos` and any history of calls.
-/

namespace Nannos

/-- **C39, C40, C41, C42 together.**  After the import and any history of calls, in any environment, the package
shows consistently the configuration that the small machine of `Verif.Spec.Config` prescribes, and the next call
returns or raises what that machine prescribes. -/
theorem config_refines (e : PkgEnv) (hist : List ConfigCall) :
    Spec.Shows (configAfter e hist) (Spec.configAfter e hist) ∧
      ∀ c, (configStep e c (configAfter e hist)).1 = (Spec.configStep e c (Spec.configAfter e hist)).1 := by
  obtain ⟨i, o⟩ := after_refines e hist
  refine ⟨o ▸ i.shows, fun c => ?_⟩
  rw [← o]
  exact (step_refines i c).2.1

theorem configAfter_snoc (e : PkgEnv) (hist : List ConfigCall) (c : ConfigCall) :
    configAfter e (hist ++ [c]) = (configStep e c (configAfter e hist)).2 ∧
      Spec.configAfter e (hist ++ [c]) = (Spec.configStep e c (Spec.configAfter e hist)).2 := by
  unfold configAfter Spec.configAfter
  rw [List.foldl_append, List.foldl_append]
  exact ⟨rfl, rfl⟩

/-- **C39.**  Whatever was called before, `set_backend` with the name of an installed backend succeeds and
`get_backend()`, `BACKEND` and the numerical module are those of that backend; with the name of a backend that is
not installed they are numpy's; with any other string it raises `ValueError` and a user reads the same
configuration as before. -/
theorem C39_set_backend (e : PkgEnv) (hist : List ConfigCall) (name : String) :
    let before := configAfter e hist
    let call := configStep e (.setBackend name) before
    (∀ b, Backend.ofName name = some b → call.1 = .ok () ∧
      call.2.getBackend = (if e.available b then b else .numpy) ∧
      call.2.backendName = (if e.available b then b else .numpy) ∧
      call.2.module = Spec.arrays (if e.available b then b else .numpy)) ∧
    (Backend.ofName name = none → call.1 = .error .valueError ∧
      call.2.getBackend = before.getBackend ∧ call.2.backendName = before.backendName ∧
      call.2.module = before.module ∧ call.2.getCuda = before.getCuda ∧ call.2.cuda = before.cuda ∧
      call.2.single = before.single ∧ call.2.log = before.log) := by
  obtain ⟨i, o⟩ := after_refines e hist
  intro before call
  have hcall : call = configStep e (.setBackend name) (configAfter e hist) := rfl
  rw [hcall]
  constructor
  · intro b hb
    have hc : configStep e (.setBackend name) (configAfter e hist) = (.ok (), pkgSet (pkgReload e) b (configAfter e hist)) := by
      unfold configStep
      dsimp only
      rw [hb]
    obtain ⟨j, p⟩ := set_step i b
    have hbk : (pkgSet (pkgReload e) b (configAfter e hist)).getBackend = (if e.available b then b else .numpy) := by
      have := congrArg Spec.Config.backend p
      refine this.trans ?_
      by_cases h : b = (configAfter e hist).getBackend
      · rw [if_pos h, if_pos (by rw [h]; exact i.bk.avail)]
        exact h.symm
      · rw [if_neg h]
        rfl
    rw [hc]
    exact ⟨rfl, hbk, j.name.trans hbk, by rw [← hbk]; exact j.mod.trans (module_arrays _)⟩
  · intro hb
    have hc : configStep e (.setBackend name) (configAfter e hist) =
        (.error .valueError, { configAfter e hist with forceBackend := true }) := by
      unfold configStep
      dsimp only
      rw [hb]
    rw [hc]
    exact ⟨rfl, rfl, rfl, rfl, rfl, rfl, rfl, rfl⟩

/-- **C39.**  The backend that is active after any history is installed. -/
theorem C39_active_backend_is_installed (e : PkgEnv) (hist : List ConfigCall) :
    e.available (configAfter e hist).getBackend = true ∧
      (configAfter e hist).backendName = (configAfter e hist).getBackend := by
  obtain ⟨i, -⟩ := after_refines e hist
  exact ⟨i.bk.avail, i.name⟩

/-- The five names, and no other string, are known. -/
theorem backend_names (s : String) : (Backend.ofName s).isSome = true ↔
    s ∈ ["numpy", "scipy", "autograd", "jax", "torch"] := by
  unfold Backend.ofName
  constructor
  · intro h
    split_ifs at h with h1 h2 h3 h4 h5 <;> simp_all
  · intro h
    simp only [List.mem_cons, List.not_mem_nil, or_false] at h
    rcases h with h | h | h | h | h <;> subst h <;> decide

/-- Torch, with cuda, without jax, `NANNOS_BACKEND=scipy`. -/
example : (configAfter ⟨true, true, false, some "scipy", none⟩
      [.use32 true, .setBackend "torch", .useGpu true, .setBackend "nonsense", .setBackend "jax"]).getBackend = .numpy ∧
    (configAfter ⟨true, true, false, some "scipy", none⟩
      [.use32 true, .setBackend "torch", .useGpu true, .setBackend "nonsense"]).backendName = .torch := by
  have h1 := (config_refines ⟨true, true, false, some "scipy", none⟩
      [.use32 true, .setBackend "torch", .useGpu true, .setBackend "nonsense", .setBackend "jax"]).1.1
  have h2 := (config_refines ⟨true, true, false, some "scipy", none⟩
      [.use32 true, .setBackend "torch", .useGpu true, .setBackend "nonsense"]).1.2.1
  exact ⟨h1.trans (by decide), h2.trans (by decide)⟩

/-- **C99.**  After any history, `nannos.grad(f)` returns a function if the active backend is autograd or torch,
and raises `NotImplementedError` if it is any other; and it is the derivative of the library that computes: the
arrays are that library's. -/
theorem C99_grad (e : PkgEnv) (hist : List ConfigCall) :
    let g := configAfter e hist
    (g.backendName ∈ Spec.differentiates → g.callGrad = .ok () ∧ g.module = g.backendName) ∧
    (g.backendName ∉ Spec.differentiates → g.callGrad = .error .notImplemented) := by
  obtain ⟨i, -⟩ := after_refines e hist
  intro g
  have hn : g.backendName = g.getBackend := i.name
  have hg : g.grad = g.backendName.gradient := i.grd.trans (by rw [hn])
  have hm : g.module = g.backendName.module := i.mod.trans (by rw [hn])
  constructor
  · intro h
    refine ⟨?_, ?_⟩
    · unfold Globals.callGrad
      rw [hg, if_pos ((gradient_iff _).2 h)]
    · rw [hm]
      simp only [Spec.differentiates, List.mem_cons, List.not_mem_nil, or_false] at h
      rcases h with h | h <;> rw [h] <;> rfl
  · intro h
    unfold Globals.callGrad
    rw [hg, if_neg (fun h' => h ((gradient_iff _).1 h'))]

/-- Torch installed, chosen by the environment; jax asked for and missing. -/
example : (configAfter ⟨true, false, false, some "torch", none⟩ [.use32 true]).callGrad = .ok () ∧
    (configAfter ⟨true, false, false, some "torch", none⟩ [.setBackend "jax"]).callGrad =
      .error .notImplemented := by
  have h1 := (config_refines ⟨true, false, false, some "torch", none⟩ [.use32 true]).1.2.1
  have h2 := (config_refines ⟨true, false, false, some "torch", none⟩ [.setBackend "jax"]).1.2.1
  exact ⟨((C99_grad _ _).1 (by rw [h1]; decide)).1, (C99_grad _ _).2 (by rw [h2]; decide)⟩

/-- **C40, partial.**  Whatever was called before: after `use_gpu(b)` the device is the GPU exactly when `b` is
true and the active backend is torch with cuda or jax; after `use_32_bit(b)` numbers are single precision exactly
when `b` is true; and neither the device nor the precision is changed by any `set_backend`, any log level, or the
other of the two calls.  Missing: the device after a change of backend need not be one the new backend can use
(`C40_gpu_stays_with_numpy`). -/
theorem C40_device_and_precision_partial (e : PkgEnv) (hist : List ConfigCall) :
    let g := configAfter e hist
    let after (c : ConfigCall) := (configStep e c g).2
    (∀ b, (after (.useGpu b)).getCuda = (b && ((g.getBackend = .torch && e.hasTorch && e.hasCuda) ||
        (g.getBackend = .jax && e.hasJax))) ∧
      (after (.useGpu b)).cuda = (after (.useGpu b)).getCuda ∧ (after (.useGpu b)).single = g.single) ∧
    (∀ b, (after (.use32 b)).single = b ∧ (after (.use32 b)).getCuda = g.getCuda ∧ (after (.use32 b)).cuda = g.cuda) ∧
    (∀ name, (after (.setBackend name)).single = g.single ∧ (after (.setBackend name)).getCuda = g.getCuda ∧
      (after (.setBackend name)).cuda = g.cuda) ∧
    (∀ l, (after (.setLogLevel l)).single = g.single ∧ (after (.setLogLevel l)).getCuda = g.getCuda ∧
      (after (.setLogLevel l)).cuda = g.cuda) := by
  obtain ⟨i, -⟩ := after_refines e hist
  intro g after
  have key : ∀ c, (after c).getCuda = (Spec.configStep e c g.obs).2.gpu ∧
      (after c).cuda = (Spec.configStep e c g.obs).2.gpu ∧ (after c).single = (Spec.configStep e c g.obs).2.single := by
    intro c
    obtain ⟨j, -, p⟩ := step_refines i c
    refine ⟨congrArg Spec.Config.gpu p, j.dev.trans (congrArg Spec.Config.gpu p),
      j.prec.trans (congrArg Spec.Config.single p)⟩
  have hs : g.single = g.obs.single := i.prec
  have hd : g.cuda = g.obs.gpu := i.dev
  refine ⟨fun b => ?_, fun b => ?_, fun name => ?_, fun l => ?_⟩
  · obtain ⟨k1, k2, k3⟩ := key (.useGpu b)
    refine ⟨k1.trans ?_, k2.trans k1.symm, k3.trans hs.symm⟩
    change (b && Spec.gpuCapable e g.getBackend) = _
    cases g.getBackend <;> simp [Spec.gpuCapable]
  · obtain ⟨k1, k2, k3⟩ := key (.use32 b)
    exact ⟨k3, k1, k2.trans hd.symm⟩
  · obtain ⟨k1, k2, k3⟩ := key (.setBackend name)
    have : (Spec.configStep e (.setBackend name) g.obs).2.gpu = g.obs.gpu ∧
        (Spec.configStep e (.setBackend name) g.obs).2.single = g.obs.single := by
      unfold Spec.configStep
      dsimp only
      split
      · exact ⟨rfl, rfl⟩
      · dsimp only
        split_ifs <;> exact ⟨rfl, rfl⟩
    exact ⟨k3.trans (this.2.trans hs.symm), k1.trans this.1, k2.trans (this.1.trans hd.symm)⟩
  · obtain ⟨k1, k2, k3⟩ := key (.setLogLevel l)
    have : (Spec.configStep e (.setLogLevel l) g.obs).2.gpu = g.obs.gpu ∧
        (Spec.configStep e (.setLogLevel l) g.obs).2.single = g.obs.single := by
      unfold Spec.configStep
      dsimp only
      split_ifs <;> exact ⟨rfl, rfl⟩
    exact ⟨k3.trans (this.2.trans hs.symm), k1.trans this.1, k2.trans (this.1.trans hd.symm)⟩

/-- **C40 fails**: with torch and cuda installed, after `set_backend("torch")`, `use_gpu(True)` and
`set_backend("numpy")` the backend is numpy and the device is still the GPU. -/
theorem C40_gpu_stays_with_numpy (jax : Bool) :
    let g := configAfter ⟨true, true, jax, none, none⟩ [.setBackend "torch", .useGpu true, .setBackend "numpy"]
    g.backendName = .numpy ∧ g.cuda = true := by
  obtain ⟨⟨-, h1, -, -, h2, -⟩, -⟩ := config_refines ⟨true, true, jax, none, none⟩
    [.setBackend "torch", .useGpu true, .setBackend "numpy"]
  exact ⟨h1.trans (by cases jax <;> decide), h2.trans (by cases jax <;> decide)⟩

/-- Names given in the explicit, known choices of a history. -/
def explicitChoices (hist : List ConfigCall) : List Backend :=
  hist.filterMap fun c => match c with
    | .setBackend s => Backend.ofName s
    | _ => none

/-- **C41.**  The backend after any history is the one the last `set_backend` call with a known name chose (numpy
if it is not installed); if there is none, it is the one `NANNOS_BACKEND` names, if that is installed, and numpy
otherwise.  So the variable selects the backend at import and no later reload of the package lets it override an
explicit choice, nor does a call that raised. -/
theorem C41_environment_variable (e : PkgEnv) (hist : List ConfigCall) :
    (configAfter e hist).getBackend = (configAfter e hist).backendName ∧
    (configAfter e hist).backendName =
      match (explicitChoices hist).getLast? with
      | some b => if e.available b then b else .numpy
      | none => match e.backendVar.bind Backend.ofName with
        | some b => if e.available b then b else .numpy
        | none => .numpy := by
  obtain ⟨i, o⟩ := after_refines e hist
  refine ⟨i.name.symm, i.name.trans ((congrArg Spec.Config.backend o).trans ?_)⟩
  clear i o
  induction hist using List.reverseRecOn with
  | nil => rfl
  | append_singleton r c ih =>
    rw [(configAfter_snoc e r c).2]
    obtain ⟨i, o⟩ := after_refines e r
    have hav : e.available (Spec.configAfter e r).backend = true := by
      rw [← o]
      exact i.bk.avail
    unfold explicitChoices at ih ⊢
    rw [List.filterMap_append]
    cases c with
    | setBackend s =>
      unfold Spec.configStep
      cases hb : Backend.ofName s with
      | none => simpa [hb] using ih
      | some b =>
        simp only [hb, List.filterMap_cons, List.filterMap_nil, List.getLast?_append, List.getLast?_singleton,
          Option.some_or]
        split_ifs with h1 h2 h2
        · exact h1.symm
        · rw [h1] at h2
          exact absurd hav h2
        · simp [Spec.installed, h2]
        · simp [Spec.installed, h2]
    | useGpu b => simpa [Spec.configStep] using ih
    | use32 b => simpa [Spec.configStep] using ih
    | setLogLevel l =>
      have : (Spec.configStep e (.setLogLevel l) (Spec.configAfter e r)).2.backend = (Spec.configAfter e r).backend := by
        unfold Spec.configStep
        dsimp only
        split_ifs <;> rfl
      rw [this]
      simpa using ih

example : (configAfter ⟨true, false, false, some "torch", some "1"⟩ []).getBackend = .torch ∧
    (configAfter ⟨true, false, false, some "torch", some "1"⟩ [.setBackend "scipy", .use32 true]).getBackend = .scipy := by
  have h1 := C41_environment_variable ⟨true, false, false, some "torch", some "1"⟩ []
  have h2 := C41_environment_variable ⟨true, false, false, some "torch", some "1"⟩ [.setBackend "scipy", .use32 true]
  exact ⟨h1.1.trans (h1.2.trans (by decide)), h2.1.trans (h2.2.trans (by decide))⟩

/-- **C42.**  After the import and any history of calls, failed ones included, the logger has exactly one
handler, it was created by nannos, and it and the logger are at the level `Spec.configAfter` prescribes: that of
the last successful `set_log_level`, or `WARNING` if the package was reloaded since.  A known level takes effect;
an unknown one raises `KeyError` and changes nothing. -/
theorem C42_one_handler (e : PkgEnv) (hist : List ConfigCall) :
    (∃ h : Handler, (configAfter e hist).log.handlers = [h] ∧ h.own = true ∧
      h.level = (Spec.configAfter e hist).level ∧ (configAfter e hist).log.level = (Spec.configAfter e hist).level) ∧
    ∀ l, (l ∈ ["DEBUG", "INFO", "WARNING", "ERROR", "CRITICAL"] →
        (configStep e (.setLogLevel l) (configAfter e hist)).1 = .ok () ∧
        (Spec.configAfter e (hist ++ [.setLogLevel l])).level = l) ∧
      (l ∉ ["DEBUG", "INFO", "WARNING", "ERROR", "CRITICAL"] →
        configStep e (.setLogLevel l) (configAfter e hist) = (.error .keyError, configAfter e hist)) := by
  obtain ⟨h, hc⟩ := config_refines e hist
  refine ⟨h.2.2.2.2.2.2, fun l => ⟨fun hl => ⟨?_, ?_⟩, fun hl => ?_⟩⟩
  · rw [hc]
    unfold Spec.configStep
    dsimp only
    rw [if_pos hl]
  · rw [(configAfter_snoc e hist _).2]
    unfold Spec.configStep
    dsimp only
    rw [if_pos hl]
  · unfold configStep setLogLevel
    dsimp only
    rw [if_neg (show l ∉ logLevels from hl)]

/-- Switching the precision puts the log level back to `WARNING`. -/
theorem C42_reload_resets_level (e : PkgEnv) (hist : List ConfigCall) (b : Bool) :
    (configAfter e (hist ++ [.setLogLevel "DEBUG", .use32 b])).log.level = "WARNING" := by
  obtain ⟨⟨h, -, -, -, h4⟩, -⟩ := C42_one_handler e (hist ++ [.setLogLevel "DEBUG", .use32 b])
  rw [h4]
  unfold Spec.configAfter
  rw [List.foldl_append]
  rfl

/-- A handler the user adds to the logger. -/
def addHandler (h : Handler) (s : LogState) : LogState := { s with handlers := s.handlers ++ [h] }

/-- Messages are duplicated once the user has added a handler of their own: two more `set_log_level` calls leave
two handlers of nannos, because handlers are removed from the list while it is iterated over. -/
theorem C42_user_handler_duplicates_messages (e : PkgEnv) (hist : List ConfigCall) (u : Handler) (hu : u.own = false)
    (hid : ∀ h ∈ (configAfter e hist).log.handlers, h ≠ u) (l1 l2 : String) (h1 : l1 ∈ logLevels) (h2 : l2 ∈ logLevels) :
    let s := addHandler u (configAfter e hist).log
    (((setLogLevel l2 (setLogLevel l1 s).2).2.handlers.filter Handler.own).length) = 2 := by
  obtain ⟨⟨h, hh, hown, -⟩, -⟩ := C42_one_handler e hist
  have hne : h ≠ u := hid h (by rw [hh]; simp)
  set s0 := (configAfter e hist).log with hs0
  have hr1 : removeLoop 0 [h, u] = [u] := by
    unfold removeLoop
    simp
    unfold removeLoop
    simp
  set k : Handler := ⟨s0.next, true, l1⟩ with hk
  have hku : u ≠ k := by
    intro h
    rw [h] at hu
    simp [hk] at hu
  have hr2 : removeLoop 0 [u, k] = [k] := by
    unfold removeLoop
    simp
    unfold removeLoop
    simp
  have e1 : (setLogLevel l1 (addHandler u s0)).2 = ⟨[u, k], l1, s0.next + 1⟩ := by
    unfold setLogLevel addHandler
    rw [if_pos h1, hh]
    change LogState.mk (removeLoop 0 [h, u] ++ [k]) _ _ = _
    rw [hr1]
    rfl
  dsimp only
  rw [e1]
  unfold setLogLevel
  rw [if_pos h2]
  change List.length (List.filter Handler.own (removeLoop 0 [u, k] ++ [_])) = 2
  rw [hr2]
  simp [hk]

example : (Spec.configAfter ⟨true, false, false, some "torch", none⟩
    [.setLogLevel "INFO", .setLogLevel "verbose", .setBackend "torch"]).level = "INFO" := by decide

end Nannos
