import Verif.Props.Commands
/-!
# The flags of `xylem install` (C32, C33, C34, C38), and the exceptions xylem defines (C60)
-/
namespace Verif
variable {σ : Type}

/-- The exception classes of xylem itself (`grep "class .*(XylemError)"` and their subclasses). -/
def xylemExceptions : List Exc :=
  [.xylemError, .xylemInternalError, .downloadFailure, .configValueError, .configDescriptionError, .specParsingError, .installerError,
    .invalidRuleError, .installerPrerequisiteError, .invalidPluginError, .installError, .resolutionError, .unknownSpecError,
    .unsupportedOSError, .unsupportedOSVersionError]

/-- **C60** Whichever of xylem's own exceptions a command raises, the process ends with status 1 and without an unhandled traceback; a
builtin exception other than an interrupt or an exit reaches the user as a traceback. -/
theorem C60_own_exceptions (on debug : Bool) (text : Bool → Exc → List Char) (func : Run (Option Int)) (e : Exc) (h : func.res = .error e) :
    (e ∈ xylemExceptions → (mainTry on debug text func).ending = .exit 1) ∧
    (e ∉ xylemExceptions → e ≠ .keyboardInterrupt → e ≠ .eofError → (∀ c, e ≠ .systemExit c) →
      (mainTry on debug text func).ending = .traceback e) := by
  constructor
  · intro he
    refine ((C60_xylem_error_exits_one on debug text func e h).1 ?_).1
    simp only [xylemExceptions, List.mem_cons, List.not_mem_nil, or_false] at he
    rcases he with rfl | rfl | rfl | rfl | rfl | rfl | rfl | rfl | rfl | rfl | rfl | rfl | rfl | rfl | rfl <;> rfl
  · intro he h1 h2 h3
    rw [mainTry_cases, h]
    cases e <;> first
      | (exfalso; apply he; simp [xylemExceptions]; done)
      | exact absurd rfl h1
      | exact absurd rfl h2
      | exact absurd rfl (h3 _)
      | simp [Exc.isXylemError, uncaught]

/-- What `xylem install` with the arguments `a` does on the machine. -/
def installActs (m : Machine σ) (ic : InstallerCtx σ) (d : Database) (installFrom : Dict String (List String)) (a : InstallArgs) (s : σ) :=
  installApi m (.ok ic) (.ok d) installFrom a.opts a.keys a.all s

theorem installActs_eq (m : Machine σ) (ic : InstallerCtx σ) (d : Database) (f : Dict String (List String)) (a : InstallArgs) (s : σ) :
    installActs m ic d f a s = install m ic d f a.opts a.keys a.all s := by
  unfold installActs installApi
  rw [lift_ok_run, lift_ok_run]

/-- **C32** `xylem install --dry-run` executes no command, whatever the other flags; without `--fix-prerequisites` and with installers whose
queries change nothing, the machine is left as it was. -/
theorem C32_dry_run_flag (m : Machine σ) (ic : InstallerCtx σ) (d : Database) (f : Dict String (List String)) (a : InstallArgs) (s : σ)
    (h : a.dryRun = true) :
    executedOf (installActs m ic d f a s).ev = [] ∧
    (a.fixPrerequisites = false → (∀ i ∈ ic.plugins, ReadOnlyInstaller i) → (installActs m ic d f a s).st = s) := by
  rw [installActs_eq]
  exact ⟨C32_simulate_executes_nothing m ic d f a.opts a.keys a.all s h,
    fun h1 h2 => C32_simulate_changes_nothing m ic d f a.opts a.keys a.all s h h1 h2⟩

/-- **C33** `xylem install` without `--continue-on-error` executes nothing after a failing command. -/
theorem C33_without_flag (m : Machine σ) (ic : InstallerCtx σ) (d : Database) (f : Dict String (List String)) (a : InstallArgs) (s : σ)
    (h : a.continueOnError = false) :
    executedOf (installActs m ic d f a s).ev <+: plannedOf (installActs m ic d f a s).ev ∧
    ∀ pre i c r post, (installActs m ic d f a s).ev = pre ++ .exec i c r :: post → r ≠ .ok 0 → post = [] := by
  rw [installActs_eq]
  exact C33_stop_at_first_failure m ic d f a.opts a.keys a.all s h

/-- **C34 (partial, as `C34_continue_runs_everything_partial`)** `xylem install --continue-on-error` without `--dry-run`, if it returns, has
executed every planned command. -/
theorem C34_continue_flag_partial (m : Machine σ) (ic : InstallerCtx σ) (d : Database) (f : Dict String (List String)) (a : InstallArgs) (s : σ)
    (h : a.continueOnError = true) (hd : a.dryRun = false) (rep : InstallReport) (hr : (installActs m ic d f a s).res = .ok rep) :
    executedOf (installActs m ic d f a s).ev = plannedOf (installActs m ic d f a s).ev ∧
    rep.installErrors = (installActs m ic d f a s).ev.filterMap failureOf := by
  rw [installActs_eq] at hr ⊢
  exact C34_continue_runs_everything_partial m ic d f a.opts a.keys a.all s h hd rep hr

/-- **C38 (refuted)** `xylem install --reinstall` never executes anything. -/
theorem C38_reinstall_flag_refuted (m : Machine σ) (ic : InstallerCtx σ) (d : Database) (f : Dict String (List String)) (a : InstallArgs) (s : σ)
    (h : a.reinstall = true) : executedOf (installActs m ic d f a s).ev = [] := by
  rw [installActs_eq]
  exact (C38_reinstall_never_works m ic d f a.opts a.keys a.all s h).2.1

/-- Non-vacuity: a dry run and a real one. -/
example : executedOf (installActs toyMachine toyIc toyDb [] { exInstallArgs ["a"] with dryRun := true } []).ev = [] ∧
    executedOf (installActs toyMachine toyIc toyDb [] (exInstallArgs ["a"]) []).ev ≠ [] ∧
    (installActs toyMachine toyIc toyDb [] { exInstallArgs ["a", "bad"] with continueOnError := true } []).res.toOption.isSome = true :=
  ⟨rfl, fun h => absurd ((congrArg List.length h).symm.trans (show _ = 1 from rfl)) (by simp), rfl⟩

end Verif
