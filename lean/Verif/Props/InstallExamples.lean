import Verif.Props.InstallReturns
/-! # Concrete installations: the theorems about installations apply, and what is refuted -/
namespace Verif

/-- The package a resolution of the example installer names. -/
def toyPkg (r : Resolution) : String := match dget r "package" with
  | some (.str s) => s
  | _ => ""

/-- An installer for the examples; the machine state is the list of installed packages. The package `weird` cannot be checked, no command
can be composed for `broken`, and fixing prerequisites installs `manager`. -/
def toy : Installer (List String) where
  name := "toy"
  resolve rule := .ok [rule]
  useAsAdditional _ := .ok true
  filterUninstalled rs s := (if rs.any (fun r => toyPkg r == "weird") then .error .installerError
    else .ok (rs.filter fun r => !s.contains (toyPkg r)), s)
  isInstalled r s := (.ok (s.contains (toyPkg r)), s)
  getInstallCommands rs _ _ s := (if rs.any (fun r => toyPkg r == "broken") then .error .installerError
    else .ok (rs.map fun r => [some "get", some (toyPkg r)]), s)
  checkGeneral _ fix _ s := (.ok (), if fix then s ++ ["manager"] else s)
  checkInstall _ _ _ _ s := (.ok (), s)

/-- The example machine: `get x` installs `x`; `get bad` fails with 1; `get gone` cannot be started. -/
def toyCall : Cmd → List String → Except Exc Int × List String
  | [some "get", some "bad"], s => (.ok 1, s)
  | [some "get", some "gone"], s => (.error .osError, s)
  | [some "get", some p], s => (.ok 0, s ++ [p])
  | _, s => (.ok 127, s)

/-- The machine of the examples, with colours disabled. -/
def toyMachine : Machine (List String) := ⟨toyCall, ansiOff, id⟩
/-- The context of the examples. -/
def toyIc : InstallerCtx (List String) := ⟨[toy], [toy], [], .ok ("xylemOS", "1")⟩
/-- The database of the examples: key `x` is resolved to package `x`. -/
def toyDb : Database := ⟨fun k => if k = "unknown" then .ok [] else .ok [("toy", [("package", .str k)])], .ok []⟩

/-- The resolution of key `k`. -/
def toyRes (k : String) : Resolution := [("package", .str k)]

/-- Two commands, one package already there. -/
theorem toy_run_good : install toyMachine toyIc toyDb [] {} ["a", "b", "c"] false ["b"] =
    ⟨.ok ⟨[], []⟩, ["b", "a", "c"],
      [.general "toy" false (.ok ()), .filter "toy" [toyRes "a", toyRes "b", toyRes "c"] (.ok [toyRes "a", toyRes "c"]),
       .prereq "toy" [toyRes "a", toyRes "c"] false (.ok ()), .plan "toy" [toyRes "a", toyRes "c"] (.ok [[some "get", some "a"], [some "get", some "c"]]),
       .exec "toy" [some "get", some "a"] (.ok 0), .exec "toy" [some "get", some "c"] (.ok 0),
       .probe "toy" (toyRes "a") (.ok true), .probe "toy" (toyRes "c") (.ok true)]⟩ := by
  rfl

/-! ### C32 -/

/-- Simulating plans the commands but runs nothing. -/
example : ∃ ev, install toyMachine toyIc toyDb [] { simulate := true } ["a", "b"] false ["b"] = ⟨.ok ⟨[], []⟩, ["b"], ev⟩ ∧
    plannedOf ev = [("toy", [some "get", some "a"])] ∧ executedOf ev = [] := ⟨_, rfl, rfl, rfl⟩

example : ReadOnlyInstaller toy := by
  constructor <;> intros <;> rfl

/-- **C32** A simulation with prerequisite fixing is not a dry run: the machine changes. -/
theorem C32_simulate_may_fix : ∃ (m : Machine (List String)) (ic : InstallerCtx (List String)) (db : Database) (s : List String),
    (∀ i ∈ ic.plugins, ReadOnlyInstaller i) ∧
    (install m ic db [] { simulate := true, fixPrerequisites := true } ["a"] false s).st ≠ s :=
  ⟨toyMachine, toyIc, toyDb, [], by
    intro i hi
    simp only [toyIc, List.mem_singleton] at hi
    subst hi
    constructor <;> intros <;> rfl, by
    rw [show (install toyMachine toyIc toyDb [] { simulate := true, fixPrerequisites := true } ["a"] false []).st = ["manager"] from rfl]
    simp⟩

/-! ### C33, C34 -/

example : ∃ ev, install toyMachine toyIc toyDb [] {} ["a", "bad", "c"] false [] =
      ⟨.ok ⟨[], [.commandFailed "toy" [some "get", some "bad"] 1]⟩, ["a"], ev⟩ ∧
    plannedOf ev = [("toy", [some "get", some "a"]), ("toy", [some "get", some "bad"]), ("toy", [some "get", some "c"])] ∧
    executedOf ev = [("toy", [some "get", some "a"]), ("toy", [some "get", some "bad"])] := ⟨_, rfl, rfl, rfl⟩

example : ∃ ev, install toyMachine toyIc toyDb [] { continueOnError := true } ["a", "bad", "unknown", "c"] false [] =
      ⟨.ok ⟨[("unknown", .noRule)], [.commandFailed "toy" [some "get", some "bad"] 1, .notDetected "toy" (toyRes "bad")]⟩, ["a", "c"], ev⟩ ∧
    executedOf ev = [("toy", [some "get", some "a"]), ("toy", [some "get", some "bad"]), ("toy", [some "get", some "c"])] := ⟨_, rfl, rfl⟩

/-- An installer that meets the conditions of `C34_returns_if_plugins_behave_partial`: its command is always `get x`. -/
example : let i : Installer (List String) := { toy with
      getInstallCommands := fun rs _ _ s => (.ok (rs.map fun _ => [some "get", some "x"]), s)
      filterUninstalled := fun rs s => (if s = [] then .error .installerError else .ok rs, s) }
    Obliging toyMachine i := by
  refine ⟨fun _ _ _ _ => rfl, fun _ _ _ _ _ => rfl, fun rs s => ?_, fun r s => Or.inl ⟨_, rfl⟩, fun rs a b s => ⟨_, rfl, ?_⟩⟩
  · by_cases h : s = []
    · exact Or.inr ⟨.installerError, by simp [h], rfl⟩
    · exact Or.inl ⟨rs, by simp [h]⟩
  · intro c hc
    obtain ⟨_, _, rfl⟩ := List.mem_map.1 hc
    exact ⟨by unfold Plain; simp, fun s => ⟨0, rfl⟩⟩
example : (∃ b, toyMachine.ansi "boldon".toList = some b) ∧ ∃ r, toyMachine.ansi "reset".toList = some r := ⟨⟨_, rfl⟩, _, rfl⟩
example : (∃ b, ansiOn "boldon".toList = some b) ∧ ∃ r, ansiOn "reset".toList = some r := ⟨⟨_, rfl⟩, _, rfl⟩
example : toyIc.Consistent := by simp [InstallerCtx.Consistent, toyIc]

/-- **C34 refuted**: with continue_on_error, a command that cannot be started ends the installation with an OSError; later commands are not
run and nothing is reported. -/
theorem C34_unstartable_command_aborts : ∃ ev st,
    install toyMachine toyIc toyDb [] { continueOnError := true } ["a", "gone", "c"] false [] = ⟨.error .osError, st, ev⟩ ∧
    plannedOf ev = [("toy", [some "get", some "a"]), ("toy", [some "get", some "gone"]), ("toy", [some "get", some "c"])] ∧
    executedOf ev = [("toy", [some "get", some "a"]), ("toy", [some "get", some "gone"])] := ⟨_, _, rfl, rfl, rfl⟩

/-- **C34 refuted**: with continue_on_error, a command with an unknown `@name` in its text ends the installation with a KeyError before it is run. -/
theorem C34_markup_in_command_aborts : ∃ ev st,
    install toyMachine toyIc toyDb [] { continueOnError := true } ["a", "x@y", "c"] false [] = ⟨.error .keyError, st, ev⟩ ∧
    plannedOf ev = [("toy", [some "get", some "a"]), ("toy", [some "get", some "x@y"]), ("toy", [some "get", some "c"])] ∧
    executedOf ev = [("toy", [some "get", some "a"])] := ⟨_, _, rfl, rfl, rfl⟩

/-- **C34 refuted**, in general: if an installer reports that it cannot compose the commands (InstallerError) the installation of its group
ends with UnboundLocalError, also with continue_on_error. -/
theorem C34_compose_error_crashes {σ : Type} (m : Machine σ) (ic : InstallerCtx σ) (o : InstallOpts) (name : String) (rs : List Resolution)
    (i : Installer σ) (hi : lookupInstaller ic name = some i) (s : σ) (e : Exc) (he : e.isInstallerError = true)
    (h : (i.getInstallCommands rs o.interactive o.reinstall s).1 = .error e) :
    (installResolutions m ic o name rs s).res = .error .unboundLocalError := by
  rw [installResolutions_run, hi]
  simp [h, he]

example : (install toyMachine toyIc toyDb [] { continueOnError := true } ["a", "broken"] false []).res = .error .unboundLocalError := rfl

/-! ### C35, C36 -/

example : ∃ ev st, install toyMachine toyIc toyDb [] {} ["a", "b", "c"] false ["b"] = ⟨.ok ⟨[], []⟩, st, ev⟩ ∧
    ev.filterMap keptOf = [("toy", [toyRes "a", toyRes "c"])] ∧ plannedItems ev = [("toy", [toyRes "a", toyRes "c"])] :=
  ⟨_, _, toy_run_good, rfl, rfl⟩

/-! ### C37, C38 -/

/-- **C37 refuted**, concretely: the installed-check fails, nothing is installed, success is reported. -/
theorem C37_silent_success_witness : ∃ ev,
    install toyMachine toyIc toyDb [] {} ["a", "weird"] false [] = ⟨.ok ⟨[], []⟩, [], ev⟩ ∧
    .filter "toy" [toyRes "a", toyRes "weird"] (.error .installerError) ∈ ev ∧ executedOf ev = [] :=
  ⟨_, rfl, List.Mem.tail _ (List.Mem.head _), rfl⟩

/-- **C37 refuted**, concretely, with continue_on_error: the installed-check fails, its items are installed all the same, and the report does not
mention the failed check. -/
theorem C37_continuing_witness : ∃ ev,
    install toyMachine toyIc toyDb [] { continueOnError := true } ["a", "weird"] false [] = ⟨.ok ⟨[], []⟩, ["a", "weird"], ev⟩ ∧
    .filter "toy" [toyRes "a", toyRes "weird"] (.error .installerError) ∈ ev ∧
    executedOf ev = [("toy", [some "get", some "a"]), ("toy", [some "get", some "weird"])] :=
  ⟨_, rfl, List.Mem.tail _ (List.Mem.head _), rfl⟩

/-- **C38 refuted**, concretely. -/
theorem C38_reinstall_witness : (install toyMachine toyIc toyDb [] { reinstall := true } ["a"] false []).res = .error .unboundLocalError := rfl

end Verif
