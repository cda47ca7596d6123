import Verif.Props.InstallOutput
import Verif.Props.PmOutput
import Verif.Props.InstallExamples
import Verif.Props.ProgramOutputExamples
/-! # Examples for C131 and C132 -/
namespace Verif

/-- Checks that print nothing. -/
def exMute {σ : Type} : Voice σ := ⟨fun _ _ _ _ _ => [], fun _ _ _ _ _ _ => []⟩
/-- A verbose run without colours. -/
def exLoud : Console := ⟨exTexts, false, true⟩

example {σ : Type} : (exMute (σ := σ)).Silent ∧ (exMute (σ := σ)).OnStderr :=
  ⟨⟨fun _ _ _ _ _ => rfl, fun _ _ _ _ _ _ => rfl⟩, (fun _ _ _ _ _ l h => by cases h), fun _ _ _ _ _ _ l h => by cases h⟩

/-- Two packages are installed, one is there: the two return codes are said after the commands, and the success at the end. -/
example : (installTelling exLoud exMute toyMachine toyIc toyDb [] {} ["a", "b", "c"] false ["b"]).log =
    [.did (.general "toy" false (.ok ())), .did (.filter "toy" [toyRes "a", toyRes "b", toyRes "c"] (.ok [toyRes "a", toyRes "c"])),
     .did (.prereq "toy" [toyRes "a", toyRes "c"] false (.ok ())),
     .did (.plan "toy" [toyRes "a", toyRes "c"] (.ok [[some "get", some "a"], [some "get", some "c"]])),
     .did (.exec "toy" [some "get", some "a"] (.ok 0)), .said (.returned "command return code: 0".toList),
     .did (.exec "toy" [some "get", some "c"] (.ok 0)), .said (.returned "command return code: 0".toList),
     .did (.probe "toy" (toyRes "a") (.ok true)), .did (.probe "toy" (toyRes "c") (.ok true)), .said (.success "toy")] := rfl

/-- A command fails: with `continue_on_error` the summary says that there were errors. -/
example : endings (installTelling exLoud exMute toyMachine toyIc toyDb [] { continueOnError := true } ["a", "bad"] false []).log = [.failed "toy"] := rfl

/-- A command fails: without it nothing is said at the end. -/
example : endings (installTelling exLoud exMute toyMachine toyIc toyDb [] {} ["a", "bad"] false []).log = [] := rfl

/-- The hypotheses of `C132_summary`. -/
example : ∃ inst cmds s1 errs, lookupInstaller toyIc "toy" = some inst ∧
    inst.getInstallCommands [toyRes "a", toyRes "bad"] ({} : InstallOpts).interactive ({} : InstallOpts).reinstall [] = (.ok cmds, s1) ∧ cmds ≠ [] ∧
    (installResolutionsTelling exLoud toyMachine toyIc {} "toy" [toyRes "a", toyRes "bad"] []).res = .ok errs ∧ errs ≠ [] :=
  ⟨_, _, _, _, rfl, rfl, by simp, rfl, by simp⟩

end Verif
