import Verif.Model.Hook
import Verif.Lemmas.Program
import Verif.Props.Text
import Verif.Props.Commands
import Verif.Props.ProgramExamples
/-! # C134: errors that end the program are shown, with everything that caused them -/
namespace Verif

/-- The text shows an exception and its causes: root cause first, separated by a line saying so; each with its traceback, if tracebacks are shown and (for
causes) it is known. -/
def ShowsAll (tracebacks : Bool) (c : Chain) (t : List Char) : Prop :=
  WithoutFinalNewlines ((causeLine tracebacks).intercalate
    ((c.causes.reverse.map fun x => renderedWith (tracebacks && x.stored) x) ++ [renderedWith tracebacks c.exc])) t

theorem caught_shows (c : Chain) (tb : Bool) : ShowsAll tb c (c.caught tb) := by
  have h := (C63_root_cause_first true tb c.exc c.causes).1
  simp only [Bool.and_true] at h
  exact h

theorem uncaught_shows (c : Chain) : ShowsAll true c c.uncaught := caught_shows c true

theorem uncaught_traceback {e : Exc} (h : ∀ c, e ≠ .systemExit c) : uncaught e = .traceback e := by
  cases e <;> first | rfl | exact absurd rfl (h _)

/-- **C134** An error of the command (not a request to exit, nor an interrupt by the user) ends `xylem` with status 1, and the last thing shown, on stderr, is
the error with all its causes. Tracebacks are shown for internal errors and errors xylem does not know, in debug mode for all. -/
theorem C134_command_error {i : Interp} (hs : i.script = "xylem") (chain : Exc → Chain) {env : StartEnv} {desc : Desc} {fresh : Bool} {top sub : List OptSpec}
    {positional : Except Exc Unit} {p p' : Process} {before after : List Given} {ns : ArgSpace}
    (hr : reached env desc fresh top sub positional p before after = .ok (p', ns)) (func : Process → ArgSpace → Run (Option Int)) {e : Exc}
    (he : (func p' ns).res = .error e) (h1 : ∀ c, e ≠ .systemExit c) (h2 : e ≠ .keyboardInterrupt) (h3 : e ≠ .eofError) :
    let out := wholeProcess i chain env desc fresh top sub positional func p before after
    out.status = 1 ∧ ∃ pre t post, out.lines = (func p' ns).lines ++ [.err (pre ++ t ++ post)] ∧
      ShowsAll (p'.debug || e == .xylemInternalError || !e.isXylemError) (chain e) t ∧ (p'.color = false → pre = [] ∧ post = []) := by
  intro out
  have ho : out = (mainTry p'.color p'.debug (caughtText chain) (func p' ns)).stop i p'.pdb chain := by
    show wholeProcess i chain env desc fresh top sub positional func p before after = _
    unfold wholeProcess
    rw [mainWith_reached hr]
  cases hx : e.isXylemError with
  | true =>
    obtain ⟨k1, pre, post, k2, k3⟩ := (C60_xylem_error_exits_one p'.color p'.debug (caughtText chain) (func p' ns) e he).1 hx
    have : out = ⟨(mainTry p'.color p'.debug (caughtText chain) (func p' ns)).lines, false, 1⟩ := by
      rw [ho]; unfold Finished.stop; rw [k1]; rfl
    rw [this]
    refine ⟨rfl, pre, _, post, k2, ?_, k3⟩
    simp only [Bool.not_true, Bool.or_false]
    exact caught_shows _ _
  | false =>
    have hm : mainTry p'.color p'.debug (caughtText chain) (func p' ns) = ⟨(func p' ns).lines, .traceback e⟩ := by
      unfold mainTry
      rw [he]
      have h23 : (e == .keyboardInterrupt || e == .eofError) = false := by
        rw [Bool.or_eq_false_iff]; exact ⟨beq_false_of_ne h2, beq_false_of_ne h3⟩
      simp only [hx, Bool.false_eq_true, if_false, h23, uncaught_traceback h1]
    have : out = ⟨(func p' ns).lines ++ [.err (chain e).uncaught], startsDebugger i p'.pdb, 1⟩ := by
      rw [ho, hm]; unfold Finished.stop; simp only [hs, if_true]; rfl
    rw [this]
    refine ⟨rfl, [], (chain e).uncaught, [], by simp, ?_, fun _ => ⟨rfl, rfl⟩⟩
    simp only [Bool.not_false, Bool.or_true]
    exact uncaught_shows _

/-- **C134** An error before the command is run, such as an invalid config file (not a request to exit), ends `xylem` with status 1, and the last thing shown, on
stderr, is the error with all its causes and tracebacks. -/
theorem C134_setup_error {i : Interp} (hs : i.script = "xylem") (chain : Exc → Chain) {env : StartEnv} {desc : Desc} {fresh : Bool} {top sub : List OptSpec}
    {positional : Except Exc Unit} {p : Process} {before after : List Given} {e : Exc}
    (hr : reached env desc fresh top sub positional p before after = .error e) (h1 : ∀ c, e ≠ .systemExit c)
    (func : Process → ArgSpace → Run (Option Int)) :
    let out := wholeProcess i chain env desc fresh top sub positional func p before after
    out.status = 1 ∧ ∃ ls t, out.lines = ls ++ [.err t] ∧ ShowsAll true (chain e) t := by
  intro out
  have hm := mainWith_not_reached (text := caughtText chain) hr func
  rcases hw : mainWith env desc (caughtText chain) fresh top sub positional func p before after with ⟨p', f⟩
  rw [hw, uncaught_traceback h1] at hm
  have : out = ⟨f.lines ++ [.err (chain e).uncaught], startsDebugger i p'.pdb, 1⟩ := by
    show wholeProcess i chain env desc fresh top sub positional func p before after = _
    unfold wholeProcess
    rw [hw]
    show f.stop i p'.pdb chain = _
    unfold Finished.stop
    have hm : f.ending = .traceback e := hm
    simp only [hm, hs, if_true]
    rfl
  rw [this]
  exact ⟨rfl, _, _, rfl, uncaught_shows _⟩

/-- **C134** If the command returns, asks to exit, or is interrupted by the user, the interpreter shows nothing more and no debugger is started. -/
theorem C134_no_error {i : Interp} (chain : Exc → Chain) {env : StartEnv} {desc : Desc} {fresh : Bool} {top sub : List OptSpec}
    {positional : Except Exc Unit} {p p' : Process} {before after : List Given} {ns : ArgSpace}
    (hr : reached env desc fresh top sub positional p before after = .ok (p', ns)) (func : Process → ArgSpace → Run (Option Int))
    (he : (∃ r, (func p' ns).res = .ok r) ∨ (∃ c, (func p' ns).res = .error (.systemExit c)) ∨ (func p' ns).res = .error .keyboardInterrupt ∨
      (func p' ns).res = .error .eofError) :
    let out := wholeProcess i chain env desc fresh top sub positional func p before after
    out.lines.filterMap onStderr = (func p' ns).lines.filterMap onStderr ∧ out.debugger = false := by
  intro out
  have ho : out = (mainTry p'.color p'.debug (caughtText chain) (func p' ns)).stop i p'.pdb chain := by
    show wholeProcess i chain env desc fresh top sub positional func p before after = _
    unfold wholeProcess
    rw [mainWith_reached hr]
  rw [ho]
  rcases he with ⟨r, h⟩ | ⟨c, h⟩ | h | h <;> unfold mainTry <;> rw [h] <;>
    simp [Finished.stop, Exc.isXylemError, uncaught, info, onStderr]

/-- **C134** The debugger is started only after an error nobody handled, if it was asked for (`--pdb` or `XYLEM_PDB`) and there is a terminal to use it. -/
theorem C134_debugger (i : Interp) (chain : Exc → Chain) (env : StartEnv) (desc : Desc) (fresh : Bool) (top sub : List OptSpec)
    (positional : Except Exc Unit) (func : Process → ArgSpace → Run (Option Int)) (p : Process) (before after : List Given) :
    (wholeProcess i chain env desc fresh top sub positional func p before after).debugger = true ↔
      (∃ e, (mainWith env desc (caughtText chain) fresh top sub positional func p before after).2.ending = .traceback e) ∧ i.script = "xylem" ∧
      (mainWith env desc (caughtText chain) fresh top sub positional func p before after).1.pdb = true ∧ i.ps1 = false ∧ i.stderrTty = true := by
  unfold wholeProcess
  rcases mainWith env desc (caughtText chain) fresh top sub positional func p before after with ⟨p', f⟩
  show (f.stop i p'.pdb chain).debugger = true ↔ (∃ e, f.ending = .traceback e) ∧ i.script = "xylem" ∧ p'.pdb = true ∧ i.ps1 = false ∧ i.stderrTty = true
  unfold Finished.stop
  cases hf : f.ending with
  | exit c => simp
  | traceback e =>
    by_cases hs : i.script = "xylem"
    · simp only [hs, if_true, startsDebugger, true_and]
      cases p'.pdb <;> cases i.ps1 <;> cases i.stderrTty <;> simp
    · simp [hs]

/-- **C134** The switch: `--pdb` or `XYLEM_PDB`. -/
theorem C134_debugger_switch {env : StartEnv} {desc : Desc} {text : Bool → Exc → List Char} {fresh : Bool} {top sub : List OptSpec}
    {positional : Except Exc Unit} {p p' : Process} {before after : List Given} {ns : ArgSpace}
    (hr : reached env desc fresh top sub positional p before after = .ok (p', ns)) (func : Process → ArgSpace → Run (Option Int)) :
    (mainWith env desc text fresh top sub positional func p before after).1.pdb = (switchOn ns "pdb" || env.pdbVar) := by
  rw [mainWith_reached hr]
  obtain ⟨_, _, _, c, _, rfl⟩ := reached_ok.1 hr
  rfl

/-- **C134 (refuted part)** In a script of another name, such as `xylem-update`, the causes of an error nobody handled are not shown: what is shown is the same for
every list of causes. -/
theorem C134_other_scripts_refuted {i : Interp} (hs : i.script ≠ "xylem") (pdb : Bool) (exc : ExcInfo) (causes causes' : List ExcInfo) (f : Finished) (e : Exc)
    (hf : f.ending = .traceback e) : f.stop i pdb (fun _ => ⟨exc, causes⟩) = f.stop i pdb (fun _ => ⟨exc, causes'⟩) := by
  unfold Finished.stop
  rw [hf]
  simp only [hs, if_false]
  rfl

/-! ## Examples -/

/-- An error caused by another one. -/
def exChain (_ : Exc) : Chain := ⟨⟨"InstallError: b\n".toList, "at b\nInstallError: b\n".toList, false⟩, [⟨"KeyError: a\n".toList, "at a\nKeyError: a\n".toList, true⟩]⟩

/-- A process whose command raises an exception. -/
def exFailing (e : Exc) (args : List Given) : Stopped :=
  wholeProcess ⟨"xylem", false, true⟩ exChain exStart xylemDescription true (exParser "") (exParser "install") (.ok ()) (fun _ _ => ⟨[], .error e⟩) exProcess [] args

example : (exFailing .installError [⟨"--no-color", none⟩]).lines =
      [.err "KeyError: a\n --- The above error was the direct cause of the following:\nInstallError: b".toList] ∧
    (exFailing .installError [⟨"--no-color", none⟩]).status = 1 ∧ (exFailing .installError [⟨"--no-color", none⟩, ⟨"--pdb", none⟩]).debugger = false := by
  refine ⟨by decide +kernel, by decide +kernel, by decide +kernel⟩

example : (exFailing .osError [⟨"--no-color", none⟩, ⟨"--pdb", none⟩]).lines =
      [.err "at a\nKeyError: a\n\nThe above error was the direct cause of the following:\n\nat b\nInstallError: b".toList] ∧
    (exFailing .osError [⟨"--no-color", none⟩, ⟨"--pdb", none⟩]).debugger = true := by
  refine ⟨by decide +kernel, by decide +kernel⟩

end Verif
