import Verif.Spec.Commands
import Verif.Lemmas.Commands
import Verif.Props.InstallExamples
import Verif.Props.Installers
import Verif.Props.Resolve
/-! # C60: exit codes; C80: what `xylem resolve` prints -/
namespace Verif

variable {σ : Type}

/-- The names used by the commands are in the table of codes. -/
theorem ansi_known (on : Bool) : ∀ key ∈ ["reset", "redf", "boldon", "cyanf", "bluef", "yellowf"],
    ∃ code, (if on then ansiOn else ansiOff) key.toList = some code ∧ ansi on key = code := by
  intro key hk
  simp only [List.mem_cons, List.not_mem_nil, or_false] at hk
  cases on <;> rcases hk with rfl | rfl | rfl | rfl | rfl | rfl <;> exact ⟨_, rfl, rfl⟩

theorem ansi_off {key : String} (hk : key ∈ ["reset", "redf", "boldon", "cyanf", "bluef", "yellowf"]) : ansi false key = [] := by
  simp only [List.mem_cons, List.not_mem_nil, or_false] at hk
  rcases hk with rfl | rfl | rfl | rfl | rfl | rfl <;> rfl

/-! ## C60 -/

theorem mainTry_cases (on debug : Bool) (text : Bool → Exc → List Char) (func : Run (Option Int)) :
    (mainTry on debug text func).ending = match func.res with
      | .ok r => .exit (r.getD 0)
      | .error e => if e.isXylemError ∨ e = .keyboardInterrupt ∨ e = .eofError then .exit 1 else uncaught e := by
  unfold mainTry
  cases h : func.res with
  | ok r => rfl
  | error e =>
    simp only
    by_cases hx : e.isXylemError = true
    · simp only [hx, if_true, true_or]
      split <;> rfl
    · simp only [hx, if_false, false_or, Bool.false_eq_true]
      by_cases hk : e = .keyboardInterrupt ∨ e = .eofError
      · rw [if_pos (by rcases hk with rfl | rfl <;> rfl), if_pos hk]
      · rw [if_neg, if_neg hk]
        intro h
        rw [Bool.or_eq_true] at h
        exact hk (h.imp eq_of_beq eq_of_beq)

/-- **C60** A command run by `xylem` ends the process with status 0 exactly if it returned nothing (or a multiple of 256), or asked for such a
status itself. -/
theorem C60_status_zero (on debug : Bool) (text : Bool → Exc → List Char) (func : Run (Option Int)) :
    (mainTry on debug text func).ending.status = 0 ↔
      (∃ r, func.res = .ok r ∧ (r.getD 0) % 256 = 0) ∨ (∃ c, func.res = .error (.systemExit c) ∧ c % 256 = 0) := by
  rw [mainTry_cases]
  cases h : func.res with
  | ok r => simp [Ending.status]
  | error e =>
    cases e <;> simp [Exc.isXylemError, uncaught, Ending.status]

/-- **C60** Every xylem error that reaches `main` ends the process with status 1 and one message on stderr after everything the command printed:
the text of the error, with traceback for internal errors and in debug mode, else without. An interrupt by the user ends it with status 1, and
nothing on stderr. -/
theorem C60_xylem_error_exits_one (on debug : Bool) (text : Bool → Exc → List Char) (func : Run (Option Int)) (e : Exc)
    (h : func.res = .error e) :
    (e.isXylemError = true → (mainTry on debug text func).ending = .exit 1 ∧
      ∃ pre post, (mainTry on debug text func).lines =
        func.lines ++ [.err (pre ++ text (debug || e == .xylemInternalError) e ++ post)] ∧ (on = false → pre = [] ∧ post = [])) ∧
    (e = .keyboardInterrupt ∨ e = .eofError → (mainTry on debug text func).ending = .exit 1 ∧
      (mainTry on debug text func).lines.filterMap onStderr = func.lines.filterMap onStderr) := by
  constructor
  · intro hx
    refine ⟨by rw [mainTry_cases, h]; simp [hx], ?_⟩
    unfold mainTry
    rw [h]
    simp only [hx, if_true]
    cases hd : (debug || e == .xylemInternalError) with
    | true => exact ⟨[], [], by simp, by simp⟩
    | false =>
      refine ⟨ansi on "redf" ++ ansi on "boldon", ansi on "reset", by simp [error], ?_⟩
      rintro rfl
      exact ⟨by rw [ansi_off (by simp), ansi_off (by simp)]; rfl, ansi_off (by simp)⟩
  · intro hx
    refine ⟨by rw [mainTry_cases, h]; simp [hx], ?_⟩
    unfold mainTry
    rw [h]
    rcases hx with rfl | rfl <;> simp [Exc.isXylemError, info, onStderr]

/-- **C60 (refuted for `main` as a whole)** Errors raised while the commands are loaded or the configuration is read are not handled: a xylem
error such as an invalid config file ends the process with a traceback instead of the message (the status is 1 all the same). -/
theorem C60_setup_errors_refuted (on debug : Bool) (text : Bool → Exc → List Char) (e : Exc) (h : ∀ c, e ≠ .systemExit c) :
    (mainProcess on debug text (.error e)).ending = .traceback e ∧ (mainProcess on debug text (.error e)).ending.status = 1 := by
  have : uncaught e = .traceback e := by cases e <;> first | rfl | exact absurd rfl (h _)
  simp only [mainProcess, this]
  exact ⟨trivial, rfl⟩

/-- The status of a process whose command returns nothing and ended in this way. -/
def statusOf : Except Exc Unit → Int
  | .ok () => 0
  | .error (.systemExit c) => c % 256
  | .error _ => 1

theorem statusOf_error {e : Exc} (h : ∀ c, e ≠ .systemExit c) : statusOf (.error e) = 1 := by
  cases e <;> first | rfl | exact absurd rfl (h _)

/-- How a process ends whose command returns nothing. -/
theorem command_status (on debug : Bool) (text : Bool → Exc → List Char) (r : Run Unit) :
    (mainTry on debug text r.returnsNone).ending.status = statusOf r.res := by
  rw [mainTry_cases, (returnsNone_res r).2]
  cases h : r.res with
  | ok => simp [Ending.status, statusOf]
  | error e => cases e <;> simp [Exc.isXylemError, uncaught, Ending.status, statusOf]

theorem interruptible_status (on debug : Bool) (text : Bool → Exc → List Char) (r : Run Unit) :
    (mainTry on debug text (interruptible on r).returnsNone).ending.status = statusOf r.res := by
  rw [command_status]
  cases h : r.res with
  | ok => rw [interruptible_ok h, h]
  | error e =>
    rw [interruptible_error h]
    by_cases hk : e = .keyboardInterrupt ∨ e = .eofError
    · rw [if_pos hk]; rcases hk with rfl | rfl <;> rfl
    · rw [if_neg hk, h]

theorem printResults_cases (on : Bool) (d : Option String) (sd : Bool) (l : List (String × (String × List Resolution))) :
    ((printResults on d sd l).res = .ok () ∧ ∃ texts, Rendered l texts) ∨
    (∃ e, (printResults on d sd l).res = .error e ∧ (e = .attributeError ∨ e = .typeError ∨ e = .keyError) ∧ ¬ ∃ texts, Rendered l texts) := by
  induction l with
  | nil => exact .inl ⟨rfl, [], .nil⟩
  | cons r t ih =>
    have hr : (∃ s ts, resolutionString r.2.2 = .ok s ∧ List.Forall₂ (fun x t => Resolution.str x = .ok t) r.2.2 ts) ∨
        (∃ e, resolutionString r.2.2 = .error e ∧ ¬ ∃ ts, List.Forall₂ (fun x t => Resolution.str x = .ok t) r.2.2 ts) := by
      unfold resolutionString
      cases hm : r.2.2.mapM Resolution.str with
      | ok ts => exact .inl ⟨_, ts, rfl, mapM_ok_iff.1 hm⟩
      | error e =>
        refine .inr ⟨e, rfl, ?_⟩
        rintro ⟨ts, hts⟩
        rw [mapM_ok_iff.2 hts] at hm; simp at hm
    rcases hr with ⟨s, ts, hs, hts⟩ | ⟨e, he, hn⟩
    · have hp : (printResult on d sd r).res = .ok () := by unfold printResult; rw [hs, run_lift_ok]; rfl
      have : printResults on d sd (r :: t) = ⟨(printResult on d sd r).lines ++ (printResults on d sd t).lines, (printResults on d sd t).res⟩ := by
        rw [printResults, run_bind_ok hp]
      rw [this]
      rcases ih with ⟨h1, texts, h2⟩ | ⟨e, h1, h2, h3⟩
      · exact .inl ⟨h1, ts :: texts, .cons hts h2⟩
      · refine .inr ⟨e, h1, h2, ?_⟩
        rintro ⟨texts, ht⟩
        cases ht with
        | cons _ ht => exact h3 ⟨_, ht⟩
    · refine .inr ⟨e, ?_, resolutionString_error he, ?_⟩
      · have hp : (printResult on d sd r).res = .error e := by unfold printResult; rw [he, run_lift_error]
        rw [printResults, run_bind_error hp]
      · rintro ⟨texts, ht⟩
        cases ht with
        | cons h _ => exact hn ⟨_, h⟩

theorem reportErrors_eq (on : Bool) (texts : List (List Char)) :
    reportErrors on texts = ⟨if texts = [] then [] else (error on (joinErrors texts)).lines, .ok ()⟩ := by
  unfold reportErrors; split <;> rfl

theorem printResolved_eq (on : Bool) (text : String × ResErr → List Char) (d : Option String) (sd : Bool) (r : Resolved) :
    printResolved on text d sd r = ⟨(if r.errors = [] then [] else (error on (joinErrors (r.errors.map text))).lines) ++
        (printResults on d sd r.results).lines,
      match (printResults on d sd r.results).res with
      | .ok _ => if r.errors = [] then .ok () else .error (.systemExit 1)
      | .error e => .error e⟩ := by
  unfold printResolved
  rw [run_bind_ok (r := reportErrors on (r.errors.map text)) (a := ()) (by rw [reportErrors_eq]), reportErrors_eq]
  cases hx : (printResults on d sd r.results).res with
  | error e => rw [run_bind_error hx]; simp
  | ok u => rw [run_bind_ok hx]; by_cases he : r.errors = [] <;> simp [he, exitIf, Run.lift, pure]

theorem printResolved_res (on : Bool) (text : String × ResErr → List Char) (d : Option String) (sd : Bool) (r : Resolved) :
    ((printResolved on text d sd r).res = .ok () ↔ r.errors = [] ∧ ∃ texts, Rendered r.results texts) ∧
    (∀ c, (printResolved on text d sd r).res = .error (.systemExit c) → c = 1) := by
  have e1 : (printResolved on text d sd r).res =
      match (printResults on d sd r.results).res with
      | .ok _ => if r.errors ≠ [] then .error (.systemExit 1) else .ok ()
      | .error e => .error e := by
    rw [printResolved_eq]
    cases hx : (printResults on d sd r.results).res <;> simp
  rw [e1]
  rcases printResults_cases on d sd r.results with ⟨h1, h2⟩ | ⟨e, h1, h2, h3⟩
  · rw [h1]
    simp only
    by_cases he : r.errors = []
    · simp [he, h2]
    · simp [he]
  · rw [h1]
    refine ⟨⟨fun h => by simp at h, fun h => absurd h.2 h3⟩, fun c h => ?_⟩
    simp only [Except.error.injEq] at h
    rcases h2 with h2 | h2 | h2 <;> rw [h2] at h <;> simp at h

/-- **C60** `xylem resolve` ends with status 0 exactly if the installers were set up, the database was loaded, every requested key was resolved
(no error was reported), and every resolution could be shown; in every other case the status is 1. (Nothing the command calls asks the
process to exit: none of the code of xylem does.) -/
theorem C60_resolve_status (on debug : Bool) (text : Bool → Exc → List Char) (etext : String × ResErr → List Char)
    (ctx : Except Exc (InstallerCtx σ)) (dflt : Except Exc (Option String)) (db : Except Exc Database)
    (installFrom : Dict String (List String)) (a : ResolveArgs) (h1 : NoSystemExit ctx) (h2 : NoSystemExit dflt) (h3 : NoSystemExit db)
    (h4 : ∀ ic d, ctx = .ok ic → db = .ok d → NoSystemExit (resolve ic d installFrom a.keys a.all)) :
    ((mainTry on debug text (resolveCommand on etext ctx dflt db installFrom a).returnsNone).ending.status = 0 ↔
      ∃ ic dn d r texts, ctx = .ok ic ∧ dflt = .ok dn ∧ db = .ok d ∧ resolve ic d installFrom a.keys a.all = .ok r ∧ r.errors = [] ∧
        Rendered r.results texts) ∧
    ((mainTry on debug text (resolveCommand on etext ctx dflt db installFrom a).returnsNone).ending.status = 0 ∨
      (mainTry on debug text (resolveCommand on etext ctx dflt db installFrom a).returnsNone).ending.status = 1) := by
  unfold resolveCommand
  rw [interruptible_status]
  cases hc : ctx with
  | error e =>
    rw [run_lift_error, statusOf_error fun c h => h1 c (h ▸ hc)]
    exact ⟨⟨fun h => by simp at h, fun ⟨_, _, _, _, _, h, _⟩ => by simp at h⟩, .inr rfl⟩
  | ok ic =>
    rw [run_lift_ok]
    cases hd : dflt with
    | error e =>
      rw [run_lift_error, statusOf_error fun c h => h2 c (h ▸ hd)]
      exact ⟨⟨fun h => by simp at h, fun ⟨_, _, _, _, _, _, h, _⟩ => by simp at h⟩, .inr rfl⟩
    | ok dn =>
      rw [run_lift_ok]
      cases hdb : db with
      | error e =>
        have : resolveApi ic (.error e) installFrom a.keys a.all = .error e := rfl
        rw [this, run_lift_error, statusOf_error fun c h => h3 c (h ▸ hdb)]
        exact ⟨⟨fun h => by simp at h, fun ⟨_, _, _, _, _, _, _, h, _⟩ => by simp at h⟩, .inr rfl⟩
      | ok d =>
        have : resolveApi ic (.ok d) installFrom a.keys a.all = resolve ic d installFrom a.keys a.all := rfl
        rw [this]
        cases hr : resolve ic d installFrom a.keys a.all with
        | error e =>
          rw [run_lift_error, statusOf_error fun c h => h4 ic d hc hdb c (h ▸ hr)]
          refine ⟨⟨fun h => by simp at h, ?_⟩, .inr rfl⟩
          rintro ⟨ic', _, d', r', _, h, _, h', hr', _⟩
          injection h with h; injection h' with h'; subst h; subst h'
          rw [hr] at hr'; simp at hr'
        | ok r =>
          rw [run_lift_ok]
          obtain ⟨g1, g2⟩ := printResolved_res on etext dn a.showDefault r
          cases hp : (printResolved on etext dn a.showDefault r).res with
          | ok u =>
            obtain ⟨g3, texts, g4⟩ := g1.1 hp
            exact ⟨⟨fun _ => ⟨ic, dn, d, r, texts, rfl, rfl, rfl, hr, g3, g4⟩, fun _ => rfl⟩, .inl rfl⟩
          | error e =>
            have one : statusOf (.error e) = 1 := by
              cases e <;> first | rfl | skip
              rename_i c
              rw [g2 c hp]; rfl
            rw [one]
            refine ⟨⟨fun h => by simp at h, ?_⟩, .inr rfl⟩
            rintro ⟨ic', _, d', r', texts, h, _, h', hr', h5, h6⟩
            injection h with h; injection h' with h'; subst h; subst h'
            rw [hr] at hr'; injection hr' with hr'; subst hr'
            rw [g1.2 ⟨h5, texts, h6⟩] at hp; simp at hp

theorem printReport_res (on : Bool) (text : String × ResErr → List Char) (itext : InstErr → List Char) (r : InstallReport) :
    (printReport on text itext r).res = if r.resolveErrors = [] ∧ r.installErrors = [] then .ok () else .error (.systemExit 1) := by
  obtain ⟨a, b⟩ := r
  cases a <;> cases b <;> rfl

/-- **C60** `xylem install` ends with status 0 exactly if the installation returned without reporting an error of either kind; in every other
case the status is 1. -/
theorem C60_install_status (on debug : Bool) (text : Bool → Exc → List Char) (etext : String × ResErr → List Char) (itext : InstErr → List Char)
    (m : Machine σ) (ctx : Except Exc (InstallerCtx σ)) (db : Except Exc Database) (installFrom : Dict String (List String)) (a : InstallArgs)
    (s : σ) (h1 : NoSystemExit ctx) (h2 : NoSystemExit db)
    (h3 : ∀ ic d, ctx = .ok ic → db = .ok d → NoSystemExit (install m ic d installFrom a.opts a.keys a.all s).res) :
    ((mainTry on debug text (installCommand on etext itext m ctx db installFrom a s).returnsNone).ending.status = 0 ↔
      ∃ ic d, ctx = .ok ic ∧ db = .ok d ∧ (install m ic d installFrom a.opts a.keys a.all s).res = .ok ⟨[], []⟩) ∧
    ((mainTry on debug text (installCommand on etext itext m ctx db installFrom a s).returnsNone).ending.status = 0 ∨
      (mainTry on debug text (installCommand on etext itext m ctx db installFrom a s).returnsNone).ending.status = 1) := by
  unfold installCommand
  rw [interruptible_status, said_res]
  cases hc : ctx with
  | error e =>
    have : (installApi m (.error e) db installFrom a.opts a.keys a.all s).res = .error e := by unfold installApi; rw [lift_error_run]
    rw [this, run_lift_error, statusOf_error fun c h => h1 c (h ▸ hc)]
    exact ⟨⟨fun h => by simp at h, fun ⟨_, _, h, _⟩ => by simp at h⟩, .inr rfl⟩
  | ok ic =>
    cases hdb : db with
    | error e =>
      have : (installApi m (.ok ic) (.error e) installFrom a.opts a.keys a.all s).res = .error e := by
        unfold installApi; rw [lift_ok_run, lift_error_run]
      rw [this, run_lift_error, statusOf_error fun c h => h2 c (h ▸ hdb)]
      exact ⟨⟨fun h => by simp at h, fun ⟨_, _, _, h, _⟩ => by simp at h⟩, .inr rfl⟩
    | ok d =>
      have : (installApi m (.ok ic) (.ok d) installFrom a.opts a.keys a.all s).res = (install m ic d installFrom a.opts a.keys a.all s).res := by
        unfold installApi; rw [lift_ok_run, lift_ok_run]
      rw [this]
      cases hr : (install m ic d installFrom a.opts a.keys a.all s).res with
      | error e =>
        rw [run_lift_error, statusOf_error fun c h => h3 ic d hc hdb c (h ▸ hr)]
        refine ⟨⟨fun h => by simp at h, ?_⟩, .inr rfl⟩
        rintro ⟨ic', d', h, h', hr'⟩
        injection h with h; injection h' with h'; subst h; subst h'
        rw [hr] at hr'; simp at hr'
      | ok r =>
        rw [run_lift_ok, printReport_res]
        by_cases hn : r.resolveErrors = [] ∧ r.installErrors = []
        · rw [if_pos hn]
          refine ⟨⟨fun _ => ⟨ic, d, rfl, rfl, ?_⟩, fun _ => rfl⟩, .inl rfl⟩
          rw [hr]
          obtain ⟨a, b⟩ := r; simp only at hn; rw [hn.1, hn.2]
        · rw [if_neg hn]
          refine ⟨⟨fun h => absurd h (by simp [statusOf]), ?_⟩, .inr rfl⟩
          rintro ⟨ic', d', h, h', hr'⟩
          injection h with h; injection h' with h'; subst h; subst h'
          rw [hr] at hr'; injection hr' with hr'; subst hr'
          exact absurd ⟨rfl, rfl⟩ hn

theorem printReport_nil (on : Bool) (text : String × ResErr → List Char) (itext : InstErr → List Char) :
    (printReport on text itext ⟨[], []⟩).lines = [] := rfl

/-- The API prints on stdout only. -/
theorem said_stdout (on : Bool) (t : AnsiTable) (ev : List Event) : ∀ x ∈ ev.flatMap (eventLines on t), onStderr x = none := by
  intro x hx
  obtain ⟨e, -, he⟩ := List.mem_flatMap.1 hx
  unfold eventLines at he
  split at he
  · simp only [List.mem_singleton] at he; subst he; rfl
  · split at he
    · simp only [info, List.mem_singleton] at he; subst he; rfl
    · simp at he
  · split at he
    · simp only [info, List.mem_singleton] at he; subst he; rfl
    · simp at he
  · simp at he

/-- **C60 (what status 0 does not mean)** If the installed-check of an installer fails and `--continue-on-error` was not given, then
`xylem install`, unless an exception ends it, exits with status 0 and prints no error although nothing was planned or executed (see C37). -/
theorem C60_silent_success (on debug : Bool) (text : Bool → Exc → List Char) (etext : String × ResErr → List Char) (itext : InstErr → List Char)
    (m : Machine σ) (ic : InstallerCtx σ) (d : Database) (installFrom : Dict String (List String)) (a : InstallArgs)
    (s : σ) (hc : a.continueOnError = false) (rep : InstallReport) (h : (install m ic d installFrom a.opts a.keys a.all s).res = .ok rep)
    (i : String) (items : List Resolution) (e : Exc)
    (hf : .filter i items (.error e) ∈ (install m ic d installFrom a.opts a.keys a.all s).ev) :
    (mainTry on debug text (installCommand on etext itext m (.ok ic) (.ok d) installFrom a s).returnsNone).ending.status = 0 ∧
    (mainTry on debug text (installCommand on etext itext m (.ok ic) (.ok d) installFrom a s).returnsNone).lines.filterMap onStderr = [] ∧
    executedOf (install m ic d installFrom a.opts a.keys a.all s).ev = [] := by
  obtain ⟨rfl, _, h2⟩ := C37_failed_check_is_silent_success m ic d installFrom a.opts a.keys a.all s hc rep h i items e hf
  have e1 : (installApi m (.ok ic) (.ok d) installFrom a.opts a.keys a.all s).res = .ok ⟨[], []⟩ := by
    unfold installApi; rw [lift_ok_run, lift_ok_run, h]
  have e2 : ∃ l, (∀ x ∈ l, onStderr x = none) ∧ installCommand on etext itext m (.ok ic) (.ok d) installFrom a s = ⟨l, .ok ()⟩ := by
    unfold installCommand
    rw [said_ok e1, printReport_nil, List.append_nil]
    exact ⟨_, said_stdout on m.ansi _, rfl⟩
  obtain ⟨l, h3, e2⟩ := e2
  rw [e2]
  refine ⟨rfl, ?_, h2⟩
  have e3 : (mainTry on debug text (⟨l, .ok ()⟩ : Run Unit).returnsNone).lines = l ++ [.raw (ansi on "reset")] := by
    simp [mainTry, Run.returnsNone, Run.bind]
  rw [e3, List.filterMap_append, List.filterMap_eq_nil_iff.2 h3]
  rfl

/-- Arguments for the examples. -/
def exInstallArgs (keys : List String) : InstallArgs := ⟨keys, false, false, false, false, false⟩

/-- Non-vacuity: a good installation, a reported failure, the silent one. -/
example : (mainTry false false (fun _ _ => []) (installCommand false (fun _ => []) (fun _ => "boom".toList) toyMachine (.ok toyIc) (.ok toyDb) []
      (exInstallArgs ["a", "b"]) []).returnsNone).ending.status = 0 ∧
    (mainTry false false (fun _ _ => []) (installCommand false (fun _ => []) (fun _ => "boom".toList) toyMachine (.ok toyIc) (.ok toyDb) []
      (exInstallArgs ["a", "bad"]) []).returnsNone).ending.status = 1 ∧
    (mainTry false false (fun _ _ => []) (installCommand false (fun _ => []) (fun _ => "boom".toList) toyMachine (.ok toyIc) (.ok toyDb) []
      (exInstallArgs ["a", "bad"]) []).returnsNone).lines =
      [.out "executing command: get a".toList, .out "executing command: get bad".toList, .err "boom".toList] ∧
    (mainTry false false (fun _ _ => []) (installCommand false (fun _ => []) (fun _ => []) toyMachine (.ok toyIc) (.ok toyDb) []
      (exInstallArgs ["a", "weird"]) []).returnsNone).ending.status = 0 := ⟨rfl, rfl, rfl, rfl⟩

end Verif
