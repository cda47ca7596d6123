import Verif.Props.Session
import Verif.Props.CommandOutput
/-! # C107: `xylem resolve` shows what `xylem install` works on -/
namespace Verif
variable {σ : Type}

/-- What a command finds with this config: installers, os, rules and `install_from`. -/
structure Finds (env : StartEnv) (w : Surroundings σ) (c : Config) (ic : InstallerSetup σ) (os : OsSetup) (db : Database)
    (f : Dict String (List String)) : Prop where
  context : contextFor env w c = .ok ic
  os : osFor env w c = .ok os
  db : databaseFor env w c = .ok db
  installFrom : installFromOf c = .ok f

theorem resolve_switch {top sub : List OptSpec} (h : ParsersFor "resolve" top sub) {fresh : Bool} {before after : List Given} {ns : ArgSpace}
    (hp : parseCommandLine fresh top sub before after = .ok ns) {flag dest : String}
    (ho : ⟨[flag], dest, .storeTrue⟩ ∈ commandOptions "resolve") : switchOn ns dest = true ↔ IsGiven sub flag after :=
  command_switch h.top h.sub h.facts.1 h.facts.2 hp ho rfl (List.mem_singleton.2 rfl)

theorem mainTry_lines {on debug : Bool} {text : Bool → Exc → List Char} {func : Run (Option Int)}
    (h : ∀ e, func.res = .error e → ∃ c, e = .systemExit c) :
    (mainTry on debug text func).lines.filterMap onStdout = func.lines.filterMap onStdout ∧
    (mainTry on debug text func).lines.filterMap onStderr = func.lines.filterMap onStderr := by
  unfold mainTry
  cases hr : func.res with
  | ok r => simp [onStdout, onStderr]
  | error e =>
    obtain ⟨c, rfl⟩ := h e hr
    simp [Exc.isXylemError]

/-- **C107** What `xylem resolve` prints (colours off), as a whole program: one line for each resolved key, with its installer (unless it is the
default one and `--show-default-installer` is not given) and its resolutions; exit status 0 iff no key failed. -/
theorem C107_resolve_run {top sub : List OptSpec} (hp : ParsersFor "resolve" top sub) {env : StartEnv} {w : Surroundings σ}
    (text : Bool → Exc → List Char) (etext : String × ResErr → List Char) {fresh : Bool} {p q : Process} {before after : List Given} {keys : List String}
    {ns : ArgSpace} (h : reached env xylemDescription fresh top sub (requireKeys keys) p before after = .ok (q, ns)) (hcol : q.color = false)
    {ic : InstallerSetup σ} {os : OsSetup} {db : Database} {f : Dict String (List String)} (hf : Finds env w q.config ic os db f)
    {all : Bool} (hall : all = true ↔ IsGiven sub "--all" after) {sd : Bool} (hsd : sd = true ↔ IsGiven sub "--show-default-installer" after)
    {r : Resolved} (hr : resolve ic.context db f keys all = .ok r) {texts : List (List (List Char))} (ht : Rendered r.results texts) :
    let out := (xylemResolve env w xylemDescription text etext fresh top sub p before after keys).2
    out.lines.filterMap onStdout = List.zipWith (fun r ts => plainLine r.1
      (if sd = false ∧ os.os.plugin.defaultInstaller = some r.2.1 then none else some r.2.1) ts) r.results texts ∧
    out.lines.filterMap onStderr = (if r.errors = [] then [] else [joinErrors (r.errors.map etext)]) ∧
    (out.ending.status = 0 ↔ r.errors = []) := by
  intro out
  have hns := (reached_ok.1 h).1
  have e1 : switchOn ns "all" = all := by
    have := resolve_switch hp hns (flag := "--all") (dest := "all") (by simp [commandOptions])
    exact Bool.eq_iff_iff.2 (this.trans hall.symm)
  have e2 : switchOn ns "show_default_installer" = sd := by
    have := resolve_switch hp hns (flag := "--show-default-installer") (dest := "show_default_installer") (by simp [commandOptions])
    exact Bool.eq_iff_iff.2 (this.trans hsd.symm)
  have ea : resolveArgsOf ns keys = ⟨keys, all, sd⟩ := by unfold resolveArgsOf; rw [e1, e2]
  have efun : resolveFunc env w etext keys q ns =
      (resolveCommand false etext (.ok ic.context) (.ok os.os.plugin.defaultInstaller) (.ok db) f ⟨keys, all, sd⟩).returnsNone := by
    unfold resolveFunc resolveCommand
    rw [ea, hf.context, hf.os, hf.db, hf.installFrom, hcol]
    simp only [run_lift_ok]
    rfl
  have eout : out = mainTry false q.debug text
      (resolveCommand false etext (.ok ic.context) (.ok os.os.plugin.defaultInstaller) (.ok db) f ⟨keys, all, sd⟩).returnsNone := by
    show (xylemResolve env w xylemDescription text etext fresh top sub p before after keys).2 = _
    unfold xylemResolve
    rw [mainWith_reached h, hcol, efun]
  have hno : ∀ {α : Type} (a : α), NoSystemExit (.ok a : Except Exc α) := fun a c h => by cases h
  have hres : ∀ e, (resolveCommand false etext (.ok ic.context) (.ok os.os.plugin.defaultInstaller) (.ok db) f ⟨keys, all, sd⟩).res = .error e →
      ∃ c, e = .systemExit c := by
    intro e he
    unfold resolveCommand at he
    rw [run_lift_ok, run_lift_ok, show resolveApi ic.context (.ok db) f keys all = resolve ic.context db f keys all from rfl, hr, run_lift_ok] at he
    cases hp : (printResolved false etext os.os.plugin.defaultInstaller sd r).res with
    | ok u => rw [interruptible_ok hp, hp] at he; cases he
    | error e' =>
      have k : e' = .systemExit 1 := by
        rw [printResolved_eq, printResults_plain _ _ _ _ ht] at hp
        simp only at hp
        by_cases hz : r.errors = []
        · simp [hz] at hp
        · simp only [hz, if_false, Except.error.injEq] at hp; exact hp.symm
      subst k
      rw [interruptible_error hp, if_neg (by simp), hp] at he
      injection he with he
      exact ⟨1, he.symm⟩
  obtain ⟨c1, c2⟩ := C80_resolve_output etext ic.context os.os.plugin.defaultInstaller db f ⟨keys, all, sd⟩ r texts hr ht
  have hstat := (C60_resolve_status false q.debug text etext (.ok ic.context) (.ok os.os.plugin.defaultInstaller) (.ok db) f ⟨keys, all, sd⟩
    (hno _) (hno _) (hno _) (fun ic' d h1 h2 => by
      injection h1 with h1; injection h2 with h2; subst h1 h2
      show NoSystemExit (resolve ic.context db f keys all)
      rw [hr]; exact hno _)).1
  obtain ⟨l1, l2⟩ := mainTry_lines (on := false) (debug := q.debug) (text := text)
    (func := (resolveCommand false etext (.ok ic.context) (.ok os.os.plugin.defaultInstaller) (.ok db) f ⟨keys, all, sd⟩).returnsNone) (by
      intro e he
      rw [(returnsNone_res _).2] at he
      cases hx : (resolveCommand false etext (.ok ic.context) (.ok os.os.plugin.defaultInstaller) (.ok db) f ⟨keys, all, sd⟩).res with
      | ok u => rw [hx] at he; cases he
      | error e' => rw [hx] at he; injection he with he; subst he; exact hres _ hx)
  refine ⟨?_, ?_, ?_⟩
  · rw [eout, l1, (returnsNone_res _).1, c2]
  · rw [eout, l2, (returnsNone_res _).1, c1]
  · rw [eout, hstat]
    constructor
    · rintro ⟨ic', dn, d, r', ts, h1, h2, h3, h4, h5, _⟩
      injection h1 with h1; injection h3 with h3
      subst h1 h3
      rw [hr] at h4; injection h4 with h4; subst h4
      exact h5
    · intro hz
      exact ⟨_, _, _, r, texts, rfl, rfl, rfl, hr, hz, ht⟩

/-- Pairs of installer and resolution, one by one. -/
def oneByOne (l : List (String × List Resolution)) : List (String × Resolution) := l.flatMap fun g => g.2.map fun r => (g.1, r)

/-- **C107** `xylem resolve keys` and `xylem install keys` with the same common options (written in full) and both or none with `--all`: if both get to
work, they find the same installers and rules and resolve the keys to the same results; if install plans anything, it has asked the installers about
exactly the resolutions that `resolve` shows (`C107_resolve_run`), in the order shown, and about nothing else. -/
theorem C107_install_works_on_it {top sub sub' : List OptSpec} (hp : ParsersFor "resolve" top sub) (hp' : ParsersFor "install" top sub')
    {env : StartEnv} {w : Surroundings σ} {fresh : Bool} {p q q' : Process} {before after after' : List Given} {keys : List String} {ns ns' : ArgSpace}
    (h : reached env xylemDescription fresh top sub (requireKeys keys) p before after = .ok (q, ns))
    (h' : reached env xylemDescription fresh top sub' (requireKeys keys) p before after' = .ok (q', ns'))
    (hfu : InFull sub after) (hfu' : InFull sub' after') (hc : commonOptions top after = commonOptions top after')
    (hall : IsGiven sub "--all" after ↔ IsGiven sub' "--all" after')
    {ic : InstallerSetup σ} {os : OsSetup} {db : Database} {f : Dict String (List String)} (hf : Finds env w q.config ic os db f)
    {all : Bool} (ha : all = true ↔ IsGiven sub "--all" after) {r : Resolved} (hr : resolve ic.context db f keys all = .ok r) (s : σ) :
    let ev := (installEffect env w xylemDescription fresh top sub' p before after' keys s).ev
    (plannedItems ev ≠ [] → oneByOne (ev.filterMap filterInput) = r.results.flatMap fun x => x.2.2.map fun y => (x.2.1, y)) ∧
    (r.errors ≠ [] → ¬ IsGiven sub' "--continue-on-error" after' → ev = []) := by
  intro ev
  have e := C106_same_config hp hp' env h h' hfu hfu' hc
  subst e
  have hns' := (reached_ok.1 h').1
  have e1 : (installArgsOf ns' keys).all = all := by
    have := install_switch hp' hns' (flag := "--all") (dest := "all") (by simp [commandOptions])
    exact Bool.eq_iff_iff.2 (this.trans (hall.symm.trans ha.symm))
  have hin : installInputs env w q.config = .ok ⟨ic.context, db, f⟩ := by
    unfold installInputs
    rw [hf.context, hf.db, hf.installFrom]
    rfl
  have hev : ev = (install w.machine ic.context db f (installArgsOf ns' keys).opts keys all s).ev := by
    show (installEffect env w xylemDescription fresh top sub' p before after' keys s).ev = _
    unfold installEffect
    rw [h']
    show (installRun env w keys q ns' s).ev = _
    unfold installRun
    simp only [hin, e1]
  rw [hev]
  constructor
  · intro hpl
    have k := ((C36_only_uninstalled_planned w.machine ic.context db f (installArgsOf ns' keys).opts keys all s r hr).2.1 hpl).1
    rw [k]
    unfold oneByOne
    rw [C31_order_kept]
    rw [List.flatMap_map]
  · intro hne hco
    have hoff : (installArgsOf ns' keys).opts.continueOnError = false := by
      show switchOn ns' "continue_on_error" = false
      rw [← Bool.not_eq_true, install_switch hp' hns' (flag := "--continue-on-error") (by simp [commandOptions])]
      exact hco
    unfold install
    rw [hr, lift_ok_run, if_pos ⟨fun h => hne (List.length_eq_zero_iff.1 h), hoff⟩]
    rfl

end Verif
