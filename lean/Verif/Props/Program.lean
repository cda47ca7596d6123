import Verif.Lemmas.Program
import Verif.Props.CommandFlags
import Verif.Props.Success
import Verif.Props.Setup
/-! # Whole runs of xylem: C101, C102, C103, C104 -/
namespace Verif
variable {σ : Type}

/-! ## C101: the flags of `xylem install`, from the command line to the machine -/

/-- The parsers of `xylem` and of one of its commands. -/
structure ParsersFor (cmd : String) (top sub : List OptSpec) : Prop where
  top : mkParser [] xylemDescription = .ok top
  sub : mkParser (commandOptions cmd) xylemDescription = .ok sub

/-- They can be built, for every command. -/
theorem ParsersFor.exist (cmd : String) : ∃ top sub, ParsersFor cmd top sub := by
  obtain ⟨top, ht, -, -⟩ := xylem_parser ""
  obtain ⟨sub, hs, -, -⟩ := xylem_parser cmd
  exact ⟨top, sub, ht, hs⟩

theorem ParsersFor.facts {cmd : String} {top sub : List OptSpec} (h : ParsersFor cmd top sub) :
    (∀ o ∈ commandOptions cmd, o.flags.Nodup) ∧ (sub.map OptSpec.dest).Nodup := by
  obtain ⟨sub', hs, hd, hn⟩ := xylem_parser cmd
  have := Except.ok.inj (h.sub.symm.trans hs)
  subst this
  exact ⟨hn, hd⟩

theorem install_switch {top sub : List OptSpec} (h : ParsersFor "install" top sub) {fresh : Bool} {before after : List Given} {ns : ArgSpace}
    (hp : parseCommandLine fresh top sub before after = .ok ns) {flag dest : String}
    (ho : ⟨[flag], dest, .storeTrue⟩ ∈ commandOptions "install") : switchOn ns dest = true ↔ IsGiven sub flag after :=
  command_switch h.top h.sub h.facts.1 h.facts.2 hp ho rfl (List.mem_singleton.2 rfl)

/-- The effect of the program is that of the installation, if it gets that far. -/
theorem effect_cases (env : StartEnv) (w : Surroundings σ) (desc : Desc) (fresh : Bool) (top sub : List OptSpec) (p : Process)
    (before after : List Given) (keys : List String) (s : σ) :
    installEffect env w desc fresh top sub p before after keys s = ⟨s, []⟩ ∨
    ∃ p' ns i, reached env desc fresh top sub (requireKeys keys) p before after = .ok (p', ns) ∧ installInputs env w p'.config = .ok i ∧
      installEffect env w desc fresh top sub p before after keys s =
        ⟨(installActs w.machine i.ctx i.db i.installFrom (installArgsOf ns keys) s).st,
         (installActs w.machine i.ctx i.db i.installFrom (installArgsOf ns keys) s).ev⟩ := by
  unfold installEffect
  cases h : reached env desc fresh top sub (requireKeys keys) p before after with
  | error e => exact .inl rfl
  | ok r =>
    obtain ⟨p', ns⟩ := r
    simp only
    cases hi : installInputs env w p'.config with
    | error e =>
      left
      unfold installRun
      simp only [hi]
    | ok i =>
      right
      refine ⟨p', ns, i, rfl, hi, ?_⟩
      unfold installRun
      simp only [hi, installActs_eq]
      rfl

/-- The plugins loaded in a run. -/
theorem inputs_context {env : StartEnv} {w : Surroundings σ} {c : Config} {i : InstallInputs σ} (h : installInputs env w c = .ok i) :
    ∃ ic, contextFor env w c = .ok ic ∧ i.ctx = ic.context := by
  unfold installInputs at h
  obtain ⟨ic, h1, h⟩ := Except_bind_ok.1 h
  obtain ⟨db, h2, h⟩ := Except_bind_ok.1 h
  obtain ⟨f, h3, h⟩ := Except_bind_ok.1 h
  have h := pure_ok.1 h
  subst h
  exact ⟨ic, h1, rfl⟩

/-- Every plugin in the context is made from an entry point that provides it. -/
theorem context_plugins {env : StartEnv} {w : Surroundings σ} {c : Config} {ic : InstallerSetup σ} (h : contextFor env w c = .ok ic) :
    ∀ i ∈ ic.context.plugins, ∃ ep ∈ w.installerEntries, ∃ disabled pn n a v, Provides w.uni disabled ep pn n a ∧ a.configure v = .ok i := by
  intro i hi
  unfold contextFor at h
  obtain ⟨s, _, h⟩ := Except_bind_ok.1 h
  unfold installerContext at h
  obtain ⟨oss, _, h⟩ := Except_bind_ok.1 h
  obtain ⟨os, _, h⟩ := Except_bind_ok.1 h
  obtain ⟨insts, h1, h⟩ := Except_bind_ok.1 h
  obtain ⟨_, h2, _⟩ := setupInstallers_ok.1 h
  obtain ⟨_, ⟨idx, _, h3⟩, _⟩ := C43_loaded _ _ _ _ h1
  have h2 := mapM_ok_iff.1 h2
  obtain ⟨a, ha, hc⟩ := forall₂_mem_right h2 hi
  obtain ⟨x, hx, rfl⟩ := List.mem_map.1 ha
  obtain ⟨k, _, ⟨ep, pn, he, hp⟩, _⟩ := forall₂_mem_left h3 hx
  exact ⟨ep, List.mem_of_getElem? he, _, pn, _, _, _, hp, hc⟩

/-- **C101** `xylem ... install ... --dry-run ... keys`: if `--dry-run` (or an unambiguous abbreviation of it) is given after the name of the command,
then, whatever else is on the command line, in the environment and in the config files, no command is executed; and if `--fix-prerequisites` is not
given and the plugins' queries change nothing, the machine is left as it was. -/
theorem C101_dry_run {top sub : List OptSpec} (hp : ParsersFor "install" top sub) (env : StartEnv) (w : Surroundings σ) (fresh : Bool) (p : Process)
    (before after : List Given) (keys : List String) (s : σ) (hd : IsGiven sub "--dry-run" after) :
    executedOf (installEffect env w xylemDescription fresh top sub p before after keys s).ev = [] ∧
    (¬ IsGiven sub "--fix-prerequisites" after → (∀ c ic, contextFor env w c = .ok ic → ∀ i ∈ ic.context.plugins, ReadOnlyInstaller i) →
      (installEffect env w xylemDescription fresh top sub p before after keys s).st = s) := by
  rcases effect_cases env w xylemDescription fresh top sub p before after keys s with h | ⟨p', ns, i, h1, h2, h⟩
  · rw [h]; exact ⟨rfl, fun _ _ => rfl⟩
  · have hns := (reached_ok.1 h1).1
    have hdry : (installArgsOf ns keys).dryRun = true := (install_switch hp hns (flag := "--dry-run") (dest := "dry_run") (by simp [commandOptions])).2 hd
    obtain ⟨k1, k2⟩ := C32_dry_run_flag w.machine i.ctx i.db i.installFrom (installArgsOf ns keys) s hdry
    rw [h]
    refine ⟨k1, fun hf hro => k2 ?_ ?_⟩
    · show switchOn ns "fix_prerequisites" = false
      rw [← Bool.not_eq_true, install_switch hp hns (flag := "--fix-prerequisites") (by simp [commandOptions])]
      exact hf
    · obtain ⟨ic, h3, h4⟩ := inputs_context h2
      rw [h4]
      exact hro _ _ h3

/-- **C101** Plugins are asked to fix prerequisites, in a dry run or not, iff `--fix-prerequisites` is given after the name of the command. -/
theorem C101_fix_only_if_given {top sub : List OptSpec} (hp : ParsersFor "install" top sub) (env : StartEnv) (w : Surroundings σ) (fresh : Bool)
    (p : Process) (before after : List Given) (keys : List String) (s : σ) (fix : Bool) :
    (∀ n r, .general n fix r ∈ (installEffect env w xylemDescription fresh top sub p before after keys s).ev →
      (fix = true ↔ IsGiven sub "--fix-prerequisites" after)) ∧
    (∀ n rs r, .prereq n rs fix r ∈ (installEffect env w xylemDescription fresh top sub p before after keys s).ev →
      (fix = true ↔ IsGiven sub "--fix-prerequisites" after)) := by
  rcases effect_cases env w xylemDescription fresh top sub p before after keys s with h | ⟨p', ns, i, h1, h2, h⟩
  · rw [h]; exact ⟨by simp, by simp⟩
  · have hns := (reached_ok.1 h1).1
    have hsw := install_switch hp hns (flag := "--fix-prerequisites") (dest := "fix_prerequisites") (by simp [commandOptions])
    have hrep := C75_events_account_for_everything w.machine i.ctx i.db i.installFrom (installArgsOf ns keys).opts keys (installArgsOf ns keys).all s
    have hfix : (installArgsOf ns keys).opts.fixPrerequisites = switchOn ns "fix_prerequisites" := rfl
    have hev : (installEffect env w xylemDescription fresh top sub p before after keys s).ev =
        (install w.machine i.ctx i.db i.installFrom (installArgsOf ns keys).opts keys (installArgsOf ns keys).all s).ev := by
      rw [h, installActs_eq]; rfl
    rw [hev]
    constructor
    · intro n r hm
      obtain ⟨s1, s2, hd⟩ := hrep.mem hm
      cases hd
      rw [hfix]; exact hsw
    · intro n rs r hm
      obtain ⟨s1, s2, hd⟩ := hrep.mem hm
      cases hd
      rw [hfix]; exact hsw

/-- **C101** Without `--continue-on-error` after the name of the command nothing is executed after a command that fails. -/
theorem C101_stops_at_first_failure {top sub : List OptSpec} (hp : ParsersFor "install" top sub) (env : StartEnv) (w : Surroundings σ) (fresh : Bool)
    (p : Process) (before after : List Given) (keys : List String) (s : σ) (hc : ¬ IsGiven sub "--continue-on-error" after) :
    let ev := (installEffect env w xylemDescription fresh top sub p before after keys s).ev
    executedOf ev <+: plannedOf ev ∧ ∀ pre i c r post, ev = pre ++ .exec i c r :: post → r ≠ .ok 0 → post = [] := by
  intro ev
  rcases effect_cases env w xylemDescription fresh top sub p before after keys s with h | ⟨p', ns, i, h1, h2, h⟩
  · have : ev = [] := by show (installEffect ..).ev = _; rw [h]
    rw [this]
    exact ⟨List.prefix_rfl, by simp⟩
  · have hns := (reached_ok.1 h1).1
    have hcont : (installArgsOf ns keys).continueOnError = false := by
      show switchOn ns "continue_on_error" = false
      rw [← Bool.not_eq_true, install_switch hp hns (flag := "--continue-on-error") (by simp [commandOptions])]
      exact hc
    have : ev = (installActs w.machine i.ctx i.db i.installFrom (installArgsOf ns keys) s).ev := by show (installEffect ..).ev = _; rw [h]
    rw [this]
    exact C33_without_flag w.machine i.ctx i.db i.installFrom (installArgsOf ns keys) s hcont

/-- **C101** `--help`, `--version` or `--print-config` on the command line (for the latter: after the name of the command), a command line that is
not accepted, no key at all, or a config that cannot be read: nothing happens to the machine, and no plugin is called. -/
theorem C101_nothing_happens {top sub : List OptSpec} (hp : ParsersFor "install" top sub) (env : StartEnv) (w : Surroundings σ) (fresh : Bool)
    (p : Process) (before after : List Given) (keys : List String) (s : σ)
    (h : IsGiven top "--help" before ∨ IsGiven top "--version" before ∨ IsGiven sub "--help" after ∨ IsGiven sub "--version" after ∨
      IsGiven sub "--print-config" after ∨ keys = [] ∨ (∃ e, parseCommandLine fresh top sub before after = .error e) ∨
      ∃ ns e, parseCommandLine fresh top sub before after = .ok ns ∧ effectiveConfig env xylemDescription ns = .error e) :
    installEffect env w xylemDescription fresh top sub p before after keys s = ⟨s, []⟩ := by
  rcases effect_cases env w xylemDescription fresh top sub p before after keys s with h0 | ⟨p', ns, i, h1, h2, _⟩
  · exact h0
  · exfalso
    obtain ⟨k1, k2, k3, c, k4, _⟩ := reached_ok.1 h1
    have q := fun {flag} hfl => quit_refused hp.top hp.sub hp.facts.1 k1 (flag := flag) hfl
    have hpt : (⟨["--print-config"], "print_config", .storeTrue⟩ : OptSpec) ∈ top := by
      rw [(mkParser_ok hp.top).1]; exact List.mem_append_right _ (by simp [globalOptions])
    have g := global_switch hp.top hp.sub hp.facts.1 hp.facts.2 k1 hpt rfl (flag := "--print-config") (by simp)
    rcases h with h | h | h | h | h | h | ⟨e, h⟩ | ⟨ns', e, h, h'⟩
    · exact (q (by simp)).1 h
    · exact (q (by simp)).1 h
    · exact (q (by simp)).2 h
    · exact (q (by simp)).2 h
    · have := g.1 h
      simp only at this
      rw [k3] at this; simp at this
    · unfold requireKeys at k2
      rw [if_pos h] at k2
      simp at k2
    · rw [k1] at h; simp at h
    · rw [k1] at h; injection h with h; subst h
      rw [k4] at h'; simp at h'

/-- **C101 (refuted)** `xylem install --reinstall` never executes a command. -/
theorem C101_reinstall_refuted {top sub : List OptSpec} (hp : ParsersFor "install" top sub) (env : StartEnv) (w : Surroundings σ) (fresh : Bool)
    (p : Process) (before after : List Given) (keys : List String) (s : σ) (h : IsGiven sub "--reinstall" after) :
    executedOf (installEffect env w xylemDescription fresh top sub p before after keys s).ev = [] := by
  rcases effect_cases env w xylemDescription fresh top sub p before after keys s with h0 | ⟨p', ns, i, h1, h2, h0⟩
  · rw [h0]; rfl
  · rw [h0]
    exact C38_reinstall_flag_refuted w.machine i.ctx i.db i.installFrom (installArgsOf ns keys) s
      ((install_switch hp (reached_ok.1 h1).1 (flag := "--reinstall") (dest := "reinstall") (by simp [commandOptions])).2 h)

/-- **C101** With `--continue-on-error` after the name of the command, and without `--dry-run`, a run of `xylem install` that is not cut short by an
unexpected exception executes every planned command, whether or not earlier ones fail, and reports every failure (in order). What is missing: an
exception that is not an InstallerError ends the run all the same (C34). -/
theorem C101_continue_on_error_partial {top sub : List OptSpec} (hp : ParsersFor "install" top sub) (env : StartEnv) (w : Surroundings σ) (fresh : Bool)
    (p : Process) (before after : List Given) (keys : List String) (s : σ) (hc : IsGiven sub "--continue-on-error" after)
    (hd : ¬ IsGiven sub "--dry-run" after) (p' : Process) (ns : ArgSpace)
    (h : reached env xylemDescription fresh top sub (requireKeys keys) p before after = .ok (p', ns)) (rep : InstallReport)
    (hr : (installRun env w keys p' ns s).res = .ok rep) :
    let ev := (installEffect env w xylemDescription fresh top sub p before after keys s).ev
    executedOf ev = plannedOf ev ∧ rep.installErrors = ev.filterMap failureOf := by
  intro ev
  have hns := (reached_ok.1 h).1
  have h1 : (installArgsOf ns keys).continueOnError = true :=
    (install_switch hp hns (flag := "--continue-on-error") (dest := "continue_on_error") (by simp [commandOptions])).2 hc
  have h2 : (installArgsOf ns keys).dryRun = false := by
    show switchOn ns "dry_run" = false
    rw [← Bool.not_eq_true, install_switch hp hns (flag := "--dry-run") (by simp [commandOptions])]
    exact hd
  have hev : ev = (installRun env w keys p' ns s).ev := by
    show (installEffect ..).ev = _
    unfold installEffect
    rw [h]
  rw [hev]
  unfold installRun at hr ⊢
  cases hi : installInputs env w p'.config with
  | error e => simp only [hi] at hr; cases hr
  | ok i =>
    simp only [hi] at hr ⊢
    have := C34_continue_flag_partial w.machine i.ctx i.db i.installFrom (installArgsOf ns keys) s h1 h2 rep (by rw [installActs_eq]; exact hr)
    rw [installActs_eq] at this
    exact this

/-! ## C102: exit status 0 -/

theorem mainTry_install_status {env : StartEnv} {w : Surroundings σ} {text : Bool → Exc → List Char} {etext : String × ResErr → List Char}
    {itext : InstErr → List Char} {keys : List String} {s : σ} {p : Process} {ns : ArgSpace} (hx : NoSystemExit (installRun env w keys p ns s).res)
    (h : (mainTry p.color p.debug text (installFunc env w etext itext keys s p ns)).ending.status = 0) :
    (installRun env w keys p ns s).res = .ok ⟨[], []⟩ := by
  unfold installFunc at h
  rw [interruptible_status, said_res] at h
  cases hr : (installRun env w keys p ns s).res with
  | error e =>
    rw [hr, run_lift_error, statusOf_error fun c h' => hx c (h' ▸ hr)] at h
    simp at h
  | ok r =>
    rw [hr, run_lift_ok, printReport_res] at h
    by_cases hn : r.resolveErrors = [] ∧ r.installErrors = []
    · obtain ⟨a, b⟩ := r; simp only at hn; rw [hn.1, hn.2]
    · rw [if_neg hn] at h
      simp [statusOf] at h

/-- Exit status 0 of `xylem install`, if nothing but information was not asked for, means the installation was run and reported no error. -/
theorem C102_status_zero {top sub : List OptSpec} (hp : ParsersFor "install" top sub) (env : StartEnv) (w : Surroundings σ)
    (text : Bool → Exc → List Char) (etext : String × ResErr → List Char) (itext : InstErr → List Char) (fresh : Bool) (p : Process)
    (before after : List Given) (keys : List String) (s : σ)
    (hx1 : ∀ ns, parseCommandLine fresh top sub before after = .ok ns → NoSystemExit (effectiveConfig env xylemDescription ns))
    (hx2 : ∀ p' ns, reached env xylemDescription fresh top sub (requireKeys keys) p before after = .ok (p', ns) →
      NoSystemExit (installRun env w keys p' ns s).res)
    (hinfo : ¬ InformationOnly top sub before after)
    (h : (xylemInstall env w xylemDescription text etext itext fresh top sub p before after keys s).2.ending.status = 0) :
    ∃ p' ns i, reached env xylemDescription fresh top sub (requireKeys keys) p before after = .ok (p', ns) ∧
      p'.config = (xylemInstall env w xylemDescription text etext itext fresh top sub p before after keys s).1.config ∧
      installInputs env w p'.config = .ok i ∧
      (installActs w.machine i.ctx i.db i.installFrom (installArgsOf ns keys) s).res = .ok ⟨[], []⟩ := by
  unfold xylemInstall at h ⊢
  have hq : ∀ o ∈ commandOptions "install", o.action ≠ .quit := by decide
  cases hr : reached env xylemDescription fresh top sub (requireKeys keys) p before after with
  | error e =>
    exfalso
    rw [mainWith_not_reached hr] at h
    unfold reached at hr
    cases h1 : parseCommandLine fresh top sub before after with
    | error e1 =>
      rw [h1] at hr; injection hr with hr; subst hr
      obtain ⟨flag, hfl, hg⟩ := parse_error_status hp.top hp.sub hp.facts.1 hq h1 h
      refine hinfo ⟨flag, ?_, hg⟩
      simp only [List.mem_cons, List.not_mem_nil, or_false] at hfl ⊢
      rcases hfl with rfl | rfl
      · exact .inl rfl
      · exact .inr (.inl rfl)
    | ok ns =>
      rw [h1] at hr
      cases h2 : requireKeys keys with
      | error e2 =>
        rw [h2] at hr
        injection hr with hr; subst hr
        unfold requireKeys at h2
        split at h2
        · injection h2 with h2; subst h2; simp [uncaught, Ending.status] at h
        · simp at h2
      | ok u =>
        cases u
        rw [h2] at hr
        have hr : ((handleConfigArguments env xylemDescription (handleSwitches env ns p) ns).res >>= fun c =>
          pure ({ handleSwitches env ns p with config := c }, ns)) = Except.error e := hr
        rcases Except_bind_err.1 hr with hr | ⟨_, _, hr⟩
        · cases h3 : effectiveConfig env xylemDescription ns with
          | error e3 =>
            rw [handle_error h3] at hr
            injection hr with hr; subst hr
            have hne : ∀ c, e3 ≠ .systemExit c := fun c he => hx1 ns h1 c (he ▸ h3)
            have : uncaught e3 = .traceback e3 := by cases e3 <;> first | rfl | exact absurd rfl (hne _)
            rw [this] at h
            simp [Ending.status] at h
          | ok c =>
            rw [handle_ok h3] at hr
            split at hr
            · rename_i hpc
              have hpt : (⟨["--print-config"], "print_config", .storeTrue⟩ : OptSpec) ∈ top := by
                rw [(mkParser_ok hp.top).1]; exact List.mem_append_right _ (by simp [globalOptions])
              have g := global_switch hp.top hp.sub hp.facts.1 hp.facts.2 h1 hpt rfl (flag := "--print-config") (by simp)
              exact hinfo ⟨"--print-config", by simp, g.2 hpc⟩
            · cases hr
        · cases hr
  | ok r =>
    obtain ⟨p', ns⟩ := r
    rw [mainWith_reached hr] at h
    rw [mainWith_reached hr]
    have k := mainTry_install_status (hx2 p' ns hr) h
    cases hi : installInputs env w p'.config with
    | error e =>
      unfold installRun at k
      simp only [hi] at k
      cases k
    | ok i =>
      refine ⟨p', ns, i, rfl, rfl, hi, ?_⟩
      unfold installRun at k
      simp only [hi] at k
      rw [installActs_eq]
      exact k

/-- **C102** `xylem install keys` ends with exit status 0, not asked for information or a dry run only: then every key was resolved with the effective
config and the cached rules, and at the end every resolution of every key is installed on the machine. Expected of the world: plugins are honest,
nothing un-installs packages, and installed-checks do not fail (unless `--continue-on-error` is given); nobody calls `sys.exit`. -/
theorem C102_exit_status_zero_means_installed_partial {top sub : List OptSpec} (hp : ParsersFor "install" top sub) (env : StartEnv) (w : Surroundings σ)
    (text : Bool → Exc → List Char) (etext : String × ResErr → List Char) (itext : InstErr → List Char) (fresh : Bool) (p : Process)
    (before after : List Given) (keys : List String) (s : σ)
    (hx1 : ∀ ns, parseCommandLine fresh top sub before after = .ok ns → NoSystemExit (effectiveConfig env xylemDescription ns))
    (hx2 : ∀ p' ns, reached env xylemDescription fresh top sub (requireKeys keys) p before after = .ok (p', ns) →
      NoSystemExit (installRun env w keys p' ns s).res)
    (c : Config) (hc : c = (xylemInstall env w xylemDescription text etext itext fresh top sub p before after keys s).1.config)
    (hhon : ∀ ic o, contextFor env w c = .ok ic → Honest w.machine ic.context o)
    (hfil : IsGiven sub "--continue-on-error" after ∨ ∀ ic, contextFor env w c = .ok ic → FiltersWork ic.context)
    (hinfo : ¬ InformationOnly top sub before after) (hdry : ¬ IsGiven sub "--dry-run" after)
    (h : (xylemInstall env w xylemDescription text etext itext fresh top sub p before after keys s).2.ending.status = 0) :
    ∃ ic db f r, contextFor env w c = .ok ic ∧ databaseFor env w c = .ok db ∧ installFromOf c = .ok f ∧
      (∃ all, (all = true ↔ IsGiven sub "--all" after) ∧ resolve ic.context db f keys all = .ok r) ∧ r.errors = [] ∧
      (∀ k ∈ keys, k ∈ r.results.map Prod.fst) ∧
      ∀ k n items, (k, n, items) ∈ r.results → ∀ x ∈ items,
        SaysInstalled ic.context n x (installEffect env w xylemDescription fresh top sub p before after keys s).st := by
  obtain ⟨p', ns, i, h1, h2, h3, h4⟩ := C102_status_zero hp env w text etext itext fresh p before after keys s hx1 hx2 hinfo h
  have hns := (reached_ok.1 h1).1
  have hc : p'.config = c := h2.trans hc.symm
  have heff : installEffect env w xylemDescription fresh top sub p before after keys s =
      ⟨(installActs w.machine i.ctx i.db i.installFrom (installArgsOf ns keys) s).st,
       (installActs w.machine i.ctx i.db i.installFrom (installArgsOf ns keys) s).ev⟩ := by
    rcases effect_cases env w xylemDescription fresh top sub p before after keys s with h0 | ⟨p'', ns', i', k1, k2, k3⟩
    · unfold installEffect at h0 ⊢
      rw [h1] at h0 ⊢
      simp only at h0 ⊢
      unfold installRun
      simp only [h3, installActs_eq]
      rfl
    · rw [h1] at k1
      injection k1 with k1
      injection k1 with e1 e2
      subst e1 e2
      rw [h3] at k2; injection k2 with k2; subst k2
      exact k3
  rw [hc] at h3
  unfold installInputs at h3
  obtain ⟨ic, i1, h3⟩ := Except_bind_ok.1 h3
  obtain ⟨db, i2, h3⟩ := Except_bind_ok.1 h3
  obtain ⟨f, i3, h3⟩ := Except_bind_ok.1 h3
  have h3 := pure_ok.1 h3
  subst h3
  rw [installActs_eq] at h4
  have hsim : (installArgsOf ns keys).opts.simulate = false := by
    show switchOn ns "dry_run" = false
    rw [← Bool.not_eq_true, install_switch hp hns (flag := "--dry-run") (by simp [commandOptions])]
    exact hdry
  have hfw : (installArgsOf ns keys).opts.continueOnError = true ∨ FiltersWork ic.context := by
    rcases hfil with hh | hh
    · exact .inl ((install_switch hp hns (flag := "--continue-on-error") (dest := "continue_on_error") (by simp [commandOptions])).2 hh)
    · exact .inr (hh _ i1)
  obtain ⟨r, r1, r2, r3, _, r4⟩ := C102_no_errors_means_installed_partial w.machine ic.context db f _ keys _ s hsim (hhon _ _ i1) hfw h4
  refine ⟨ic, db, f, r, i1, i2, i3, ⟨_, ?_, r1⟩, r2, r3, ?_⟩
  · exact install_switch hp hns (flag := "--all") (by simp [commandOptions])
  · intro k n items hm x hx
    rw [heff, installActs_eq]
    exact r4 k n items hm x hx

end Verif
