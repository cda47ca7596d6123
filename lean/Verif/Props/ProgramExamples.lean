import Verif.Props.ProgramDirs
import Verif.Props.SetupBuiltin
import Verif.Props.Api
import Verif.Props.Startup
/-! # A whole run of `xylem install`: the theorems about whole runs apply -/
namespace Verif

/-- The package manager of the example: as `surely`, it installs the packages a rule lists. -/
def listed (rule : Dict String PVal) : Except Exc (List Resolution) :=
  match dget rule "packages" with
  | some (.list l) => .ok (l.map fun v => [("package", v)])
  | _ => .error .installerError

def exApt : Installer (List String) := { surely with name := "apt", resolve := listed }

/-- What the rules file says. -/
def exDownload : PVal :=
  .dict [(.str "boost", .dict [(.str "ubuntu", .str "libboost")]), (.str "eigen", .dict [(.str "ubuntu", .dict [(.str "trusty", .str "libeigen")])])]

/-- A machine running Ubuntu, with that package manager, one sources file, and the rules it names in the cache. -/
def exMachine : Surroundings (List String) where
  uni := fun _ => false
  osEntries := builtinOsEntries exUbuntu
  installerEntries := [builtinEntry "apt" "apt" ⟨"apt", fun _ => .ok exApt⟩]
  specEntries := [builtinEntry "rules" "rules" (rulesSpec fun _ => false)]
  sourcesIn := fun d => if d = "/etc/xylem/sources.d" then exWorld else ⟨false, [], fun _ => false, fun _ => .error .ioError, []⟩
  files := applySteps (fun _ => none) (updateApi true ⟨exEnv.sha1, "0.1.0", "/var/cache/xylem/sources"⟩ [rulesSpec fun _ => false] ⟨true, .ok (), true⟩ exWorld
    "/etc/xylem/sources.d" (fun _ => ⟨fun _ => .ok exDownload, .other 7, .ok⟩)).steps
  dirAt := fun _ => ⟨true, .ok (), true⟩
  outcome := fun _ => ⟨fun _ => .ok exDownload, .other 7, .ok⟩
  sha1 := exEnv.sha1
  xylemVersion := "0.1.0"
  defaultSources := "/etc/xylem/sources.d"
  defaultCache := "/var/cache/xylem"
  machine := toyMachine

/-- The parsers, as computed. -/
def exParser (cmd : String) : List OptSpec :=
  match mkParser (commandOptions cmd) xylemDescription with
  | .ok l => l
  | .error _ => []

theorem exParsers : ParsersFor "install" (exParser "") (exParser "install") := ⟨rfl, rfl⟩

/-- The program as imported. -/
def exProcess : Process := Process.imported exStart []

def exRunOf (after : List Given) (keys : List String) (s : List String) : Process × Finished :=
  xylemInstall exStart exMachine xylemDescription (fun _ _ => []) (fun _ => []) (fun _ => []) true (exParser "") (exParser "install") exProcess [] after
    keys s

def exEffectOf (after : List Given) (keys : List String) (s : List String) : Effect (List String) :=
  installEffect exStart exMachine xylemDescription true (exParser "") (exParser "install") exProcess [] after keys s

theorem exMachine_surely {c : Config} {ic : InstallerSetup (List String)} (h : contextFor exStart exMachine c = .ok ic) :
    ∀ i ∈ ic.context.plugins, Surely i := by
  intro i hi
  obtain ⟨ep, he, disabled, pn, n, a, v, ⟨d, t, h1, _, _, h4, _, _⟩, hc⟩ := context_plugins h i hi
  simp only [exMachine, List.mem_singleton] at he
  subst he
  unfold builtinEntry at h1
  injection h1 with h1
  subst h1
  injection h4 with h4
  injection h4 with h4
  injection h4 with h4
  injection h4 with h4 h5
  subst h5
  injection hc with hc
  exact ⟨_, _, hc.symm⟩

/-- Nothing given after the command means any particular option. -/
theorem not_given_nil {opts : List OptSpec} {flag : String} : ¬ IsGiven opts flag [] := by
  rintro ⟨g, hg, _⟩
  exact absurd hg (List.not_mem_nil)

/-- The computation did not end in SystemExit. -/
def noExit {α : Type} (x : Except Exc α) : Bool :=
  match x with
  | .error (.systemExit _) => false
  | _ => true

theorem noExit_spec {α : Type} {x : Except Exc α} (h : noExit x = true) : NoSystemExit x := by
  rintro c rfl
  cases h

/-- The command line is parsed and the config is made, without SystemExit. -/
def exNoExit (after : List Given) (keys : List String) (s : List String) : Bool :=
  (match parseCommandLine true (exParser "") (exParser "install") [] after with
   | .ok ns => noExit (effectiveConfig exStart xylemDescription ns)
   | .error _ => true) &&
  (match reached exStart xylemDescription true (exParser "") (exParser "install") (requireKeys keys) exProcess [] after with
   | .ok r => noExit (installRun exStart exMachine keys r.1 r.2 s).res
   | .error _ => true)

theorem exNoExit_spec {after : List Given} {keys s : List String} (h : exNoExit after keys s = true) :
    (∀ ns, parseCommandLine true (exParser "") (exParser "install") [] after = .ok ns → NoSystemExit (effectiveConfig exStart xylemDescription ns)) ∧
    ∀ p' ns, reached exStart xylemDescription true (exParser "") (exParser "install") (requireKeys keys) exProcess [] after = .ok (p', ns) →
      NoSystemExit (installRun exStart exMachine keys p' ns s).res := by
  unfold exNoExit at h
  rw [Bool.and_eq_true] at h
  refine ⟨fun ns hn => ?_, fun p' ns hn => ?_⟩
  · have := h.1; rw [hn] at this; exact noExit_spec this
  · have := h.2; rw [hn] at this; exact noExit_spec this

/-- C102 for the example machine. -/
theorem exInstalled (after : List Given) (keys s : List String) (hx : exNoExit after keys s = true)
    (hi : ¬ InformationOnly (exParser "") (exParser "install") [] after) (hd : ¬ IsGiven (exParser "install") "--dry-run" after)
    (h0 : (exRunOf after keys s).2.ending.status = 0) :
    ∃ ic db f r, contextFor exStart exMachine (exRunOf after keys s).1.config = .ok ic ∧ (∃ all, resolve ic.context db f keys all = .ok r) ∧
      r.errors = [] ∧ (∀ k ∈ keys, k ∈ r.results.map Prod.fst) ∧
      ∀ k n items, (k, n, items) ∈ r.results → ∀ x ∈ items, SaysInstalled ic.context n x (exEffectOf after keys s).st := by
  obtain ⟨k1, k2⟩ := exNoExit_spec hx
  obtain ⟨ic, db, f, r, h1, _, _, ⟨all, _, h2⟩, h3, h4, h5⟩ := C102_exit_status_zero_means_installed_partial exParsers exStart exMachine (fun _ _ => [])
    (fun _ => []) (fun _ => []) true exProcess [] after keys s k1 k2 _ rfl
    (fun ic o h => surely_honest (exMachine_surely h) o) (.inr fun ic h => surely_filters (exMachine_surely h)) hi hd h0
  exact ⟨ic, db, f, r, h1, ⟨all, h2⟩, h3, h4, h5⟩

/-- `xylem install boost eigen` on a machine where boost is installed: it ends with status 0, and then both are; the program was not asked for
anything else. -/
example : (exRunOf [] ["boost", "eigen"] ["libboost"]).2.ending.status = 0 ∧
    (exEffectOf [] ["boost", "eigen"] ["libboost"]).st = ["libboost", "libeigen"] ∧
    exNoExit [] ["boost", "eigen"] ["libboost"] = true ∧ ¬ InformationOnly (exParser "") (exParser "install") [] [] ∧
    ¬ IsGiven (exParser "install") "--dry-run" [] :=
  ⟨by decide +kernel, by decide +kernel, by decide +kernel, by rintro ⟨flag, _, h | h⟩ <;> exact not_given_nil h, not_given_nil⟩

/-- The option is found, as computed. -/
def finds (opts : List OptSpec) (f flag : String) : Bool :=
  match findOption opts f with
  | .ok o => o.flags.contains flag
  | .error _ => false

theorem finds_means {cmd : String} {top sub : List OptSpec} (hp : ParsersFor cmd top sub) {f flag : String} (h : finds sub f flag = true) :
    Means sub f flag := by
  have hf : FlagsApart sub := (mkParser_ok hp.sub).2
  have hn := parser_nodup hp.sub hp.facts.1
  unfold finds at h
  cases ho : findOption sub f with
  | error e => rw [ho] at h; cases h
  | ok o =>
    rw [ho] at h
    have := (findOption_iff hf hn).1 ho
    exact ⟨o, this.1, List.contains_iff_mem.1 h, this.2⟩

/-- `xylem install --dry-r boost eigen` (an abbreviation): nothing is executed, a command is planned. -/
example : IsGiven (exParser "install") "--dry-run" [⟨"--dry-r", none⟩] ∧
    (exEffectOf [⟨"--dry-r", none⟩] ["boost", "eigen"] ["libboost"]).st = ["libboost"] ∧
    plannedOf (exEffectOf [⟨"--dry-r", none⟩] ["boost", "eigen"] ["libboost"]).ev = [("apt", [some "get", some "libeigen"])] :=
  ⟨⟨_, List.mem_singleton.2 rfl, finds_means exParsers (by decide +kernel)⟩, by decide +kernel, by decide +kernel⟩

/-! ### Directories and os -/

/-- The example environment with real paths. -/
def exReal : StartEnv := { exStart with expand := expandInputPath exPaths, home := defaultUserConfigDir exPaths }

theorem exReal_real : RealPaths exReal exPaths where
  expand := rfl
  home := rfl
  cwd := rfl
  homeNormal := ⟨["home".toList, "u".toList], by
    intro c hc
    simp only [List.mem_cons, List.not_mem_nil, or_false] at hc
    rcases hc with rfl | rfl <;> exact ⟨by decide, by decide, by decide, by decide⟩, .inl (by decide)⟩

theorem exUpdateParsers : ParsersFor "update" (exParser "") (exParser "update") := ⟨rfl, rfl⟩

/-- `xylem update --cache-dir /a --cache-dir ~/c/../d`. -/
def exUpdateArgs : List Given := [⟨"--cache-dir", some "/a"⟩, ⟨"--cache-dir", some "~/c/../d"⟩]

/-- Two steps, both in the directory given last. -/
example : LastGiven (exParser "update") "--cache-dir" exUpdateArgs "~/c/../d" ∧ pathJoin (expandInputPath exPaths "~/c/../d") "sources" = "/home/u/d/sources" ∧
    (updateEffect exReal exMachine xylemDescription true (exParser "") (exParser "update") exProcess [] exUpdateArgs).map FsStep.path =
      ["/home/u/d/sources/u1.pickle", "/home/u/d/sources/u1.pickle"] :=
  ⟨⟨[_], _, [], rfl, finds_means exUpdateParsers (by decide +kernel), rfl, not_given_nil⟩, by decide +kernel, by decide +kernel⟩

/-- The os of the context, if there is one. -/
def exOsOf (after : List Given) : Option (String × String) :=
  match reached exReal xylemDescription true (exParser "") (exParser "install") (.ok ()) exProcess [] after with
  | .error _ => none
  | .ok r =>
    match contextFor exReal exMachine r.1.config with
    | .error _ => none
    | .ok ic => some ic.osTuple

/-- `xylem install --os "debian : jessie"` on a machine running Ubuntu; without the option; and with a version that does not exist. -/
example : LastGiven (exParser "install") "--os" [⟨"--os", some "debian : jessie"⟩] (String.ofList ("debian ".toList ++ ':' :: " jessie".toList)) ∧
    ':' ∉ "debian ".toList ∧ '&' ∉ "debian ".toList ∧ '&' ∉ " jessie".toList ∧
    exOsOf [⟨"--os", some "debian : jessie"⟩] = some ("debian", "jessie") ∧ exOsOf [] = some ("ubuntu", "trusty") ∧
    exOsOf [⟨"--os", some "ubuntu:jessie"⟩] = none :=
  ⟨⟨[], _, [], rfl, finds_means exParsers (by decide +kernel), rfl, not_given_nil⟩, by decide, by decide, by decide, by decide +kernel, by decide +kernel,
    by decide +kernel⟩

end Verif
