import Verif.Props.ResolveInstall
import Verif.Props.ProgramExamples
/-! # `xylem update`, then `xylem install`: the theorems about several runs apply -/
namespace Verif

/-- A machine with an empty cache. -/
def exEmpty : Surroundings (List String) := { exMachine with files := fun _ => none }

/-- `xylem update -n --cache-dir /x` and `xylem install --continue-on-error --cache-dir /x`. -/
def exSessionUpdate : List Given := [⟨"-n", none⟩, ⟨"--cache-dir", some "/x"⟩]
def exSessionInstall : List Given := [⟨"--continue-on-error", none⟩, ⟨"--cache-dir", some "/x"⟩]

/-- The cache after the update. -/
def exCache : FileSys :=
  applySteps exEmpty.files (updateEffect exReal exEmpty xylemDescription true (exParser "") (exParser "update") exProcess [] exSessionUpdate)

/-- The machine after the update. -/
def exUpdated : Surroundings (List String) := { exEmpty with files := exCache }

def exInstallOn (w : Surroundings (List String)) : Int × List String :=
  ((xylemInstall exReal w xylemDescription (fun _ _ => []) (fun _ => []) (fun _ => []) true (exParser "") (exParser "install") exProcess []
      exSessionInstall ["boost"] []).2.ending.status,
   (installEffect exReal w xylemDescription true (exParser "") (exParser "install") exProcess [] exSessionInstall ["boost"] []).st)

theorem inFull_of {opts : List OptSpec} {l : List Given} (h : l.all (fun g => decide (g.flag ∈ allFlags opts)) = true) : InFull opts l := by
  intro g hg
  have := List.all_eq_true.1 h g hg
  simpa using this

/-- Both commands are reached. -/
def exReached (cmd : String) (after : List Given) : Bool :=
  match reached exReal xylemDescription true (exParser "") (exParser cmd) (.ok ()) exProcess [] after with
  | .ok _ => true
  | .error _ => false

/-- The hypotheses of C105 and C106 hold of the two command lines; the install fails before the update and succeeds after it. -/
example : InFull (exParser "update") exSessionUpdate ∧ InFull (exParser "install") exSessionInstall ∧
    (commonOptions (exParser "") exSessionUpdate).map Given.flag = ["--cache-dir"] ∧
    (commonOptions (exParser "") exSessionInstall).map Given.flag = ["--cache-dir"] ∧
    exReached "update" exSessionUpdate = true ∧ exReached "install" exSessionInstall = true ∧
    exInstallOn exEmpty = (1, []) ∧ exInstallOn exUpdated = (0, ["libboost"]) :=
  ⟨inFull_of (by decide +kernel), inFull_of (by decide +kernel), by decide +kernel, by decide +kernel, by decide +kernel, by decide +kernel,
    by decide +kernel, by decide +kernel⟩

/-! ### `xylem resolve` and `xylem install` -/

/-- As `listed`, with resolutions as the builtin installers make them. -/
def shown (rule : Dict String PVal) : Except Exc (List Resolution) :=
  match dget rule "packages" with
  | some (.list l) => .ok (l.map fun v => [("package", v), ("_to_list_keys", .list [.str "package"])])
  | _ => .error .installerError

def exShown : Surroundings (List String) :=
  { exMachine with installerEntries := [builtinEntry "apt" "apt" ⟨"apt", fun _ => .ok { surely with name := "apt", resolve := shown }⟩] }

/-- `xylem resolve ... boost eigen`: the lines on stdout and the status. -/
def exResolve (args : List Given) : List String × Int :=
  let out := (xylemResolve exReal exShown xylemDescription (fun _ _ => []) (fun _ => []) true (exParser "") (exParser "resolve") exProcess []
    args ["boost", "eigen"]).2
  ((out.lines.filterMap onStdout).map String.ofList, out.ending.status)

/-- What `xylem install --no-color boost eigen` asks the installers about. -/
def exAsked : List (String × Option String) :=
  (oneByOne ((installEffect exReal exShown xylemDescription true (exParser "") (exParser "install") exProcess [] [⟨"--no-color", none⟩]
    ["boost", "eigen"] []).ev.filterMap filterInput)).map fun x => (x.1, (Resolution.str x.2).toOption.map String.ofList)

example : exResolve [⟨"--no-color", none⟩] = (["boost --> libboost", "eigen --> libeigen"], 0) ∧
    exResolve [⟨"--no-color", none⟩, ⟨"--show-default-installer", none⟩] = (["boost --> apt: libboost", "eigen --> apt: libeigen"], 0) ∧
    exAsked = [("apt", some "libboost"), ("apt", some "libeigen")] ∧
    exReached "resolve" [⟨"--no-color", none⟩, ⟨"--show-default-installer", none⟩] = true ∧ exReached "install" [⟨"--no-color", none⟩] = true ∧
    (commonOptions (exParser "") [⟨"--no-color", none⟩, ⟨"--show-default-installer", none⟩]).map Given.flag = ["--no-color"] :=
  ⟨by decide +kernel, by decide +kernel, by decide +kernel, by decide +kernel, by decide +kernel, by decide +kernel⟩

end Verif
