import Verif.Props.ResolveMessages
import Verif.Props.ProgramExamples
/-! # Concrete cases for C122 to C125 -/
namespace Verif

/-- Texts for the examples. -/
def exTexts : Texts where
  str := fun v => match v with | .str s => s.toList | _ => "?".toList
  yaml := fun _ => "not YAML".toList
  exc := fun _ => "exception".toList
  entryName := fun _ _ => "entry".toList
  badDefinition := fun _ _ => "bad".toList
  badPlugin := fun _ _ => "bad".toList
  keys := fun l => (l.map fun k => match k with | .str s => s.toList | _ => "?".toList).flatten
  installerWarnings := fun _ _ => []
  ruleWarnings := fun _ _ => []

/-- A run of `xylem resolve` on the example machine, with what it says. -/
def exSaid (after : List Given) (keys : List String) : List Line :=
  (xylemResolveSaying exTexts exStart exMachine xylemDescription (fun _ _ => []) (fun _ => []) true (exParser "") (exParser "resolve") exProcess [] after keys).2.lines

/-- A run of `xylem install` on the example machine, with what it says. -/
def exInstallSaid (after : List Given) (keys : List String) : List Line :=
  (xylemInstallSaying exTexts exStart exMachine xylemDescription (fun _ _ => []) (fun _ => []) (fun _ => []) true (exParser "") (exParser "install") exProcess []
    after keys ["libboost"]).2.lines

/-- A run of `xylem lookup` on the example machine, with what it says. -/
def exLookupSaid (after : List Given) (keys : List String) : List Line :=
  (xylemLookupSaying exTexts exStart exMachine xylemDescription (fun _ _ => []) (fun v => .ok (exTexts.str v)) true (exParser "") (exParser "lookup") exProcess []
    after keys).2.lines

/-- What is said on the example machine before the results of `xylem install -v boost eigen`: C122, C124, C125. -/
theorem exVerbose : exInstallSaid [⟨"--no-color", none⟩, ⟨"-v", none⟩] ["boost", "eigen"] =
    [.err "Loaded os plugin 'debian' with os name 'debian'.".toList, .err "Loaded os plugin 'ubuntu' with os name 'ubuntu'.".toList,
     .err "Loaded os plugin 'xubuntu' with os name 'xubuntu'.".toList, .err "Loaded os plugin 'osx' with os name 'osx'.".toList,
     .err "detected OS [ubuntu:trusty]".toList, .err "Loaded installer plugin 'apt' with installer name 'apt'.".toList,
     .err "setting up core installers from os plugin: 'apt'".toList, .err "Using additional installers: ''".toList,
     .err "Loaded spec plugin 'rules' with spec name 'rules'.".toList, .out "Loading source urls from '/etc/xylem/sources.d'".toList,
     .err "found rule for key 'boost' for core installer 'apt'".toList, .err "found rule for key 'eigen' for core installer 'apt'".toList,
     .out "executing command: get libeigen".toList, .raw []] := by decide +kernel

example : exInstallSaid [⟨"--no-color", none⟩] ["boost", "eigen"] = [.out "executing command: get libeigen".toList, .raw []] := by decide +kernel

/-- C123: the line is printed for every key. -/
example : (exLookupSaid [⟨"--no-color", none⟩, ⟨"-v", none⟩] ["boost", "eigen"]).filterMap onStdout =
    ["Loading source urls from '/etc/xylem/sources.d'".toList, "Rules for 'boost' on 'ubuntu:trusty':\n".toList,
     "Loading source urls from '/etc/xylem/sources.d'".toList, "Rules for 'eigen' on 'ubuntu:trusty':\n".toList] := by decide +kernel

/-- **C125** There may be several messages that a rule was found for a key, of which only the last one is true: all additional installers with a rule are
named, in order, and the last one is used. -/
theorem C125_several_messages_witness :
    foundNotes (requestedFrom (installFromPairs []) "extra") (exIc.plugins.map (·.name)) (exIc.core.map (·.name)) (exIc.additional.map (·.name)) ["gem", "pip"]
      "extra" = [.chat (foundText "extra" "additional" "pip"), .chat (foundText "extra" "additional" "gem")] ∧
    ∃ r, resolve exIc exDb [] ["extra"] false = .ok r ∧ r.results = [("extra", ("gem", [[]]))] := by
  exact ⟨rfl, _, rfl, rfl⟩

/-- An entry of `install_from` is ignored. -/
example : (installFromSaying { exTexts with on := false, verbose := false } [] [("apt", ["x"]), ("pip", ["core", "x"]), ("gem", ["core"])]).lines =
    [.err "ignoring 'install from pip' for key 'x'; already configured to install from 'apt'".toList,
     .err "ignoring 'install from gem' for key 'core'; already configured to install from 'pip'".toList] := by decide +kernel

/-- An unknown option of an os plugin, and an unknown key of a rule. -/
example : ∃ o, setOptions id (describe osOptionItems) (.dict [(.str "features", .list []), (.str "color", .none)]) = .ok o ∧
    (setOptionsSaying { exTexts with on := false, verbose := false } "os plugin" "ubuntu" id (describe osOptionItems)
      (.dict [(.str "features", .list []), (.str "color", .none)])).lines =
    [.err "ignoring the following unknown options for os plugin 'ubuntu': color -- known options are: features".toList] :=
  ⟨_, rfl, by decide +kernel⟩

end Verif
