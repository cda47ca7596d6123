import Verif.Model.Installers
/-!
# Model of `xylem/os_support/impl.py`, `os_base.py`, `plugins.py`, and of the detectors the builtin plugins use (`os_detect.py`)

The answers of an os plugin on the machine at hand (is this the os, what is its version) are fields of the plugin. The options of a
plugin object are an explicit result. `os_detect.OsDetect.detect_os` and the detectors no plugin uses are not modelled.
-/
namespace Verif

/-- The os plugin interface, `os_support/impl.py:52-197`, as it answers on the machine at hand. `options` is described by
`optionsDesc` (`os_base.py:76-101`). -/
structure OsPlugin where
  name : String
  allNames : List String
  isOs : Except Exc Bool
  getVersion : Except Exc String
  knownVersions : List String
  allTuples : Option String → List (String × Option String)
  coreInstallers : String → Config → Except Exc (List String)
  defaultInstaller : Option String
  optionsDesc : Desc

/-- The current os: a plugin, or an `OSOverride` (`os_support/impl.py:200-282`) with its fixed version. -/
inductive CurrentOs
  | detected (p : OsPlugin)
  | override (p : OsPlugin) (version : String)

/-- The plugin all queries but detection and version are deferred to, `os_support/impl.py:236-282`. -/
def CurrentOs.plugin : CurrentOs → OsPlugin
  | .detected p => p
  | .override p _ => p

/-- `get_version`, `os_support/impl.py:245-247` for overrides. -/
def CurrentOs.getVersion : CurrentOs → Except Exc String
  | .detected p => p.getVersion
  | .override _ v => .ok v

/-- `get_tuple`, `os_support/impl.py:249-251`, `os_base.py:107-108`. -/
def CurrentOs.getTuple (c : CurrentOs) : Except Exc OsTuple := do
  let v ← c.getVersion
  pure (c.plugin.name, v)

/-- `is_os`, `os_support/impl.py:271-273` for overrides. -/
def CurrentOs.isOs : CurrentOs → Except Exc Bool
  | .detected p => p.isOs
  | .override _ _ => .ok true

/-- `OSSupport`, `os_support/impl.py:285-300`. -/
structure OsSupport where
  plugins : List OsPlugin
  current : Option CurrentOs := none

/-- `lookup_os`, `os_support/impl.py:321-326`. -/
def lookupOs (plugins : List OsPlugin) (name : String) : Option OsPlugin := plugins.find? fun p => p.name == name

/-- `get_default_installer_names`, `os_support/impl.py:328-330`. -/
def getDefaultInstallerNames (plugins : List OsPlugin) : Dict String (Option String) :=
  plugins.foldl (fun d p => dset d p.name p.defaultInstaller) []

/-- `OSOverride.__init__`, `os_support/impl.py:209-234`. -/
def mkOverride (p : OsPlugin) (version : Option String) : Except Exc CurrentOs :=
  match version with
  | none => do
    let v ← p.getVersion
    pure (.override p v)
  | some v => if p.knownVersions.contains v then .ok (.override p v) else .error .unsupportedOSVersionError

/-- `override_os`, `os_support/impl.py:332-353`: the object afterwards and the outcome. -/
def overrideOs (s : OsSupport) (osTuple : Option (String × Option String)) : OsSupport × Except Exc Unit :=
  match osTuple with
  | none => (s, .ok ())
  | some (name, version) =>
    match lookupOs s.plugins name with
    | none => (s, .error .unsupportedOSError)
    | some p =>
      match mkOverride p version with
      | .error e => (s, .error e)
      | .ok c => ({ s with current := some c }, .ok ())

/-- Which of two detected plugins is kept, `os_support/impl.py:371-381`. -/
def moreSpecific (result os : OsPlugin) : OsPlugin :=
  if result.allNames.contains os.name then result
  else if os.allNames.contains result.name then os
  else result

/-- The loop of `detect_os`, `os_support/impl.py:366-381`. -/
def detectLoop : Option OsPlugin → List OsPlugin → Except Exc (Option OsPlugin)
  | result, [] => .ok result
  | result, os :: t =>
    match os.isOs with
    | .error e => .error e
    | .ok false => detectLoop result t
    | .ok true =>
      match result with
      | none => detectLoop (some os) t
      | some r => detectLoop (some (moreSpecific r os)) t

/-- `detect_os`, `os_support/impl.py:355-386`: the object afterwards and the outcome. -/
def detectOs (s : OsSupport) : OsSupport × Except Exc Unit :=
  match detectLoop none s.plugins with
  | .error e => (s, .error e)
  | .ok none => (s, .error .unsupportedOSError)
  | .ok (some p) => ({ s with current := some (.detected p) }, .ok ())

/-- `current_os`, `os_support/impl.py:302-314`: detects if nothing was detected or overridden yet. -/
def currentOs (s : OsSupport) : OsSupport × Except Exc CurrentOs :=
  match s.current with
  | some c => (s, .ok c)
  | none =>
    match detectOs s with
    | (s', .error e) => (s', .error e)
    | (s', .ok ()) =>
      match s'.current with
      | some c => (s', .ok c)
      | none => (s', .error .attributeError)

/-- The value of `config.os_override` (`config.py:170-186`): nothing, the parsed pair, or the text if it was not processed. -/
inductive OverrideVal
  | none
  | pair (name : String) (version : Option String)
  | text (s : String)

/-- Result of setting up the os: the current os and its options. -/
structure OsSetup where
  os : CurrentOs
  options : Config

/-- The first part of `setup_os`, `installers/impl.py:281-289`. Formatting an unprocessed text with two placeholders is a TypeError (line
285). The messages read the tuple (lines 283, 288), so failing version detection raises here. -/
def chooseOs (plugins : List OsPlugin) (override : OverrideVal) : Except Exc CurrentOs :=
  match override with
  | .none =>
    match detectOs ⟨plugins, .none⟩ with
    | (_, .error e) => .error e
    | (s, .ok ()) => do
      let c ← (currentOs s).2
      let _ ← c.getTuple
      pure c
  | .text _ => .error .typeError
  | .pair name version =>
    match overrideOs ⟨plugins, .none⟩ (some (name, version)) with
    | (_, .error e) => .error e
    | (s, .ok ()) => do
      let c ← (currentOs s).2
      pure c

/-- `setup_os`, `installers/impl.py:272-290`. -/
def setupOs (expand : String → String) (plugins : List OsPlugin) (override : OverrideVal) (osOptions : PVal) : Except Exc OsSetup := do
  let c ← chooseOs plugins override
  let o ← setOptions expand c.plugin.optionsDesc osOptions
  pure ⟨c, o⟩

/-! ## `os_base.py` -/

/-- The function `less`, `os_base.py:42-50`. -/
def versionLess (versions : List String) (a b : String) : Except Exc Bool :=
  if !versions.contains a then .error .unsupportedOSVersionError
  else if !versions.contains b then .error .unsupportedOSVersionError
  else .ok (decide (versions.idxOf a < versions.idxOf b))

/-- `version_order_from_list`, `os_base.py:36-52`. -/
def versionOrderFromList (versions : List String) : Except Exc (String → String → Except Exc Bool) :=
  if versions.length = versions.eraseDups.length then .ok (versionLess versions) else .error .assertionError

/-- The options of an os plugin, `os_base.py:77-81`. -/
def osOptionItems : List ItemSpec := [{ name := "features", type := .list .string, default := .list [] }]

/-! ## `os_detect.py` as far as used, and `plugins.py` -/

/-- What the detectors look at: `platform.linux_distribution` (`os_detect.py:100-106`), `/usr/bin/sw_vers` (212-234), and
`distutils.version.StrictVersion` (first two numbers; `none`: ValueError). -/
structure Platform where
  lsbInfo : Option (String × String × String)
  swVersExists : Bool
  swVers : Option String
  strictVersion : String → Option (Int × Int)

/-- A detector as used by the plugins: `is_os` and `get_codename` (`os_detect.py:73-93`). -/
structure Detector where
  isOs : Bool
  getCodename : Except Exc String

/-- `LsbDetect`, `os_detect.py:96-120`. -/
def lsbDetect (p : Platform) (lsbName : String) : Detector where
  isOs := match p.lsbInfo with
    | some (n, _, _) => n == lsbName
    | none => false
  getCodename := match p.lsbInfo with
    | some (n, _, codename) => if n == lsbName then .ok codename else .error .osNotDetected
    | none => .error .osNotDetected

/-- `_osx_codename_map`, `os_detect.py:196-202`. -/
def osxCodenameMap : Dict Int String :=
  [(4, "tiger"), (5, "leopard"), (6, "snow"), (7, "lion"), (8, "mountain lion"), (9, "mavericks"), (10, "yosemite")]

/-- `_osx_codename`, `os_detect.py:203-206`. -/
def osxCodename (major minor : Int) : Except Exc String :=
  match dget osxCodenameMap minor with
  | some c => if major = 10 then .ok c else .error .osNotDetected
  | none => .error .osNotDetected

/-- `OSX`, `os_detect.py:208-234`. `StrictVersion` of `None` or of the empty text has no attribute `version`. -/
def osxDetect (p : Platform) : Detector where
  isOs := p.swVersExists
  getCodename :=
    if p.swVersExists then
      match p.swVers with
      | none => .error .attributeError
      | some s =>
        if s = "" then .error .attributeError
        else
          match p.strictVersion s with
          | some (major, minor) => osxCodename major minor
          | none => .error .osNotDetected
    else .error .osNotDetected

/-- A version mapping, `plugins.py:85-92`. -/
inductive VersionMapping
  | unknown
  | table (d : Dict String String)
  | function (f : String → Option String)

/-- Mapping a version that is not `None`, `plugins.py:87-92`. -/
def VersionMapping.map : VersionMapping → String → Option String
  | .unknown, _ => none
  | .table d, v => dget d v
  | .function f, v => f v

/-- The loop of `get_all_tuples`, `plugins.py:82-93`. -/
def allTuples : List (String × VersionMapping) → Option String → List (String × Option String)
  | [], _ => []
  | (name, mapping) :: t, version => (name, version) :: allTuples t (version.bind mapping.map)

/-- The data of a builtin plugin, `plugins.py:50-64`; `names` are the names with their version mappings, most specific first. -/
structure BuiltinOs where
  names : List (String × VersionMapping)
  versions : List String
  detector : Detector
  coreInstallers : List String
  defaultInstaller : Option String

/-- `get_version`, `plugins.py:66-80` (all builtin plugins use codenames). -/
def builtinGetVersion (d : Detector) : Except Exc String :=
  match d.getCodename with
  | .error .osNotDetected => .error .unsupportedOSVersionError
  | r => r

/-- `_OSDetecorBase` as a plugin, `plugins.py:36-110`; `name` is the first name (`os_base.py:103-105`). -/
def BuiltinOs.plugin (b : BuiltinOs) : OsPlugin where
  name := (b.names.map Prod.fst).headD ""
  allNames := b.names.map Prod.fst
  isOs := .ok b.detector.isOs
  getVersion := builtinGetVersion b.detector
  knownVersions := b.versions
  allTuples := allTuples b.names
  coreInstallers := fun _ _ => .ok b.coreInstallers
  defaultInstaller := b.defaultInstaller
  optionsDesc := describe osOptionItems

/-- `Debian`, `plugins.py:113-126`. -/
def debianOs (p : Platform) : BuiltinOs where
  names := [("debian", .unknown)]
  versions := ["etch", "lenny", "squeeze", "wheezy", "jessie"]
  detector := lsbDetect p "debian"
  coreInstallers := ["apt"]
  defaultInstaller := some "apt"

/-- `Ubuntu`, `plugins.py:136-152`: as Debian with a name prepended. -/
def ubuntuOs (p : Platform) : BuiltinOs :=
  { debianOs p with
    names := ("ubuntu", .unknown) :: (debianOs p).names
    versions := ["lucid", "maverick", "natty", "oneiric", "precise", "quantal", "raring", "saucy", "trusty", "utopic"]
    detector := lsbDetect p "Ubuntu" }

/-- `Xubuntu`, `plugins.py:163-168`: as Ubuntu with a name prepended, having the same versions. -/
def xubuntuOs (p : Platform) : BuiltinOs :=
  { ubuntuOs p with
    names := ("xubuntu", .function some) :: (ubuntuOs p).names
    detector := lsbDetect p "Xubuntu" }

/-- `OSX`, `plugins.py:178-194`. -/
def osxOs (p : Platform) : BuiltinOs where
  names := [("osx", .unknown)]
  versions := ["tiger", "leopard", "snow", "lion", "mountain lion", "mavericks", "yosemite"]
  detector := osxDetect p
  coreInstallers := ["homebrew", "pip", "gem"]
  defaultInstaller := some "homebrew"

/-- The builtin os plugins (`setup.py`, entry points of the group `xylem.os`; in any order). -/
def builtinPlugins (p : Platform) : List OsPlugin := [(debianOs p).plugin, (ubuntuOs p).plugin, (xubuntuOs p).plugin, (osxOs p).plugin]

end Verif
