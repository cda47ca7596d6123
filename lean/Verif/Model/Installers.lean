import Verif.Model.Config
import Verif.Model.Install
/-!
# Model of `xylem/installers/installer_base.py`, `package_manager_installer.py` and the plugins in `xylem/installers/plugins`

What the plugins see of the machine is the structure `Host`. Messages are left out.
-/
namespace Verif

/-! ## `Resolution` -/

/-- `Resolution(d)`, `installer_base.py:53-56`: since `self.__dict__ is self`, the attribute `_to_list_keys` becomes an item of the dict. -/
def mkResolution (d : Dict String PVal) : Resolution := dset d "_to_list_keys" (.list [.str "package"])

/-- `Resolution.__eq__`, `installer_base.py:58-60`: equality of dicts. -/
def Resolution.eq (a b : Resolution) : Bool := pyEq (dictVal id a) (dictVal id b)

/-- `hash(v)` (python builtin): lists and dicts cannot be hashed; `h` is the hash of the other values. -/
def hashVal (h : PVal → Int) : PVal → Except Exc Int
  | .list _ => .error .typeError
  | .dict _ => .error .typeError
  | v => .ok (h v)

/-- The hashes of the items, in the order of the dict. -/
def hashItems (h : PVal → Int) : List (String × PVal) → Except Exc (List (Int × Int))
  | [] => .ok []
  | (k, v) :: t => do
    let hk ← hashVal h (.str k)
    let hv ← hashVal h v
    let r ← hashItems h t
    pure ((hk, hv) :: r)

/-- `Resolution.__hash__`, `installer_base.py:62-63`: the hash of a tuple is a function `comb` of the hashes of its elements. -/
def Resolution.hash (h : PVal → Int) (comb : List (Int × Int) → Int) (r : Resolution) : Except Exc Int := do
  let l ← hashItems h r
  pure (comb l)

/-- Attribute access to an item (python builtin, `self.__dict__ = self`). -/
def resAttr (r : Resolution) (k : String) : Except Exc PVal :=
  match dget r k with
  | some v => .ok v
  | none => .error .attributeError

/-- The loop of `to_list`, `installer_base.py:70-75`; `self[key]`. Keys that are not text are not modelled (KeyError). -/
def toListLoop (r : Resolution) : List PVal → List PVal → Except Exc (List PVal)
  | acc, [] => .ok acc
  | acc, .str k :: t =>
    match dget r k with
    | some (.list l) => toListLoop r (acc ++ l) t
    | some v => toListLoop r (acc ++ [v]) t
    | none => .error .keyError
  | _, _ :: _ => .error .keyError

/-- `to_list`, `installer_base.py:68-76`. -/
def Resolution.toList (r : Resolution) : Except Exc (List PVal) := do
  let keys ← resAttr r "_to_list_keys"
  let l ← iterVal keys
  toListLoop r [] l

/-- `' '.join(l)` (python builtin): TypeError unless all elements are text. -/
def joinTexts : List PVal → Except Exc (List (List Char))
  | [] => .ok []
  | .str s :: t => do let r ← joinTexts t; pure (s.toList :: r)
  | _ :: _ => .error .typeError

/-- `__str__`, `installer_base.py:65-66`. -/
def Resolution.str (r : Resolution) : Except Exc (List Char) := do
  let l ← r.toList
  let ts ← joinTexts l
  pure (pyJoin [' '] ts)

/-! ## `InstallerBase` -/

/-- What the plugins see and do of the machine: user id, running a program for its output (`Popen(..).communicate()`), files. -/
structure Host (σ : Type) where
  isRoot : Bool
  popen : List String → σ → Except Exc String × σ
  pathExists : String → σ → Bool
  isdir : String → σ → Bool
  makedirs : String → σ → Except Exc Unit × σ
  expand : String → String

/-- Truth value of an option value (python builtin). -/
def pyTruthy : PVal → Bool
  | .none => false
  | .bool b => b
  | .int i => i != 0
  | .str s => s != ""
  | .list l => !l.isEmpty
  | .dict d => !d.isEmpty
  | .other _ => true

/-- `elevate_privileges`, `installer_base.py:83-87`. -/
def elevatePrivileges : Cmd → Except Exc Cmd
  | [] => .error .indexError
  | c :: t => .ok (if c ≠ "sudo" then "sudo" :: c :: t else c :: t)

/-- `options_description` of `InstallerBase.__init__`, `installer_base.py:109-110`, with the default changed by the plugin
(`plugins/fake.py:68`, `plugins/homebrew.py:43`). -/
def baseOptions (asRoot : Bool) : List ItemSpec := [{ name := "as_root", type := .boolean, default := .bool asRoot }]

/-- `installer_rule_description`, `installer_base.py:112-116`. -/
def ruleItems : List ItemSpec :=
  [{ name := "packages", type := .list .string, default := .list [] }, { name := "depends", type := .list .string, default := .list [] }]

/-- A description with the given items added (`config_utils.py:861`). -/
def describe (l : List ItemSpec) : Desc := l.foldl (fun d s => (d.add s).1) {}

/-- The `options` setter, `installer_base.py:124-137` (and `os_base.py:88-101`): ConfigValueError is raised again; anything but a dict has
no `get`. Unknown keys are reported and ignored. -/
def setOptions (expand : String → String) (desc : Desc) : PVal → Except Exc Config
  | .dict d => configFromParsedYaml expand d desc true
  | _ => .error .attributeError

/-- A rule as parsed YAML: the same dict (typed view of `rules_dict.py:195`). -/
def Rule.data (r : Rule) : Dict PKey PVal := r.map fun kv => (PKey.str kv.1, kv.2)

/-- `_parse_installer_rule`, `installer_base.py:142-158`. -/
def parseInstallerRule (expand : String → String) (desc : Desc) (rule : Rule) : Except Exc Config :=
  match configFromParsedYaml expand rule.data desc true with
  | .error .configValueError => .error .invalidRuleError
  | r => r

/-- `get_depends`, `installer_base.py:160-162`. -/
def getDepends (expand : String → String) (desc : Desc) (rule : Rule) : Except Exc PVal := do
  let parsed ← parseInstallerRule expand desc rule
  readOpt parsed "depends"

/-- An entry of a config dict as a value. -/
def Entry.toVal : Entry → PVal
  | .val v => v
  | .grp d => dictVal id d

/-- `d.pop(k)` / `del d[k]` (python builtin): KeyError if missing. -/
def popEntry (c : Config) (k : String) : Except Exc (PVal × Config) :=
  match dget c k with
  | some e => .ok (e.toVal, ddel c k)
  | none => .error .keyError

/-- The body of the loop of `resolve`, `installer_base.py:171-175`. -/
def packageResolution (rest : Config) (p : PVal) : Resolution :=
  dset (mkResolution (rest.map fun kv => (kv.1, kv.2.toVal))) "package" p

/-- `resolve`, `installer_base.py:164-176`. -/
def baseResolve (expand : String → String) (desc : Desc) (rule : Rule) : Except Exc (List Resolution) := do
  let parsed ← parseInstallerRule expand desc rule
  let (packages, parsed) ← popEntry parsed "packages"
  let (_, parsed) ← popEntry parsed "depends"
  let l ← iterVal packages
  pure (l.map (packageResolution parsed))

/-- `get_install_commands`, `installer_base.py:183-192`; `commands` is the outcome of `get_install_commands_no_root`. -/
def baseInstallCommands (isRoot : Bool) (options : Config) (commands : Except Exc (List Cmd)) : Except Exc (List Cmd) := do
  let cmds ← commands
  let asRoot ← readOpt options "as_root"
  if pyTruthy asRoot && !isRoot then cmds.mapM elevatePrivileges else pure cmds

/-! ## `PackageManagerInstaller` -/

variable {σ : Type}

/-- `is_program_installed`, `util.py:170-181`. -/
def isProgramInstalled (h : Host σ) (exe : String) (s : σ) : Except Exc Bool × σ :=
  match h.popen [exe] s with
  | (.ok _, s') => (.ok true, s')
  | (.error .osError, s') => (.ok false, s')
  | (.error e, s') => (.error e, s')

/-- The methods a package manager plugin defines or inherits, `package_manager_installer.py:59-63, 91-95`. -/
structure PackageManager (σ : Type) where
  name : String
  commandsNoRoot : List Resolution → (interactive reinstall : Bool) → Except Exc (List Cmd)
  filterUninstalled : List Resolution → σ → Except Exc (List Resolution) × σ
  isPmInstalled : σ → Except Exc Bool × σ
  installPm : OsTuple → Bool → σ → Except Exc Unit × σ
  isPmUpdated : σ → Except Exc Bool × σ := fun s => (.error .notImplementedError, s)
  updatePm : Bool → σ → Except Exc Unit × σ := fun _ s => (.error .notImplementedError, s)
  useAsAdditional : OsTuple → Except Exc Bool := fun _ => .ok false

/-- `except NotImplementedError: error(..)` followed by raising, `package_manager_installer.py:82-89`. -/
def prerequisiteFailure (e : Exc) : Exc := if e = .notImplementedError then .installerPrerequisiteError else e

/-- `check_package_manager_installed`, `package_manager_installer.py:65-89`. -/
def checkPmInstalled (p : PackageManager σ) (os : OsTuple) (fix interactive : Bool) (s : σ) : Except Exc Unit × σ :=
  match p.isPmInstalled s with
  | (.error e, s1) => (.error e, s1)
  | (.ok true, s1) => (.ok (), s1)
  | (.ok false, s1) =>
    if fix then
      match p.installPm os interactive s1 with
      | (.error e, s2) => (.error (prerequisiteFailure e), s2)
      | (.ok (), s2) =>
        match p.isPmInstalled s2 with
        | (.ok true, s3) => (.ok (), s3)
        | (.ok false, s3) => (.error .installerPrerequisiteError, s3)
        | (.error e, s3) => (.error (prerequisiteFailure e), s3)
    else (.error .installerPrerequisiteError, s1)

/-- `except NotImplementedError` of `check_package_manager_updated`, `package_manager_installer.py:103-108, 119-126`: only messages. -/
def ignoreNotImplemented (e : Exc) : Except Exc Unit := if e = .notImplementedError then .ok () else .error e

/-- `check_package_manager_updated`, `package_manager_installer.py:97-126`. -/
def checkPmUpdated (p : PackageManager σ) (fix interactive : Bool) (s : σ) : Except Exc Unit × σ :=
  match p.isPmUpdated s with
  | (.error e, s1) => (ignoreNotImplemented e, s1)
  | (.ok true, s1) => (.ok (), s1)
  | (.ok false, s1) =>
    if fix then
      match p.updatePm interactive s1 with
      | (.error e, s2) => (ignoreNotImplemented e, s2)
      | (.ok (), s2) =>
        match p.isPmUpdated s2 with
        | (.ok _, s3) => (.ok (), s3)
        | (.error e, s3) => (ignoreNotImplemented e, s3)
    else (.ok (), s1)

/-- `check_general_prerequisites`, `package_manager_installer.py:35-44`. -/
def checkGeneralPm (p : PackageManager σ) (os : OsTuple) (fix interactive : Bool) (s : σ) : Except Exc Unit × σ :=
  match checkPmInstalled p os fix interactive s with
  | (.error e, s1) => (.error e, s1)
  | (.ok (), s1) => checkPmUpdated p fix interactive s1

/-- `is_installed`, `installer_base.py:178-181`. -/
def baseIsInstalled (filter : List Resolution → σ → Except Exc (List Resolution) × σ) (r : Resolution) (s : σ) : Except Exc Bool × σ :=
  match filter [r] s with
  | (.ok l, s') => (.ok l.isEmpty, s')
  | (.error e, s') => (.error e, s')

/-- The installer made of a package manager plugin with its options (`installer_base.py:90`, `package_manager_installer.py:27-57`). -/
def PackageManager.installer (p : PackageManager σ) (h : Host σ) (options : Config) : Installer σ where
  name := p.name
  resolve := baseResolve h.expand (describe ruleItems)
  useAsAdditional := p.useAsAdditional
  filterUninstalled := p.filterUninstalled
  isInstalled := baseIsInstalled p.filterUninstalled
  getInstallCommands rs inter re s := (baseInstallCommands h.isRoot options (p.commandsNoRoot rs inter re), s)
  checkGeneral := checkGeneralPm p
  checkInstall _ _ _ _ s := (.ok (), s)

/-! ## Plugins -/

/-- `item.package` as a word of a command: only null (which passes the parsing of rules) is not text. -/
def packageOf (r : Resolution) : Except Exc (Option String) :=
  match dget r "package" with
  | some (.str s) => .ok (some s)
  | some _ => .ok none
  | none => .error .attributeError

/-- `[[.., item.package] for item in resolved]`, `plugins/apt.py:50`, `homebrew.py:54`, `macports.py:50`, `pip.py:59`. -/
def packageCommands (pre : Cmd) (rs : List Resolution) : Except Exc (List Cmd) :=
  rs.mapM fun r => do
    let p ← packageOf r
    pure (pre ++ [p])

/-- Calling `install_package_manager(os_tuple, interactive)` of a plugin that defines it without `interactive`
(`plugins/apt.py:56`, `homebrew.py:60`, `macports.py:56`, `pip.py:66`): TypeError. -/
def installPmWrongArity : OsTuple → Bool → σ → Except Exc Unit × σ := fun _ _ s => (.error .typeError, s)

/-- `AptInstaller`, `plugins/apt.py:36-59`. -/
def aptPlugin (h : Host σ) : PackageManager σ where
  name := "apt"
  commandsNoRoot rs _ _ := packageCommands ["apt-get", "install"] rs
  filterUninstalled rs s := (.ok rs, s)
  isPmInstalled := isProgramInstalled h "apt-get"
  installPm := installPmWrongArity

/-- `HomebrewInstaller`, `plugins/homebrew.py:39-62`. -/
def homebrewPlugin (h : Host σ) : PackageManager σ where
  name := "homebrew"
  commandsNoRoot rs _ _ := packageCommands ["brew", "install"] rs
  filterUninstalled rs s := (.ok rs, s)
  isPmInstalled := isProgramInstalled h "brew"
  installPm := installPmWrongArity

/-- `MacportsInstaller`, `plugins/macports.py:36-58`. -/
def macportsPlugin (h : Host σ) : PackageManager σ where
  name := "macports"
  commandsNoRoot rs _ _ := packageCommands ["port", "install"] rs
  filterUninstalled rs s := (.ok rs, s)
  isPmInstalled := isProgramInstalled h "port"
  installPm := installPmWrongArity

/-- `s.split("==")[0]` (python builtin): the text before the first `==`. -/
def beforeEqEq : List Char → List Char
  | [] => []
  | c :: t => if "==".toList.isPrefixOf (c :: t) then [] else c :: beforeEqEq t

/-- The names found by `filter_uninstalled`, `plugins/pip.py:62-63`. -/
def frozenNames (out : String) : List String := (pySplit '\n' out.toList).map fun row => String.ofList (beforeEqEq row)

/-- `r.package not in installed`, `plugins/pip.py:64`: null is in no list of names. -/
def notFrozen (installed : List String) (r : Resolution) : Except Exc Bool :=
  match dget r "package" with
  | some (.str s) => .ok (!installed.contains s)
  | some _ => .ok true
  | none => .error .attributeError

/-- A list comprehension `[r for r in l if cond(r)]` whose condition may raise (python builtin). -/
def filterE {α : Type} (cond : α → Except Exc Bool) : List α → Except Exc (List α)
  | [] => .ok []
  | x :: t => do
    let b ← cond x
    let r ← filterE cond t
    pure (if b then x :: r else r)

/-- `PipInstaller.filter_uninstalled`, `plugins/pip.py:61-64`. -/
def pipFilter (h : Host σ) (rs : List Resolution) (s : σ) : Except Exc (List Resolution) × σ :=
  match h.popen ["pip", "freeze"] s with
  | (.error e, s') => (.error e, s')
  | (.ok out, s') => (filterE (notFrozen (frozenNames out)) rs, s')

/-- `PipInstaller`, `plugins/pip.py:39-68`. -/
def pipPlugin (h : Host σ) : PackageManager σ where
  name := "pip"
  commandsNoRoot rs _ _ := packageCommands ["pip", "install", "-U"] rs
  filterUninstalled := pipFilter h
  isPmInstalled := isProgramInstalled h "pip"
  installPm := installPmWrongArity
  useAsAdditional _ := .ok true

/-- The options of the fake installer, `plugins/fake.py:66-74`. -/
def fakeOptions (defaultDir : String) : List ItemSpec :=
  baseOptions false ++ [{ name := "fake_name", type := .string, default := .str "fake" },
    { name := "install_dir", type := .path, default := .str defaultDir }]

/-- An option that is text. Only used for options whose type guarantees it. -/
def textOption (options : Config) (k : String) : String :=
  match readOpt options k with
  | .ok (.str s) => s
  | _ => ""

/-- `get_installer_filename`, `plugins/fake.py:100-102`; `os.path.join` (python builtin) calls `startswith` of the package, which null has not. -/
def fakeFile (dir : String) (r : Resolution) : Except Exc String := do
  let p ← packageOf r
  match p with
  | some p => pure (pathJoin dir p)
  | none => .error .attributeError

/-- The condition of `filter_uninstalled`, `plugins/fake.py:88-89`. -/
def fakeMissing (h : Host σ) (dir : String) (s : σ) (r : Resolution) : Except Exc Bool := do
  let p ← fakeFile dir r
  pure (!h.pathExists p s)

/-- `touch` of the package's file, `plugins/fake.py:84`. -/
def fakeCommand (dir : String) (r : Resolution) : Except Exc Cmd := do
  let p ← fakeFile dir r
  pure [some "touch", some p]

/-- `install_package_manager`, `plugins/fake.py:95-98`. -/
def fakeInstallPm (h : Host σ) (dir : String) (s : σ) : Except Exc Unit × σ :=
  if h.pathExists dir s then (.ok (), s) else h.makedirs dir s

/-- `FakeInstaller`, `plugins/fake.py:57-102`; `options.fake_name or 'fake'`. -/
def fakePlugin (h : Host σ) (options : Config) : PackageManager σ where
  name := orDefault (some (textOption options "fake_name")) "fake"
  commandsNoRoot rs _ _ := rs.mapM (fakeCommand (textOption options "install_dir"))
  filterUninstalled rs s := (filterE (fakeMissing h (textOption options "install_dir") s) rs, s)
  isPmInstalled s := (.ok (h.isdir (textOption options "install_dir") s), s)
  installPm _ _ := fakeInstallPm h (textOption options "install_dir")

end Verif
