import Verif.Model.OsSupport
/-!
# Model of `xylem/plugin_utils.py` and of `InstallerContext` (`xylem/installers/impl.py`)

Entry points are given as the list `pkg_resources.iter_entry_points` yields, each with the outcome of loading it. Messages are kept as
reports where a property is about them.
-/
namespace Verif

/-! ## `plugin_utils.py` -/

/-- An instantiated plugin: the outcome of reading its `name` property and the object. Simplification: `name` is the same each time it
is read while loading (lines 170 and 70). -/
structure PluginObj (α : Type) where
  name : Except Exc PVal
  obj : α

/-- What is in the definition under the key of the plugin kind: no class at all (`issubclass` raises TypeError), a class not derived from
the base class, or a derived class with the outcome of instantiating it. -/
inductive ClassVal (α : Type)
  | notAClass
  | unrelated
  | derived (construct : Except Exc (PluginObj α))

/-- What loading an entry point gives, as far as the loader looks at it: the outcomes of `definition['plugin_name']`,
`definition['description']` and `definition[kind]` (a TypeError for a definition that is no dict, a KeyError for a missing item). -/
structure Definition (α : Type) where
  pluginName : Except Exc PVal
  description : Except Exc PVal
  cls : Except Exc (ClassVal α)

/-- An entry point: the outcome of `entry_point.load()`. -/
abbrev EntryPoint (α : Type) := Except Exc (Definition α)

variable {α : Type}

/-- `verify_plugin_name`, `plugin_utils.py:77-85`, and `verify_plugin_description`, lines 88-96. -/
def verifyIsText : PVal → Except Exc Unit
  | .str _ => .ok ()
  | _ => .error .valueError

/-- `verify_plugin_class`, `plugin_utils.py:99-111`; the base classes in use derive from PluginBase. -/
def verifyPluginClass : ClassVal α → Except Exc Unit
  | .notAClass => .error .typeError
  | .unrelated => .error .valueError
  | .derived _ => .ok ()

/-- The body of the `try` in `verify_plugin_definition`, `plugin_utils.py:122-125`. -/
def checkDefinition (d : Definition α) : Except Exc Unit := do
  let n ← d.pluginName
  verifyIsText n
  let t ← d.description
  verifyIsText t
  let c ← d.cls
  verifyPluginClass c

/-- `verify_plugin_definition`, `plugin_utils.py:114-128`. -/
def verifyDefinition (d : Definition α) : Except Exc Unit :=
  match checkDefinition d with
  | .error .typeError => .error .invalidPluginError
  | .error .keyError => .error .invalidPluginError
  | .error .valueError => .error .invalidPluginError
  | r => r

/-- `PluginBase.verify_plugin`, `plugin_utils.py:57-69` (no plugin base class overrides it). -/
def verifyPlugin (uni : Char → Bool) (name : PVal) : Except Exc Unit :=
  match verifyIdentifier uni name.asKey [] with
  | .error .valueError => .error .invalidPluginError
  | r => r

/-- What is reported for an entry point, `plugin_utils.py:158-160, 165, 175, 180, 183`. -/
inductive LoadReport
  | invalidDefinition
  | disabled (pluginName : PVal)
  | invalidPlugin (pluginName : PVal)
  | duplicate (pluginName : PVal) (name : String)
  | loaded (pluginName : PVal) (name : String)

/-- The loaded plugins (`plugin_list`, with the names in `name_set`) and the reports so far. -/
structure LoadState (α : Type) where
  loaded : List (String × α)
  reports : List LoadReport

/-- Adding a report. -/
def LoadState.report (s : LoadState α) (r : LoadReport) : LoadState α := { s with reports := s.reports ++ [r] }

/-- The end of the loop body, `plugin_utils.py:177-186`, for a valid plugin with the given name. -/
def addPlugin (s : LoadState α) (pluginName : PVal) (name : String) (obj : α) : LoadState α :=
  if (s.loaded.map Prod.fst).contains name then s.report (.duplicate pluginName name)
  else { loaded := s.loaded ++ [(name, obj)], reports := s.reports ++ [.loaded pluginName name] }

/-- Instantiating and checking, `plugin_utils.py:168-186`. A name that is not text is never valid. -/
def instantiate (uni : Char → Bool) (s : LoadState α) (pluginName : PVal) (construct : Except Exc (PluginObj α)) :
    Except Exc (LoadState α) := do
  let o ← construct
  let n ← o.name
  match verifyPlugin uni n with
  | .error .invalidPluginError => .ok (s.report (.invalidPlugin pluginName))
  | .error e => .error e
  | .ok () =>
    match n with
    | .str name => .ok (addPlugin s pluginName name o.obj)
    | _ => .error .xylemInternalError

/-- The loop body after the definition was found valid, `plugin_utils.py:162-186`. -/
def useDefinition (uni : Char → Bool) (disabled : List PVal) (s : LoadState α) (d : Definition α) : Except Exc (LoadState α) := do
  let pluginName ← d.pluginName
  if disabled.any (pyEq pluginName) then .ok (s.report (.disabled pluginName))
  else do
    let c ← d.cls
    match c with
    | .derived construct => instantiate uni s pluginName construct
    | _ => .error .xylemInternalError

/-- The loop body, `plugin_utils.py:152-186`. -/
def loadStep (uni : Char → Bool) (disabled : List PVal) (s : LoadState α) (ep : EntryPoint α) : Except Exc (LoadState α) := do
  let d ← ep
  match verifyDefinition d with
  | .error .invalidPluginError => .ok (s.report .invalidDefinition)
  | .error e => .error e
  | .ok () => useDefinition uni disabled s d

/-- `load_plugins`, `plugin_utils.py:131-187`. -/
def loadPlugins (uni : Char → Bool) (disabled : List PVal) (eps : List (EntryPoint α)) : Except Exc (LoadState α) :=
  eps.foldlM (loadStep uni disabled) ⟨[], []⟩

/-! ## `installers/impl.py` -/

variable {σ : Type}

/-- An installer plugin as loaded (with its default options): its name, and the installer it is after its options are set
(`installer_base.py:118-137`). -/
structure InstallerPlugin (σ : Type) where
  name : String
  configure : PVal → Except Exc (Installer σ)

/-- The values of the config that are used, `installers/impl.py:256, 280-290, 401, 404-405, 426`. -/
structure Settings where
  override : OverrideVal := .none
  osOptions : PVal := .dict []
  disabledOs : List PVal := []
  disabledInstallers : List PVal := []
  coreInstallers : Option (List PVal) := none
  useAdditional : Bool := true
  installerOptions : Dict PKey PVal := []

/-- `config.installer_options.get(inst.name, {})`, `installers/impl.py:401`. -/
def optionsFor (opts : Dict PKey PVal) (name : String) : PVal := (dget opts (.str name)).getD (.dict [])

/-- Setting the options of one installer, `installers/impl.py:401`. -/
def configureOne (opts : Dict PKey PVal) (p : InstallerPlugin σ) : Except Exc (Installer σ) := p.configure (optionsFor opts p.name)

/-- An element of the list of names as text: joining them for the message raises TypeError otherwise, `installers/impl.py:407, 412`. -/
def asText : PVal → Except Exc String
  | .str s => .ok s
  | _ => .error .typeError

/-- The names of the core installers, `installers/impl.py:404-412`. -/
def coreInstallerNames (s : Settings) (os : OsSetup) (version : String) : Except Exc (List String) :=
  match s.coreInstallers with
  | some l => l.mapM asText
  | none => os.os.plugin.coreInstallers version os.options

/-- `lookup_installer`, `installers/impl.py:374-384`, with the position of the installer in the list of plugins (its identity). -/
def findInstaller (insts : List (Installer σ)) (name : String) : Option (Installer σ × Nat) :=
  insts.zipIdx.find? fun p => p.1.name == name

/-- The loop over the names, `installers/impl.py:414-420`: the core installers and the names reported as not found. -/
def coreStep (insts : List (Installer σ)) (acc : List (Installer σ × Nat) × List String) (name : String) :
    List (Installer σ × Nat) × List String :=
  match findInstaller insts name with
  | none => (acc.1, acc.2 ++ [name])
  | some i => (acc.1 ++ [i], acc.2)

/-- The condition of the loop over the plugins, `installers/impl.py:426-428`: `not in` compares identities. -/
def isAdditional (core : List Nat) (os : OsTuple) (i : Installer σ × Nat) : Except Exc Bool :=
  if core.contains i.2 then .ok false else i.1.useAsAdditional os

/-- The installers that are set up: all plugins, the core and the additional ones (each with its position among the plugins), and the names
that were reported as not found. -/
structure InstallerSetup (σ : Type) where
  plugins : List (Installer σ)
  core : List (Installer σ × Nat)
  additional : List (Installer σ × Nat)
  notFound : List String
  osTuple : OsTuple

/-- The additional installers, `installers/impl.py:422-429`. -/
def additionalInstallers (use : Bool) (core : List Nat) (os : OsTuple) (insts : List (Installer σ)) : Except Exc (List (Installer σ × Nat)) :=
  if use then filterE (isAdditional core os) insts.zipIdx else .ok []

/-- `setup_installers`, `installers/impl.py:386-431`. -/
def setupInstallers (s : Settings) (os : OsSetup) (plugins : List (InstallerPlugin σ)) : Except Exc (InstallerSetup σ) := do
  let tuple ← os.os.getTuple
  let insts ← plugins.mapM (configureOne s.installerOptions)
  let names ← coreInstallerNames s os tuple.2
  let found := names.foldl (coreStep insts) ([], [])
  let additional ← additionalInstallers s.useAdditional (found.1.map Prod.snd) tuple insts
  pure ⟨insts, found.1, additional, found.2, tuple⟩

/-- The installer context the set up installers make, `installers/impl.py:233-270`. -/
def InstallerSetup.context (r : InstallerSetup σ) : InstallerCtx σ where
  plugins := r.plugins
  core := r.core.map Prod.fst
  additional := r.additional.map Prod.fst
  osTuple := .ok r.osTuple

/-- `InstallerContext.__init__`, `installers/impl.py:254-270`, with `setup_installers=True` and without `os_support`. -/
def installerContext (uni : Char → Bool) (expand : String → String) (s : Settings) (osEps : List (EntryPoint OsPlugin))
    (instEps : List (EntryPoint (InstallerPlugin σ))) : Except Exc (InstallerSetup σ) := do
  let oss ← loadPlugins uni s.disabledOs osEps
  let os ← setupOs expand (oss.loaded.map Prod.snd) s.override s.osOptions
  let insts ← loadPlugins uni s.disabledInstallers instEps
  setupInstallers s os (insts.loaded.map Prod.snd)

/-! ## The values in the config -/

/-- A list value. Other values do not occur: `C48`. -/
def listValue : PVal → Except Exc (List PVal)
  | .list l => .ok l
  | _ => .error .typeError

/-- `config.core_installers` (`config.py:101`), which may be unset. -/
def optListValue : PVal → Except Exc (Option (List PVal))
  | .none => .ok none
  | .list l => .ok (some l)
  | _ => .error .typeError

/-- A dict value. -/
def dictValue : PVal → Except Exc (Dict PKey PVal)
  | .dict d => .ok d
  | _ => .error .typeError

/-- The settings in a config (`config.py:79-144`), with the os override as processed by `process_config` (`config.py:292-296`) and the
features (from the override or the option). -/
def settingsOf (c : Config) (override : OverrideVal) (features : PVal) : Except Exc Settings := do
  let disabledOs ← readOpt c "disabled_plugins/os" >>= listValue
  let disabledInstallers ← readOpt c "disabled_plugins/installer" >>= listValue
  let coreInstallers ← readOpt c "core_installers" >>= optListValue
  let useAdditional ← readOpt c "use_additional_installers"
  let installerOptions ← readOpt c "installer_options" >>= dictValue
  pure { override := override, osOptions := .dict [(.str "features", features)], disabledOs := disabledOs,
         disabledInstallers := disabledInstallers, coreInstallers := coreInstallers, useAdditional := pyTruthy useAdditional,
         installerOptions := installerOptions }

/-! ## The builtin plugins as entry points -/

/-- The options a builtin installer understands, and the installer with given options. -/
def builtinInstaller (expand : String → String) (name : String) (items : List ItemSpec) (make : Config → Installer σ) : InstallerPlugin σ where
  name := name
  configure v := do
    let o ← setOptions expand (describe items) v
    pure (make o)

/-- The entry point of a builtin plugin (`definition` in the plugin modules). -/
def builtinEntry (pluginName : String) (name : String) (obj : α) : EntryPoint α :=
  .ok { pluginName := .ok (.str pluginName), description := .ok (.str ""), cls := .ok (.derived (.ok { name := .ok (.str name), obj := obj })) }

/-- The builtin installers, `setup.py:72-78`: `plugins/fake.py:57`, `apt.py:36`, `homebrew.py:39` (`as_root` off), `macports.py:36`,
`pip.py:39`. `fakeDir` is `DEFAULT_INSTALL_DIR` (`fake.py:45`). -/
def builtinInstallers (h : Host σ) (fakeDir : String) : List (InstallerPlugin σ) :=
  [ builtinInstaller h.expand "fake" (fakeOptions fakeDir) fun o => (fakePlugin h o).installer h o,
    builtinInstaller h.expand "apt" (baseOptions true) fun o => (aptPlugin h).installer h o,
    builtinInstaller h.expand "homebrew" (baseOptions false) fun o => (homebrewPlugin h).installer h o,
    builtinInstaller h.expand "macports" (baseOptions true) fun o => (macportsPlugin h).installer h o,
    builtinInstaller h.expand "pip" (baseOptions true) fun o => (pipPlugin h).installer h o ]

/-- The entry points of the builtin installers (plugin name = installer name). -/
def builtinInstallerEntries (h : Host σ) (fakeDir : String) : List (EntryPoint (InstallerPlugin σ)) :=
  (builtinInstallers h fakeDir).map fun p => builtinEntry p.name p.name p

/-- The entry points of the builtin os plugins, `setup.py:66-71`, `os_support/plugins.py:129-199` (plugin name = os name). -/
def builtinOsEntries (p : Platform) : List (EntryPoint OsPlugin) := (builtinPlugins p).map fun o => builtinEntry o.name o.name o

end Verif
