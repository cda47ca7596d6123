import Verif.Model.Sources
import Verif.Model.Text
/-!
# Model of `xylem/config_utils.py` and `xylem/config.py`

Values are YAML values (`PVal`). External: the YAML parser (`loadYaml`), `os.path.abspath(os.path.expanduser(..))` (`expand`), the
environment and the files.
-/
namespace Verif

/-! ## Names -/

/-- `s.split(c, 1)` (python builtin). -/
def splitOnce (c : Char) (s : List Char) : List (List Char) :=
  if c ∈ s then [s.takeWhile (fun x => x != c), (s.dropWhile (fun x => x != c)).drop 1] else [s]

/-- `split_group`, `config_utils.py:173-180`. -/
def splitGroup (name : List Char) : List (List Char) := ((splitOnce '/' name.reverse).map List.reverse).reverse

/-- `if "/" in name: group, subname = split_group(name)`, `config_utils.py:878-879, 1062-1063, 1131-1132`. -/
def groupOf (name : String) : Option (String × String) :=
  match splitGroup name.toList with
  | [g, s] => some (String.ofList g, String.ofList s)
  | _ => none

/-- `dashify`, `config_utils.py:183-185`. -/
def dashify (name : List Char) : List Char := pyReplace (pyReplace name ['_'] ['-']) ['/'] ['-']

/-- `underscorify`, `config_utils.py:188-190`. -/
def underscorify (name : List Char) : List Char := pyReplace (pyReplace name ['-'] ['_']) ['/'] ['_']

/-- `strip_leading_dashdash`, `config_utils.py:193-198`. -/
def stripLeadingDashdash : List Char → List Char
  | '-' :: '-' :: t => t
  | s => s

/-! ## Types -/

/-- The config types, `config_utils.py:511-739`; `path` expands its value. -/
inductive CType
  | any | string | boolean | path
  | list (element : CType)
  | dict (value key : CType)
  | mergingDict (value key : CType)

/-- `unset_value`, `config_utils.py:470-483, 715-716`. -/
def CType.unset : CType → PVal
  | .mergingDict _ _ => .dict []
  | _ => .none

/-- `is_unset`, `config_utils.py:485-487`. -/
def CType.isUnset (t : CType) (v : PVal) : Bool := pyEq v t.unset

/-- `v == None` (python builtin). -/
def PVal.isNone : PVal → Bool
  | .none => true
  | _ => false

/-- Using a value as a dict key (python builtin): lists and dicts are not hashable. -/
def keyOfVal : PVal → Except Exc PKey
  | .none => .ok .none
  | .bool b => .ok (.int (if b then 1 else 0))
  | .int i => .ok (.int i)
  | .str s => .ok (.str s)
  | .other n => .ok (.other n)
  | .list _ => .error .typeError
  | .dict _ => .error .typeError

/-- The loop of `List.verify`, `config_utils.py:606-607`. -/
def verifyElems (f : PVal → Except Exc PVal) : List PVal → Except Exc Unit
  | [] => .ok ()
  | v :: t => do
    let _ ← f v
    verifyElems f t

/-- The loop of `Dict.verify`, `config_utils.py:683-685`. -/
def verifyItemsOf (fk fv : PVal → Except Exc PVal) : List (PKey × PVal) → Except Exc Unit
  | [] => .ok ()
  | (k, v) :: t => do
    let _ ← fk k.toVal
    let _ ← fv v
    verifyItemsOf fk fv t

/-- `verify`, `config_utils.py:454, 524-528, 547-551, 601-610, 678-688`. Re-raising ConfigValueError is the identity here. A boolean key is
the integer key equal to it (only matters for a Boolean key type, which is not used in the code base). -/
def CType.verify : CType → PVal → Except Exc PVal
  | .any, v => .ok v
  | .string, v => if v.isNone then .ok v else match v with
    | .str _ => .ok v
    | _ => .error .configValueError
  | .path, v => if v.isNone then .ok v else match v with
    | .str _ => .ok v
    | _ => .error .configValueError
  | .boolean, v => if v.isNone then .ok v else match v with
    | .bool _ => .ok v
    | _ => .error .configValueError
  | .list e, v => if v.isNone then .ok v else match v with
    | .list l => do
      verifyElems (CType.verify e) l
      .ok v
    | _ => .error .configValueError
  | .dict vt kt, v => if v.isNone then .ok v else match v with
    | .dict d => do
      verifyItemsOf (CType.verify kt) (CType.verify vt) d
      .ok v
    | _ => .error .configValueError
  | .mergingDict vt kt, v => if pyEq v (.dict []) then .ok v else match v with
    | .dict d => do
      verifyItemsOf (CType.verify kt) (CType.verify vt) d
      .ok v
    | _ => .error .configValueError

/-- The loop of `Dict.from_yaml`, `config_utils.py:637-640`. -/
def convertItems (fk fv : PVal → Except Exc PVal) : Dict PKey PVal → List (PKey × PVal) → Except Exc (Dict PKey PVal)
  | acc, [] => .ok acc
  | acc, (k, v) :: t => do
    let v' ← fv v
    let k' ← fk k.toVal
    let k'' ← keyOfVal k'
    convertItems fk fv (dset acc k'' v') t

/-- `from_yaml`, `config_utils.py:409-411, 564-570, 632-641, 728-732`. `expand` is `expand_input_path` for text. -/
def CType.fromYaml (expand : String → String) : CType → PVal → Except Exc PVal
  | .any, v => .ok v
  | .string, v => CType.verify .string v
  | .boolean, v => CType.verify .boolean v
  | .path, v => match v with
    | .none => .ok .none
    | .str s => .ok (.str (expand s))
    | _ => .error .configValueError
  | .list e, v => match v with
    | .none => .ok .none
    | .list l => do
      let l' ← l.mapM (CType.fromYaml expand e)
      CType.verify (.list e) (.list l')
    | _ => .error .configValueError
  | .dict vt kt, v => match v with
    | .none => .ok .none
    | .dict d => do
      let d' ← convertItems (CType.fromYaml expand kt) (CType.fromYaml expand vt) [] d
      CType.verify (.dict vt kt) (.dict d')
    | _ => .error .configValueError
  | .mergingDict vt kt, v => match v with
    | .none => .ok (.dict [])
    | .dict d => do
      let d' ← convertItems (CType.fromYaml expand kt) (CType.fromYaml expand vt) [] d
      CType.verify (.mergingDict vt kt) (.dict d')
    | _ => .error .configValueError

/-- A value from the command line parser: omitted, given, or given several times (`action="append"`), `config_utils.py:815-825`. -/
inductive CmdVal
  | none
  | one (s : String)
  | many (l : List String)

/-- `except YAMLError: raise_from(ConfigValueError, ..)`, `config_utils.py:436-438`. -/
def yamlToConfig {α : Type} : Except Exc α → Except Exc α
  | .error .yamlError => .error .configValueError
  | r => r

/-- `parse_single` of `List`, `config_utils.py:576-590`. -/
def parseListArg (loadYaml : String → Except Exc PVal) (s : String) : Except Exc (List PVal) :=
  let again := yamlToConfig (loadYaml ("[" ++ s ++ "]")) >>= fun
    | .list l => .ok l
    | _ => .error .configValueError
  match loadYaml s with
  | .ok (.list l) => .ok l
  | .ok _ => again
  | .error .yamlError => again
  | .error e => .error e

/-- `parse_single` of `Dict`, `config_utils.py:647-661`. -/
def parseDictArg (loadYaml : String → Except Exc PVal) (s : String) : Except Exc (List (PKey × PVal)) :=
  let again := yamlToConfig (loadYaml ("{" ++ s ++ "}")) >>= fun
    | .dict d => .ok d
    | _ => .error .configValueError
  match loadYaml s with
  | .ok (.dict d) => .ok d
  | .ok _ => again
  | .error .yamlError => again
  | .error e => .error e

/-- The loop of `List.from_command_line`, `config_utils.py:596-598`. -/
def parseListArgs (loadYaml : String → Except Exc PVal) : List String → Except Exc (List PVal)
  | [] => .ok []
  | s :: t => do
    let l ← parseListArg loadYaml s
    let r ← parseListArgs loadYaml t
    pure (l ++ r)

/-- `d.update(e)` (python builtin). -/
def dupdate {κ β : Type} [DecidableEq κ] (d e : Dict κ β) : Dict κ β := e.foldl (fun acc kv => dset acc kv.1 kv.2) d

/-- The loop of `Dict.from_command_line`, `config_utils.py:666-675`. -/
def parseDictArgs (loadYaml : String → Except Exc PVal) : Dict PKey PVal → List String → Except Exc (Dict PKey PVal)
  | acc, [] => .ok acc
  | acc, s :: t => do
    let d ← parseDictArg loadYaml s
    if d.any (fun kv => dhas acc kv.1) then .error .configValueError
    else parseDictArgs loadYaml (dupdate acc d) t

/-- The arguments as a list, `config_utils.py:594-595, 664-665`. -/
def CmdVal.strings : CmdVal → List String
  | .none => []
  | .one s => [s]
  | .many l => l

/-- `from_command_line`, `config_utils.py:432-438, 530-533, 572-599, 643-676`. argparse gives lists for List and Dict types only
(`command_line_multiple`); a list for another type is answered with a TypeError here. -/
def CType.fromCommandLine (loadYaml : String → Except Exc PVal) (expand : String → String) (t : CType) (v : CmdVal) : Except Exc PVal :=
  match v with
  | .none => .ok t.unset
  | v =>
    match t with
    | .list e => do
      let l ← parseListArgs loadYaml v.strings
      CType.fromYaml expand (.list e) (.list l)
    | .dict vt kt => do
      let d ← parseDictArgs loadYaml [] v.strings
      CType.fromYaml expand (.dict vt kt) (.dict d)
    | .mergingDict vt kt => do
      let d ← parseDictArgs loadYaml [] v.strings
      CType.fromYaml expand (.mergingDict vt kt) (.dict d)
    | .string => match v with
      | .one s => CType.fromYaml expand .string (.str s)
      | _ => .error .typeError
    | .path => match v with
      | .one s => CType.fromYaml expand .path (.str s)
      | _ => .error .typeError
    | t => match v with
      | .one s => yamlToConfig (loadYaml s) >>= CType.fromYaml expand t
      | _ => .error .typeError

/-- `merge`, `config_utils.py:456-468, 709-713`. Merging something that is not a dict as a MergingDict raises. -/
def CType.merge : CType → (top bottom : PVal) → Except Exc PVal
  | .mergingDict _ _, .dict t, .dict b => .ok (.dict (dupdate b t))
  | .mergingDict _ _, _, .dict _ => .error .typeError
  | .mergingDict _ _, _, _ => .error .attributeError
  | _, top, bottom => .ok (if top.isNone then bottom else top)

/-! ## Items and descriptions -/

/-- `ConfigItem`, `config_utils.py:742-792` (help texts and metavars left out). -/
structure ConfigItem where
  name : String
  type : CType
  default : PVal
  commandLine : Bool
  argument : String

/-- The arguments of `ConfigDescription.add`, `config_utils.py:765-772, 861`. -/
structure ItemSpec where
  name : String
  type : CType := .any
  default : PVal := .none
  commandLine : Option Bool := none
  argument : Option String := none
  metavar : Option String := none

/-- `ConfigItem.__init__`, `config_utils.py:765-792`; a missing command line argument name is the empty text. -/
def mkItem (s : ItemSpec) : ConfigItem :=
  let commandLine := s.commandLine.getD (s.argument.isSome || s.metavar.isSome)
  { name := s.name
    type := s.type
    default := if s.default.isNone then s.type.unset else s.default
    commandLine := commandLine
    argument :=
      if s.argument.getD "" ≠ "" then String.ofList (stripLeadingDashdash (s.argument.getD "").toList)
      else if commandLine then String.ofList (dashify s.name.toList)
      else "" }

/-- `ConfigDescription`, `config_utils.py:828-859`. -/
structure Desc where
  itemlist : List ConfigItem := []
  items : Dict String ConfigItem := []
  groups : Dict String (Dict String ConfigItem) := []
  arguments : Dict String ConfigItem := []

/-- The last part of `add`, `config_utils.py:889-900`: the item is added, then the argument is checked. -/
def Desc.addItem (d : Desc) (item : ConfigItem) : Desc × Except Exc Unit :=
  let d := { d with itemlist := d.itemlist ++ [item], items := dset d.items item.name item }
  if item.commandLine then
    if dhas d.arguments item.argument then (d, .error .configDescriptionError)
    else ({ d with arguments := dset d.arguments item.argument item }, .ok ())
  else (d, .ok ())

/-- `add`, `config_utils.py:861-900`: the description afterwards (also if the call raised) and the outcome. -/
def Desc.add (d : Desc) (s : ItemSpec) : Desc × Except Exc Unit :=
  if dhas d.items s.name then (d, .error .configDescriptionError)
  else if dhas d.groups s.name then (d, .error .configDescriptionError)
  else
    match groupOf s.name with
    | none => d.addItem (mkItem s)
    | some (group, subname) =>
      match dget d.groups group with
      | some g => { d with groups := dset d.groups group (dset g subname (mkItem s)) }.addItem (mkItem s)
      | none =>
        if dhas d.items group then (d, .error .configDescriptionError)
        else { d with groups := dset d.groups group (dset [] subname (mkItem s)) }.addItem (mkItem s)

/-! ## Config dicts -/

/-- An entry of a config dict: a value or a group. -/
inductive Entry
  | val (v : PVal)
  | grp (d : Dict String PVal)

/-- A config dict, `config_utils.py:327-337`. -/
abbrev Config := Dict String Entry

/-- `config[group][subname]` or `config[name]`, `config_utils.py:1064-1069`. -/
def readOpt (c : Config) (name : String) : Except Exc PVal :=
  match groupOf name with
  | some (g, s) =>
    match dget c g with
    | some (.grp d) => (dget d s).elim (.error .keyError) .ok
    | some (.val _) => .error .typeError
    | none => .error .keyError
  | none =>
    match dget c name with
    | some (.val v) => .ok v
    | some (.grp _) => .error .typeError
    | none => .error .keyError

/-- `config[group][subname] = v` or `config[name] = v`, `config_utils.py:1064-1069`. -/
def writeOpt (c : Config) (name : String) (v : PVal) : Except Exc Config :=
  match groupOf name with
  | some (g, s) =>
    match dget c g with
    | some (.grp d) => .ok (dset c g (.grp (dset d s v)))
    | some (.val _) => .error .typeError
    | none => .error .keyError
  | none => .ok (dset c name (.val v))

/-- `copy_conifg_dict`, `config_utils.py:1029-1034`: copies (no effect in the model), raises if a group is missing. -/
def copyConfigDict (desc : Desc) (c : Config) : Except Exc Config :=
  if desc.groups.all (fun g => dhas c g.1) then .ok c else .error .keyError

/-- The body of the inner loop of `merge_configs`, `config_utils.py:1062-1069`. -/
def mergeItem (bottom : Config) (result : Config) (ni : String × ConfigItem) : Except Exc Config := do
  let t ← readOpt result ni.1
  let b ← readOpt bottom ni.1
  let m ← ni.2.type.merge t b
  writeOpt result ni.1 m

/-- The inner loop of `merge_configs`, `config_utils.py:1061-1069`. -/
def mergeConfig (desc : Desc) (result bottom : Config) : Except Exc Config := desc.items.foldlM (mergeItem bottom) result

/-- `merge_configs`, `config_utils.py:1037-1070`. -/
def mergeConfigs (desc : Desc) (top : Config) (more : List Config) : Except Exc Config := do
  let result ← copyConfigDict desc top
  more.foldlM (mergeConfig desc) result

/-- One step of `config_from_defaults`, `config_utils.py:1131-1137`. -/
def defaultsStep (c : Config) (ni : String × ConfigItem) : Except Exc Config :=
  match groupOf ni.1 with
  | some (g, _) => writeOpt (if dhas c g then c else dset c g (.grp [])) ni.1 ni.2.default
  | none => writeOpt c ni.1 ni.2.default

/-- `config_from_defaults`, `config_utils.py:1121-1138`. -/
def configFromDefaults (desc : Desc) : Except Exc Config := desc.items.foldlM defaultsStep []

/-- Filling one group, `config_utils.py:1167-1168, 1216-1217`; `value` is the value of the item named by its subname. -/
def fillGroup (value : String → ConfigItem → Except Exc PVal) : Dict String PVal → List (String × ConfigItem) → Except Exc (Dict String PVal)
  | acc, [] => .ok acc
  | acc, (s, item) :: t => do
    let v ← value s item
    fillGroup value (dset acc s v) t

/-- The loop over the groups, `config_utils.py:1165-1168, 1213-1217`; `value` is given the group name. -/
def fillGroups (value : String → String → ConfigItem → Except Exc PVal) : Config → List (String × Dict String ConfigItem) → Except Exc Config
  | acc, [] => .ok acc
  | acc, (g, items) :: t => do
    let d ← fillGroup (value g) [] items
    fillGroups value (dset acc g (.grp d)) t

/-- The loop over the items outside groups, `config_utils.py:1169-1172, 1218-1221`. -/
def fillItems (value : String → ConfigItem → Except Exc PVal) : Config → List (String × ConfigItem) → Except Exc Config
  | acc, [] => .ok acc
  | acc, (n, item) :: t =>
    match groupOf n with
    | some _ => fillItems value acc t
    | none => do
      let v ← value n item
      fillItems value (dset acc n (.val v)) t

/-- `process_item` of `config_from_args`, `config_utils.py:1157-1163`; `args` is the argparse namespace. -/
def argValue (loadYaml : String → Except Exc PVal) (expand : String → String) (args : String → Option CmdVal) (item : ConfigItem) :
    Except Exc PVal :=
  if item.commandLine then
    match args (String.ofList (underscorify item.argument.toList)) with
    | none => .error .keyError
    | some v => item.type.fromCommandLine loadYaml expand v
  else .ok item.type.unset

/-- `config_from_args`, `config_utils.py:1141-1173`. -/
def configFromArgs (loadYaml : String → Except Exc PVal) (expand : String → String) (args : String → Option CmdVal) (desc : Desc) :
    Except Exc Config := do
  let c ← fillGroups (fun _ _ item => argValue loadYaml expand args item) [] desc.groups
  fillItems (fun _ item => argValue loadYaml expand args item) c desc.items

/-- `process_item` of `config_from_parsed_yaml`, `config_utils.py:1207-1210`, for items outside groups. -/
def yamlValue (expand : String → String) (data : Dict PKey PVal) (n : String) (item : ConfigItem) : Except Exc PVal :=
  item.type.fromYaml expand ((dget data (.str n)).getD .none)

/-- `data.get(group, {})` and `process_item`, `config_utils.py:1207-1210, 1215-1217`: anything but a dict has no `get`. -/
def yamlGroupValue (expand : String → String) (data : Dict PKey PVal) (g s : String) (item : ConfigItem) : Except Exc PVal :=
  match (dget data (.str g)).getD (.dict []) with
  | .dict d => yamlValue expand d s item
  | _ => .error .attributeError

/-- `config_from_parsed_yaml`, `config_utils.py:1192-1225`. -/
def configFromParsedYaml (expand : String → String) (data : Dict PKey PVal) (desc : Desc) (useDefaults : Bool) : Except Exc Config := do
  let c ← fillGroups (yamlGroupValue expand data) [] desc.groups
  let c ← fillItems (yamlValue expand data) c desc.items
  if useDefaults then do
    let dflt ← configFromDefaults desc
    mergeConfigs desc c [dflt]
  else pure c

/-! ## Files and directories -/

/-- `process_config_file_yaml`, `config_utils.py:208-228`. -/
def processConfigFileYaml : PVal → Except Exc (Dict PKey PVal)
  | .none => .ok []
  | .dict d => if d.all (fun kv => match kv.1 with | .str _ => true | _ => false) then .ok d else .error .configValueError
  | _ => .error .configValueError

/-- What is at a path: no file, a file that cannot be read, or the decoded text of a file. -/
inductive FileText
  | missing
  | unreadable
  | text (s : String)

/-- `load_config_file_yaml`, `config_utils.py:231-259`. -/
def loadConfigFileYaml (loadYaml : String → Except Exc PVal) : FileText → Except Exc (Dict PKey PVal)
  | .missing => .ok []
  | .unreadable => .error .configValueError
  | .text s => yamlToConfig (loadYaml s) >>= processConfigFileYaml

/-- The global arguments, `config_utils.py:932-972`: `--xylem-dir`, `--prefix`, `--no-user-config`. -/
structure GlobalArgs where
  configDir : Option String
  prefix_ : Option String
  noUserConfig : Bool

/-- `system_config_dir`, `config_utils.py:153-155`. -/
def systemConfigDir (prefix_ tool : String) : String := pathJoin (pathJoin prefix_ "etc") tool
/-- `system_cache_dir`, `config_utils.py:158-160`. -/
def systemCacheDir (prefix_ tool : String) : String := pathJoin (pathJoin prefix_ "var/cache") tool
/-- `user_config_dir`, `config_utils.py:163-165`; `home` is `DEFAULT_USER_CONFIG_DIR`. -/
def userConfigDir (home tool : String) : String := pathJoin home tool
/-- `user_cache_dir`, `config_utils.py:168-170`. -/
def userCacheDir (configDir : String) : String := pathJoin configDir "cache"

/-- `handle_global_config_arguments`, `config_utils.py:975-1004`: the directory and the prefix afterwards (`DEFAULT_PREFIX` is `/`). -/
def handleGlobalConfigArguments (expand : String → String) (envDir envPrefix : Option String) (a : GlobalArgs) : GlobalArgs :=
  { a with
    configDir := (a.configDir.or envDir).map expand
    prefix_ := some (expand ((a.prefix_.or envPrefix).getD "/")) }

/-- The directories config files are read from, `config_utils.py:1105-1113`; `args.prefix` is set by then. -/
def configDirs (home tool : String) (a : GlobalArgs) : List String :=
  match a.configDir with
  | some d => [d]
  | none =>
    if a.noUserConfig then [systemConfigDir (a.prefix_.getD "/") tool]
    else [userConfigDir home tool, systemConfigDir (a.prefix_.getD "/") tool]

/-- `config_from_file`, `config_utils.py:1176-1189`. -/
def configFromFile (loadYaml : String → Except Exc PVal) (expand : String → String) (desc : Desc) (f : FileText) : Except Exc Config := do
  let data ← loadConfigFileYaml loadYaml f
  configFromParsedYaml expand data desc false

/-- `load_config`, `config_utils.py:1086-1118`; `file` is what is at a path, `namespace_` is the file name of the description. -/
def loadConfig (loadYaml : String → Except Exc PVal) (expand : String → String) (file : String → FileText) (home tool namespace_ : String)
    (a : GlobalArgs) (args : String → Option CmdVal) (desc : Desc) : Except Exc Config := do
  let c ← configFromArgs loadYaml expand args desc
  let files ← ((configDirs home tool a).map fun d => file (pathJoin d namespace_)).mapM (configFromFile loadYaml expand desc)
  let dflt ← configFromDefaults desc
  mergeConfigs desc c (files ++ [dflt])

/-! ## `config.py` -/

/-- `build_config_description`, `config.py:79-144` (help texts left out). -/
def xylemItems : List ItemSpec :=
  [ { name := "os_override", type := .string, argument := some "os", metavar := some "name:version" },
    { name := "os_options/features", type := .list .string, argument := some "os-features", metavar := some "\"feature1,feature2,...\"" },
    { name := "core_installers", type := .list .string, commandLine := some true, metavar := some "\"inst1,inst2,...\"" },
    { name := "use_additional_installers", type := .boolean, default := .bool true, commandLine := some true },
    { name := "install_from", type := .mergingDict (.list .string) .string, metavar := some "\"inst1:[key1,key2,...] ...\"" },
    { name := "installer_options", type := .mergingDict (.dict .any .string) .string, metavar := some "\"inst1:{opt1:val1,...}, ...\"" },
    { name := "user_sources", type := .boolean, default := .bool false, commandLine := some true },
    { name := "cache_dir", type := .path, commandLine := some true },
    { name := "sources_dir", type := .path, commandLine := some true },
    { name := "disabled_plugins/os", type := .list .string, default := .list [], argument := some "disable-os-plugins" },
    { name := "disabled_plugins/installer", type := .list .string, default := .list [], argument := some "disable-installer-plugins" },
    { name := "disabled_plugins/spec", type := .list .string, default := .list [], argument := some "disable-spec-plugins" } ]

/-- The description after adding all items; an exception (none occurs, `C52`) would end the program at import. -/
def xylemDescription : Desc := xylemItems.foldl (fun d s => (d.add s).1) {}

/-- `text_type.strip` (python builtin); `ws` tells which characters are white space. -/
def pyStrip (ws : Char → Bool) (s : List Char) : List Char := ((s.dropWhile ws).reverse.dropWhile ws).reverse

/-- `s.split(c)` (python builtin). -/
def pySplit (c : Char) : List Char → List (List Char)
  | [] => [[]]
  | x :: t =>
    if x = c then [] :: pySplit c t
    else
      match pySplit c t with
      | [] => [[x]]
      | h :: r => (x :: h) :: r

/-- `parse_os_override`, `config.py:234-257`. -/
def parseOsOverride (ws : Char → Bool) (arg : List Char) : List Char × Option (List Char) × Option (List (List Char)) :=
  let (osTuple, features) : List Char × Option (List (List Char)) :=
    match splitOnce '&' arg with
    | [a, f] => (pyStrip ws a, some (if pyStrip ws f = [] then [] else (pySplit ',' (pyStrip ws f)).map (pyStrip ws)))
    | _ => (arg, none)
  match splitOnce ':' osTuple with
  | [n, v] => (pyStrip ws n, some (pyStrip ws v), features)
  | _ => (pyStrip ws osTuple, none, features)

/-- The parts of the config `process_config` works on. `osOverride` is the text before and the pair afterwards. -/
structure ProcessedConfig where
  cacheDir : String
  sourcesDir : String
  osOverride : Option (List Char × Option (List Char))
  features : Option (List (List Char))

/-- `sources_dir`, `config.py:60-62`. -/
def sourcesDirOf (parent : String) : String := pathJoin parent "sources.d"

/-- The choice of the parent directory, `config.py:273-281, 283-291`; an empty `config_dir` counts as not given. -/
def chooseDir (configDir : Option String) (userSources : Bool) (given user system : String) : String :=
  if configDir.getD "" ≠ "" then given else if userSources then user else system

/-- `process_config`, `config.py:260-296`. -/
def processConfig (ws : Char → Bool) (home : String) (a : GlobalArgs) (cacheDir sourcesDir : Option String) (userSources : Bool)
    (osOverride : Option (List Char)) (features : Option (List (List Char))) : ProcessedConfig :=
  { cacheDir := cacheDir.getD (chooseDir a.configDir userSources (userCacheDir (a.configDir.getD ""))
      (userCacheDir (userConfigDir home "xylem")) (systemCacheDir (a.prefix_.getD "/") "xylem"))
    sourcesDir := sourcesDir.getD (chooseDir a.configDir userSources (sourcesDirOf (a.configDir.getD ""))
      (sourcesDirOf (userConfigDir home "xylem")) (sourcesDirOf (systemConfigDir (a.prefix_.getD "/") "xylem")))
    osOverride := osOverride.map fun o => ((parseOsOverride ws o).1, (parseOsOverride ws o).2.1)
    features := match osOverride with
      | none => features
      | some o => ((parseOsOverride ws o).2.2).or features }

/-- What may be passed as `config` in the API, `config.py:299-318`. -/
inductive ConfigArg
  | none
  | configDict (c : Config)
  | dict (d : Dict PKey PVal)
  | other

/-- `ensure_config`, `config.py:299-318`; `global_` is the result of `get_config`. -/
def ensureConfig (expand : String → String) (desc : Desc) (global_ : Config) : ConfigArg → Except Exc Config
  | .none => .ok global_
  | .configDict c => .ok c
  | .dict d => configFromParsedYaml expand d desc true
  | .other => .error .valueError

/-- `ceorce_config_dict`, `config_utils.py:340-357`; `isConfig` tells whether the value is a ConfigDict (rather than a plain dict). The converted dict is
built, but not returned. (Converting the values cannot raise.) -/
def coerceConfigDict (copy isConfig : Bool) : PVal → PVal
  | .dict d => if !copy && isConfig then .dict d else .none
  | v => v

end Verif
