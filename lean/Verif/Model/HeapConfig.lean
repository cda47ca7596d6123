import Verif.Model.HeapMerge
import Verif.Model.Config
/-!
# Objects with identity: config dicts as they are in memory

`Model/Config.lean` treats configs as trees. In Python a config is a dict of mutable objects: options hold lists and dicts
that may be shared with the defaults of the description, with another config, or with a dict the user passed in. This module models
the functions of `xylem/config_utils.py` that make configs on the memory of `Model/Heap.lean`. The class `ConfigDict` behaves like `dict` here.

The defaults of the items (`ConfigItem.default`) are objects made once, when the description is built; `dflt` tells the one of every item.
-/
namespace Verif

/-- The contents of the list `v`; `e` is raised on anything but a list (python data model). -/
def xlist (e : Exc) (v : HVal) : HX (List HVal) := fun h =>
  match v with
  | .ref a => match h[a]? with
    | some (.list l) => (.ok l, h)
    | _ => (.error e, h)
  | _ => (.error e, h)

/-- `[f(x) for x in l]` (python builtin). -/
def xMapM {α β : Type} (f : α → HX β) : List α → HX (List β)
  | [] => pure []
  | x :: l => do
    let y ← f x
    let r ← xMapM f l
    pure (y :: r)

/-! ## Types -/

/-- `unset_value`, `config_utils.py:470-483, 715-716`: a new dict for `MergingDict`. -/
def xUnset : CType → HX HVal
  | .mergingDict _ _ => xnew
  | _ => pure .none

/-- The loop of `List.verify`, `config_utils.py:606-607`. -/
def hVerifyElems (f : HVal → Except Exc Unit) : List HVal → Except Exc Unit
  | [] => .ok ()
  | v :: t => do
    f v
    hVerifyElems f t

/-- The loop of `Dict.verify`, `config_utils.py:683-685`; keys are immutable, they are verified as in `CType.verify`. -/
def hVerifyItems (fk : PVal → Except Exc PVal) (fv : HVal → Except Exc Unit) : List (PKey × HVal) → Except Exc Unit
  | [] => .ok ()
  | (k, v) :: t => do
    let _ ← fk k.toVal
    fv v
    hVerifyItems fk fv t

/-- `verify`, `config_utils.py:454, 524-528, 547-551, 601-610, 678-688`, which only looks at the objects. -/
def hCheckType : CType → Heap → HVal → Except Exc Unit
  | .any, _, _ => .ok ()
  | .string, _, v => match v with
    | .none => .ok ()
    | .str _ => .ok ()
    | _ => .error .configValueError
  | .path, _, v => match v with
    | .none => .ok ()
    | .str _ => .ok ()
    | _ => .error .configValueError
  | .boolean, _, v => match v with
    | .none => .ok ()
    | .bool _ => .ok ()
    | _ => .error .configValueError
  | .list e, h, v => match v with
    | .none => .ok ()
    | .ref a => match h[a]? with
      | some (.list l) => hVerifyElems (hCheckType e h) l
      | _ => .error .configValueError
    | _ => .error .configValueError
  | .dict vt kt, h, v => match v with
    | .none => .ok ()
    | .ref a => match h[a]? with
      | some (.dict d) => hVerifyItems (CType.verify kt) (hCheckType vt h) d
      | _ => .error .configValueError
    | _ => .error .configValueError
  | .mergingDict vt kt, h, v => match v with
    | .ref a => match h[a]? with
      | some (.dict d) => hVerifyItems (CType.verify kt) (hCheckType vt h) d
      | _ => .error .configValueError
    | _ => .error .configValueError

/-- `self.verify(v)`: raises or returns `v`. -/
def xVerify (t : CType) (v : HVal) : HX HVal := fun h => ((hCheckType t h v).map fun _ => v, h)

/-- The loop of `Dict.from_yaml`, `config_utils.py:637-640`. Simplification: the new dict is put into memory when it is complete (nothing else
refers to it before). -/
def xConvertItems (fk : PVal → Except Exc PVal) (fv : HVal → HX HVal) : Dict PKey HVal → List (PKey × HVal) → HX (Dict PKey HVal)
  | acc, [] => pure acc
  | acc, (k, v) :: t => do
    let v' ← fv v
    let k' ← xlift (fk k.toVal)
    let k'' ← xlift (keyOfVal k')
    xConvertItems fk fv (dset acc k'' v') t

/-- `from_yaml` of `List`, `config_utils.py:564-570`; `f` is `from_yaml` of the element type. -/
def xListFromYaml (e : CType) (f : HVal → HX HVal) : HVal → HX HVal
  | .none => pure .none
  | v => do
    let l ← xlist .configValueError v
    let l' ← xMapM f l
    let a ← xalloc (.list l')
    xVerify (.list e) (.ref a)

/-- `from_yaml` of `Dict` and `MergingDict`, `config_utils.py:632-641`, for values other than None; `t` is the type itself. -/
def xDictFromYaml (t : CType) (fk : PVal → Except Exc PVal) (fv : HVal → HX HVal) (v : HVal) : HX HVal := do
  let d ← xdict .configValueError v
  let d' ← xConvertItems fk fv [] d
  let a ← xalloc (.dict d')
  xVerify t (.ref a)

/-- `from_yaml`, `config_utils.py:409-411, 564-570, 632-641, 728-732`: lists and dicts with a type are rebuilt, values of type `Any` are taken as
they are. -/
def xFromYaml (expand : String → String) : CType → HVal → HX HVal
  | .any, v => pure v
  | .string, v => xVerify .string v
  | .boolean, v => xVerify .boolean v
  | .path, v => match v with
    | .none => pure .none
    | .str s => pure (.str (expand s))
    | _ => xlift (.error .configValueError)
  | .list e, v => xListFromYaml e (xFromYaml expand e) v
  | .dict vt kt, v => match v with
    | .none => pure .none
    | v => xDictFromYaml (.dict vt kt) (CType.fromYaml expand kt) (xFromYaml expand vt) v
  | .mergingDict vt kt, v => match v with
    | .none => xnew
    | v => xDictFromYaml (.mergingDict vt kt) (CType.fromYaml expand kt) (xFromYaml expand vt) v

/-- `MergingDict.merge`, `config_utils.py:709-713`: a copy of the lower dict, updated. -/
def xMergeDicts (top bottom : HVal) : HX HVal := do
  let b ← xdict .attributeError bottom
  let t ← xdict .typeError top
  let a ← xalloc (.dict (dupdate b t))
  pure (.ref a)

/-- `merge`, `config_utils.py:456-468, 709-713`: one of the two objects, or a new dict for `MergingDict`. -/
def xMerge : CType → (top bottom : HVal) → HX HVal
  | .mergingDict _ _, top, bottom => xMergeDicts top bottom
  | _, top, bottom => pure (if top = .none then bottom else top)

/-! ## Config dicts -/

/-- `config[group][subname]` or `config[name]`, `config_utils.py:1064-1069`. -/
def xReadOpt (c : HVal) (name : String) : HX HVal :=
  match groupOf name with
  | some (g, s) => xindex c (.str g) >>= fun d => xindex d (.str s)
  | none => xindex c (.str name)

/-- `config[group][subname] = v` or `config[name] = v`, `config_utils.py:1064-1069`. -/
def xWriteOpt (c : HVal) (name : String) (v : HVal) : HX Unit :=
  match groupOf name with
  | some (g, s) => xindex c (.str g) >>= fun d => xset d (.str s) v
  | none => xset c (.str name) v

/-- `ConfigDict(v)`, a shallow copy, `config_utils.py:1031, 1033`. -/
def xCopyDict (v : HVal) : HX HVal := do
  let d ← xdict .typeError v
  let a ← xalloc (.dict d)
  pure (.ref a)

/-- `result[group] = ConfigDict(result[group])`, `config_utils.py:1033`. -/
def xCopyGroup (r : HVal) (g : String) : HX Unit := do
  let d ← xindex r (.str g)
  let d' ← xCopyDict d
  xset r (.str g) d'

/-- `copy_conifg_dict`, `config_utils.py:1029-1034`. -/
def xCopyConfig (desc : Desc) (c : HVal) : HX HVal := do
  let r ← xCopyDict c
  xForEach (xCopyGroup r) (dkeys desc.groups)
  pure r

/-- The body of the inner loop of `merge_configs`, `config_utils.py:1062-1069`. -/
def xMergeItem (r bottom : HVal) (ni : String × ConfigItem) : HX Unit := do
  let t ← xReadOpt r ni.1
  let b ← xReadOpt bottom ni.1
  let m ← xMerge ni.2.type t b
  xWriteOpt r ni.1 m

/-- The inner loop of `merge_configs`, `config_utils.py:1061-1069`. -/
def xMergeConfig (desc : Desc) (r bottom : HVal) : HX Unit := xForEach (xMergeItem r bottom) desc.items

/-- `merge_configs`, `config_utils.py:1037-1070`. -/
def xMergeConfigs (desc : Desc) (top : HVal) (more : List HVal) : HX HVal := do
  let r ← xCopyConfig desc top
  xForEach (xMergeConfig desc r) more
  pure r

/-- `if group not in result: result[group] = ConfigDict()`, `config_utils.py:1133-1134`. -/
def xEnsureGroup (c : HVal) (g : String) : HX Unit := do
  let b ← xhas c (.str g)
  if b then pure () else xnew >>= fun d => xset c (.str g) d

/-- One step of `config_from_defaults`, `config_utils.py:1131-1137`: the default object itself is stored. -/
def xDefaultsStep (dflt : String → HVal) (c : HVal) (ni : String × ConfigItem) : HX Unit :=
  match groupOf ni.1 with
  | some (g, _) => xEnsureGroup c g >>= fun _ => xWriteOpt c ni.1 (dflt ni.1)
  | none => xWriteOpt c ni.1 (dflt ni.1)

/-- `config_from_defaults`, `config_utils.py:1121-1138`. -/
def xConfigFromDefaults (dflt : String → HVal) (desc : Desc) : HX HVal := do
  let c ← xnew
  xForEach (xDefaultsStep dflt c) desc.items
  pure c

/-- Filling one dict of the config, `config_utils.py:1167-1168, 1216-1217`; `value` makes the value of an item. -/
def xFillStep (value : String → ConfigItem → HX HVal) (c : HVal) (si : String × ConfigItem) : HX Unit :=
  value si.1 si.2 >>= fun v => xset c (.str si.1) v

/-- A group, `config_utils.py:1166-1168, 1214-1217`. -/
def xFillGroup (value : String → ConfigItem → HX HVal) (items : Dict String ConfigItem) : HX HVal := do
  let d ← xnew
  xForEach (xFillStep value d) items
  pure d

/-- The loop over the groups, `config_utils.py:1165-1168, 1213-1217`. Simplification: Python stores the group in the config before filling it; nothing
else refers to the config at that time. -/
def xGroupStep (value : String → String → ConfigItem → HX HVal) (c : HVal) (gi : String × Dict String ConfigItem) : HX Unit :=
  xFillGroup (value gi.1) gi.2 >>= fun d => xset c (.str gi.1) d

/-- The loop over the items outside groups, `config_utils.py:1169-1172, 1218-1221`. -/
def xItemStep (value : String → ConfigItem → HX HVal) (c : HVal) (ni : String × ConfigItem) : HX Unit :=
  match groupOf ni.1 with
  | some _ => pure ()
  | none => xFillStep value c ni

/-- The two loops of `config_from_args` and `config_from_parsed_yaml`, `config_utils.py:1165-1172, 1212-1221`. -/
def xFill (group : String → String → ConfigItem → HX HVal) (top : String → ConfigItem → HX HVal) (desc : Desc) : HX HVal := do
  let c ← xnew
  xForEach (xGroupStep group c) desc.groups
  xForEach (xItemStep top c) desc.items
  pure c

/-- `process_item` of `config_from_parsed_yaml`, `config_utils.py:1207-1210`; `source` is the dict the value is taken from. -/
def xYamlValue (expand : String → String) (source : HVal) (n : String) (item : ConfigItem) : HX HVal := do
  let d ← xdict .attributeError source
  xFromYaml expand item.type ((dget d (.str n)).getD .none)

/-- `data.get(group, {})` and `process_item`, `config_utils.py:1207-1210, 1215-1217`. Simplification: `get` is called for each item of the group. -/
def xYamlGroupValue (expand : String → String) (data : HVal) (g s : String) (item : ConfigItem) : HX HVal := do
  let source ← xget data (.str g)
  xYamlValue expand source s item

/-- `merge_with_defaults`, `config_utils.py:1073-1083`. -/
def xMergeWithDefaults (dflt : String → HVal) (desc : Desc) (c : HVal) : HX HVal := do
  let d ← xConfigFromDefaults dflt desc
  xMergeConfigs desc c [d]

/-- `config_from_parsed_yaml`, `config_utils.py:1192-1225`. -/
def xConfigFromParsedYaml (expand : String → String) (dflt : String → HVal) (desc : Desc) (data : HVal) (useDefaults : Bool) : HX HVal := do
  let c ← xFill (xYamlGroupValue expand data) (xYamlValue expand data) desc
  if useDefaults then xMergeWithDefaults dflt desc c else pure c

/-- What may be passed as `config` in the API, `config.py:299-318`: None, a `ConfigDict`, another dict, or anything else. -/
inductive HConfigArg
  | none
  | configDict (v : HVal)
  | dict (v : HVal)
  | other

/-- `ensure_config`, `config.py:299-318`; `global_` is the result of `get_config`. -/
def xEnsureConfig (expand : String → String) (dflt : String → HVal) (desc : Desc) (global_ : HVal) : HConfigArg → HX HVal
  | .none => pure global_
  | .configDict v => pure v
  | .dict v => xConfigFromParsedYaml expand dflt desc v true
  | .other => xlift (.error .valueError)

/-! ## The command line and the files -/

/-- `except YAMLError: raise_from(ConfigValueError, ..)`, `config_utils.py:436-438`. -/
def xYamlToConfig {α : Type} (m : HX α) : HX α := fun h => (yamlToConfig (m h).1, (m h).2)

/-- `isinstance(v, list)`, with the contents (python builtin). -/
def hListOf (h : Heap) : HVal → Option (List HVal)
  | .ref a => match h[a]? with
    | some (.list l) => some l
    | _ => none
  | _ => none

/-- `isinstance(v, dict)`, with the contents (python builtin). -/
def hDictOf (h : Heap) : HVal → Option (Dict PKey HVal)
  | .ref a => match h[a]? with
    | some (.dict d) => some d
    | _ => none
  | _ => none

/-- The second attempt of `parse_single`: with brackets, `config_utils.py:581-590, 652-661`. -/
def xParseAgain {α : Type} (load : String → HX HVal) (of : Heap → HVal → Option α) (s : String) : HX α :=
  xYamlToConfig (load s) >>= fun v h => (((of h v).map .ok).getD (.error .configValueError), h)

/-- `parse_single`, `config_utils.py:576-590, 647-661`: `of` tells whether the value is a list (dict), `s'` is the text with brackets. -/
def xParseSingle {α : Type} (load : String → HX HVal) (of : Heap → HVal → Option α) (s s' : String) : HX α := fun h =>
  match load s h with
  | (.ok v, h') => match of h' v with
    | some l => (.ok l, h')
    | none => xParseAgain load of s' h'
  | (.error .yamlError, h') => xParseAgain load of s' h'
  | (.error e, h') => (.error e, h')

/-- The loop of `List.from_command_line`, `config_utils.py:596-598`. -/
def xParseListArgs (load : String → HX HVal) : List String → HX (List HVal)
  | [] => pure []
  | s :: t => do
    let l ← xParseSingle load hListOf s ("[" ++ s ++ "]")
    let r ← xParseListArgs load t
    pure (l ++ r)

/-- The loop of `Dict.from_command_line`, `config_utils.py:666-675`. -/
def xParseDictArgs (load : String → HX HVal) : Dict PKey HVal → List String → HX (Dict PKey HVal)
  | acc, [] => pure acc
  | acc, s :: t => do
    let d ← xParseSingle load hDictOf s ("{" ++ s ++ "}")
    if d.any (fun kv => dhas acc kv.1) then xlift (.error .configValueError)
    else xParseDictArgs load (dupdate acc d) t

/-- `from_command_line` of `List`, `config_utils.py:591-599`. -/
def xListArg (load : String → HX HVal) (expand : String → String) (t : CType) (l : List String) : HX HVal := do
  let l' ← xParseListArgs load l
  let a ← xalloc (.list l')
  xFromYaml expand t (.ref a)

/-- `from_command_line` of `Dict`, `config_utils.py:663-676`. -/
def xDictArg (load : String → HX HVal) (expand : String → String) (t : CType) (l : List String) : HX HVal := do
  let d ← xParseDictArgs load [] l
  let a ← xalloc (.dict d)
  xFromYaml expand t (.ref a)

/-- `from_command_line` of types other than `List` and `Dict`, `config_utils.py:432-438, 530-533`. -/
def xScalarArg (load : String → HX HVal) (expand : String → String) (t : CType) : CmdVal → HX HVal
  | .one s => match t with
    | .string => xFromYaml expand t (.str s)
    | .path => xFromYaml expand t (.str s)
    | _ => xYamlToConfig (load s) >>= xFromYaml expand t
  | _ => xlift (.error .typeError)

/-- `from_command_line`, `config_utils.py:432-438, 530-533, 572-599, 643-676`. -/
def xFromCommandLine (load : String → HX HVal) (expand : String → String) (t : CType) : CmdVal → HX HVal
  | .none => xUnset t
  | v => match t with
    | .list _ => xListArg load expand t v.strings
    | .dict _ _ => xDictArg load expand t v.strings
    | .mergingDict _ _ => xDictArg load expand t v.strings
    | _ => xScalarArg load expand t v

/-- `process_item` of `config_from_args`, `config_utils.py:1157-1163`. -/
def xArgValue (load : String → HX HVal) (expand : String → String) (args : String → Option CmdVal) (item : ConfigItem) : HX HVal :=
  if item.commandLine then
    match args (String.ofList (underscorify item.argument.toList)) with
    | none => xlift (.error .keyError)
    | some v => xFromCommandLine load expand item.type v
  else xUnset item.type

/-- `config_from_args`, `config_utils.py:1141-1173`. -/
def xConfigFromArgs (load : String → HX HVal) (expand : String → String) (args : String → Option CmdVal) (desc : Desc) : HX HVal :=
  xFill (fun _ _ item => xArgValue load expand args item) (fun _ item => xArgValue load expand args item) desc

/-- `process_config_file_yaml`, `config_utils.py:208-228`. -/
def xProcessFile : HVal → HX HVal
  | .none => xnew
  | v => fun h => match hDictOf h v with
    | some d => if d.all (fun kv => match kv.1 with | .str _ => true | _ => false) then (.ok v, h) else (.error .configValueError, h)
    | none => (.error .configValueError, h)

/-- `load_config_file_yaml`, `config_utils.py:231-259`. -/
def xLoadFile (load : String → HX HVal) : FileText → HX HVal
  | .missing => xnew
  | .unreadable => xlift (.error .configValueError)
  | .text s => xYamlToConfig (load s) >>= xProcessFile

/-- `config_from_file`, `config_utils.py:1176-1189`. -/
def xConfigFromFile (load : String → HX HVal) (expand : String → String) (dflt : String → HVal) (desc : Desc) (f : FileText) : HX HVal := do
  let data ← xLoadFile load f
  xConfigFromParsedYaml expand dflt desc data false

/-- `load_config`, `config_utils.py:1086-1118`. -/
def xLoadConfig (load : String → HX HVal) (expand : String → String) (dflt : String → HVal) (file : String → FileText) (home tool namespace_ : String)
    (a : GlobalArgs) (args : String → Option CmdVal) (desc : Desc) : HX HVal := do
  let c ← xConfigFromArgs load expand args desc
  let files ← xMapM (xConfigFromFile load expand dflt desc) ((configDirs home tool a).map fun d => file (pathJoin d namespace_))
  let d ← xConfigFromDefaults dflt desc
  xMergeConfigs desc c (files ++ [d])

/-! ## Copies -/

/-- The addresses already copied, with their copies: the `memo` of `copy.deepcopy` (python library). -/
abbrev Memo := List (Nat × Nat)

/-- The copy of the object at address `a`, if there is one (python library). -/
def Memo.find : Memo → Nat → Option Nat
  | [], _ => none
  | (x, y) :: m, a => if x = a then some y else Memo.find m a

/-- The elements of a list or the values of a dict, one after the other (`copy._deepcopy_list`, `copy._deepcopy_dict`, python library): the copy is
filled as they are copied. -/
def xDeepItems {α : Type} (copy : Memo → HVal → HX (HVal × Memo)) (val : α → HVal) (put : α → HVal → HX Unit) : Memo → List α → HX Memo
  | m, [] => pure m
  | m, x :: t => do
    let r ← copy m (val x)
    put x r.1
    xDeepItems copy val put r.2 t

/-- `y.append(v)` on the list at address `a` (python builtin). -/
def xAppend (a : Nat) (v : HVal) : HX Unit := fun h =>
  match h[a]? with
  | some (.list l) => (.ok (), h.set a (.list (l ++ [v])))
  | _ => (.error .attributeError, h)

/-- Copying the object `o` found at address `a` (`copy._deepcopy_list`, `copy._deepcopy_dict`, python library). -/
def xDeepObj (copy : Memo → HVal → HX (HVal × Memo)) (m : Memo) (a : Nat) : HObj → HX (HVal × Memo)
  | .list l => do
    let b ← xalloc (.list [])
    let m' ← xDeepItems copy id (fun _ v => xAppend b v) ((a, b) :: m) l
    pure (.ref b, m')
  | .dict d => do
    let b ← xalloc (.dict [])
    let m' ← xDeepItems copy Prod.snd (fun kv v => xset (.ref b) kv.1 v) ((a, b) :: m) d
    pure (.ref b, m')

/-- `copy.deepcopy(v, memo)` (python library), with `n` as a bound on the depth: an object is entered once, so the number of objects in memory is
enough. -/
def xDeepcopy : Nat → Memo → HVal → HX (HVal × Memo)
  | 0, _, _ => xlift (.error .xylemInternalError)
  | n + 1, m, v => fun h =>
    match v with
    | .ref a => match m.find a with
      | some b => (.ok (.ref b, m), h)
      | none => match h[a]? with
        | some o => xDeepObj (xDeepcopy n) m a o h
        | none => (.error .xylemInternalError, h)
    | v => (.ok (v, m), h)

/-- `deepcopy(v)` (python library). -/
def xDeep (v : HVal) : HX HVal := fun h => (xDeepcopy (h.length + 1) [] v >>= fun r => pure r.1) h

/-- `copy_to_dict` for nesting depth `n` of config dicts, `config_utils.py:360-375`; `isConfig` tells which objects are of class `ConfigDict`. -/
def xCopyToDict (isConfig : Nat → Bool) : Nat → HVal → HX HVal
  | 0, _ => xlift (.error .xylemInternalError)
  | n + 1, c => do
    let d ← xdict .attributeError c
    let r ← xnew
    xForEach (xCopyEntry' isConfig (xCopyToDict isConfig n) r) d
    pure r
where
  /-- The body of the loop, `config_utils.py:370-374`. -/
  xCopyEntry' (isConfig : Nat → Bool) (again : HVal → HX HVal) (r : HVal) (kv : PKey × HVal) : HX Unit :=
    (match kv.2 with
      | .ref a => if isConfig a then again (.ref a) else xDeep (.ref a)
      | v => xDeep v) >>= fun v => xset r kv.1 v

end Verif
