import Verif.Model.Database
/-!
# Model of `xylem/resolve.py`, of `InstallerContext` lookups (`xylem/installers/impl.py`), and `remove_duplicates`

The interface of an installer plugin is modelled by the structure `Installer`: each method is an arbitrary function. Methods that
look at or change the machine (`installers/impl.py:137-230`) are arbitrary functions on a machine state `σ`.
-/
namespace Verif

/-- The accumulator loop of `remove_duplicates`, `util.py:190`. -/
def removeDuplicatesGo {α : Type} [DecidableEq α] : List α → List α → List α
  | _, [] => []
  | items, x :: t => if x ∈ items then removeDuplicatesGo items t else x :: removeDuplicatesGo (x :: items) t

/-- `remove_duplicates`, `util.py:184-190` (the set `items` is a list here). -/
def removeDuplicates {α : Type} [DecidableEq α] (seq : List α) : List α := removeDuplicatesGo [] seq

/-- `isinstance(e, InstallerError)`, `installers/impl.py:42-54`. -/
def Exc.isInstallerError : Exc → Bool
  | .installerError | .invalidRuleError | .installerPrerequisiteError => true
  | _ => false

/-- `isinstance(e, LookupError)` (python builtin). -/
def Exc.isLookupError : Exc → Bool
  | .lookupError | .keyError | .indexError => true
  | _ => false

/-- A resolution object (`installers/installer_base.py:39-76`) is a dict. -/
abbrev Resolution := Dict String PVal
/-- A command line, `installers/impl.py:168`: its words; `none` stands for a word that is not text (a null in a list of packages passes the
parsing of rules and ends up in a command). -/
abbrev Cmd := List (Option String)
/-- An os tuple: name and version. -/
abbrev OsTuple := String × String

/-- The installer plugin interface, `installers/impl.py:57-230`; every method may raise. -/
structure Installer (σ : Type) where
  name : String
  resolve : Rule → Except Exc (List Resolution)
  useAsAdditional : OsTuple → Except Exc Bool
  filterUninstalled : List Resolution → σ → Except Exc (List Resolution) × σ
  isInstalled : Resolution → σ → Except Exc Bool × σ
  getInstallCommands : List Resolution → (interactive reinstall : Bool) → σ → Except Exc (List Cmd) × σ
  checkGeneral : OsTuple → (fix interactive : Bool) → σ → Except Exc Unit × σ
  checkInstall : List Resolution → OsTuple → (fix interactive : Bool) → σ → Except Exc Unit × σ

/-- `InstallerContext`, `installers/impl.py:233-270`: loaded plugins, core and additional installers, and the result of
`get_os_tuple` (which raises if no os was detected). -/
structure InstallerCtx (σ : Type) where
  plugins : List (Installer σ)
  core : List (Installer σ)
  additional : List (Installer σ)
  osTuple : Except Exc OsTuple

/-- `lookup_installer`, `installers/impl.py:374-384`. -/
def lookupInstaller {σ : Type} (ic : InstallerCtx σ) (name : String) : Option (Installer σ) :=
  ic.plugins.find? fun i => i.name == name

/-- A reported resolve error (`ResolutionError` with what it is about), `resolve.py:90-142, 149-152`. -/
inductive ResErr
  | noRule
  | lookupFailed (e : Exc)
  | notLoaded (inst : String)
  | noRuleForRequested (inst : String)
  | noInstaller
  | resolveFailed (inst : String) (e : Exc)
  deriving DecidableEq

/-- One step of the inner loop, `resolve.py:75-81`. -/
def installFromKey (inst : String) (m : Dict String String) (k : String) : Dict String String :=
  if dhas m k then m else dset m k inst

/-- One step of the outer loop, `resolve.py:74-81`. -/
def installFromStep (m : Dict String String) (ik : String × List String) : Dict String String :=
  ik.2.foldl (installFromKey ik.1) m

/-- The inverse install-from mapping, `resolve.py:73-81`. -/
def installFromMap (installFrom : Dict String (List String)) : Dict String String :=
  installFrom.foldl installFromStep []

/-- The loop over the core installers, `resolve.py:120-126`: ends at the first match. -/
def coreLoop {σ : Type} (d : InstDict) : List (Installer σ) → Option (Installer σ × Rule)
  | [] => none
  | i :: t =>
    match dget d i.name with
    | some rule => some (i, rule)
    | none => coreLoop d t

/-- The loop over the additional installers, `resolve.py:128-133`: has no `break`. -/
def additionalLoop {σ : Type} (d : InstDict) : Option (Installer σ × Rule) → List (Installer σ) → Option (Installer σ × Rule)
  | acc, [] => acc
  | acc, i :: t =>
    match dget d i.name with
    | some rule => additionalLoop d (some (i, rule)) t
    | none => additionalLoop d acc t

/-- Step 4.2, `resolve.py:100-143`: the installer to use and its rule, or the reported error. -/
def chooseInstaller {σ : Type} (ic : InstallerCtx σ) (ifm : Dict String String) (key : String) (d : InstDict) :
    Except ResErr (Installer σ × Rule) :=
  match dget ifm key with
  | some instName =>
    match lookupInstaller ic instName with
    | none => .error (.notLoaded instName)
    | some inst =>
      match dget d instName with
      | none => .error (.noRuleForRequested instName)
      | some rule => .ok (inst, rule)
  | none =>
    match coreLoop d ic.core with
    | some r => .ok r
    | none =>
      match additionalLoop d none ic.additional with
      | some r => .ok r
      | none => .error .noInstaller

/-- Outcome of one key: the installer name with the resolutions, or the reported error. -/
abbrev KeyOutcome := Except ResErr (String × List Resolution)

/-- Step 4.3, `resolve.py:146-154`. -/
def resolveWith {σ : Type} (inst : Installer σ) (rule : Rule) : Except Exc KeyOutcome :=
  match inst.resolve rule with
  | .ok rs => .ok (.ok (inst.name, rs))
  | .error e => if e.isInstallerError then .ok (.error (.resolveFailed inst.name e)) else .error e

/-- Step 4.1 and the rest, `resolve.py:86-154`. `lookup` is `database.lookup(.., ic)`. -/
def resolveKey {σ : Type} (ic : InstallerCtx σ) (lookup : String → Except Exc InstDict) (ifm : Dict String String) (key : String) :
    Except Exc KeyOutcome :=
  match lookup key with
  | .error e => if e.isLookupError then .ok (.error (.lookupFailed e)) else .error e
  | .ok [] =>
    match ic.osTuple with
    | .error e => if e.isLookupError then .ok (.error (.lookupFailed e)) else .error e
    | .ok _ => .ok (.error .noRule)
  | .ok (x :: d) =>
    match chooseInstaller ic ifm key (x :: d) with
    | .error err => .ok (.error err)
    | .ok (inst, rule) => resolveWith inst rule

/-- What `resolve` returns, `resolve.py:156`: results and errors. -/
structure Resolved where
  results : List (String × (String × List Resolution))
  errors : List (String × ResErr)

/-- The loop over the keys, `resolve.py:83-156`. -/
def resolveLoop {σ : Type} (ic : InstallerCtx σ) (lookup : String → Except Exc InstDict) (ifm : Dict String String) :
    Resolved → List String → Except Exc Resolved
  | acc, [] => .ok acc
  | acc, key :: t =>
    match resolveKey ic lookup ifm key with
    | .error e => .error e
    | .ok (.ok r) => resolveLoop ic lookup ifm { acc with results := acc.results ++ [(key, r)] } t
    | .ok (.error err) => resolveLoop ic lookup ifm { acc with errors := acc.errors ++ [(key, err)] } t

/-- What `resolve` needs of a database: `lookup(key, ic)` and `keys(ic)` (`sources/database.py:310-329`). -/
structure Database where
  lookup : String → Except Exc InstDict
  keys : Except Exc (List String)

/-- Step 2, `resolve.py:61-65`; `sorted` is python's sort of text (by code points). -/
def lookupKeys (db : Database) (xylemKeys : List String) (allKeys : Bool) : Except Exc (List String) :=
  if allKeys then do
    let ks ← db.keys
    pure (removeDuplicates (xylemKeys ++ ks.mergeSort (fun a b => decide (a ≤ b))))
  else pure (removeDuplicates xylemKeys)

/-- `resolve`, `resolve.py:43-156`, for a given installer context and loaded database. -/
def resolve {σ : Type} (ic : InstallerCtx σ) (db : Database) (installFrom : Dict String (List String)) (xylemKeys : List String)
    (allKeys : Bool) : Except Exc Resolved := do
  let ks ← lookupKeys db xylemKeys allKeys
  resolveLoop ic db.lookup (installFromMap installFrom) ⟨[], []⟩ ks

/-- The database of loaded sources, `sources/database.py:310-329`. -/
def databaseOf (uni : Char → Bool) (sources : List Source) (c : LookupCtx) : Database where
  lookup key := dbLookup uni sources key c
  keys := dbKeys sources c

end Verif
