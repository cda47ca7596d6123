import Verif.Py.Dict
/-!
# Values, exceptions

The Python values a YAML document can denote after `load_yaml`
(`xylem/yaml_utils.py:28-46`), Python equality on them, and exception classes.
-/
namespace Verif

/-- Exception classes (messages are not modelled). `specParsingError` is
`xylem/specs/plugins/rules.py:335`, `downloadFailure` is
`xylem/load_url.py:31`, the config errors are `xylem/config_utils.py`,
installer errors are `xylem/installers/installer_base.py` / `impl.py`,
OS errors are `xylem/os_support/impl.py`, `xylemInternalError` is
`xylem/exception.py:45`, `installError` is `xylem/install.py:42`, `resolutionError` is `xylem/resolve.py:38`. -/
inductive Exc
  | valueError | keyError | typeError | attributeError | unboundLocalError | indexError
  | osError | ioError | runtimeError | unpicklingError | notImplementedError | yamlError | lookupError
  | specParsingError | unknownSpecError | downloadFailure
  | configValueError | configDescriptionError | configHelpFormatterError
  | installerError | installerPrerequisiteError | installerNotFound | xylemInternalError | xylemError
  | installError | resolutionError | invalidRuleError | keyboardInterrupt | eofError | systemExit (code : Int)
  | unsupportedOSError | unsupportedOSVersionError | invalidDataError | invalidPluginError
  | assertionError | osNotDetected
  | other (n : Nat)
  deriving DecidableEq, Repr

/-- `isinstance(e, Exception)` (python builtin): not for `KeyboardInterrupt` and `SystemExit`. -/
def Exc.isException : Exc → Bool
  | .keyboardInterrupt | .systemExit _ => false
  | _ => true

/-- Dictionary keys a YAML document can produce. As in Python, `True`/`1` and
`False`/`0` are the same key, so booleans are represented as integers; floats,
tuples, dates are the opaque `other`. -/
inductive PKey
  | none
  | int (i : Int)
  | str (s : String)
  | other (n : Nat)
  deriving DecidableEq, Repr

/-- The Python values a YAML document can produce (python 2: all text is
`unicode`, `xylem/yaml_utils.py:38-41`). Floats, dates, sets, bytes are the opaque `other`. -/
inductive PVal
  | none
  | bool (b : Bool)
  | int (i : Int)
  | str (s : String)
  | list (l : List PVal)
  | dict (d : List (PKey × PVal))
  | other (n : Nat)
  deriving Repr

instance : Inhabited PVal := ⟨.none⟩

/-- The integer a bool or int compares as (python: `True == 1`). -/
def PVal.num? : PVal → Option Int
  | .bool b => some (if b then 1 else 0)
  | .int i => some i
  | _ => Option.none

mutual
/-- Python `==` on values (builtin): dicts compare without regard to order, booleans compare as integers. -/
def pyEq : PVal → PVal → Bool
  | .none, w => match w with | .none => true | _ => false
  | .bool b, w => w.num? == some (if b then 1 else 0)
  | .int i, w => w.num? == some i
  | .str s, w => match w with | .str t => s == t | _ => false
  | .list l, w => match w with | .list m => pyEqList l m | _ => false
  | .dict d, w => match w with | .dict e => d.length == e.length && pyEqItems d e | _ => false
  | .other n, w => match w with | .other m => n == m | _ => false
/-- Elementwise `==` of lists (python builtin). -/
def pyEqList : List PVal → List PVal → Bool
  | [], m => m.isEmpty
  | v :: l, m => match m with | w :: m => pyEq v w && pyEqList l m | [] => false
/-- Every item of the first dict has an equal value in the second (python builtin). -/
def pyEqItems : List (PKey × PVal) → List (PKey × PVal) → Bool
  | [], _ => true
  | (k, v) :: d, e => (match dget e k with | some w => pyEq v w | Option.none => false) && pyEqItems d e
end

/-- `isinstance(v, dict)` (python builtin). -/
def PVal.isDict : PVal → Bool | .dict _ => true | _ => false
/-- `isinstance(v, list)` (python builtin). -/
def PVal.isList : PVal → Bool | .list _ => true | _ => false

mutual
/-- All dicts inside the value have distinct keys: holds of every Python value. -/
def PVal.WF : PVal → Prop
  | .list l => PVal.WFList l
  | .dict d => DWF d ∧ PVal.WFItems d
  | _ => True
/-- See `PVal.WF`. -/
def PVal.WFList : List PVal → Prop
  | [] => True
  | v :: l => PVal.WF v ∧ PVal.WFList l
/-- See `PVal.WF`. -/
def PVal.WFItems : List (PKey × PVal) → Prop
  | [] => True
  | (_, v) :: d => PVal.WF v ∧ PVal.WFItems d
end

theorem PVal.WFList_iff {l : List PVal} : PVal.WFList l ↔ ∀ v ∈ l, PVal.WF v := by
  induction l with
  | nil => simp [PVal.WFList]
  | cons v l ih => simp [PVal.WFList, ih]

theorem PVal.WFItems_iff {d : List (PKey × PVal)} : PVal.WFItems d ↔ ∀ k v, (k, v) ∈ d → PVal.WF v := by
  induction d with
  | nil => simp [PVal.WFItems]
  | cons x d ih =>
    obtain ⟨k, v⟩ := x
    simp only [PVal.WFItems, ih]
    constructor
    · rintro ⟨h1, h2⟩ a b hm
      rcases List.mem_cons.1 hm with h | h
      · simp_all
      · exact h2 _ _ h
    · intro h; exact ⟨h k v (by simp), fun a b hm => h a b (List.mem_cons_of_mem _ hm)⟩

end Verif
