import Verif.Model.Config
import Verif.Model.Encoding
/-!
# Model of the messages of refused configuration values (`xylem/config_utils.py`, `xylem/exception.py`)

The same functions as `CType.verify` and `CType.fromYaml` of `Model/Config`, with the texts of the exceptions. How a value is shown in a
text (`"{}".format(value)`, which raises for some values) and the name of its type are parameters: `shows`, `tname`.
-/
namespace Verif

/-- Why a value is not accepted: a `ConfigValueError`, with its message and the messages of its causes (outermost first), or another exception, that was raised while making the message. -/
inductive Refusal
  | message (chain : List String)
  | crash (e : Exc)
  deriving DecidableEq, Repr

/-- The message of `type_error_msg`, `exception.py:52-59` (without `what_for`): it cannot be formed if the value cannot be shown. -/
def typeErrorMsg (shows : PVal → Except Exc String) (tname : PVal → String) (expected : String) (value : PVal) : Except Exc String :=
  shows value >>= fun text => .ok ("Expected type '" ++ expected ++ "', but got '" ++ text ++ "' of type '" ++ tname value ++ "'.")

/-- `raise ConfigValueError(type_error_msg(expected, value))`, `config_utils.py:527, 550, 568, 604, 636, 681`. -/
def refuse {α : Type} (shows : PVal → Except Exc String) (tname : PVal → String) (expected : String) (value : PVal) : Except Refusal α :=
  match typeErrorMsg shows tname expected value with
  | .ok m => .error (.message [m])
  | .error e => .error (.crash e)

/-- `except ConfigValueError as e: raise_from(ConfigValueError, m, e)`, `config_utils.py:608-609, 686-687`, `exception.py:115-147`: only a
`ConfigValueError` is caught. -/
def wrapping {α : Type} (m : String) : Except Refusal α → Except Refusal α
  | .error (.message chain) => .error (.message (m :: chain))
  | r => r

/-- The loop of `List.verify`, `config_utils.py:606-607`. -/
def verifyElemsSaying (f : PVal → Except Refusal PVal) : List PVal → Except Refusal Unit
  | [] => .ok ()
  | v :: t => f v >>= fun _ => verifyElemsSaying f t

/-- The loop of `Dict.verify`, `config_utils.py:683-685`. -/
def verifyItemsSaying (fk fv : PVal → Except Refusal PVal) : List (PKey × PVal) → Except Refusal Unit
  | [] => .ok ()
  | kv :: t => fk kv.1.toVal >>= fun _ => fv kv.2 >>= fun _ => verifyItemsSaying fk fv t

section
variable (shows : PVal → Except Exc String) (tname : PVal → String)

/-- `verify`, `config_utils.py:454, 524-528, 547-551, 601-610, 678-688`. -/
def CType.verifySaying : CType → PVal → Except Refusal PVal
  | .any, v => .ok v
  | .string, v => match v with
    | .none => .ok .none
    | .str s => .ok (.str s)
    | v => refuse shows tname "string" v
  | .path, v => match v with
    | .none => .ok .none
    | .str s => .ok (.str s)
    | v => refuse shows tname "string" v
  | .boolean, v => match v with
    | .none => .ok .none
    | .bool b => .ok (.bool b)
    | v => refuse shows tname "bool" v
  | .list e, v => match v with
    | .none => .ok .none
    | .list l => wrapping "invalid list element" (verifyElemsSaying (CType.verifySaying e) l) >>= fun _ => .ok (.list l)
    | v => refuse shows tname "list" v
  | .dict vt kt, v => match v with
    | .none => .ok .none
    | .dict d => wrapping "invalid key or value" (verifyItemsSaying (CType.verifySaying kt) (CType.verifySaying vt) d) >>= fun _ => .ok (.dict d)
    | v => refuse shows tname "dict" v
  | .mergingDict vt kt, v => match v with
    | .dict d => wrapping "invalid key or value" (verifyItemsSaying (CType.verifySaying kt) (CType.verifySaying vt) d) >>= fun _ => .ok (.dict d)
    | v => refuse shows tname "dict" v

/-- An exception that is not a `ConfigValueError` (here: the `TypeError` of a key that cannot be hashed). -/
def crashing {α : Type} : Except Exc α → Except Refusal α
  | .ok a => .ok a
  | .error e => .error (.crash e)

/-- The list comprehension of `List.from_yaml`, `config_utils.py:569-570`. -/
def readElemsSaying (f : PVal → Except Refusal PVal) : List PVal → Except Refusal (List PVal)
  | [] => .ok []
  | v :: t => f v >>= fun w => readElemsSaying f t >>= fun r => .ok (w :: r)

/-- The loop of `Dict.from_yaml`, `config_utils.py:638-640`: the value is read before the key. -/
def readItemsSaying (fk fv : PVal → Except Refusal PVal) : Dict PKey PVal → List (PKey × PVal) → Except Refusal (Dict PKey PVal)
  | acc, [] => .ok acc
  | acc, kv :: t =>
    fv kv.2 >>= fun v => fk kv.1.toVal >>= fun k => crashing (keyOfVal k) >>= fun key => readItemsSaying fk fv (dset acc key v) t

/-- `from_yaml`, `config_utils.py:409-411, 564-570, 632-641, 728-732`. `expand` is `expand_input_path` for text. -/
def CType.fromYamlSaying (expand : String → String) : CType → PVal → Except Refusal PVal
  | .any, v => .ok v
  | .string, v => CType.verifySaying shows tname .string v
  | .boolean, v => CType.verifySaying shows tname .boolean v
  | .path, v => match v with
    | .none => .ok .none
    | .str s => .ok (.str (expand s))
    | v => refuse shows tname "string" v
  | .list e, v => match v with
    | .none => .ok .none
    | .list l => readElemsSaying (CType.fromYamlSaying expand e) l >>= fun l' => CType.verifySaying shows tname (.list e) (.list l')
    | v => refuse shows tname "list" v
  | .dict vt kt, v => match v with
    | .none => .ok .none
    | .dict d => readItemsSaying (CType.fromYamlSaying expand kt) (CType.fromYamlSaying expand vt) [] d >>= fun d' =>
        CType.verifySaying shows tname (.dict vt kt) (.dict d')
    | v => refuse shows tname "dict" v
  | .mergingDict vt kt, v => match v with
    | .none => .ok (.dict [])
    | .dict d => readItemsSaying (CType.fromYamlSaying expand kt) (CType.fromYamlSaying expand vt) [] d >>= fun d' =>
        CType.verifySaying shows tname (.mergingDict vt kt) (.dict d')
    | v => refuse shows tname "dict" v

end

/-- `"{}".format(b)` of a byte string with `unicode_literals` (python 2.7 library): the bytes are decoded as ASCII. -/
def showBytes (b : Bytes) : Except Exc String := decodeAscii b >>= fun t => .ok (String.ofList t)

end Verif
