import Verif.Model.Config
import Verif.Model.Encoding
/-!
# Model of `from_command_line` for arguments that are byte strings (`xylem/config_utils.py`)

In python 2 the words of the command line (`sys.argv`) are byte strings, and argparse passes them on. `loadBytes` and `loadText` are
`load_yaml` for byte strings and for `unicode`; `skip` is as in `decodeGo`. Where `Model/Config` has texts for the words, this is what happens with the bytes.
-/
namespace Verif

/-- `"[" + input + "]"` and `"{" + input + "}"` with `unicode_literals` (python 2.7): the byte string is decoded as ASCII; a `UnicodeDecodeError` (a `ValueError`) for other bytes. -/
def bracketBytes (op cl : String) (b : Bytes) : Except Exc String :=
  decodeAscii b >>= fun t => .ok (op ++ String.ofList t ++ cl)

/-- The second attempt of `parse_single` for lists, `config_utils.py:582-590`: only a `YAMLError` is caught. The text of the
`ConfigValueError` can be formed here, as the argument is ASCII. -/
def listAgain (loadText : String → Except Exc PVal) (b : Bytes) : Except Exc (List PVal) :=
  bracketBytes "[" "]" b >>= fun s => yamlToConfig (loadText s) >>= fun
    | .list l => .ok l
    | _ => .error .configValueError

/-- `parse_single` of `List`, `config_utils.py:576-590`. -/
def parseListBytes (loadBytes : Bytes → Except Exc PVal) (loadText : String → Except Exc PVal) (b : Bytes) : Except Exc (List PVal) :=
  match loadBytes b with
  | .ok (.list l) => .ok l
  | .ok _ => listAgain loadText b
  | .error .yamlError => listAgain loadText b
  | .error e => .error e

/-- The second attempt of `parse_single` for dicts, `config_utils.py:653-661`. -/
def dictAgain (loadText : String → Except Exc PVal) (b : Bytes) : Except Exc (List (PKey × PVal)) :=
  bracketBytes "{" "}" b >>= fun s => yamlToConfig (loadText s) >>= fun
    | .dict d => .ok d
    | _ => .error .configValueError

/-- `parse_single` of `Dict`, `config_utils.py:647-661`. -/
def parseDictBytes (loadBytes : Bytes → Except Exc PVal) (loadText : String → Except Exc PVal) (b : Bytes) : Except Exc (List (PKey × PVal)) :=
  match loadBytes b with
  | .ok (.dict d) => .ok d
  | .ok _ => dictAgain loadText b
  | .error .yamlError => dictAgain loadText b
  | .error e => .error e

/-- The loop of `List.from_command_line`, `config_utils.py:596-598`. -/
def parseListsBytes (loadBytes : Bytes → Except Exc PVal) (loadText : String → Except Exc PVal) : List Bytes → Except Exc (List PVal)
  | [] => .ok []
  | b :: t => parseListBytes loadBytes loadText b >>= fun l => parseListsBytes loadBytes loadText t >>= fun r => .ok (l ++ r)

/-- The loop of `Dict.from_command_line`, `config_utils.py:666-675`. -/
def parseDictsBytes (loadBytes : Bytes → Except Exc PVal) (loadText : String → Except Exc PVal) :
    Dict PKey PVal → List Bytes → Except Exc (Dict PKey PVal)
  | acc, [] => .ok acc
  | acc, b :: t => parseDictBytes loadBytes loadText b >>= fun d =>
    if d.any (fun kv => dhas acc kv.1) then .error .configValueError
    else parseDictsBytes loadBytes loadText (dupdate acc d) t

/-- A value from the command line parser, as bytes (see `CmdVal`). -/
inductive ByteArg
  | none
  | one (b : Bytes)
  | many (l : List Bytes)

/-- The arguments as a list, `config_utils.py:594-595, 664-665`. -/
def ByteArg.words : ByteArg → List Bytes
  | .none => []
  | .one b => [b]
  | .many l => l

/-- The text of a type read as it is: `to_str(value)`, `config_utils.py:533`, `text_utils.py:31-32`. -/
def wordText (skip : Bytes → Nat) (b : Bytes) : PVal := .str (String.ofList (decodeUtf8 skip b))

/-- `from_command_line`, `config_utils.py:432-438, 530-533, 572-599, 643-676`. As in `CType.fromCommandLine`, a list for a type other than List
and Dict is answered with a TypeError. -/
def CType.fromBytes (skip : Bytes → Nat) (loadBytes : Bytes → Except Exc PVal) (loadText : String → Except Exc PVal) (expand : String → String)
    (t : CType) (v : ByteArg) : Except Exc PVal :=
  match v with
  | .none => .ok t.unset
  | v =>
    match t with
    | .list e => parseListsBytes loadBytes loadText v.words >>= fun l => CType.fromYaml expand (.list e) (.list l)
    | .dict vt kt => parseDictsBytes loadBytes loadText [] v.words >>= fun d => CType.fromYaml expand (.dict vt kt) (.dict d)
    | .mergingDict vt kt => parseDictsBytes loadBytes loadText [] v.words >>= fun d => CType.fromYaml expand (.mergingDict vt kt) (.dict d)
    | .string => match v with
      | .one b => CType.fromYaml expand .string (wordText skip b)
      | _ => .error .typeError
    | .path => match v with
      | .one b => CType.fromYaml expand .path (wordText skip b)
      | _ => .error .typeError
    | t => match v with
      | .one b => yamlToConfig (loadBytes b) >>= CType.fromYaml expand t
      | _ => .error .typeError

end Verif
