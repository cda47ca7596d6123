import Verif.Model.Sources
import Verif.Model.Text
/-! # Model of `xylem/text_utils.py`, of the text of exceptions, and of the messages of `xylem/sources/database.py`

Python 2: `unicode` objects are lists of characters, byte strings lists of bytes. Simplifications: lone surrogates are not modelled (a
`Char` is a Unicode scalar value), so encoding never needs the error handler; the only encoding modelled is `utf-8`. -/
namespace Verif

/-- A python 2 byte string. -/
abbrev Bytes := List UInt8

/-- `t.encode('utf-8')` (python builtin). -/
def encodeUtf8 (t : List Char) : Bytes := t.flatMap String.utf8EncodeChar

/-- The first character of a byte string, if it begins with the encoding of one (python builtin, part of decoding). -/
def firstChar (b : Bytes) : Option Char := b.toByteArray.utf8DecodeChar? 0

/-- The loop of `b.decode('utf-8', 'replace')` (python builtin): where no character begins, U+FFFD is put and `1 + skip b` bytes are
passed over. How many bytes that is differs between python versions; the theorems hold for every `skip`. The first argument bounds the recursion (the length of the text suffices). -/
def decodeGo (skip : Bytes → Nat) : Nat → Bytes → List Char
  | 0, _ => []
  | _ + 1, [] => []
  | n + 1, b =>
    match firstChar b with
    | some c => c :: decodeGo skip n (b.drop c.utf8Size)
    | none => '\uFFFD' :: decodeGo skip n (b.drop (1 + skip b))

/-- `b.decode('utf-8', 'replace')`. -/
def decodeUtf8 (skip : Bytes → Nat) (b : Bytes) : List Char := decodeGo skip b.length b

/-- Is the byte string ASCII? -/
def isAscii (b : Bytes) : Bool := b.all (fun x => x < 128)

/-- `unicode(b)` (python builtin): decoding as ASCII; a `UnicodeDecodeError` (a `ValueError`) for other bytes. -/
def decodeAscii (b : Bytes) : Except Exc (List Char) :=
  if isAscii b then .ok (b.map fun x => Char.ofNat x.toNat) else .error .valueError

/-! ## Exceptions as text (python 2.7 library) -/

/-- What an exception object gives for `str(e)` and `unicode(e)`: it has been made with a `unicode` argument (all exceptions xylem itself raises), or its text
is a byte string (an argument that is a byte string, or a `__str__` of its own, as the errors of PyYAML). -/
inductive ExcMsg where
  | text (t : List Char)
  | bytes (b : Bytes)
deriving DecidableEq, Repr

/-- An exception object: the name of its class and its message. -/
structure ExcObj where
  cls : Bytes
  msg : ExcMsg
deriving DecidableEq, Repr

/-- A digit of a hexadecimal number (python builtin). -/
def hexDigit (n : Nat) : UInt8 := UInt8.ofNat (if n % 16 < 10 then 48 + n % 16 else 87 + n % 16)

/-- A number with so many hexadecimal digits (python builtin). -/
def hexDigits : Nat → Nat → Bytes
  | 0, _ => []
  | k + 1, n => hexDigits k (n / 16) ++ [hexDigit n]

/-- One character with the handler `backslashreplace` (python builtin). -/
def escapeChar (c : Char) : Bytes :=
  if c.toNat < 128 then [UInt8.ofNat c.toNat]
  else if c.toNat < 256 then 92 :: 120 :: hexDigits 2 c.toNat
  else if c.toNat < 65536 then 92 :: 117 :: hexDigits 4 c.toNat
  else 92 :: 85 :: hexDigits 8 c.toNat

/-- `traceback._some_str`: `str(e)`, or, if that raises because of characters that are not ASCII, `unicode(e).encode('ascii', 'backslashreplace')`. -/
def someStr : ExcMsg → Bytes
  | .text t => t.flatMap escapeChar
  | .bytes b => b

/-- `traceback.format_exception_only`: the line for an exception that is no `SyntaxError`. -/
def finalLine (e : ExcObj) : Bytes :=
  if someStr e.msg = [] then e.cls ++ [10] else e.cls ++ [58, 32] ++ someStr e.msg ++ [10]

/-- `if string and string[-1] == '\n': string = string[:-1]`, `text_utils.py:41-42`. -/
def dropNewline (s : List Char) : List Char := if s.getLast? = some '\n' then s.dropLast else s

/-- `to_str` of an exception, `text_utils.py:39-43`: `"".join` of byte strings with a `unicode` separator decodes them as ASCII. -/
def toStrExc (e : ExcObj) : Except Exc (List Char) := do
  let s ← decodeAscii (finalLine e)
  pure (dropNewline s)

/-- `"{0}".format(e)` with a `unicode` template (python builtin): `unicode(e)`. -/
def formatExc : ExcMsg → Except Exc (List Char)
  | .text t => .ok t
  | .bytes b => decodeAscii b

/-- `_format_no_chain` without traceback, `exception.py:62-68`: the join of the lines, decoded as ASCII. -/
def formatNoChain (e : ExcObj) : Except Exc (List Char) := decodeAscii (finalLine e)

/-- `exc_to_str(exc)` with `tb=False`, `exception.py:71-114`, on exception objects: `causes` are those following along `__cause__`. -/
def excObjToStr (e : ExcObj) (causes : List ExcObj) : Except Exc (List Char) := do
  let texts ← (e :: causes).mapM formatNoChain
  match texts with
  | [] => pure []
  | t :: ts => pure (excToStr false false true ⟨t, [], false⟩ (ts.map fun x => ⟨x, [], false⟩))

/-! ## `to_str`, `to_bytes` -/

/-- What a method of an object gives: a text, a byte string, `None`, some other object, or an exception. -/
inductive MethodResult where
  | text (t : List Char)
  | bytes (b : Bytes)
  | none
  | object
  | attributeError
  | unicodeError
  | typeError
  | raises (e : Exc)
deriving DecidableEq, Repr

/-- A python object as `to_str` and `to_bytes` see it. For the objects that are nothing special the results of `obj.__unicode__()`, `str(obj)` (never a `unicode`
object), and `obj.__str__()` are given. -/
inductive PyObj where
  | text (t : List Char)
  | bytes (b : Bytes)
  | cls (name : Bytes)
  | exc (e : ExcObj)
  | textList (l : List (List Char))
  | other (uni str dunderStr : MethodResult)
deriving DecidableEq, Repr

/-- `six.text_type(value, encoding, errors)` unless the value is a text, `text_utils.py:63-64`: a `TypeError` for objects that are no byte strings. -/
def ensureText (skip : Bytes → Nat) : MethodResult → Except Exc (List Char)
  | .text t => .ok t
  | .bytes b => .ok (decodeUtf8 skip b)
  | .none | .object => .error .typeError
  | .attributeError => .error .attributeError
  | .unicodeError => .error .valueError
  | .typeError => .error .typeError
  | .raises e => .error e

/-- `try: value = obj.__str__() except (AttributeError, UnicodeError): value = ''`, `text_utils.py:59-62, 78-81`. -/
def dunderOrEmpty : MethodResult → MethodResult
  | .attributeError | .unicodeError => .text []
  | r => r

/-- `try: value = str(obj) except UnicodeError: ...`, `text_utils.py:56-62`. -/
def strOrDunder (str dunderStr : MethodResult) : MethodResult :=
  match str with
  | .unicodeError => dunderOrEmpty dunderStr
  | r => r

/-- The last branch of `to_str`, `text_utils.py:49-65`, with `six.PY2`. -/
def toStrOther (skip : Bytes → Nat) (uni str dunderStr : MethodResult) : Except Exc (List Char) :=
  match uni with
  | .attributeError | .unicodeError | .typeError | .none => ensureText skip (strOrDunder str dunderStr)
  | r => ensureText skip r

/-- `", ".join(l)` in brackets, `text_utils.py:47`. -/
def bracketed (l : List (List Char)) : List Char := '[' :: (pyJoin [',', ' '] l ++ [']'])

/-- `to_str`, `text_utils.py:31-65`. -/
def toStr (skip : Bytes → Nat) : PyObj → Except Exc (List Char)
  | .text t => .ok t
  | .bytes b => .ok (decodeUtf8 skip b)
  | .cls name => .ok (decodeUtf8 skip name)
  | .exc e => toStrExc e
  | .textList l => .ok (bracketed l)
  | .other uni str dunderStr => toStrOther skip uni str dunderStr

/-- `to_bytes` of a value that has been found, `text_utils.py:87-89`: texts are encoded, anything else is returned as it is (`none` here: not a byte string). -/
def encodeValue : MethodResult → Except Exc (Option Bytes)
  | .text t => .ok (some (encodeUtf8 t))
  | .bytes b => .ok (some b)
  | .none | .object => .ok none
  | .attributeError => .error .attributeError
  | .unicodeError => .error .valueError
  | .typeError => .error .typeError
  | .raises e => .error e

/-- `except UnicodeError: try: value = obj.__str__() except (AttributeError, UnicodeError): value = ''; try: value = obj.__unicode__() except ...`, `text_utils.py:76-86`. -/
def bytesFallback (dunderStr uni : MethodResult) : MethodResult :=
  match dunderStr with
  | .attributeError | .unicodeError => dunderOrEmpty uni
  | r => r

/-- `to_bytes`, `text_utils.py:68-89`. For classes and lists `str(obj)` is some byte string `strOf`; for exceptions with a text that is not ASCII `str(obj)` and
`obj.__str__()` raise `UnicodeError` and `obj.__unicode__()` gives the text. -/
def toBytes (strOf : PyObj → Bytes) : PyObj → Except Exc (Option Bytes)
  | .text t => .ok (some (encodeUtf8 t))
  | .bytes b => .ok (some b)
  | .exc e =>
    match e.msg with
    | .bytes b => .ok (some b)
    | .text t => .ok (some (encodeUtf8 t))
  | .cls name => .ok (some (strOf (.cls name)))
  | .textList l => .ok (some (strOf (.textList l)))
  | .other uni str dunderStr =>
    match str with
    | .unicodeError => encodeValue (bytesFallback dunderStr uni)
    | r => encodeValue r

/-- `type_name`, `text_utils.py:92-94`, of an object whose class has the given name. -/
def typeName (skip : Bytes → Nat) (cls : Bytes) : Except Exc (List Char) := toStr skip (.cls cls)

/-! ## Messages -/

/-- What `info` and the like print, `log_utils.py:80-121`: the message between escape sequences, as bytes. -/
def printed (skip : Bytes → Nat) (before after : List Char) (msg : PyObj) : Except Exc Bytes := do
  let t ← toStr skip msg
  pure (encodeUtf8 (before ++ t ++ after))

/-- The message about a failed source, `database.py:238-239, 250-251, 270-271, 297-298`: formed with `format(.., e)`. -/
def sayFormat (m : ExcMsg) : Option Exc :=
  match formatExc m with
  | .ok _ => none
  | .error e => some e

/-- The message about a source that cannot be saved during an update, `database.py:307-308`: formed with `to_str(e)`. -/
def sayToStr (e : ExcObj) : Option Exc :=
  match toStrExc e with
  | .ok _ => none
  | .error x => some x

/-- `RulesDatabase.update`, `database.py:273-308`, including the forming of messages about failed sources, which happens inside the loop, outside of any `try`:
`obj s e` is the exception object caught for the source. -/
def dbUpdateSaying (env : CacheEnv) (obj : Source → Exc → ExcObj) (raiseOnError : Bool) : List (Source × Outcome) → DbResult
  | [] => ⟨[], [], none⟩
  | (s, o) :: rest =>
    match s.loadFromSource o.net o.now with
    | .error e =>
      if reraises raiseOnError e then ⟨s :: rest.map Prod.fst, [], some e⟩
      else
        match sayFormat (obj s e).msg with
        | some x => ⟨s :: rest.map Prod.fst, [], some x⟩
        | none =>
          let r := dbUpdateSaying env obj raiseOnError rest
          ⟨s :: r.sources, r.steps, r.raised⟩
    | .ok s' =>
      let w := s'.saveToCache env o.write
      match w.2 with
      | some e =>
        if reraises raiseOnError e then ⟨s' :: rest.map Prod.fst, w.1, some e⟩
        else
          match sayToStr (obj s e) with
          | some x => ⟨s' :: rest.map Prod.fst, w.1, some x⟩
          | none =>
            let r := dbUpdateSaying env obj raiseOnError rest
            ⟨s' :: r.sources, w.1 ++ r.steps, r.raised⟩
      | none =>
        let r := dbUpdateSaying env obj raiseOnError rest
        ⟨s' :: r.sources, w.1 ++ r.steps, r.raised⟩

/-- `RulesDatabase.load_from_cache`, `database.py:229-239`, including the forming of messages. -/
def dbLoadFromCacheSaying (env : CacheEnv) (obj : Source → Exc → ExcObj) (fs : FileSys) (raiseOnError : Bool) : List Source → DbResult
  | [] => ⟨[], [], none⟩
  | s :: rest =>
    match s.loadFromCache env fs with
    | .error e =>
      if reraises raiseOnError e then ⟨s :: rest, [], some e⟩
      else
        match sayFormat (obj s e).msg with
        | some x => ⟨s :: rest, [], some x⟩
        | none =>
          let r := dbLoadFromCacheSaying env obj fs raiseOnError rest
          ⟨s :: r.sources, r.steps, r.raised⟩
    | .ok s' =>
      let r := dbLoadFromCacheSaying env obj fs raiseOnError rest
      ⟨s' :: r.sources, r.steps, r.raised⟩

/-- `parse_source_descriptions`, `sources/impl.py:117-144`, including the message about an error `e` of the YAML parser. -/
def parseDescriptionsSaying (e : ExcObj) (parsed : Except Exc PVal) : Except Exc PVal :=
  match parsed with
  | .error x =>
    if x = .yamlError then
      match sayToStr e with
      | some y => .error y
      | none => .ok (.list [])
    else .error x
  | .ok v => do verifySourceDescriptionList v; pure v

end Verif
