import Verif.Py.Val
/-!
# Model of `xylem/terminal_color.py` (`sanitize`, `fmt`) and of `xylem/exception.py` (`exc_to_str`, `chain_exception`)

Text is a list of characters here.
-/
namespace Verif

/-! ## `terminal_color.py` -/

/-- The scan of `s.replace(pat, rep)`: `skip` characters of a match remain to be dropped (python builtin). -/
def replaceGo (pat rep : List Char) : Nat → List Char → List Char
  | _, [] => []
  | skip + 1, _ :: t => replaceGo pat rep skip t
  | 0, c :: t =>
    if pat.isPrefixOf (c :: t) then rep ++ replaceGo pat rep (pat.length - 1) t
    else c :: replaceGo pat rep 0 t

/-- `s.replace(pat, rep)` for a non-empty `pat` (python builtin): leftmost non-overlapping matches. -/
def pyReplace (s pat rep : List Char) : List Char := replaceGo pat rep 0 s

/-- `sanitize`, `terminal_color.py:103-112`. -/
def sanitize (msg : List Char) : List Char :=
  let msg := pyReplace msg "@".toList "@@".toList
  let msg := pyReplace msg "{".toList "{{".toList
  let msg := pyReplace msg "}".toList "}}".toList
  let msg := pyReplace msg "@@!".toList "@{atexclimation}".toList
  let msg := pyReplace msg "@@/".toList "@{atfwdslash}".toList
  let msg := pyReplace msg "@@_".toList "@{atunderscore}".toList
  let msg := pyReplace msg "@@|".toList "@{atbar}".toList
  msg

/-- First character of an identifier: `[_a-z]` with IGNORECASE (`string.Template.idpattern`, python 2.7). -/
def idStart (c : Char) : Bool := c == '_' || ('a' ≤ c && c ≤ 'z') || ('A' ≤ c && c ≤ 'Z')
/-- Further characters of an identifier: `[_a-z0-9]` with IGNORECASE. -/
def idChar (c : Char) : Bool := idStart c || ('0' ≤ c && c ≤ '9')

/-- The table `_ansi`, `terminal_color.py:30, 39-91`: escape name to text. -/
abbrev AnsiTable := List Char → Option (List Char)

/-- `mapping[name]` (python builtin). -/
def ansiGet (a : AnsiTable) (name : List Char) : Except Exc (List Char) :=
  match a name with
  | some t => .ok t
  | none => .error .keyError

/-- `ColorTemplate(msg).substitute(_ansi)`, `terminal_color.py:99-100, 122-123` (python 2.7 `string.Template` with delimiter `@`):
`@@`, `@name`, `@{name}`; anything else after `@` is a ValueError. The first argument bounds the recursion (the length
of the text suffices, `subst`). -/
def substGo (a : AnsiTable) : Nat → List Char → Except Exc (List Char)
  | 0, _ => .ok []
  | _ + 1, [] => .ok []
  | n + 1, c :: t =>
    if c = '@' then
      match t with
      | [] => .error .valueError
      | d :: t' =>
        if d = '@' then do let r ← substGo a n t'; pure ('@' :: r)
        else if idStart d then do
          let v ← ansiGet a (d :: t'.takeWhile idChar)
          let r ← substGo a n (t'.dropWhile idChar)
          pure (v ++ r)
        else if d = '{' then
          match t' with
          | [] => .error .valueError
          | e :: t'' =>
            if idStart e then
              match t''.dropWhile idChar with
              | '}' :: rest => do
                let v ← ansiGet a (e :: t''.takeWhile idChar)
                let r ← substGo a n rest
                pure (v ++ r)
              | _ => .error .valueError
            else .error .valueError
        else .error .valueError
    else do let r ← substGo a n t; pure (c :: r)

/-- `t.substitute(_ansi)`, `terminal_color.py:123`. -/
def subst (a : AnsiTable) (s : List Char) : Except Exc (List Char) := substGo a s.length s

/-- The four replacements of `fmt`, `terminal_color.py:118-121`. -/
def fmtReplace (msg : List Char) : List Char :=
  let msg := pyReplace msg "@!".toList "@{boldon}".toList
  let msg := pyReplace msg "@/".toList "@{italicson}".toList
  let msg := pyReplace msg "@_".toList "@{ulon}".toList
  let msg := pyReplace msg "@|".toList "@{reset}".toList
  msg

/-- `fmt`, `terminal_color.py:115-123`. -/
def fmt (a : AnsiTable) (msg : List Char) : Except Exc (List Char) := do
  let r ← subst a (fmtReplace msg)
  let reset ← ansiGet a "reset".toList
  pure (r ++ reset)

/-- The 58 names of the table, `terminal_color.py:46-80`, with the text of each when colours are on. -/
def ansiEntries : List (String × String) :=
  [("escape", "\x1b"), ("reset", "\x1b[0m"), ("|", "\x1b[0m"), ("boldon", "\x1b[1m"), ("!", "\x1b[1m"),
   ("italicson", "\x1b[3m"), ("/", "\x1b[3m"), ("ulon", "\x1b[4m"), ("_", "\x1b[4m"), ("invon", "\x1b[7m"),
   ("boldoff", "\x1b[22m"), ("italicsoff", "\x1b[23m"), ("uloff", "\x1b[24m"), ("invoff", "\x1b[27m"),
   ("black", "\x1b[30m"), ("blackf", "\x1b[30m"), ("kf", "\x1b[30m"), ("red", "\x1b[31m"), ("redf", "\x1b[31m"), ("rf", "\x1b[31m"),
   ("green", "\x1b[32m"), ("greenf", "\x1b[32m"), ("gf", "\x1b[32m"), ("yellow", "\x1b[33m"), ("yellowf", "\x1b[33m"), ("yf", "\x1b[33m"),
   ("blue", "\x1b[34m"), ("bluef", "\x1b[34m"), ("bf", "\x1b[34m"), ("purple", "\x1b[35m"), ("purplef", "\x1b[35m"), ("pf", "\x1b[35m"),
   ("cyan", "\x1b[36m"), ("cyanf", "\x1b[36m"), ("cf", "\x1b[36m"), ("white", "\x1b[37m"), ("whitef", "\x1b[37m"), ("wf", "\x1b[37m"),
   ("blackb", "\x1b[40m"), ("kb", "\x1b[40m"), ("redb", "\x1b[41m"), ("rb", "\x1b[41m"), ("greenb", "\x1b[42m"), ("gb", "\x1b[42m"),
   ("yellowb", "\x1b[43m"), ("yb", "\x1b[43m"), ("blueb", "\x1b[44m"), ("bb", "\x1b[44m"), ("purpleb", "\x1b[45m"), ("pb", "\x1b[45m"),
   ("cyanb", "\x1b[46m"), ("cb", "\x1b[46m"), ("whiteb", "\x1b[47m"), ("wb", "\x1b[47m"),
   ("atexclimation", "@!"), ("atfwdslash", "@/"), ("atunderscore", "@_"), ("atbar", "@|")]

/-- `_ansi` after `enable_ANSI_colors`, `terminal_color.py:39-80`. -/
def ansiOn : AnsiTable := fun k => (dget ansiEntries (String.ofList k)).map String.toList

/-- `_ansi` after `disable_ANSI_colors`, `terminal_color.py:83-91`: the same names, all with the empty text. -/
def ansiOff : AnsiTable := fun k => (dget ansiEntries (String.ofList k)).map fun _ => []

/-! ## `exception.py` -/

/-- An exception as far as `exc_to_str` sees it: `render` is `_format_no_chain` without traceback, `renderTb` with it (`exception.py:62-68`), `stored`
tells if it has an attribute `__traceback__`, `exception.py:108`. An exception is given together with the exceptions it was caused by, nearest first:
`exc.__cause__`, ... Chains are finite (a cyclic `__cause__` chain would loop for ever). -/
structure ExcInfo where
  render : List Char
  renderTb : List Char
  stored : Bool

/-- `_format_no_chain(exc, tb, limit)` for a traceback or None, `exception.py:62-68, 106`. -/
def ExcInfo.text (tb : Bool) (e : ExcInfo) : List Char := if tb then e.renderTb else e.render

/-- The loop of `exc_to_str`, `exception.py:102-108`: `result.insert(0, ..)` while following `__cause__`; `next` tells if there is a traceback for the
next exception. -/
def excLoop (tb : Bool) : Bool → List (List Char) → List ExcInfo → List (List Char)
  | _, result, [] => result
  | next, result, e :: causes => excLoop tb (tb && (causes.head?.map ExcInfo.stored).getD false) (e.text next :: result) causes

/-- The text between two exceptions, `exception.py:109-113`. -/
def excLink (tb : Bool) : List Char :=
  if tb then "\nThe above error was the direct cause of the following:\n\n".toList
  else " --- The above error was the direct cause of the following:\n".toList

/-- `link.join(parts)` (python builtin). -/
def pyJoin (link : List Char) : List (List Char) → List Char
  | [] => []
  | [x] => x
  | x :: y :: t => x ++ link ++ pyJoin link (y :: t)

/-- `s.rstrip("\n")` (python builtin). -/
def rstripNewline (s : List Char) : List Char := (s.reverse.dropWhile (· == '\n')).reverse

/-- `exc_to_str`, `exception.py:71-114`, on Python 2; the exception is given with its causes. `handled` tells if it is the exception being handled
(`sys.exc_info`), otherwise there is no traceback for it. A traceback object as argument `tb` (only `util.py:117`) is as if it were looked up: `Model/Hook`. -/
def excToStr (handled tb chain : Bool) (exc : ExcInfo) (causes : List ExcInfo) : List Char :=
  if chain then rstripNewline (pyJoin (excLink (tb && handled)) (excLoop (tb && handled) (tb && handled) [] (exc :: causes)))
  else exc.text (tb && handled)

/-- `chain_exception`, `exception.py:117-132`, on Python 2: the new exception's `__cause__` is `from_exc` (which keeps its own causes); if that one is being
handled its traceback is stored in it. -/
def chainException (handled : Bool) (new : ExcInfo) (fromExc : ExcInfo) (fromCauses : List ExcInfo) : ExcInfo × List ExcInfo :=
  (new, { fromExc with stored := handled || fromExc.stored } :: fromCauses)

end Verif
