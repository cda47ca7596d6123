import Verif.Model.Resolve
import Verif.Model.Commands
import Verif.Model.ConfigMessages
/-!
# Model of `resolve` and of `xylem lookup` for keys that are byte strings

In python 2 the keys on the command line are byte strings (`args.xylem_key`), while rules files, databases and configs have texts. A byte
string that is ASCII is equal to the text, has the same hash and is shown as the text; other byte strings are equal to no text, and cannot be put into a message.
-/
namespace Verif
variable {σ : Type}

/-- A key as python sees it: a text (or a byte string equal to it), or a byte string that is not ASCII. -/
inductive KeyObj
  | text (s : String)
  | raw (b : Bytes)
  deriving DecidableEq, Repr

/-- The key a word of the command line is (python 2: `sys.argv` has byte strings). -/
def keyObj (b : Bytes) : KeyObj :=
  match decodeAscii b with
  | .ok t => .text (String.ofList t)
  | .error _ => .raw b

/-- `"..{}..".format(key)` with `unicode_literals` (python 2.7): a byte string is decoded as ASCII. -/
def showKey : KeyObj → Except Exc String
  | .text s => .ok s
  | .raw b => showBytes b

/-- `database.lookup(key, ic)`, `sources/database.py:310-318`: for a key that is equal to no text the specs may do anything (`lookupRaw`). -/
def lookupObj (lookup : String → Except Exc InstDict) (lookupRaw : Bytes → Except Exc InstDict) : KeyObj → Except Exc InstDict
  | .text s => lookup s
  | .raw b => lookupRaw b

/-- `key in install_from_map` etc., `resolve.py:101-102`: the keys of the mapping are texts. -/
def chooseFor (ic : InstallerCtx σ) (ifm : Dict String String) (d : InstDict) : KeyObj → Except ResErr (Installer σ × Rule)
  | .text s => chooseInstaller ic ifm s d
  | .raw _ =>
    match coreLoop d ic.core with
    | some r => .ok r
    | none =>
      match additionalLoop d none ic.additional with
      | some r => .ok r
      | none => .error .noInstaller

/-- One key, `resolve.py:86-154`. On every way through step 4.2 the key is put into a message (of an error, or for `info_v`, which is formed
whether or not it is printed), so this is done here before step 4.2 (which has no other effects). -/
def resolveObj (ic : InstallerCtx σ) (lookup : KeyObj → Except Exc InstDict) (ifm : Dict String String) (key : KeyObj) : Except Exc KeyOutcome :=
  match lookup key with
  | .error e => if e.isLookupError then showKey key >>= fun _ => .ok (.error (.lookupFailed e)) else .error e
  | .ok [] =>
    match ic.osTuple with
    | .error e => if e.isLookupError then showKey key >>= fun _ => .ok (.error (.lookupFailed e)) else .error e
    | .ok _ => showKey key >>= fun _ => .ok (.error .noRule)
  | .ok (x :: d) => showKey key >>= fun _ =>
    match chooseFor ic ifm (x :: d) key with
    | .error err => .ok (.error err)
    | .ok (inst, rule) => resolveWith inst rule

/-- What `resolve` returns, `resolve.py:156`, with the keys as they were given. -/
structure ResolvedObjs where
  results : List (KeyObj × (String × List Resolution))
  errors : List (KeyObj × ResErr)

/-- The loop over the keys, `resolve.py:83-156`. -/
def resolveObjs (ic : InstallerCtx σ) (lookup : KeyObj → Except Exc InstDict) (ifm : Dict String String) :
    ResolvedObjs → List KeyObj → Except Exc ResolvedObjs
  | acc, [] => .ok acc
  | acc, key :: t =>
    match resolveObj ic lookup ifm key with
    | .error e => .error e
    | .ok (.ok r) => resolveObjs ic lookup ifm { acc with results := acc.results ++ [(key, r)] } t
    | .ok (.error err) => resolveObjs ic lookup ifm { acc with errors := acc.errors ++ [(key, err)] } t

/-- Step 2, `resolve.py:61-65`. -/
def keyObjs (db : Database) (words : List Bytes) (allKeys : Bool) : Except Exc (List KeyObj) :=
  if allKeys then db.keys >>= fun ks =>
    .ok (removeDuplicates (words.map keyObj ++ (ks.mergeSort (fun a b => decide (a ≤ b))).map KeyObj.text))
  else .ok (removeDuplicates (words.map keyObj))

/-- `resolve`, `resolve.py:43-156`, called with the words of the command line. -/
def resolveWords (ic : InstallerCtx σ) (db : Database) (lookupRaw : Bytes → Except Exc InstDict) (installFrom : Dict String (List String))
    (words : List Bytes) (allKeys : Bool) : Except Exc ResolvedObjs :=
  keyObjs db words allKeys >>= fun ks => resolveObjs ic (lookupObj db.lookup lookupRaw) (installFromMap installFrom) ⟨[], []⟩ ks

/-- The message about a key, `commands/lookup.py:49-52`: `ansi('cyanf') + key + ansi('reset')` decodes a byte string as ASCII. -/
def keyHeading (on : Bool) (key : KeyObj) (os rules : List Char) : Except Exc (List Char) :=
  showKey key >>= fun s => .ok ("Rules for '".toList ++ (ansi on "cyanf" ++ s.toList ++ ansi on "reset") ++ "' on '".toList ++
    (ansi on "cyanf" ++ os ++ ansi on "reset") ++ "':\n".toList ++ (ansi on "yellowf" ++ dropLast rules))

/-- The loop of `xylem lookup`, `commands/lookup.py:46-52`, on the words of the command line; the key is put between its escape sequences before
the other parts of the message are computed. -/
def lookupWords (on : Bool) (dump : PVal → Except Exc (List Char)) (lookup : String → Except Exc PVal) (lookupRaw : Bytes → Except Exc PVal)
    (osString : Except Exc (List Char)) : List Bytes → Run Unit
  | [] => pure ()
  | word :: t => do
    let v ← Run.lift (match keyObj word with
      | .text s => lookup s
      | .raw b => lookupRaw b)
    let _ ← Run.lift (showKey (keyObj word))
    let os ← Run.lift osString
    let d ← Run.lift (dump v)
    let msg ← Run.lift (keyHeading on (keyObj word) os d)
    info on msg
    lookupWords on dump lookup lookupRaw osString t

end Verif
