import Verif.Model.OsSupport
/-! # Model of `xylem/os_support/os_detect.py` (all detectors, and the class `OsDetect`)

What the detectors look at is the structure `System`. The os plugins use only some of the detectors (`Model/OsSupport`). -/
namespace Verif

/-! ## The machine as the detectors see it -/

/-- Files (`none`: does not exist; an existing file can be read and decoded), output of programs (`_read_stdout`, `os_detect.py:37-46`:
stripped, `none` if anything goes wrong), the module `platform`, and the python text functions that depend on unicode tables. -/
structure System where
  text : String → Option (List Char)
  stdout : List String → Option String
  lsbInfo : Option (String × String × String)
  platformSystem : String
  platformVersion : String
  platformRelease : String
  strictVersion : String → Option (Int × Int)
  ws : Char → Bool
  lower : List Char → List Char

/-- The scan of `s.split()`: `acc` is the word read so far, reversed (python builtin). -/
def wordsGo (ws : Char → Bool) : List Char → List Char → List (List Char)
  | [], [] => []
  | acc, [] => [acc.reverse]
  | [], c :: t => if ws c then wordsGo ws [] t else wordsGo ws [c] t
  | a :: acc, c :: t => if ws c then (a :: acc).reverse :: wordsGo ws [] t else wordsGo ws (c :: a :: acc) t

/-- `s.split()` (python builtin): the words, none of them empty. -/
def pyWords (ws : Char → Bool) (s : List Char) : List (List Char) := wordsGo ws [] s

/-- The scan of `s.split(sep)` for a text `sep`: `skip` characters of a separator remain to be dropped (python builtin). -/
def splitStrGo (sep : List Char) : Nat → List Char → List Char → List (List Char)
  | _, acc, [] => [acc.reverse]
  | skip + 1, acc, _ :: t => splitStrGo sep skip acc t
  | 0, acc, c :: t =>
    if sep.isPrefixOf (c :: t) then acc.reverse :: splitStrGo sep (sep.length - 1) [] t else splitStrGo sep 0 (c :: acc) t

/-- `s.split(sep)` (python builtin). -/
def pySplitStr (sep s : List Char) : List (List Char) := splitStrGo sep 0 [] s

/-- `read_issue`, `os_detect.py:54-61`. -/
def readIssue (sys : System) (path : String) : Option (List (List Char)) := (sys.text path).map (pyWords sys.ws)

/-- `os.path.exists` (python builtin). -/
def System.pathExists (sys : System) (path : String) : Bool := (sys.text path).isSome

/-! ## Detectors -/

/-- A detector, `os_detect.py:69-93`. A version that cannot be read is `None` (`_read_stdout`). -/
structure SysDetector where
  isOs : Except Exc Bool
  getVersion : Except Exc (Option (List Char))
  getCodename : Except Exc (Option (List Char))

/-- `if self.is_os(): .. raise OsNotDetected` as in all detectors (e.g. `os_detect.py:111-114`). -/
def whenOs {α : Type} (isOs : Except Exc Bool) (body : Except Exc α) : Except Exc α := do
  let b ← isOs
  if b then body else .error .osNotDetected

/-- `l.index(x)` (python builtin). -/
def pyIndex (x : List Char) (l : List (List Char)) : Except Exc Nat := if x ∈ l then .ok (l.idxOf x) else .error .valueError

/-- `l[i]` for `i ≥ 0` (python builtin). -/
def pyAt {α : Type} (l : List α) (i : Nat) : Except Exc α :=
  match l[i]? with
  | some x => .ok x
  | none => .error .indexError

/-- The words of a file that is used without checking that it exists: methods of `None` do not exist. -/
def issueOrFail (sys : System) (path : String) : Except Exc (List (List Char)) :=
  match readIssue sys path with
  | some l => .ok l
  | none => .error .attributeError

/-- `LsbDetect`, `os_detect.py:96-120`. -/
def lsbDetector (sys : System) (lsbName : String) : SysDetector :=
  let isOs : Except Exc Bool := .ok (match sys.lsbInfo with | some i => i.1 == lsbName | none => false)
  { isOs := isOs
    getVersion := whenOs isOs (.ok (sys.lsbInfo.map fun i => i.2.1.toList))
    getCodename := whenOs isOs (.ok (sys.lsbInfo.map fun i => i.2.2.toList)) }

/-- The lines of a file, `os_detect.py:137, 147`. -/
def fileLines (sys : System) (text : List Char) : List (List Char) := pySplit '\n' (pyStrip sys.ws text)

/-- `OpenSuse.is_os`, `os_detect.py:130-132`. -/
def suseIsOs (sys : System) : Except Exc Bool :=
  match readIssue sys "/etc/SuSE-brand" with
  | some (w :: _) => .ok (w == "openSUSE".toList)
  | _ => .ok false

/-- `OpenSuse.get_version`, `os_detect.py:134-142`. -/
def suseVersion (sys : System) : Except Exc (Option (List Char)) :=
  match sys.text "/etc/SuSE-brand" with
  | none => .error .osNotDetected
  | some t =>
    match fileLines sys t with
    | [_, l] =>
      match pySplitStr " = ".toList l with
      | k :: r => if k = "VERSION".toList then (pyAt r 0).map some else .error .osNotDetected
      | [] => .error .osNotDetected
    | _ => .error .osNotDetected

/-- The loop of `OpenSuse.get_codename`, `os_detect.py:148-151`. -/
def suseCodenameLoop : List (List Char) → Except Exc (Option (List Char))
  | [] => .error .osNotDetected
  | l :: t =>
    match pySplitStr " = ".toList l with
    | k :: r => if k = "CODENAME".toList then (pyAt r 0).map some else suseCodenameLoop t
    | [] => suseCodenameLoop t

/-- `OpenSuse.get_codename`, `os_detect.py:144-152`. -/
def suseCodename (sys : System) : Except Exc (Option (List Char)) :=
  match sys.text "/etc/SuSE-release" with
  | none => .error .osNotDetected
  | some t => suseCodenameLoop (fileLines sys t)

/-- `OpenSuse`, `os_detect.py:122-152`. -/
def suseDetector (sys : System) : SysDetector where
  isOs := suseIsOs sys
  getVersion := whenOs (suseIsOs sys) (suseVersion sys)
  getCodename := whenOs (suseIsOs sys) (suseCodename sys)

/-- Removing the parenthesis at the end, `os_detect.py:179-181`; `codename[-1]` of the empty text is an IndexError. -/
def dropParen (codename : List Char) : Except Exc (List Char) :=
  match codename.getLast? with
  | none => .error .indexError
  | some c => .ok (if c = ')' then codename.dropLast else codename)

/-- The codename in parentheses, `os_detect.py:176-182, 211-217`; words are not empty. -/
def parenCodename (sys : System) (words : List (List Char)) : Except Exc (Option (List Char)) := do
  let _ ← pyIndex "release".toList words
  let m ← pyAt (words.filter fun x => x.head? == some '(') 0
  let c ← dropParen (m.drop 1)
  pure (some (sys.lower c))

/-- `Fedora.is_os`, `os_detect.py:162-164`. -/
def fedoraIsOs (sys : System) : Except Exc Bool :=
  match readIssue sys "/etc/redhat-release" with
  | some (w :: _) => .ok (w == "Fedora".toList)
  | _ => .ok false

/-- `Fedora.get_version`, `os_detect.py:166-172`, after the check. -/
def fedoraVersion (sys : System) : Except Exc (Option (List Char)) := do
  let words ← issueOrFail sys "/etc/issue"
  let idx ← pyIndex "release".toList words
  if idx > 0 then (pyAt words (idx + 1)).map some else .error .osNotDetected

/-- `Fedora.get_codename` and `Rhel.get_codename` after the check, `os_detect.py:174-183, 208-218`. -/
def redhatCodename (sys : System) : Except Exc (Option (List Char)) := do
  let words ← issueOrFail sys "/etc/redhat-release"
  parenCodename sys words

/-- `Fedora`, `os_detect.py:154-183`. -/
def fedoraDetector (sys : System) : SysDetector where
  isOs := fedoraIsOs sys
  getVersion := whenOs (fedoraIsOs sys) (fedoraVersion sys)
  getCodename := whenOs (fedoraIsOs sys) (redhatCodename sys)

/-- `Rhel.is_os`, `os_detect.py:192-194`. -/
def rhelIsOs (sys : System) : Except Exc Bool :=
  match readIssue sys "/etc/redhat-release" with
  | some words => .ok (words.take 3 == ["Red".toList, "Hat".toList, "Enterprise".toList])
  | none => .ok false

/-- `Rhel.get_version`, `os_detect.py:196-201`, after the check. -/
def rhelVersion (sys : System) : Except Exc (Option (List Char)) := do
  let words ← issueOrFail sys "/etc/redhat-release"
  let idx ← pyIndex "release".toList words
  (pyAt words (idx + 1)).map some

/-- `Rhel`, `os_detect.py:185-218`. -/
def rhelDetector (sys : System) : SysDetector where
  isOs := rhelIsOs sys
  getVersion := whenOs (rhelIsOs sys) (rhelVersion sys)
  getCodename := whenOs (rhelIsOs sys) (redhatCodename sys)

/-- `OSX.get_codename`, `os_detect.py:239-246`, after the check. `StrictVersion(None)` and `StrictVersion("")` have no `version`. -/
def osxCodenameOf (sys : System) : Except Exc (Option (List Char)) :=
  match sys.stdout ["/usr/bin/sw_vers", "-productVersion"] with
  | none => .error .attributeError
  | some s =>
    if s = "" then .error .attributeError
    else
      match sys.strictVersion s with
      | some v => (osxCodename v.1 v.2).map fun c => some c.toList
      | none => .error .osNotDetected

/-- `OSX`, `os_detect.py:228-252`. -/
def osxDetector (sys : System) : SysDetector where
  isOs := .ok (sys.pathExists "/usr/bin/sw_vers")
  getVersion := whenOs (.ok (sys.pathExists "/usr/bin/sw_vers")) (.ok ((sys.stdout ["/usr/bin/sw_vers", "-productVersion"]).map String.toList))
  getCodename := whenOs (.ok (sys.pathExists "/usr/bin/sw_vers")) (osxCodenameOf sys)

/-- `is_os` of `QNX` and `FreeBSD`, `os_detect.py:268-273, 353-358`; `None.strip` does not exist. -/
def unameIsOs (sys : System) (unameFile osName : String) : Except Exc Bool :=
  if sys.pathExists unameFile then
    match sys.stdout [unameFile] with
    | none => .error .attributeError
    | some s => .ok (pyStrip sys.ws s.toList == osName.toList)
  else .ok false

/-- `QNX`, `os_detect.py:255-283`, and `FreeBSD`, lines 346-368. -/
def unameDetector (sys : System) (unameFile osName : String) : SysDetector where
  isOs := unameIsOs sys unameFile osName
  getVersion := whenOs (unameIsOs sys unameFile osName) (.ok ((sys.stdout [unameFile, "-r"]).map String.toList))
  getCodename := whenOs (unameIsOs sys unameFile osName) (.ok (some []))

/-- `Arch`, `os_detect.py:286-304`. -/
def archDetector (sys : System) : SysDetector where
  isOs := .ok (sys.pathExists "/etc/arch-release")
  getVersion := whenOs (.ok (sys.pathExists "/etc/arch-release")) (.ok (some []))
  getCodename := whenOs (.ok (sys.pathExists "/etc/arch-release")) (.ok (some []))

/-- `Cygwin`, `os_detect.py:306-321`. -/
def cygwinDetector (sys : System) : SysDetector where
  isOs := .ok (sys.pathExists "/usr/bin/cygwin1.dll")
  getVersion := whenOs (.ok (sys.pathExists "/usr/bin/cygwin1.dll")) (.ok ((sys.stdout ["uname", "-r"]).map String.toList))
  getCodename := whenOs (.ok (sys.pathExists "/usr/bin/cygwin1.dll")) (.ok (some []))

/-- `Gentoo.is_os`, `os_detect.py:330-332`: `os_list[1]` is only looked at if the first word matches. -/
def gentooIsOs (sys : System) : Except Exc Bool :=
  match readIssue sys "/etc/gentoo-release" with
  | some (w :: r) => if w = "Gentoo".toList then (pyAt r 0).map fun b => b == "Base".toList else .ok false
  | _ => .ok false

/-- `Gentoo.get_version`, `os_detect.py:335-338`, after the check (which is repeated in the code). -/
def gentooVersion (sys : System) : Except Exc (Option (List Char)) := do
  let words ← issueOrFail sys "/etc/gentoo-release"
  (pyAt words 4).map some

/-- `Gentoo`, `os_detect.py:323-344`. -/
def gentooDetector (sys : System) : SysDetector where
  isOs := gentooIsOs sys
  getVersion := whenOs (gentooIsOs sys) (gentooVersion sys)
  getCodename := whenOs (gentooIsOs sys) (.ok (some []))

/-- `Windows`, `os_detect.py:370-385`. -/
def windowsDetector (sys : System) : SysDetector where
  isOs := .ok (sys.platformSystem == "Windows")
  getVersion := whenOs (.ok (sys.platformSystem == "Windows")) (.ok (some sys.platformVersion.toList))
  getCodename := whenOs (.ok (sys.platformSystem == "Windows")) (.ok (some sys.platformRelease.toList))

/-! ## `OsDetect` -/

/-- A list of detectors with the names they are registered under. -/
abbrev DetectorList := List (String × SysDetector)

/-- `register_default`, `os_detect.py:405-415`: a new detector comes first. -/
def registerDefault (l : DetectorList) (name : String) (d : SysDetector) : DetectorList := (name, d) :: l

/-- The detectors registered at import, in the order of registration, `os_detect.py:510-523`. -/
def defaultRegistrations (sys : System) : DetectorList :=
  [ ("arch", archDetector sys), ("cygwin", cygwinDetector sys), ("debian", lsbDetector sys "debian"), ("fedora", fedoraDetector sys),
    ("freebsd", unameDetector sys "/usr/bin/uname" "FreeBSD"), ("gentoo", gentooDetector sys), ("mint", lsbDetector sys "LinuxMint"),
    ("opensuse", suseDetector sys), ("osx", osxDetector sys), ("qnx", unameDetector sys "/bin/uname" "QNX"), ("rhel", rhelDetector sys),
    ("ubuntu", lsbDetector sys "Ubuntu"), ("xubuntu", lsbDetector sys "Xubuntu"), ("windows", windowsDetector sys) ]

/-- `OsDetect.default_os_list` after import. -/
def defaultOsList (sys : System) : DetectorList := (defaultRegistrations sys).foldl (fun l d => registerDefault l d.1 d.2) []

/-- An `OsDetect` object, `os_detect.py:387-403`. `own` is the list given to the constructor; without one the object refers to the list of
the class (the same object, not a copy). -/
structure DetectObj where
  own : Option DetectorList
  name : Option (List Char) := none
  version : Option (List Char) := none
  codename : Option (List Char) := none
  detector : Option SysDetector := none
  override : Bool := false

/-- `OsDetect(os_list)`, `os_detect.py:395-403`. -/
def mkDetectObj (own : Option DetectorList) : DetectObj := { own := own }

/-- `self._os_list`; `shared` is the list of the class. -/
def DetectObj.osList (o : DetectObj) (shared : DetectorList) : DetectorList := o.own.getD shared

/-- Truth value of an attribute that is text or `None` (python builtin). -/
def truthyText : Option (List Char) → Bool
  | none => false
  | some t => !t.isEmpty

/-- The body of the loop for a detector that detects its os, `os_detect.py:440-443`: the name stays set if asking for the version raises. -/
def useDetector (o : DetectObj) (name : String) (d : SysDetector) : DetectObj × Except Exc Unit :=
  let o := { o with name := some name.toList }
  match d.getVersion with
  | .error e => (o, .error e)
  | .ok v =>
    let o := { o with version := v }
    match d.getCodename with
    | .error e => (o, .error e)
    | .ok c => ({ o with codename := c, detector := some d }, .ok ())

/-- The loop, `os_detect.py:438-443`: it does not stop at the first match. -/
def detectAll : DetectObj → DetectorList → DetectObj × Except Exc Unit
  | o, [] => (o, .ok ())
  | o, (name, d) :: t =>
    match d.isOs with
    | .error e => (o, .error e)
    | .ok false => detectAll o t
    | .ok true =>
      match useDetector o name d with
      | (o', .error e) => (o', .error e)
      | (o', .ok ()) => detectAll o' t

/-- The override, `os_detect.py:427-436`. -/
def useOverride (o : DetectObj) (value : List Char) : DetectObj :=
  let splits := pySplit ':' value
  { o with name := some (splits.headD []), version := some ((splits.drop 1).headD []), codename := some ((splits.drop 2).headD []), override := true }

/-- A detected os: name, version, codename. -/
abbrev Detected := Option (List Char) × Option (List Char) × Option (List Char)

/-- The end of `detect_os`, `os_detect.py:445-449`. -/
def detectedTuple (o : DetectObj) : Except Exc Detected :=
  if truthyText o.name then .ok (o.name, o.version, o.codename) else .error .osNotDetected

/-- `detect_os`, `os_detect.py:417-449`; `env` is the value of `ROS_OS_OVERRIDE`. The object afterwards and the outcome. -/
def DetectObj.detect (o : DetectObj) (shared : DetectorList) (env : Option (List Char)) : DetectObj × Except Exc Detected :=
  match env with
  | some value => (useOverride o value, detectedTuple (useOverride o value))
  | none =>
    match detectAll o (o.osList shared) with
    | (o', .error e) => (o', .error e)
    | (o', .ok ()) => (o', detectedTuple o')

/-- `get_name`, `get_version`, `get_codename`, `os_detect.py:480-493`; `field` is the attribute. -/
def DetectObj.get (field : DetectObj → Option (List Char)) (o : DetectObj) (shared : DetectorList) (env : Option (List Char)) :
    DetectObj × Except Exc (Option (List Char)) :=
  if truthyText (field o) then (o, .ok (field o))
  else
    match o.detect shared env with
    | (o', .error e) => (o', .error e)
    | (o', .ok _) => (o', .ok (field o'))

/-- `get_detector` with a name, `os_detect.py:464-468`. -/
def DetectObj.getDetector (o : DetectObj) (shared : DetectorList) (name : String) : Except Exc SysDetector :=
  match (o.osList shared).find? (fun d => d.1 == name) with
  | some d => .ok d.2
  | none => .error .keyError

/-- `add_detector`, `os_detect.py:470-478`: the object and the list of the class afterwards (`insert` changes the list in place). -/
def DetectObj.addDetector (o : DetectObj) (shared : DetectorList) (name : String) (d : SysDetector) : DetectObj × DetectorList :=
  match o.own with
  | some l => ({ o with own := some ((name, d) :: l) }, shared)
  | none => (o, (name, d) :: shared)

end Verif
