import Verif.Model.Config
import Verif.Model.Text
/-!
# Help texts

The help formatter of the command line parser and the help texts of config options (`config_utils.py:277-324, 795-813`).

Not modelled: argparse (which decides where a text goes and expands `%` in it) and `textwrap.wrap` (a parameter). Texts are unicode objects.
-/
namespace Verif

/-- What is used of python's library: which characters are whitespace for `unicode` methods, `textwrap.wrap(block, width, initial_indent=indent,
subsequent_indent=indent)` (which raises if the width is not positive). -/
structure WrapLib where
  space : Char → Bool
  wrap : List Char → Int → List Char → Except Exc (List (List Char))

/-- The characters matched by `\s` in a regular expression without flags (python 2). -/
def reSpace (c : Char) : Bool := c == ' ' || c == '\t' || c == '\n' || c == '\r' || c == '\x0b' || c == '\x0c'

/-- The characters that end a line for `unicode.splitlines` (python builtin). -/
def endsLine (c : Char) : Bool :=
  c == '\n' || c == '\r' || c == '\x0b' || c == '\x0c' || c == '\x1c' || c == '\x1d' || c == '\x1e' || c == '\x85' || c == '\u2028' || c == '\u2029'

/-- The scan of `re.split(r'\n\n\n+', text)`: `cur` is the current piece (reversed), followed by `run` newlines; `config_utils.py:297, 303`. -/
def splitParasGo (cur : List Char) (run : Nat) : List Char → List (List Char)
  | [] => if 3 ≤ run then [cur.reverse, []] else [cur.reverse ++ List.replicate run '\n']
  | c :: t =>
    if c = '\n' then splitParasGo cur (run + 1) t
    else if 3 ≤ run then cur.reverse :: splitParasGo [c] 0 t
    else splitParasGo (c :: (List.replicate run '\n' ++ cur)) 0 t

/-- `self._paragraph_break_matcher.split(text)`, `config_utils.py:303`. -/
def splitParas (text : List Char) : List (List Char) := splitParasGo [] 0 text

/-- The scan of `re.split(r'\n\n', text)`: `cur` is the current piece (reversed), `nl` tells if a newline follows it; `config_utils.py:298, 310`. -/
def splitBlocksGo (cur : List Char) (nl : Bool) : List Char → List (List Char)
  | [] => [cur.reverse ++ (if nl then ['\n'] else [])]
  | c :: t =>
    if c = '\n' then (if nl then cur.reverse :: splitBlocksGo [] false t else splitBlocksGo cur true t)
    else splitBlocksGo (c :: ((if nl then ['\n'] else []) ++ cur)) false t

/-- `self._line_break_matcher.split(para)`, `config_utils.py:310`. -/
def splitBlocks (para : List Char) : List (List Char) := splitBlocksGo [] false para

/-- A raw paragraph with its marker (and the whitespace before it) replaced by blanks, `config_utils.py:299, 304-306`; none if the paragraph is
not raw. -/
def rawPara (para : List Char) : Option (List Char) :=
  match para.dropWhile reSpace with
  | 'R' :: '|' :: t => some (List.replicate ((para.takeWhile reSpace).length + 2) ' ' ++ t)
  | _ => none

/-- `self._whitespace_matcher.sub(' ', s)`, `config_utils.py:311`; `inRun` tells if the last character was whitespace. -/
def collapse (inRun : Bool) : List Char → List Char
  | [] => []
  | c :: t => if reSpace c then (if inRun then collapse true t else ' ' :: collapse true t) else c :: collapse false t

/-- Blanks and tabs, which make up indentation for `textwrap.dedent`. -/
def indenting (c : Char) : Bool := c == ' ' || c == '\t'

/-- The longest common beginning. -/
def commonPrefix : List Char → List Char → List Char
  | a :: s, b :: t => if a = b then a :: commonPrefix s t else []
  | _, _ => []

/-- The common indentation of some lines (the loop of `textwrap.dedent`, python library). -/
def marginOf : List (List Char) → List Char
  | [] => []
  | [l] => l.takeWhile indenting
  | l :: m :: t => commonPrefix (l.takeWhile indenting) (marginOf (m :: t))

/-- Lines of blanks and tabs become empty (`textwrap.dedent`, python library). -/
def blankOut (l : List Char) : List Char := if l.all indenting then [] else l

/-- A line without the margin (`textwrap.dedent`, python library). -/
def cutMargin (margin l : List Char) : List Char := if margin.isPrefixOf l then l.drop margin.length else l

/-- The lines of `textwrap.dedent(text)` (python library). -/
def dedentLines (ls : List (List Char)) : List (List Char) :=
  (ls.map blankOut).map (cutMargin (marginOf ((ls.map blankOut).filter fun l => !l.isEmpty)))

/-- `textwrap.dedent(text)` (python library, as of 2.7.18: older versions remove nothing if one line is indented with tabs and another with blanks). -/
def dedent (text : List Char) : List Char := pyJoin ['\n'] (dedentLines (pySplit '\n' text))

/-- The scan of `s.splitlines()` (python builtin): `cur` is the current line (reversed), `cr` tells if the last character was `\r`. -/
def splitlinesGo (cur : List Char) (cr : Bool) : List Char → List (List Char)
  | [] => if cur = [] then [] else [cur.reverse]
  | c :: t =>
    if cr && c == '\n' then splitlinesGo [] false t
    else if endsLine c then cur.reverse :: splitlinesGo [] (c == '\r') t
    else splitlinesGo (c :: cur) false t

/-- `s.splitlines()` (python builtin). -/
def splitlines (s : List Char) : List (List Char) := splitlinesGo [] false s

/-- The lines of the blocks of a paragraph, `config_utils.py:310-314`. -/
def blockLines (lib : WrapLib) (width : Int) (indent : List Char) : List (List Char) → Except Exc (List (List Char))
  | [] => pure []
  | b :: t => do
    let ls ← lib.wrap (pyStrip lib.space (collapse false b)) width indent
    let rest ← blockLines lib width indent t
    pure (ls ++ rest)

/-- The lines of a paragraph, `config_utils.py:304-314`. -/
def paraLines (lib : WrapLib) (width : Int) (indent : List Char) (para : List Char) : Except Exc (List (List Char)) :=
  match rawPara para with
  | some p => pure ((splitlines (dedent p)).map fun l => indent ++ l)
  | none => blockLines lib width indent (splitBlocks para)

/-- The loop over the paragraphs, `config_utils.py:303-315`. -/
def parasLines (lib : WrapLib) (width : Int) (indent : List Char) : List (List Char) → Except Exc (List (List Char))
  | [] => pure []
  | p :: t => do
    let ls ← paraLines lib width indent p
    let rest ← parasLines lib width indent t
    pure (ls ++ [[]] ++ rest)

/-- `ConfigHelpFormatter._wrap_paragraphs`, `config_utils.py:301-318`; also `_split_lines` (320-321, without indentation). -/
def wrapParagraphs (lib : WrapLib) (text : List Char) (width : Int) (indent : List Char) : Except Exc (List (List Char)) := do
  let ls ← parasLines lib width indent (splitParas text)
  pure ls.dropLast

/-- `ConfigHelpFormatter._fill_text`, `config_utils.py:323-324`. -/
def fillText (lib : WrapLib) (text : List Char) (width : Int) (indent : List Char) : Except Exc (List Char) := do
  let ls ← wrapParagraphs lib text width indent
  pure (pyJoin ['\n'] ls)

/-- `ConfigItem.is_group_name`, `is_group`, `config_utils.py:795-799`. -/
def isGroupName (name : List Char) : Bool := name.contains '/'

/-- The beginning of the help text, `config_utils.py:803-805`. -/
def helpHead : Option (List Char) → List Char
  | some h => if h = [] then [] else h ++ "\n\n".toList
  | none => []

/-- The default in the help text, `config_utils.py:810-811`. -/
def helpDefault : Option (List Char) → List (List Char)
  | some d => ["default: ".toList ++ d]
  | none => []

/-- `ConfigItem.help_string`, `config_utils.py:801-813`. The name of the type (`type_name`) and the default as text are parameters, the latter none if it is
the unset value; `arg` is the name of the command line option. -/
def helpString (name arg : List Char) (help : Option (List Char)) (type : List Char) (default : Option (List Char)) : List Char :=
  helpHead help ++ "(".toList ++ pyJoin ", ".toList
    ((if isGroupName name || arg != dashify name then ["config: `".toList ++ name ++ "`".toList] else []) ++
      ["type: ".toList ++ type] ++ helpDefault default) ++ ")".toList

end Verif
