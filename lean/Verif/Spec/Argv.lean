import Verif.Spec.CommandLine
import Verif.Model.Argv
/-! # Specification vocabulary for the words of the command line -/
namespace Verif

/-- An option string of one dash and one character. -/
def shortFlag (c : Char) : String := String.ofList ['-', c]

/-- A short option without value. -/
def switchGiven (c : Char) : Given := ⟨shortFlag c, none⟩

/-- A word that does not begin with a dash. -/
def PlainWord (w : String) : Prop := w.toList.head? ≠ some '-'

/-- Words that may be meant as argument although they begin with a dash: `-`, negative numbers, words with a space in them. -/
def ArgWord (w : String) : Prop := PlainWord w ∨ w = "-" ∨ negativeNumber w.toList = true ∨ ' ' ∈ w.toList

/-- The ways to write options on the command line: `--flag`, `--flag value`, `--flag=value`, and several short options without value in one word, `-vd`
(argparse of python 2.7 also accepts `-v=d` for that). `value` says which words can be a value of their own. -/
inductive Written (value : String → Prop) : List Given → List String → Prop
  | nil : Written value [] []
  | alone {l : List Given} {ws : List String} (f : String) : f ≠ "--" → Written value l ws → Written value (⟨f, none⟩ :: l) (f :: ws)
  | apart {l : List Given} {ws : List String} (f v : String) : f ≠ "--" → value v → Written value l ws →
      Written value (⟨f, some v⟩ :: l) (f :: v :: ws)
  | joined {l : List Given} {ws : List String} (f v : String) : Written value l ws →
      Written value (⟨f, some v⟩ :: l) (String.ofList (f.toList ++ '=' :: v.toList) :: ws)
  | bundle {l : List Given} {ws : List String} (c d : Char) (cs : List Char) : '-' ∉ c :: d :: cs → Written value l ws →
      Written value ((c :: d :: cs).map switchGiven ++ l) (String.ofList ('-' :: c :: d :: cs) :: ws)
  | bundleEq {l : List Given} {ws : List String} (c d : Char) (cs : List Char) : '-' ∉ c :: d :: cs → Written value l ws →
      Written value ((c :: d :: cs).map switchGiven ++ l) (String.ofList ('-' :: c :: '=' :: d :: cs) :: ws)

/-- The option strings are as usual: two dashes and a name, or one dash and one character for an option without value; no `=` in them, and none is listed twice. -/
structure Usual (opts : List OptSpec) : Prop where
  noEq : ∀ o ∈ opts, ∀ f ∈ o.flags, '=' ∉ f.toList
  form : ∀ o ∈ opts, ∀ f ∈ o.flags, (∃ c r, f.toList = '-' :: '-' :: c :: r) ∨ (∃ c, c ≠ '-' ∧ f = shortFlag c ∧ o.action ≠ .store ∧ o.action ≠ .append)
  nodup : ∀ o ∈ opts, o.flags.Nodup

/-- The option string, in full or abbreviated, means an option of the parser, and there is a value exactly if the option takes one. -/
def Fitting (opts : List OptSpec) (g : Given) : Prop :=
  ∃ o, findOption opts g.flag = .ok o ∧ (g.value.isSome = true ↔ (o.action = .store ∨ o.action = .append))

/-- So many words a positional argument takes. -/
def Positionals.admits : Positionals → List String → Prop
  | .many, keys => keys ≠ []
  | .one, keys => ∃ k, keys = [k]
  | _, keys => keys = []

/-- How keys are written: as they are, or with `--` somewhere among them, which makes keys of all words behind it (so nothing else follows). -/
def KeyWords (keys kw rest : List String) : Prop :=
  (kw = keys ∧ ∀ k ∈ keys, ArgWord k) ∨
  (rest = [] ∧ ∃ k1 k2, keys = k1 ++ k2 ∧ kw = k1 ++ "--" :: k2 ∧ ∀ k ∈ k1, ArgWord k)

/-- No option string of the command's own begins an option string of the top level parser. -/
def NoShadow (top sub : List OptSpec) : Prop := ∀ f ∈ allFlags sub, f ∉ allFlags top → ∀ g ∈ allFlags top, ¬ f.toList <+: g.toList

/-- The word asks the parser to end the program (`--help`, `--version`): it means such an option, in full or abbreviated, or it begins with one dash and has the
letter of such an option in it, as `-vh` does. -/
def QuitWord (opts : List OptSpec) (w : String) : Prop :=
  (∃ o, findOption opts w = .ok o ∧ o.action = .quit) ∨
  (∃ o ∈ opts, o.action = .quit ∧ ∃ c r, shortFlag c ∈ o.flags ∧ w.toList = '-' :: r ∧ r.head? ≠ some '-' ∧ c ∈ r)

end Verif
