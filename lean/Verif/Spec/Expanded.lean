import Verif.Py.Val
/-! # Specification: identifiers, well-formed and expanded rules as plain YAML values -/
namespace Verif

/-- A word character: an ASCII letter, digit or underscore, or a non-ASCII character that the Unicode database
`uni` classifies as alphanumeric. -/
def WordChar (uni : Char → Bool) (c : Char) : Prop :=
  ('a' ≤ c ∧ c ≤ 'z') ∨ ('A' ≤ c ∧ c ≤ 'Z') ∨ ('0' ≤ c ∧ c ≤ '9') ∨ c = '_' ∨ (128 ≤ c.toNat ∧ uni c = true)

/-- Characters the documentation allows in names: word characters, `.`, `’`, `+`, `-`. -/
def NameChar (uni : Char → Bool) (c : Char) : Prop := WordChar uni c ∨ c = '.' ∨ c = '’' ∨ c = '+' ∨ c = '-'

/-- A string the name check accepts: `mountain lion`, or a non-empty run of name characters
optionally followed by one newline. -/
def AcceptedName (uni : Char → Bool) (s : String) : Prop :=
  s = "mountain lion" ∨
  ∃ body, body ≠ [] ∧ (∀ c ∈ body, NameChar uni c) ∧ (s.toList = body ∨ s.toList = body ++ ['\n'])

/-- Reserved words of rules files. -/
def Reserved (s : String) : Prop :=
  s = "any_os" ∨ s = "any_version" ∨ s = "default_installer" ∨ s = "unset_installers" ∨ s = "any_key"

/-- `k` is text, an accepted name, and if reserved then it is the keyword `own` of this position (if any). -/
def ValidName (uni : Char → Bool) (own : Option String) (k : PKey) : Prop :=
  ∃ s, k = .str s ∧ AcceptedName uni s ∧ (Reserved s → own = some s)

/-- A valid installer rule: a dict with text keys, `packages` a list, `depends` a list of valid keys. -/
def ValidRule (uni : Char → Bool) (v : PVal) : Prop :=
  ∃ d, v = .dict d ∧ ∀ k w, (k, w) ∈ d →
    (∃ s, k = .str s) ∧
    (k = .str "packages" → ∃ l, w = .list l) ∧
    (k = .str "depends" → ∃ l, w = .list l ∧ ∀ x ∈ l, ∃ s, x = .str s ∧ ValidName uni none (.str s))

/-- A valid installer dict. -/
def ValidInst (uni : Char → Bool) (allowDefault : Prop) (v : PVal) : Prop :=
  ∃ d, v = .dict d ∧ ∀ k w, (k, w) ∈ d →
    ValidName uni (some "default_installer") k ∧ (k = .str "default_installer" → allowDefault) ∧ ValidRule uni w

/-- A valid version dict. -/
def ValidVer (uni : Char → Bool) (allowDefault : Prop) (v : PVal) : Prop :=
  ∃ d, v = .dict d ∧ ∀ k w, (k, w) ∈ d → ValidName uni (some "any_version") k ∧ ValidInst uni allowDefault w

/-- A valid os dict: default installers are not allowed below `any_os`. -/
def ValidOs (uni : Char → Bool) (allowDefault : Prop) (v : PVal) : Prop :=
  ∃ d, v = .dict d ∧ ∀ k w, (k, w) ∈ d →
    ValidName uni (some "any_os") k ∧ ValidVer uni (allowDefault ∧ k ≠ .str "any_os") w

/-- A valid rules dict. -/
def ValidRules (uni : Char → Bool) (allowDefault : Prop) (v : PVal) : Prop :=
  ∃ d, v = .dict d ∧ ∀ k w, (k, w) ∈ d → ValidName uni none k ∧ ValidOs uni allowDefault w

/-! ## Expanded form -/

/-- An expanded rule: a dict in which `packages` is neither null nor text, and `depends` is neither null, nor
text, nor the empty list. -/
def ExpandedRule (v : PVal) : Prop :=
  ∃ d, v = .dict d ∧
    (∀ p, (PKey.str "packages", p) ∈ d → p ≠ .none ∧ ∀ s, p ≠ .str s) ∧
    (∀ p, (PKey.str "depends", p) ∈ d → p ≠ .none ∧ (∀ s, p ≠ .str s) ∧ p ≠ .list [])

/-- An expanded installer dict. -/
def ExpandedInst (v : PVal) : Prop := ∃ d, v = .dict d ∧ ∀ k w, (k, w) ∈ d → ExpandedRule w
/-- An expanded version dict. -/
def ExpandedVer (v : PVal) : Prop := ∃ d, v = .dict d ∧ ∀ k w, (k, w) ∈ d → ExpandedInst w
/-- An expanded os dict: `any_os` has exactly the version `any_version`. -/
def ExpandedOs (v : PVal) : Prop := ∃ d, v = .dict d ∧ ∀ k w, (k, w) ∈ d →
  ExpandedVer w ∧ (k = .str "any_os" → ∃ i, w = .dict [(.str "any_version", i)])
/-- An expanded rules dict. -/
def ExpandedRules (v : PVal) : Prop := ∃ d, v = .dict d ∧ ∀ k w, (k, w) ∈ d → ExpandedOs w

end Verif
