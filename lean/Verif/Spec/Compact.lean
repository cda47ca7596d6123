import Verif.Spec.Rules
/-! # Specification vocabulary for compaction

The input condition of the compaction functions, on the typed view, and what it means that two lookups agree. -/
namespace Verif

/-- A normal rule: distinct keys, `packages` a list, `depends` neither null, text nor an empty list. -/
structure GoodRule (ρ : Rule) : Prop where
  nodup : DWF ρ
  packages : ∀ p, dget ρ "packages" = some p → ∃ l, p = .list l
  depends : ∀ p, dget ρ "depends" = some p → p ≠ .none ∧ (∀ s, p ≠ .str s) ∧ p ≠ .list []
  vals : ∀ k p, dget ρ k = some p → p.WF

/-- A normal installer dict. -/
structure GoodInst (d : InstDict) : Prop where
  nodup : DWF d
  rules : ∀ n ρ, dget d n = some ρ → GoodRule ρ

/-- A normal version dict. -/
structure GoodVer (d : VerDict) : Prop where
  nodup : DWF d
  insts : ∀ n i, dget d n = some i → GoodInst i

/-- A normal os dict: `any_os` has exactly the version `any_version`, whose installer dict has neither
`default_installer` nor an installer called `any_version`. -/
structure GoodOs (d : OsDict) : Prop where
  nodup : DWF d
  vers : ∀ n v, dget d n = some v → GoodVer v
  anyOs : ∀ v, dget d "any_os" = some v → ∃ i, v = [("any_version", i)] ∧
    dget i "default_installer" = none ∧ dget i "any_version" = none

/-- Rules dicts in the normal form that expansion and verification establish. -/
structure GoodRules (r : Rules) : Prop where
  nodup : DWF r
  oss : ∀ k od, dget r k = some od → GoodOs od

/-- Two lookups agree: both fail, or both succeed and give for every installer equal (Python `==`) rules. -/
inductive SameLookup : Except Exc InstDict → Except Exc InstDict → Prop
  | fails (e e' : Exc) : SameLookup (.error e) (.error e')
  | ok (d d' : InstDict) (h : ∀ inst, (dget d inst = none ∧ dget d' inst = none) ∨
      ∃ ρ ρ' : Rule, dget d inst = some ρ ∧ dget d' inst = some ρ' ∧ pyEq ρ.toVal ρ'.toVal = true) :
      SameLookup (.ok d) (.ok d')

end Verif
