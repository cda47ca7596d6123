import Verif.Lemmas.Merge3
/-! # Properties C17, C18: merging rules dicts -/
namespace Verif

/-- Input condition of `merge_rules` ("fully expanded and have valid structure"): dicts have distinct keys and an
`any_os` entry has exactly the version `any_version` (theorem C06 shows that expansion guarantees this). -/
structure MergeInput (r : Rules) : Prop where
  wf : r.WF
  anyOs : ∀ k od vd, dget r k = some od → dget od "any_os" = some vd → dkeys vd = ["any_version"]

theorem MergeInput.rulesOk {r : Rules} (h : MergeInput r) : RulesOk r := by
  refine ⟨h.wf.1, fun k od hk => ⟨h.wf.2 _ _ hk, fun vd hvd v => ?_⟩⟩
  rw [← mem_dkeys_iff, h.anyOs _ _ _ hk hvd]; simp

/-- A usable table of default installers: no entry for the keyword `any_os`, and the keyword
`default_installer` is not itself the name of a default installer. -/
structure DefaultTable (dflts : Dict String (Option String)) : Prop where
  noAnyOs : dget dflts "any_os" = none
  noKw : ∀ o, dget dflts o ≠ some (some "default_installer")

/-- `r` is the first rules dict of the list whose own lookup has a rule for `inst`, and `rule` is that rule. -/
def FirstRule (rs : List Rules) (key os ver : String) (dflt : Option String) (inst : String) (rule : Rule) : Prop :=
  ∃ pre r post, rs = pre ++ r :: post ∧
    (∃ d, lookupRules r key os ver dflt = .ok d ∧ dget d inst = some rule) ∧
    ∀ r' ∈ pre, ∃ d, lookupRules r' key os ver dflt = .ok d ∧ dget d inst = none

theorem firstRule_iff {rs : List Rules} {key os ver : String} {dflt : Option String} {inst : String} {rule : Rule}
    (hok : ∀ r ∈ rs, ∃ d, lookupRules r key os ver dflt = .ok d) :
    rfirst rs dflt key os ver inst = some rule ↔ FirstRule rs key os ver dflt inst rule := by
  induction rs with
  | nil =>
    simp only [rfirst, reduceCtorEq, false_iff]
    rintro ⟨pre, r, post, h, _⟩; simp at h
  | cons r rs ih =>
    obtain ⟨d, hd⟩ := hok r (by simp)
    have hl := lookup_rolook hd inst
    have ih' := ih (fun r hr => hok r (by simp [hr]))
    simp only [rfirst]
    cases h1 : rolook r dflt key os ver inst with
    | some x =>
      simp only [Option.some_or, Option.some.injEq]
      constructor
      · rintro rfl
        exact ⟨[], r, rs, rfl, ⟨d, hd, by rw [hl, h1]⟩, by simp⟩
      · rintro ⟨pre, r', post, he, ⟨d', hd', hr'⟩, hpre⟩
        cases pre with
        | nil =>
          simp only [List.nil_append, List.cons.injEq] at he
          obtain ⟨rfl, rfl⟩ := he
          rw [hd] at hd'; injection hd' with hd'; subst hd'
          rw [hl, h1] at hr'; injection hr'
        | cons p pre =>
          simp only [List.cons_append, List.cons.injEq] at he
          obtain ⟨rfl, rfl⟩ := he
          obtain ⟨d2, hd2, hn⟩ := hpre r (by simp)
          rw [hd] at hd2; injection hd2 with hd2; subst hd2
          rw [hl, h1] at hn; simp at hn
    | none =>
      simp only [Option.none_or, ih']
      constructor
      · rintro ⟨pre, r', post, he, hr', hpre⟩
        refine ⟨r :: pre, r', post, by simp [he], hr', ?_⟩
        intro r2 hr2
        rcases List.mem_cons.1 hr2 with rfl | hr2
        · exact ⟨d, hd, by rw [hl, h1]⟩
        · exact hpre _ hr2
      · rintro ⟨pre, r', post, he, ⟨d', hd', hr'⟩, hpre⟩
        cases pre with
        | nil =>
          simp only [List.nil_append, List.cons.injEq] at he
          obtain ⟨rfl, rfl⟩ := he
          rw [hd] at hd'; injection hd' with hd'; subst hd'
          rw [hl, h1] at hr'; simp at hr'
        | cons p pre =>
          simp only [List.cons_append, List.cons.injEq] at he
          obtain ⟨rfl, rfl⟩ := he
          exact ⟨pre, r', post, rfl, ⟨d', hd', hr'⟩, fun r2 hr2 => hpre r2 (by simp [hr2])⟩

/-- **C17** (when merging succeeds). Looking up any key, known os, version in the merged rules succeeds and yields, for every
installer, exactly the rule of the first rules dict in the list whose own lookup has that installer.
Partial: the full property also wants the merge to succeed for all valid inputs, which the code violates
(`C17_merge_crashes`); `C17_merge_succeeds` gives a sufficient condition. -/
theorem C17_merged_lookup_partial (rs : List Rules) (dflts : Dict String (Option String))
    (hrs : ∀ r ∈ rs, MergeInput r) (ht : DefaultTable dflts) (m : Rules) (h : mergeRules rs dflts = .ok m)
    (key os ver : String) (dflt : Option String) (hos : dget dflts os = some dflt) :
    ∃ res, lookupRules m key os ver dflt = .ok res ∧
      (∀ r ∈ rs, ∃ d, lookupRules r key os ver dflt = .ok d) ∧
      ∀ inst rule, dget res inst = some rule ↔ FirstRule rs key os ver dflt inst rule := by
  obtain ⟨inv, eff, look⟩ := mergeRules_spec (fun r hr => (hrs r hr).rulesOk) ht.noAnyOs ht.noKw h
  obtain ⟨res, hres, hg⟩ := lookup_rclook inv key os ver dflt
  have hall : ∀ r ∈ rs, ∃ d, lookupRules r key os ver dflt = .ok d := fun r hr =>
    lookup_ok_of_effOk (hrs r hr).rulesOk ht.noAnyOs (eff r hr) hos
  refine ⟨res, hres, hall, fun inst rule => ?_⟩
  rw [hg, look _ _ _ hos, firstRule_iff hall]

/-- **C17** (sufficient condition for success): merging succeeds if all default installer names are non-empty, no `any_os` entry uses
`default_installer`, and `default_installer` occurs in `any_version` entries of the last rules dict only. -/
theorem C17_merge_succeeds (rs : List Rules) (dflts : Dict String (Option String))
    (hrs : ∀ r ∈ rs, MergeInput r) (ht : DefaultTable dflts)
    (hne : ∀ o d, dget dflts o = some d → ∃ s, d = some s ∧ s ≠ "")
    (hany : ∀ r ∈ rs, ∀ key, dget (entryAt r key "any_os" "any_version") "default_installer" = none)
    (hav : ∀ r ∈ rs.dropLast, ∀ key os, dget (entryAt r key os "any_version") "default_installer" = none) :
    ∃ m, mergeRules rs dflts = .ok m := by
  refine mergeRules_succ (fun r hr => (hrs r hr).rulesOk) ht.noAnyOs ht.noKw ?_ ?_
  · intro r hr k od hk
    refine ⟨fun vd i h1 h2 => ?_, fun o d ho => hne o d ho⟩
    rw [← dget_eq_none]
    have := hany r hr k
    simpa [entryAt, hk, h1, h2] using this
  · intro r hr k od o vd i hk h1 h2
    rw [← dget_eq_none]
    have := hav r hr k o
    simpa [entryAt, hk, h1, h2] using this

/-- Two rules dicts as produced by expanding `foo: {ubuntu: [libfoo]}` and `foo: {ubuntu: [libfoo-old]}`. -/
def exMergeA : Rules := [("foo", [("ubuntu", [("any_version", [("default_installer", [("packages", .list [.str "libfoo"])])])])])]
def exMergeB : Rules := [("foo", [("ubuntu", [("any_version", [("default_installer", [("packages", .list [.str "libfoo-old"])])])])])]

theorem exMerge_input : MergeInput exMergeA ∧ MergeInput exMergeB := by
  constructor <;> constructor
  · simp [exMergeA, Rules.WF, OsDict.WF, VerDict.WF, InstDict.WF, DWF, dkeys, dget]
  · simp only [exMergeA, dget]; intro k od vd h; split at h <;> simp at h; subst h; simp [dget]
  · simp [exMergeB, Rules.WF, OsDict.WF, VerDict.WF, InstDict.WF, DWF, dkeys, dget]
  · simp only [exMergeB, dget]; intro k od vd h; split at h <;> simp at h; subst h; simp [dget]

/-- **C17** is violated: merging two plain, valid rules dicts raises ValueError although each can be looked up
on its own (`merge_version_dict` passes `None` as default installer, rules_dict.py:381). -/
theorem C17_merge_crashes : ∃ (rs : List Rules) (dflts : Dict String (Option String)),
    (∀ r ∈ rs, MergeInput r) ∧ DefaultTable dflts ∧
    (∀ r ∈ rs, ∃ d, lookupRules r "foo" "ubuntu" "lucid" (some "apt") = .ok d ∧ d ≠ []) ∧
    mergeRules rs dflts = .error .valueError := by
  refine ⟨[exMergeA, exMergeB], [("ubuntu", some "apt")], ?_, ⟨rfl, ?_⟩, ?_, rfl⟩
  · intro r hr
    simp only [List.mem_cons, List.not_mem_nil, or_false] at hr
    rcases hr with rfl | rfl
    · exact exMerge_input.1
    · exact exMerge_input.2
  · intro o; simp only [dget]; split <;> simp
  · intro r hr
    simp only [List.mem_cons, List.not_mem_nil, or_false] at hr
    rcases hr with rfl | rfl
    · exact ⟨[("apt", [("packages", .list [.str "libfoo"])])], rfl, by simp⟩
    · exact ⟨[("apt", [("packages", .list [.str "libfoo-old"])])], rfl, by simp⟩

/-- Non-vacuity for C17: a successful merge of two dicts where the first overrides the second. -/
example : mergeRules
    [[("foo", [("ubuntu", [("lucid", [("default_installer", [("packages", .list [.str "new"])])])])])], exMergeA]
    [("ubuntu", some "apt")] =
    .ok [("foo", [("ubuntu", [("any_version", [("apt", [("packages", .list [.str "libfoo"])])]),
      ("lucid", [("apt", [("packages", .list [.str "new"])])])])])] := rfl

/-- **C18**. Merged rules only mention `any_os` and operating systems of the default installer table, and never
the keyword `default_installer`. -/
theorem C18_merged_known_os_and_installers (rs : List Rules) (dflts : Dict String (Option String))
    (hrs : ∀ r ∈ rs, MergeInput r) (ht : DefaultTable dflts) (m : Rules) (h : mergeRules rs dflts = .ok m)
    (key os ver : String) (od : OsDict) (vd : VerDict) (hk : dget m key = some od) (ho : dget od os = some vd) :
    (os = "any_os" ∨ ∃ d, dget dflts os = some d) ∧
    ∀ inst, dget vd ver = some inst → dget inst "default_installer" = none := by
  obtain ⟨inv, _, _⟩ := mergeRules_spec (fun r hr => (hrs r hr).rulesOk) ht.noAnyOs ht.noKw h
  obtain ⟨oi, nk⟩ := inv.os _ _ hk
  refine ⟨?_, ?_⟩
  · rcases oi.known _ _ ho with h | h
    · exact .inl h
    · exact .inr (Option.isSome_iff_exists.1 h)
  · intro inst hv
    have := nk os ver
    simpa [ocell, vcell, ho, hv] using this

/-- **C18**, also: merging keeps the shape the merge itself relies on, so merged rules can be merged again. -/
theorem C18_merged_is_merge_input (rs : List Rules) (dflts : Dict String (Option String))
    (hrs : ∀ r ∈ rs, MergeInput r) (ht : DefaultTable dflts) (m : Rules) (h : mergeRules rs dflts = .ok m) :
    MergeInput m := by
  obtain ⟨inv, _, _⟩ := mergeRules_spec (fun r hr => (hrs r hr).rulesOk) ht.noAnyOs ht.noKw h
  refine ⟨inv.wf', fun k od vd hk hvd => ?_⟩
  have h1 := (inv.os _ _ hk).1.anyOs _ hvd
  have h2 : (dkeys vd).Nodup := ((inv.os _ _ hk).1.wf.2 _ _ hvd).1
  have h3 : ∀ v, v ∈ dkeys vd ↔ v = "any_version" := fun v => by rw [mem_dkeys_iff]; exact h1 v
  generalize dkeys vd = l at h2 h3
  cases l with
  | nil => have := (h3 "any_version").2 rfl; simp at this
  | cons a l =>
    have ha := (h3 a).1 (by simp)
    subst ha
    cases l with
    | nil => rfl
    | cons b l =>
      have hb := (h3 b).1 (by simp)
      subst hb; simp at h2

/-- Non-vacuity for C18: unknown os names are filtered out, a known one stays. -/
example : mergeRules [[("foo", [("ubuntu", [("lucid", [("default_installer", [])])]), ("beos", [("r5", [("pip", [])])])])]]
    [("ubuntu", some "apt")] = .ok [("foo", [("ubuntu", [("lucid", [("apt", [])])])])] := rfl

end Verif
