import Verif.Lemmas.Lookup
/-! # Properties C01, C02, C04 (and the lookup half of C05): rules lookup -/
namespace Verif

/-- A concrete rules dict used in the non-vacuity examples: `boost` with rules on all three levels. -/
def exRules : Rules :=
  [("boost",
    [("any_os", [("any_version", [("pip", [("packages", .list [.str "pyboost"])])])]),
     ("ubuntu", [("any_version", [("default_installer", [("packages", .list [.str "libboost"])])]),
                 ("lucid", [("apt", [("packages", .list [.str "libboost1.40"])])])])])]

theorem exRules_WF : exRules.WF := by
  refine ⟨by decide, ?_⟩
  intro k o h
  have hk := dget_some_mem h
  simp only [exRules, List.mem_singleton, Prod.mk.injEq] at hk
  obtain ⟨rfl, rfl⟩ := hk
  refine ⟨by decide, ?_⟩
  intro o v h
  have hk := dget_some_mem h
  simp only [List.mem_cons, List.not_mem_nil, or_false, Prod.mk.injEq] at hk
  rcases hk with ⟨rfl, rfl⟩ | ⟨rfl, rfl⟩
  · refine ⟨by decide, ?_⟩
    intro o v h
    have hk := dget_some_mem h
    simp only [List.mem_cons, List.not_mem_nil, or_false, Prod.mk.injEq] at hk
    obtain ⟨rfl, rfl⟩ := hk; unfold InstDict.WF; decide
  · refine ⟨by decide, ?_⟩
    intro o v h
    have hk := dget_some_mem h
    simp only [List.mem_cons, List.not_mem_nil, or_false, Prod.mk.injEq] at hk
    rcases hk with ⟨rfl, rfl⟩ | ⟨rfl, rfl⟩ <;> (unfold InstDict.WF; decide)

/-- **C01** (precedence). Whatever the rules contain, a rule returned for an installer is one that the
most specific entry offering that installer (version, then any_version, then any_os) offers; and
an installer is in the result iff one of the three entries offers it. -/
theorem C01_lookup_precedence (r : Rules) (hr : r.WF) (key os ver : String) (dflt : Option String)
    (res : InstDict) (h : lookupRules r key os ver dflt = .ok res) (inst : String) :
    (∀ rule, dget res inst = some rule → OfferedFirst dflt inst rule (consulted r key os ver)) ∧
    ((∃ rule, dget res inst = some rule) ↔ ∃ d ∈ consulted r key os ver, OffersSome d dflt inst) := by
  have e := lookupRules_dget h inst
  have w1 := entryAt_WF hr key os ver
  have w2 := entryAt_WF hr key os "any_version"
  have w3 := entryAt_WF hr key "any_os" "any_version"
  constructor
  · intro rule hrule
    rw [e] at hrule
    simp only [consulted, OfferedFirst]
    cases h1 : effLast dflt inst (entryAt r key os ver) with
    | some x => simp [h1] at hrule; subst hrule; exact .inl (effLast_offers w1 h1)
    | none =>
      rw [h1] at hrule; simp only [Option.none_or] at hrule
      refine .inr ⟨by rw [offersSome_iff w1, h1]; simp, ?_⟩
      cases h2 : effLast dflt inst (entryAt r key os "any_version") with
      | some x => simp [h2] at hrule; subst hrule; exact .inl (effLast_offers w2 h2)
      | none =>
        rw [h2] at hrule; simp only [Option.none_or] at hrule
        exact .inr ⟨by rw [offersSome_iff w2, h2]; simp, .inl (effLast_offers w3 hrule)⟩
  · rw [← Option.isSome_iff_exists, e]
    simp only [consulted, List.mem_cons, List.not_mem_nil, or_false, exists_eq_or_imp, exists_eq_left,
      offersSome_iff w1, offersSome_iff w2, offersSome_iff w3]
    cases effLast dflt inst (entryAt r key os ver) <;>
      cases effLast dflt inst (entryAt r key os "any_version") <;> simp

/-- **C01**, exact form: if no consulted entry names both `default_installer` and the default installer,
the returned rule is *the* rule offered by the most specific entry offering the installer. -/
theorem C01_lookup_exact (r : Rules) (hr : r.WF) (key os ver : String) (dflt : Option String)
    (hu : ∀ d ∈ consulted r key os ver, Unambiguous d dflt)
    (res : InstDict) (h : lookupRules r key os ver dflt = .ok res) (inst : String) (rule : Rule) :
    dget res inst = some rule ↔ OfferedFirst dflt inst rule (consulted r key os ver) := by
  obtain ⟨h1, h2⟩ := C01_lookup_precedence r hr key os ver dflt res h inst
  refine ⟨h1 rule, fun hf => ?_⟩
  have hex : ∃ d ∈ consulted r key os ver, OffersSome d dflt inst := by
    generalize consulted r key os ver = l at hf
    induction l with
    | nil => exact hf.elim
    | cons d l ih =>
      rcases hf with hf | ⟨_, hf⟩
      · exact ⟨d, by simp, rule, hf⟩
      · obtain ⟨d', hd', ho⟩ := ih hf
        exact ⟨d', by simp [hd'], ho⟩
  obtain ⟨rule', hr'⟩ := h2.2 hex
  have hf' := h1 rule' hr'
  rw [hr']
  have key : ∀ l : List InstDict, (∀ d ∈ l, Unambiguous d dflt) →
      OfferedFirst dflt inst rule l → OfferedFirst dflt inst rule' l → rule' = rule := by
    intro l hl ha hb
    induction l with
    | nil => exact ha.elim
    | cons d l ih =>
      rcases ha with ha | ⟨hn, ha⟩ <;> rcases hb with hb | ⟨hn', hb⟩
      · exact offers_unique (hl d (by simp)) hb ha
      · exact absurd ⟨_, ha⟩ hn'
      · exact absurd ⟨_, hb⟩ hn
      · exact ih (fun d hd => hl d (by simp [hd])) ha hb
  rw [key _ hu hf hf']

/-- Non-vacuity: all three levels contribute to one lookup, the version overriding the any_version rule. -/
example : lookupRules exRules "boost" "ubuntu" "lucid" (some "apt") =
    .ok [("pip", [("packages", .list [.str "pyboost"])]), ("apt", [("packages", .list [.str "libboost1.40"])])] := by
  simp [lookupRules, exRules, dget, mergeInstallerDict, replaceDefaultInstaller, truthy, dset, bind, Except.bind, pure, Except.pure]
example : ∀ d ∈ consulted exRules "boost" "ubuntu" "lucid", Unambiguous d (some "apt") := by
  simp [consulted, entryAt, exRules, dget, Unambiguous]

/-- **C02** (failure condition). Lookup fails iff one of the consulted entries uses `default_installer`
while no non-empty default installer name is known; the only exception raised is ValueError. -/
theorem C02_lookup_fails_iff (r : Rules) (key os ver : String) (dflt : Option String) :
    ((∃ e, lookupRules r key os ver dflt = .error e) ↔
      (dflt = none ∨ dflt = some "") ∧
        ∃ d ∈ consulted r key os ver, ∃ rule, dget d "default_installer" = some rule) ∧
    ∀ e, lookupRules r key os ver dflt = .error e → e = .valueError := by
  refine ⟨?_, fun e h => lookupRules_error h⟩
  have h1 := lookupRules_ok_iff r key os ver dflt
  have h2 : (∃ e, lookupRules r key os ver dflt = .error e) ↔ ¬ ∃ res, lookupRules r key os ver dflt = .ok res := by
    cases lookupRules r key os ver dflt <;> simp
  rw [h2, h1]
  have h3 : (¬ ∃ s, dflt = some s ∧ s ≠ "") ↔ (dflt = none ∨ dflt = some "") := by
    cases dflt with
    | none => simp
    | some s => by_cases hs : s = "" <;> simp [hs]
  rw [← h3]
  simp only [mem_dkeys_iff, Option.isSome_iff_exists]
  constructor
  · intro h
    by_cases hex : ∃ s, dflt = some s ∧ s ≠ ""
    · exact absurd (fun d _ _ => hex) h
    · refine ⟨hex, ?_⟩
      by_cases hd : ∃ d ∈ consulted r key os ver, ∃ rule, dget d "default_installer" = some rule
      · exact hd
      · exact absurd (fun d hd' hr => absurd ⟨d, hd', hr⟩ hd) h
  · rintro ⟨h4, d, hd, hr⟩ h
    exact h4 (h d hd hr)

/-- **C02** (keyword resolved). The result of a lookup never contains the keyword `default_installer`,
unless the configured default installer itself is called like that. -/
theorem C02_no_default_keyword (r : Rules) (hr : r.WF) (key os ver : String) (dflt : Option String)
    (hd : dflt ≠ some "default_installer") (res : InstDict)
    (h : lookupRules r key os ver dflt = .ok res) : "default_installer" ∉ dkeys res := by
  rw [mem_dkeys_iff]
  intro hs
  obtain ⟨rule, hs⟩ := Option.isSome_iff_exists.1 hs
  have := (C01_lookup_precedence r hr key os ver dflt res h "default_installer").2.1 ⟨rule, hs⟩
  obtain ⟨d, _, rule', ho⟩ := this
  rcases ho with ⟨h1, _⟩ | ⟨_, h2, _⟩
  · exact h1 rfl
  · exact hd h2

/-- Non-vacuity for C02: the example lookup fails without a default and succeeds with one. -/
example : lookupRules exRules "boost" "ubuntu" "lucid" none = .error .valueError := by
  simp [lookupRules, exRules, dget, mergeInstallerDict, replaceDefaultInstaller, truthy, dset, bind, Except.bind, pure, Except.pure]

/-! ## C04: iteration order -/

/-- `d'` is `d` with its entries reordered and each value replaced by an `R`-related one. -/
def ReorderedBy {β : Type} (R : β → β → Prop) (d d' : Dict String β) : Prop :=
  ∃ d1, List.Forall₂ (fun x y => x.1 = y.1 ∧ R x.2 y.2) d d1 ∧ d1.Perm d'

/-- `r'` is `r` with the entries reordered at each of the four dict levels. -/
def Rules.Reordered (r r' : Rules) : Prop :=
  ReorderedBy (ReorderedBy (ReorderedBy (fun i i' : InstDict => i.Perm i'))) r r'

theorem ReorderedBy.single {β : Type} {R : β → β → Prop} {k : String} {v v' : β} (h : R v v') :
    ReorderedBy R [(k, v)] [(k, v')] := ⟨[(k, v')], .cons ⟨rfl, h⟩ .nil, .refl _⟩

theorem ReorderedBy.of_perm {β : Type} {R : β → β → Prop} (hR : ∀ v, R v v) {d d' : Dict String β}
    (h : d.Perm d') : ReorderedBy R d d' := by
  refine ⟨d, ?_, h⟩
  clear h
  induction d with
  | nil => exact .nil
  | cons x d ih => exact .cons ⟨rfl, hR _⟩ ih

theorem ReorderedBy.dget {β : Type} {R : β → β → Prop} {d d' : Dict String β} (h : ReorderedBy R d d')
    (hd : DWF d) (k : String) :
    (dget d k = none ∧ dget d' k = none) ∨ ∃ v v', dget d k = some v ∧ dget d' k = some v' ∧ R v v' := by
  obtain ⟨d1, h1, h2⟩ := h
  have hk : dkeys d1 = dkeys d := by
    clear hd h2
    induction h1 with
    | nil => rfl
    | cons h _ ih => simp [ih, h.1]
  have hd1 : DWF d1 := by unfold DWF; rw [hk]; exact hd
  rw [← dget_perm h2 hd1 k]
  clear h2 hk hd hd1
  induction h1 with
  | nil => simp
  | @cons x y l l' h _ ih =>
    obtain ⟨a, v⟩ := x; obtain ⟨b, w⟩ := y
    obtain ⟨h1, h2⟩ := h
    simp only at h1 h2; subst h1
    simp only [Verif.dget]
    split
    · exact .inr ⟨_, _, rfl, rfl, h2⟩
    · exact ih

theorem entryAt_reordered {r r' : Rules} (hr : r.WF) (h : r.Reordered r') (key os ver : String) :
    (entryAt r key os ver).Perm (entryAt r' key os ver) := by
  unfold entryAt
  rcases h.dget hr.1 key with ⟨h1, h2⟩ | ⟨od, od', h1, h2, ho⟩
  · rw [h1, h2]
  · rw [h1, h2]
    have wo := hr.2 _ _ h1
    rcases ho.dget wo.1 os with ⟨h3, h4⟩ | ⟨vd, vd', h3, h4, hv⟩
    · simp only [h3, h4]; exact .refl _
    · simp only [h3, h4]
      have wv := wo.2 _ _ h3
      rcases hv.dget wv.1 ver with ⟨h5, h6⟩ | ⟨i, i', h5, h6, hi⟩
      · simp only [h5, h6]; exact .refl _
      · simp only [h5, h6]; exact hi

theorem effLast_perm {d d' : InstDict} (hd : DWF d) (h : d.Perm d') {dflt : Option String}
    (hu : Unambiguous d dflt) (inst : String) : effLast dflt inst d = effLast dflt inst d' := by
  have hd' : DWF d' := by
    unfold DWF dkeys at *; exact (h.map Prod.fst).nodup_iff.1 hd
  have he := dget_perm h hd
  have hu' : Unambiguous d' dflt := by
    intro n h1 h2; rw [← he, ← he]; exact hu n h1 h2
  apply Option.ext
  intro rule
  rw [effLast_eq_iff hd hu, effLast_eq_iff hd' hu']
  unfold Offers; rw [he, he]

/-- **C04**. Reordering the entries of any level of the rules changes neither whether the lookup
succeeds nor the rule found for any installer, if no consulted entry names both `default_installer`
and the default installer. -/
theorem C04_lookup_order_independent (r r' : Rules) (hr : r.WF) (h : r.Reordered r')
    (key os ver : String) (dflt : Option String)
    (hu : ∀ d ∈ consulted r key os ver, Unambiguous d dflt) :
    ((∃ res, lookupRules r key os ver dflt = .ok res) ↔ ∃ res, lookupRules r' key os ver dflt = .ok res) ∧
    ∀ res res', lookupRules r key os ver dflt = .ok res → lookupRules r' key os ver dflt = .ok res' →
      ∀ inst, dget res inst = dget res' inst := by
  have p1 := entryAt_reordered hr h key os ver
  have p2 := entryAt_reordered hr h key os "any_version"
  have p3 := entryAt_reordered hr h key "any_os" "any_version"
  simp only [consulted, List.mem_cons, List.not_mem_nil, or_false, forall_eq_or_imp, forall_eq] at hu
  constructor
  · rw [lookupRules_ok_iff, lookupRules_ok_iff]
    simp only [consulted, List.mem_cons, List.not_mem_nil, or_false, forall_eq_or_imp, forall_eq]
    have m : ∀ {d d' : InstDict}, d.Perm d' → ("default_installer" ∈ dkeys d ↔ "default_installer" ∈ dkeys d') :=
      fun p => (p.map Prod.fst).mem_iff
    rw [m p1, m p2, m p3]
  · intro res res' h1 h2 inst
    rw [lookupRules_dget h1, lookupRules_dget h2,
      effLast_perm (entryAt_WF hr _ _ _) p1 hu.1, effLast_perm (entryAt_WF hr _ _ _) p2 hu.2.1,
      effLast_perm (entryAt_WF hr _ _ _) p3 hu.2.2]

/-- The restriction in C04 is needed: with both names in one entry, the order decides. -/
theorem C04_ambiguous_order_matters : ∃ r r' : Rules, r.WF ∧ r.Reordered r' ∧
    ∃ res res' inst, lookupRules r "k" "ubuntu" "lucid" (some "apt") = .ok res ∧
      lookupRules r' "k" "ubuntu" "lucid" (some "apt") = .ok res' ∧
      (dget res inst).map List.length ≠ (dget res' inst).map List.length := by
  refine ⟨[("k", [("ubuntu", [("lucid", [("apt", []), ("default_installer", [("packages", .list [])])])])])],
          [("k", [("ubuntu", [("lucid", [("default_installer", [("packages", .list [])]), ("apt", [])])])])], ?_, ?_, ?_⟩
  · simp [Rules.WF, OsDict.WF, VerDict.WF, InstDict.WF, DWF, dkeys, dget]
  · exact .single (.single (.single (.swap _ _ _)))
  · refine ⟨[("apt", [("packages", .list [])])], [("apt", [])], "apt", ?_, ?_, ?_⟩
    · simp [lookupRules, dget, mergeInstallerDict, replaceDefaultInstaller, truthy, dset, bind, Except.bind, pure, Except.pure]
    · simp [lookupRules, dget, mergeInstallerDict, replaceDefaultInstaller, truthy, dset, bind, Except.bind, pure, Except.pure]
    · simp [dget]

/-- Non-vacuity for C04: a genuinely reordered dict. -/
example : ∃ r', exRules.Reordered r' ∧ r' ≠ exRules := by
  refine ⟨[("boost", (exRules.head (by simp [exRules])).2.reverse)], ?_, ?_⟩
  · refine .single (.of_perm (fun v => .of_perm (fun i => .refl _) (.refl _)) (List.reverse_perm _).symm)
  · simp [exRules]

/-! ## C05 (one source) -/

/-- **C05** (completeness, one rules dict): a key with a non-empty lookup has a rule according to `has_rule_for_os`. -/
theorem C05_has_rule_complete (r : Rules) (key os ver : String) (dflt : Option String)
    (res : InstDict) (h : lookupRules r key os ver dflt = .ok res) (hne : res ≠ []) :
    ∃ od, dget r key = some od ∧ hasRuleForOs od os ver = true := by
  obtain ⟨⟨inst, rule⟩, hmem⟩ := List.exists_mem_of_ne_nil _ hne
  have hg := mem_dget (lookupRules_DWF h) hmem
  rw [lookupRules_dget h] at hg
  have key1 : ∀ o v, (effLast dflt inst (entryAt r key o v)).isSome →
      ∃ od vd, dget r key = some od ∧ dget od o = some vd ∧ (dget vd v).isSome := by
    intro o v hs
    obtain ⟨x, hs⟩ := Option.isSome_iff_exists.1 hs
    unfold entryAt at hs
    split at hs
    · simp [effLast] at hs
    · rename_i od h1
      split at hs
      · simp [effLast] at hs
      · rename_i vd h2
        split at hs
        · simp [effLast] at hs
        · rename_i i h3; exact ⟨od, vd, h1, h2, by simp [h3]⟩
  have : ∃ od, dget r key = some od ∧ ((∃ vd, dget od os = some vd ∧ ((dget vd ver).isSome ∨ (dget vd "any_version").isSome)) ∨ (dget od "any_os").isSome) := by
    cases h1 : effLast dflt inst (entryAt r key os ver) with
    | some x =>
      obtain ⟨od, vd, a, b, c⟩ := key1 os ver (by simp [h1])
      exact ⟨od, a, .inl ⟨vd, b, .inl c⟩⟩
    | none =>
      cases h2 : effLast dflt inst (entryAt r key os "any_version") with
      | some x =>
        obtain ⟨od, vd, a, b, c⟩ := key1 os "any_version" (by simp [h2])
        exact ⟨od, a, .inl ⟨vd, b, .inr c⟩⟩
      | none =>
        rw [h1, h2] at hg; simp only [Option.none_or] at hg
        obtain ⟨od, vd, a, b, c⟩ := key1 "any_os" "any_version" (by simp [hg])
        exact ⟨od, a, .inr (by simp [b])⟩
  obtain ⟨od, h1, h2⟩ := this
  refine ⟨od, h1, ?_⟩
  unfold hasRuleForOs dhas
  rcases h2 with ⟨vd, h3, h4⟩ | h3
  · rw [h3]; split
    · rfl
    · simpa using h4
  · simp [h3]

/-- **C05** (meaning of a listed key). -/
theorem C05_has_rule_iff (od : OsDict) (os ver : String) :
    hasRuleForOs od os ver = true ↔
      (∃ vd, dget od "any_os" = some vd) ∨
      ∃ vd, dget od os = some vd ∧ ((∃ i, dget vd ver = some i) ∨ ∃ i, dget vd "any_version" = some i) := by
  unfold hasRuleForOs dhas
  simp only [← Option.isSome_iff_exists]
  cases h1 : dget od "any_os" with
  | some x => simp
  | none =>
    cases h2 : dget od os with
    | none => simp
    | some vd => simp

/-- The converse of completeness fails: a listed key may have an empty lookup. -/
theorem C05_listed_key_may_be_empty : ∃ (r : Rules) (od : OsDict), r.WF ∧ dget r "k" = some od ∧
    hasRuleForOs od "ubuntu" "lucid" = true ∧ lookupRules r "k" "ubuntu" "lucid" (some "apt") = .ok [] := by
  refine ⟨[("k", [("ubuntu", [("lucid", [])])])], _, ?_, rfl, by decide, rfl⟩
  simp [Rules.WF, OsDict.WF, VerDict.WF, InstDict.WF, DWF, dkeys, dget]

/-- Non-vacuity for C05. -/
example : ∃ od, dget exRules "boost" = some od ∧ hasRuleForOs od "ubuntu" "lucid" = true := ⟨_, rfl, by decide⟩

end Verif
