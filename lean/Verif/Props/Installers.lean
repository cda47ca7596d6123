import Verif.Spec.Installers
import Verif.Props.ConfigFiles
import Verif.Lemmas.Compact3
import Verif.Lemmas.PyEq
import Verif.Props.ConfigNames
/-! # The installer base classes: C56, C61, C67, C68 -/
namespace Verif

/-! ## C68 -/

theorem ruleDesc_items : (describe ruleItems).items = [("packages", mkItem ruleItems[0]), ("depends", mkItem ruleItems[1])] := by rfl
theorem ruleDesc_groups : (describe ruleItems).groups = [] := by rfl

theorem parse_rule (expand : String → String) (data : Dict PKey PVal) :
    configFromParsedYaml expand data (describe ruleItems) true = (do
      let p ← (CType.list .string).fromYaml expand ((dget data (.str "packages")).getD .none)
      let d ← (CType.list .string).fromYaml expand ((dget data (.str "depends")).getD .none)
      pure [("packages", .val (if p.isNone then .list [] else p)), ("depends", .val (if d.isNone then .list [] else d))]) := by
  have g1 : groupOf "packages" = none := by rfl
  have g2 : groupOf "depends" = none := by rfl
  have hd : configFromDefaults (describe ruleItems) = .ok [("packages", .val (.list [])), ("depends", .val (.list []))] := by rfl
  simp only [configFromParsedYaml, ruleDesc_groups, fillGroups, bind, Except.bind, ruleDesc_items, fillItems, g1, g2, yamlValue, if_true, hd]
  cases h1 : (mkItem ruleItems[0]).type.fromYaml expand ((dget data (.str "packages")).getD .none) with
  | error e => rw [show (CType.list .string) = (mkItem ruleItems[0]).type from rfl, h1]
  | ok p =>
    rw [show (CType.list .string).fromYaml expand ((dget data (.str "packages")).getD .none) = .ok p from h1]
    simp only
    cases h2 : (mkItem ruleItems[1]).type.fromYaml expand ((dget data (.str "depends")).getD .none) with
    | error e => rw [show (CType.list .string).fromYaml expand ((dget data (.str "depends")).getD .none) = .error e from h2]
    | ok d =>
      rw [show (CType.list .string).fromYaml expand ((dget data (.str "depends")).getD .none) = .ok d from h2]
      cases p <;> cases d <;> rfl

theorem mapM_id_of {f : PVal → Except Exc PVal} {l : List PVal} (h : ∀ x ∈ l, f x = .ok x) : l.mapM f = .ok l := by
  induction l with
  | nil => rfl
  | cons a t ih => simp [List.mapM_cons, h a (by simp), ih fun x hx => h x (List.mem_cons_of_mem _ hx), bind, Except.bind, pure, Except.pure]

theorem textList_fromYaml {expand : String → String} {v : Option PVal} (h : TextList v) :
    (CType.list .string).fromYaml expand (v.getD .none) = .ok (v.getD .none) := by
  rcases h with rfl | rfl | ⟨l, rfl, hl⟩
  · rfl
  · rfl
  · obtain ⟨w, hw⟩ := (fromYaml_ok_iff (expand := expand) (t := .list .string) (by simp [CType.KeysOk]) (v := .list l)).2
      (by refine Or.inr ⟨l, rfl, fun x hx => ?_⟩; exact hl x hx)
    have : w = .list l := by
      simp only [CType.fromYaml] at hw
      obtain ⟨l', hl', hv⟩ := Except_bind_ok.1 hw
      rw [mapM_id_of] at hl'
      · cases hl'; exact verify_same hv
      · intro x hx
        rcases hl x hx with rfl | ⟨s, rfl⟩ <;> rfl
    rw [Option.getD_some, hw, this]

theorem not_textList_fromYaml {expand : String → String} {v : Option PVal} (h : ¬ TextList v) :
    (CType.list .string).fromYaml expand (v.getD .none) = .error .configValueError := by
  rcases hv : (CType.list .string).fromYaml expand (v.getD .none) with e | w
  · rw [fromYaml_err (by simp [CType.KeysOk]) hv]
  · exfalso
    have := (fromYaml_ok_iff (expand := expand) (t := .list .string) (by simp [CType.KeysOk])).1 ⟨w, hv⟩
    apply h
    cases v with
    | none => exact .inl rfl
    | some v =>
      rcases this with h1 | ⟨l, h1, h2⟩
      · simp only [Option.getD_some] at h1; subst h1; exact .inr (.inl rfl)
      · simp only [Option.getD_some] at h1; subst h1; exact .inr (.inr ⟨l, rfl, fun x hx => h2 x hx⟩)

theorem dget_ruleData (r : Rule) (s : String) : dget r.data (.str s) = dget r s := by
  have := dget_dictItems id r s
  simpa [Rule.data] using this

theorem baseResolve_textList (expand : String → String) (rule : Rule) (hp : TextList (dget rule "packages")) (hd : TextList (dget rule "depends")) :
    baseResolve expand (describe ruleItems) rule = .ok ((packagesOf rule).map (packageResolution [])) := by
  have h1 : parseInstallerRule expand (describe ruleItems) rule = .ok [("packages", .val (if ((dget rule "packages").getD .none).isNone then .list []
      else (dget rule "packages").getD .none)), ("depends", .val (if ((dget rule "depends").getD .none).isNone then .list [] else (dget rule "depends").getD .none))] := by
    unfold parseInstallerRule
    rw [parse_rule, dget_ruleData, dget_ruleData, textList_fromYaml hp, textList_fromYaml hd]
    rfl
  have h2 : iterVal (if ((dget rule "packages").getD .none).isNone then .list [] else (dget rule "packages").getD .none) = .ok (packagesOf rule) := by
    unfold packagesOf
    rcases hp with h | h | ⟨l, h, _⟩ <;> rw [h] <;> rfl
  unfold baseResolve
  rw [h1]
  simp only [bind, Except.bind, popEntry, dget, Entry.toVal]
  have hne : ("depends" : String) ≠ "packages" := by decide
  simp [ddel, hne, dget, h2, bind, Except.bind, pure, Except.pure, Entry.toVal]

/-- **C68** Resolving a rule whose `packages` and `depends` are (missing, null or) lists of texts gives, in order, one resolution for each listed
package; its only attributes are the package and the bookkeeping attribute of `Resolution` objects. Any other rule is rejected with
InvalidRuleError (an installer error). -/
theorem C68_one_resolution_per_package (expand : String → String) (rule : Rule) :
    (TextList (dget rule "packages") → TextList (dget rule "depends") →
      ∃ rs, baseResolve expand (describe ruleItems) rule = .ok rs ∧ rs.length = (packagesOf rule).length ∧
        ∀ i (h : i < (packagesOf rule).length) (h' : i < rs.length), dget rs[i] "package" = some (packagesOf rule)[i] ∧
          ∀ k, k ≠ "package" → k ≠ "_to_list_keys" → dget rs[i] k = none) ∧
    (¬ TextList (dget rule "packages") ∨ ¬ TextList (dget rule "depends") →
      baseResolve expand (describe ruleItems) rule = .error .invalidRuleError ∧ Exc.isInstallerError .invalidRuleError = true) := by
  constructor
  · intro hp hd
    refine ⟨(packagesOf rule).map (packageResolution []), ?_, by simp, ?_⟩
    · exact baseResolve_textList expand rule hp hd
    · intro i h h'
      simp only [List.getElem_map]
      constructor
      · simp [packageResolution, mkResolution, dset, dget]
      · intro k k1 k2
        simp [packageResolution, mkResolution, dset, dget, Ne.symm k1, Ne.symm k2]
  · intro h
    refine ⟨?_, rfl⟩
    have : configFromParsedYaml expand rule.data (describe ruleItems) true = .error .configValueError := by
      rw [parse_rule, dget_ruleData, dget_ruleData]
      by_cases hp : TextList (dget rule "packages")
      · have hd := h.resolve_left (not_not_intro hp)
        rw [textList_fromYaml hp, not_textList_fromYaml hd]; rfl
      · rw [not_textList_fromYaml hp]; rfl
    simp only [baseResolve, parseInstallerRule, this, bind, Except.bind]

example : baseResolve id (describe ruleItems) [("packages", .list [.str "a", .str "b"]), ("depends", .list [.str "x"]), ("extra", .int 1)]
    = .ok [[("_to_list_keys", .list [.str "package"]), ("package", .str "a")], [("_to_list_keys", .list [.str "package"]), ("package", .str "b")]] := by rfl
example : baseResolve id (describe ruleItems) [("packages", .str "a")] = .error .invalidRuleError := by rfl
example : TextList (some (.list [.str "a", .none])) := .inr (.inr ⟨_, rfl, by simp⟩)

/-- The list under a key of a rule: a missing or null list is empty. -/
def ruleList (rule : Rule) (key : String) : List PVal :=
  match dget rule key with
  | some (.list l) => l
  | _ => []

/-- **C68** Asked for the dependencies of a rule, an installer answers with the list under `depends` (an empty list if there is none), whatever
packages and further entries the rule has; a rule it would not resolve is rejected in the same way. -/
theorem C68_depends (expand : String → String) (rule : Rule) :
    (TextList (dget rule "packages") → TextList (dget rule "depends") →
      getDepends expand (describe ruleItems) rule = .ok (.list (ruleList rule "depends"))) ∧
    (¬ TextList (dget rule "packages") ∨ ¬ TextList (dget rule "depends") →
      getDepends expand (describe ruleItems) rule = .error .invalidRuleError) := by
  constructor
  · intro hp hd
    have h1 : parseInstallerRule expand (describe ruleItems) rule = .ok [("packages", .val (if ((dget rule "packages").getD .none).isNone then .list []
        else (dget rule "packages").getD .none)), ("depends", .val (if ((dget rule "depends").getD .none).isNone then .list [] else (dget rule "depends").getD .none))] := by
      unfold parseInstallerRule
      rw [parse_rule, dget_ruleData, dget_ruleData, textList_fromYaml hp, textList_fromYaml hd]
      rfl
    have h2 : (if ((dget rule "depends").getD .none).isNone then .list [] else (dget rule "depends").getD .none) = PVal.list (ruleList rule "depends") := by
      unfold ruleList
      rcases hd with h | h | ⟨l, h, _⟩ <;> rw [h] <;> rfl
    unfold getDepends
    rw [h1, h2]
    rfl
  · intro h
    have : configFromParsedYaml expand rule.data (describe ruleItems) true = .error .configValueError := by
      rw [parse_rule, dget_ruleData, dget_ruleData]
      by_cases hp : TextList (dget rule "packages")
      · have hd := h.resolve_left (not_not_intro hp)
        rw [textList_fromYaml hp, not_textList_fromYaml hd]; rfl
      · rw [not_textList_fromYaml hp]; rfl
    simp only [getDepends, parseInstallerRule, this, bind, Except.bind]

example : getDepends id (describe ruleItems) [("packages", .list [.str "a"]), ("depends", .list [.str "x", .str "y"])] = .ok (.list [.str "x", .str "y"]) := by rfl

/-! ## C67 -/

theorem dwf_map_str {d : Dict String PVal} (h : DWF d) : DWF (d.map fun kv => (PKey.str kv.1, kv.2)) := by
  have : dkeys (d.map fun kv => (PKey.str kv.1, kv.2)) = (dkeys d).map PKey.str := by simp [dkeys]
  unfold DWF
  rw [this]
  exact List.Nodup.map (fun a b h => by injection h) h

/-- **C67 (equality)** Two resolutions are equal iff they have the same attributes with equal values. -/
theorem C67_equality_partial (a b : Resolution) (ha : DWF a) (hb : DWF b) : a.eq b = true ↔ SameAttributes a b := by
  unfold Resolution.eq dictVal
  rw [pyEq_dict]
  have db : ∀ k, dget (b.map fun kv => (PKey.str kv.1, id kv.2)) (PKey.str k) = dget b k := fun k => by
    rw [dget_dictItems id b k, Option.map_id, id]
  simp only [id, List.length_map] at db ⊢
  constructor
  · rintro ⟨hl, h⟩ k
    cases hk : dget a k with
    | some v =>
      obtain ⟨w, hw, hvw⟩ := h (.str k) v (List.mem_map.2 ⟨(k, v), dget_some_mem hk, rfl⟩)
      rw [db] at hw
      exact .inr ⟨v, w, rfl, hw, hvw⟩
    | none =>
      left
      refine ⟨rfl, dget_eq_none.2 fun hm => ?_⟩
      have := keys_of_length (dwf_map_str ha) (by simpa using hl) (fun k v hm => (h k v hm).imp fun _ x => x.1) (.str k)
        (List.mem_map.2 ⟨(PKey.str k, ((dget b k).getD .none)), List.mem_map.2 ⟨(k, (dget b k).getD .none), ?_, rfl⟩, rfl⟩)
      · obtain ⟨⟨k', v⟩, hm', he⟩ := List.mem_map.1 this
        obtain ⟨⟨k'', v'⟩, hm'', he'⟩ := List.mem_map.1 hm'
        simp only [Prod.mk.injEq] at he'
        simp only at he
        rw [← he'.1] at he
        injection he with he
        subst he
        exact dget_eq_none.1 hk (List.mem_map.2 ⟨_, hm'', rfl⟩)
      · have := mem_dkeys_iff.1 hm
        obtain ⟨w, hw⟩ := Option.isSome_iff_exists.1 this
        rw [hw]; exact dget_some_mem hw
  · intro h
    refine ⟨?_, ?_⟩
    · have : (dkeys a).Perm (dkeys b) := by
        rw [List.perm_ext_iff_of_nodup ha hb]
        intro k
        rw [mem_dkeys_iff, mem_dkeys_iff]
        rcases h k with ⟨h1, h2⟩ | ⟨v, w, h1, h2, _⟩ <;> simp [h1, h2]
      simpa [dkeys] using this.length_eq
    · intro k v hm
      obtain ⟨⟨k', v'⟩, hm', he⟩ := List.mem_map.1 hm
      simp only [Prod.mk.injEq] at he
      obtain ⟨rfl, rfl⟩ := he
      rcases h k' with ⟨h1, _⟩ | ⟨v, w, h1, h2, h3⟩
      · rw [mem_dget ha hm'] at h1; cases h1
      · rw [mem_dget ha hm'] at h1; cases h1
        exact ⟨w, by rw [db]; exact h2, h3⟩

/-- **C67 (equality)** Equality of resolutions is an equivalence relation. -/
theorem C67_equivalence_partial :
    (∀ a : Resolution, PVal.WF (dictVal id a) → a.eq a = true) ∧
    (∀ a b : Resolution, PVal.WF (dictVal id a) → PVal.WF (dictVal id b) → a.eq b = true → b.eq a = true) ∧
    (∀ a b c : Resolution, a.eq b = true → b.eq c = true → a.eq c = true) :=
  ⟨fun _ h => pyEq_refl _ h, fun _ _ ha hb h => pyEq_symm _ _ ha hb h, fun _ _ _ h h1 => pyEq_trans _ _ _ h h1⟩

theorem hashItems_list {h : PVal → Int} {r : List (String × PVal)} {k : String} {l : List PVal} (hm : (k, .list l) ∈ r) :
    hashItems h r = .error .typeError := by
  induction r with
  | nil => cases hm
  | cons x t ih =>
    obtain ⟨a, v⟩ := x
    simp only [hashItems, hashVal, bind, Except.bind]
    rcases List.mem_cons.1 hm with he | hm
    · injection he with h1 h2; subst h2; rfl
    · rw [ih hm]
      cases v <;> rfl

theorem mem_mkResolution (d : Dict String PVal) : ("_to_list_keys", PVal.list [.str "package"]) ∈ mkResolution d := by
  apply dget_some_mem
  rw [mkResolution, dget_set]; simp

/-- **C67 refuted**: hashing a newly made resolution raises TypeError, whatever its contents. -/
theorem C67_hash_always_raises (h : PVal → Int) (comb : List (Int × Int) → Int) (d : Dict String PVal) :
    (mkResolution d).hash h comb = .error .typeError := by
  simp only [Resolution.hash, hashItems_list (mem_mkResolution d), bind, Except.bind]

/-- The value can be hashed by python: it is neither a list nor a dict. -/
def Hashable : PVal → Prop
  | .list _ => False
  | .dict _ => False
  | _ => True

/-- **C67** Exactly which resolutions can be hashed: those all of whose attributes can; hashing any other raises TypeError. -/
theorem C67_hash_iff (h : PVal → Int) (comb : List (Int × Int) → Int) (r : Resolution) :
    ((∃ n, r.hash h comb = .ok n) ↔ ∀ kv ∈ r, Hashable kv.2) ∧
    ((∃ kv ∈ r, ¬ Hashable kv.2) → r.hash h comb = .error .typeError) := by
  have hv : ∀ v, (Hashable v ∧ hashVal h v = .ok (h v)) ∨ (¬ Hashable v ∧ hashVal h v = .error .typeError) := by
    intro v; cases v <;> simp [Hashable, hashVal]
  have hs : ∀ k, hashVal h (.str k) = .ok (h (.str k)) := fun _ => rfl
  have key : (∃ l, hashItems h r = .ok l ∧ ∀ kv ∈ r, Hashable kv.2) ∨ (hashItems h r = .error .typeError ∧ ∃ kv ∈ r, ¬ Hashable kv.2) := by
    induction r with
    | nil => exact .inl ⟨[], rfl, by simp⟩
    | cons x t ih =>
      obtain ⟨k, v⟩ := x
      rcases hv v with ⟨h1, h2⟩ | ⟨h1, h2⟩
      · rcases ih with ⟨l, h3, h4⟩ | ⟨h3, kv, h4, h5⟩
        · refine .inl ⟨(h (.str k), h v) :: l, ?_, ?_⟩
          · simp only [hashItems, hs, h2, h3, bind, Except.bind, pure, Except.pure]
          · intro kv hkv
            rcases List.mem_cons.1 hkv with rfl | hkv
            · exact h1
            · exact h4 kv hkv
        · refine .inr ⟨?_, kv, List.mem_cons_of_mem _ h4, h5⟩
          simp only [hashItems, hs, h2, h3, bind, Except.bind]
      · refine .inr ⟨?_, (k, v), by simp, h1⟩
        simp only [hashItems, hs, h2, bind, Except.bind]
  unfold Resolution.hash
  rcases key with ⟨l, h1, h2⟩ | ⟨h1, kv, h2, h3⟩
  · simp only [h1, bind, Except.bind, pure, Except.pure]
    exact ⟨⟨fun _ => h2, fun _ => ⟨_, rfl⟩⟩, fun ⟨kv, hm, hn⟩ => absurd (h2 kv hm) hn⟩
  · simp only [h1, bind, Except.bind]
    exact ⟨⟨fun ⟨_, e⟩ => (by cases e), fun hall => absurd (hall kv h2) h3⟩, fun _ => trivial⟩

example : ∃ n, Resolution.hash (fun _ => 7) (fun l => l.length) [("package", .str "vim")] = .ok n := ⟨_, rfl⟩

/-- **C67 refuted**: hashing any resolution that resolving a rule gives raises TypeError. -/
theorem C67_resolved_unhashable (h : PVal → Int) (comb : List (Int × Int) → Int) (expand : String → String) (desc : Desc) (rule : Rule)
    (rs : List Resolution) (hr : baseResolve expand desc rule = .ok rs) : ∀ r ∈ rs, r.hash h comb = .error .typeError := by
  intro r hm
  unfold baseResolve at hr
  obtain ⟨c, _, hr⟩ := Except_bind_ok.1 hr
  obtain ⟨⟨a, c1⟩, _, hr⟩ := Except_bind_ok.1 hr
  obtain ⟨⟨b, c2⟩, _, hr⟩ := Except_bind_ok.1 hr
  obtain ⟨l, _, hr⟩ := Except_bind_ok.1 hr
  cases pure_ok.1 hr
  obtain ⟨p, _, rfl⟩ := List.mem_map.1 hm
  have : ("_to_list_keys", PVal.list [.str "package"]) ∈ packageResolution c2 p := by
    apply dget_some_mem
    rw [packageResolution, dget_set]
    simp only [show ("package" : String) ≠ "_to_list_keys" by decide, if_false]
    rw [mkResolution, dget_set]; simp
  simp only [Resolution.hash, hashItems_list this, bind, Except.bind]

example : (mkResolution [("package", .str "a"), ("opts", .dict [(.str "x", .int 1), (.str "y", .int 2)])]).eq
    (mkResolution [("opts", .dict [(.str "y", .int 2), (.str "x", .bool true)]), ("package", .str "a")]) = true := by rfl
example : (mkResolution [("package", .str "a")]).eq (mkResolution [("package", .str "b")]) = false := by rfl
example : DWF (mkResolution [("package", .str "a"), ("opts", .int 1)]) := by decide
example : (mkResolution [("package", .str "a"), ("opts", .int 1)]).str = .ok "a".toList := by rfl

end Verif
