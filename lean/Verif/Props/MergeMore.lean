import Mathlib.Data.List.Forall2
import Verif.Props.Merge
import Verif.Props.Order
/-! # Property C17, continued: merging in steps, and merging equivalent rules

Both theorems are about `merge_rules`, xylem/sources/rules_dict.py 293-333, in terms of `lookup_rules`, xylem/sources/rules_dict.py 34-72. -/
set_option linter.unusedSimpArgs false
namespace Verif

/-- The rule found first is unique. -/
theorem FirstRule.unique {rs : List Rules} {key os ver : String} {dflt : Option String} {inst : String} {ρ ρ' : Rule}
    (hok : ∀ r ∈ rs, ∃ d, lookupRules r key os ver dflt = .ok d)
    (h : FirstRule rs key os ver dflt inst ρ) (h' : FirstRule rs key os ver dflt inst ρ') : ρ = ρ' := by
  rw [← firstRule_iff hok] at h h'
  rw [h] at h'
  injection h'

/-- **C17** Merging in steps: merging the merged rules of two lists gives the same lookups as merging all rules of both lists at once. -/
theorem C17_in_steps (rs ss : List Rules) (dflts : Dict String (Option String)) (hrs : ∀ r ∈ rs, MergeInput r)
    (hss : ∀ r ∈ ss, MergeInput r) (ht : DefaultTable dflts) (a b m n : Rules)
    (ha : mergeRules rs dflts = .ok a) (hb : mergeRules ss dflts = .ok b)
    (hm : mergeRules [a, b] dflts = .ok m) (hn : mergeRules (rs ++ ss) dflts = .ok n)
    (key os ver : String) (dflt : Option String) (hos : dget dflts os = some dflt) :
    ∃ d e, lookupRules m key os ver dflt = .ok d ∧ lookupRules n key os ver dflt = .ok e ∧ ∀ inst, dget d inst = dget e inst := by
  have hin : ∀ r ∈ [a, b], MergeInput r := by
    intro r hr
    simp only [List.mem_cons, List.not_mem_nil, or_false] at hr
    rcases hr with rfl | rfl
    · exact C18_merged_is_merge_input rs dflts hrs ht _ ha
    · exact C18_merged_is_merge_input ss dflts hss ht _ hb
  have hall : ∀ r ∈ rs ++ ss, MergeInput r := fun r hr => (List.mem_append.1 hr).elim (hrs r) (hss r)
  obtain ⟨d, hd, hok, hd'⟩ := C17_merged_lookup_partial _ dflts hin ht m hm key os ver dflt hos
  obtain ⟨e, he, hok', he'⟩ := C17_merged_lookup_partial _ dflts hall ht n hn key os ver dflt hos
  obtain ⟨da, hda, hoka, hda'⟩ := C17_merged_lookup_partial _ dflts hrs ht a ha key os ver dflt hos
  obtain ⟨db, hdb, hokb, hdb'⟩ := C17_merged_lookup_partial _ dflts hss ht b hb key os ver dflt hos
  refine ⟨d, e, hd, he, fun inst => ?_⟩
  have ab : dget d inst = (dget da inst).or (dget db inst) := by
    apply Option.ext; intro ρ
    rw [hd', ← firstRule_iff hok]
    have h1 := lookup_rolook hda inst
    have h2 := lookup_rolook hdb inst
    simp only [rfirst, ← h1, ← h2, Option.or_none]
  have app : ∀ xs ys : List Rules, rfirst (xs ++ ys) dflt key os ver inst = (rfirst xs dflt key os ver inst).or (rfirst ys dflt key os ver inst) := by
    intro xs ys
    induction xs with
    | nil => simp [rfirst]
    | cons x xs ih => simp only [List.cons_append, rfirst, ih, Option.or_assoc]
  have ra : dget da inst = rfirst rs dflt key os ver inst := by
    apply Option.ext; intro ρ; rw [hda', firstRule_iff hoka]
  have rb : dget db inst = rfirst ss dflt key os ver inst := by
    apply Option.ext; intro ρ; rw [hdb', firstRule_iff hokb]
  have re : dget e inst = rfirst (rs ++ ss) dflt key os ver inst := by
    apply Option.ext; intro ρ; rw [he', firstRule_iff hok']
  rw [ab, re, app, ra, rb]

/-- **C17** Merging equivalent rules: if every rules dict is replaced by one with the same lookups (for instance by one with reordered
entries, `C86_reordered`, or the expanded form of its compact form, C14), the lookups of the merged rules stay the same. -/
theorem C17_equivalent_rules (rs ss : List Rules) (dflts : Dict String (Option String)) (hrs : ∀ r ∈ rs, MergeInput r)
    (hss : ∀ r ∈ ss, MergeInput r) (ht : DefaultTable dflts) (m n : Rules)
    (hm : mergeRules rs dflts = .ok m) (hn : mergeRules ss dflts = .ok n)
    (key os ver : String) (dflt : Option String) (hos : dget dflts os = some dflt)
    (h : List.Forall₂ (fun r s => SameLookup (lookupRules r key os ver dflt) (lookupRules s key os ver dflt)) rs ss) :
    SameLookup (lookupRules m key os ver dflt) (lookupRules n key os ver dflt) := by
  obtain ⟨d, hd, hok, hd'⟩ := C17_merged_lookup_partial _ dflts hrs ht m hm key os ver dflt hos
  obtain ⟨e, he, hok', he'⟩ := C17_merged_lookup_partial _ dflts hss ht n hn key os ver dflt hos
  rw [hd, he]
  refine .ok d e fun inst => ?_
  have rd : dget d inst = rfirst rs dflt key os ver inst := by
    apply Option.ext; intro ρ; rw [hd', firstRule_iff hok]
  have re : dget e inst = rfirst ss dflt key os ver inst := by
    apply Option.ext; intro ρ; rw [he', firstRule_iff hok']
  rw [rd, re]
  clear rd re hd' he' he hd hm hn hrs hss
  induction h with
  | nil => left; simp [rfirst]
  | @cons r s rs ss h _ ih =>
    have ih := ih (fun r hr => hok r (by simp [hr])) (fun r hr => hok' r (by simp [hr]))
    obtain ⟨x, hx⟩ := hok r (by simp)
    obtain ⟨y, hy⟩ := hok' s (by simp)
    have h1 := lookup_rolook hx inst
    have h2 := lookup_rolook hy inst
    rw [hx, hy] at h
    simp only [rfirst, ← h1, ← h2]
    cases h with
    | ok _ _ h =>
      rcases h inst with ⟨h3, h4⟩ | ⟨ρ, ρ', h3, h4, hp⟩
      · simpa [h3, h4] using ih
      · right; exact ⟨ρ, ρ', by simp [h3], by simp [h4], hp⟩

/-! Non-vacuity -/

/-- `foo` and `bar` for ubuntu, and other packages for the same keys. -/
def exStepA : Rules := [("foo", [("ubuntu", [("lucid", [("apt", [("packages", .list [.str "foo1"])])])])])]
def exStepB : Rules := [("foo", [("ubuntu", [("lucid", [("apt", [("packages", .list [.str "foo2"])])])])]),
  ("bar", [("ubuntu", [("lucid", [("pip", [("packages", .list [.str "bar2"])])])])])]
def exStepC : Rules := [("bar", [("ubuntu", [("lucid", [("pip", []), ("apt", [("packages", .list [.str "bar3"])])])])])]

theorem exStep_input : MergeInput exStepA ∧ MergeInput exStepB ∧ MergeInput exStepC := by
  refine ⟨⟨?_, ?_⟩, ⟨?_, ?_⟩, ⟨?_, ?_⟩⟩
  · simp [exStepA, Rules.WF, OsDict.WF, VerDict.WF, InstDict.WF, DWF, dkeys, dget]
  · simp only [exStepA, dget]; intro k od vd h; split at h <;> simp at h; subst h; simp [dget]
  · simp only [exStepB, Rules.WF, OsDict.WF, VerDict.WF, InstDict.WF, DWF, dkeys, dget]
    refine ⟨by decide, fun k od h => ?_⟩
    split at h
    · simp at h; subst h; simp [dget]
    split at h
    · simp at h; subst h; simp [dget]
    · simp at h
  · simp only [exStepB, dget]
    intro k od vd h
    split at h
    · simp at h; subst h; simp [dget]
    split at h
    · simp at h; subst h; simp [dget]
    · simp at h
  · simp [exStepC, Rules.WF, OsDict.WF, VerDict.WF, InstDict.WF, DWF, dkeys, dget]
  · simp only [exStepC, dget]; intro k od vd h; split at h <;> simp at h; subst h; simp [dget]

/-- The three rules dicts merge in steps and at once. -/
example : ∃ a b m n, mergeRules [exStepA, exStepB] [("ubuntu", some "apt")] = .ok a ∧
    mergeRules [exStepC] [("ubuntu", some "apt")] = .ok b ∧ mergeRules [a, b] [("ubuntu", some "apt")] = .ok m ∧
    mergeRules ([exStepA, exStepB] ++ [exStepC]) [("ubuntu", some "apt")] = .ok n ∧
    lookupRules m "bar" "ubuntu" "lucid" (some "apt") = .ok
      [("pip", [("packages", .list [.str "bar2"])]), ("apt", [("packages", .list [.str "bar3"])])] :=
  ⟨_, _, _, _, rfl, rfl, rfl, rfl, rfl⟩

/-! ## C18: no empty entries -/

theorem foldlM_keeps {α γ : Type} {f : γ → α → Except Exc γ} {Q : γ → Prop} (hf : ∀ c a c', Q c → f c a = .ok c' → Q c') (l : List α) {c c' : γ} (hc : Q c)
    (h : l.foldlM f c = .ok c') : Q c' := by
  induction l generalizing c with
  | nil => rw [List.foldlM_nil, pure_ok] at h; exact h ▸ hc
  | cons a l ih =>
    rw [List.foldlM_cons] at h
    obtain ⟨b, hb, h⟩ := Except_bind_ok.1 h
    exact ih (hf _ _ _ hc hb) h

theorem dset_ne_nil {γ : Type} (d : Dict String γ) (k : String) (v : γ) : dset d k v ≠ [] := by
  cases d with
  | nil => simp [dset]
  | cons a t => unfold dset; split <;> simp

theorem mergeOsDict_ne_nil {new c c' : OsDict} {dflts : Dict String (Option String)} (hc : c ≠ []) (h : mergeOsDict new c dflts = .ok c') : c' ≠ [] := by
  unfold mergeOsDict at h
  obtain ⟨m, hm, h⟩ := Except_bind_ok.1 h
  have hm0 : m ≠ [] := by
    cases ha : dget new "any_os" with
    | none => rw [ha] at hm; simp only [pure_ok] at hm; exact hm ▸ hc
    | some nv =>
      rw [ha] at hm
      simp only at hm
      cases hb : dget nv "any_version" with
      | none => rw [hb] at hm; simp at hm
      | some ni =>
        rw [hb] at hm
        simp only at hm
        obtain ⟨x, _, hm⟩ := Except_bind_ok.1 hm
        cases hx : dget x "any_os" with
        | none =>
          rw [hx] at hm; simp only at hm
          obtain ⟨y, _, hm⟩ := Except_bind_ok.1 hm
          rw [pure_ok] at hm; subst hm
          exact dset_ne_nil _ _ _
        | some ov =>
          rw [hx] at hm; simp only at hm
          cases hy : dget ov "any_version" with
          | none => rw [hy] at hm; simp at hm
          | some old =>
            rw [hy] at hm; simp only at hm
            obtain ⟨y, _, hm⟩ := Except_bind_ok.1 hm
            rw [pure_ok] at hm; subst hm
            exact dset_ne_nil _ _ _
  refine foldlM_keeps (Q := fun c => c ≠ []) ?_ new hm0 h
  intro acc kv acc' hacc hs
  cases hd : dget dflts kv.1 with
  | none => rw [hd] at hs; simp only [pure_ok] at hs; exact hs ▸ hacc
  | some dflt =>
    rw [hd] at hs; simp only at hs
    cases ho : dget acc kv.1 with
    | none =>
      rw [ho] at hs; simp only at hs
      obtain ⟨y, _, hs⟩ := Except_bind_ok.1 hs
      rw [pure_ok] at hs; subst hs
      exact dset_ne_nil _ _ _
    | some old =>
      rw [ho] at hs; simp only at hs
      obtain ⟨y, _, hs⟩ := Except_bind_ok.1 hs
      rw [pure_ok] at hs; subst hs
      exact dset_ne_nil _ _ _

/-- **C18** In merged rules, no key is without operating systems. (Nothing is assumed about the rules dicts that are merged.) -/
theorem C18_no_empty_key (rs : List Rules) (dflts : Dict String (Option String)) (m : Rules) (h : mergeRules rs dflts = .ok m) (key : String) (od : OsDict)
    (hk : dget m key = some od) : od ≠ [] := by
  have step : ∀ (acc : Rules) (kv : String × OsDict) (acc' : Rules), (∀ k od, dget acc k = some od → od ≠ []) →
      (match dget acc kv.1 with
        | none => do
          let c ← copyOsDict kv.2 dflts
          if c.isEmpty then pure acc else pure (dset acc kv.1 c)
        | some old => do
          let m ← mergeOsDict kv.2 old dflts
          pure (dset acc kv.1 m) : Except Exc Rules) = .ok acc' → ∀ k od, dget acc' k = some od → od ≠ [] := by
    intro acc kv acc' hacc hs k od hk
    cases ho : dget acc kv.1 with
    | none =>
      rw [ho] at hs; simp only at hs
      obtain ⟨c, _, hs⟩ := Except_bind_ok.1 hs
      by_cases hce : c.isEmpty
      · rw [if_pos hce, pure_ok] at hs; subst hs
        exact hacc k od hk
      · rw [if_neg hce, pure_ok] at hs; subst hs
        rw [dget_set] at hk
        split at hk
        · injection hk with hk; subst hk
          intro e; rw [e] at hce; exact hce rfl
        · exact hacc k od hk
    | some old =>
      rw [ho] at hs; simp only at hs
      obtain ⟨c, hc, hs⟩ := Except_bind_ok.1 hs
      rw [pure_ok] at hs; subst hs
      rw [dget_set] at hk
      split at hk
      · injection hk with hk; subst hk
        exact mergeOsDict_ne_nil (hacc _ _ ho) hc
      · exact hacc k od hk
  unfold mergeRules at h
  refine foldlM_keeps (Q := fun acc : Rules => ∀ k od, dget acc k = some od → od ≠ []) ?_ rs.reverse (by simp [dget]) h key od hk
  intro c r c' hc hr
  exact foldlM_keeps (Q := fun acc : Rules => ∀ k od, dget acc k = some od → od ≠ []) step r hc hr

/-- Merging rules of which one key has no known os. -/
example : mergeRules [[("a", [("plan9", [])]), ("b", [("ubuntu", [])])]] [("ubuntu", some "apt")] = .ok [("b", [("ubuntu", [])])] := rfl

end Verif
