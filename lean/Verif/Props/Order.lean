import Verif.Lemmas.Order
/-! # Property C86: the order of the entries of a rules file does not matter -/
set_option linter.unusedSimpArgs false
namespace Verif

/-- An installer dict that has a rule for the default installer twice: under the keyword and under its name. -/
def TwiceForDefault (dflt : Option String) (d : InstDict) : Prop :=
  ∃ name, dflt = some name ∧ name ≠ "" ∧ dget d "default_installer" ≠ none ∧ dget d name ≠ none

theorem clash_iff {dflt : Option String} {d : InstDict} : Clash dflt d ↔ TwiceForDefault dflt d := by
  unfold Clash TwiceForDefault
  simp only [truthy_eq_some, Option.isSome_iff_ne_none, and_assoc]

/-- Two typed dicts have equal values under every key. -/
theorem dget_of_pyEq {β : Type} {f : β → PVal} {d e : Dict String β} (hd : DWF d) (he : DWF e)
    (h : pyEq (dictVal f d) (dictVal f e) = true) (n : String) :
    (dget d n = none ∧ dget e n = none) ∨ ∃ a b, dget d n = some a ∧ dget e n = some b ∧ pyEq (f a) (f b) = true := by
  unfold dictVal at h
  rw [pyEq_dget (DWF_str hd) (DWF_str he)] at h
  have := h (.str n)
  rw [dget_dictItems, dget_dictItems] at this
  rcases this with ⟨h1, h2⟩ | ⟨v, w, h1, h2, hp⟩
  · left; exact ⟨by simpa using h1, by simpa using h2⟩
  · right
    obtain ⟨a, ha, rfl⟩ := Option.map_eq_some_iff.1 h1
    obtain ⟨b, hb, rfl⟩ := Option.map_eq_some_iff.1 h2
    exact ⟨a, b, ha, hb, hp⟩

theorem entry_of_pyEq {r r' : Rules} (hr : GoodRules r) (hr' : GoodRules r') (h : pyEq r.toVal r'.toVal = true) (key os ver : String) :
    GoodInst (entryAt r key os ver) ∧ GoodInst (entryAt r' key os ver) ∧
    ∀ n, RuleRel (dget (entryAt r key os ver) n) (dget (entryAt r' key os ver) n) := by
  have nil : GoodInst [] := ⟨by simp, by simp [dget]⟩
  have none' : ∀ n, RuleRel (dget ([] : InstDict) n) (dget ([] : InstDict) n) := fun n => .inl ⟨rfl, rfl⟩
  simp only [entryAt_eq]
  rcases dget_of_pyEq hr.nodup hr'.nodup h key with ⟨h1, h2⟩ | ⟨od, od', h1, h2, h⟩
  · rw [h1, h2]; exact ⟨nil, nil, none'⟩
  rw [h1, h2]
  have go := hr.oss _ _ h1
  have go' := hr'.oss _ _ h2
  simp only [Option.getD_some]
  rcases dget_of_pyEq go.nodup go'.nodup h os with ⟨h1, h2⟩ | ⟨vd, vd', h1, h2, h⟩
  · rw [h1, h2]; exact ⟨nil, nil, none'⟩
  rw [h1, h2]
  have gv := go.vers _ _ h1
  have gv' := go'.vers _ _ h2
  simp only [Option.getD_some]
  rcases dget_of_pyEq gv.nodup gv'.nodup h ver with ⟨h1, h2⟩ | ⟨i, i', h1, h2, h⟩
  · rw [h1, h2]; exact ⟨nil, nil, none'⟩
  rw [h1, h2]
  simp only [Option.getD_some]
  exact ⟨gv.insts _ _ h1, gv'.insts _ _ h2, dget_of_pyEq (gv.insts _ _ h1).nodup (gv'.insts _ _ h2).nodup h⟩

theorem sameOffers_of_rel {dflt : Option String} {i i' : InstDict} (h : ∀ n, RuleRel (dget i n) (dget i' n)) :
    SameOffers dflt i i' := by
  refine ⟨fun inst => ?_, fun _ => ?_⟩
  · have hn := h inst
    have hd := h "default_installer"
    by_cases h1 : ∃ ρ, inst ≠ "default_installer" ∧ dget i inst = some ρ
    · obtain ⟨ρ, hne, hg⟩ := h1
      right
      rcases hn with ⟨h2, _⟩ | ⟨ρ1, ρ2, h2, h3, hp⟩
      · rw [hg] at h2; simp at h2
      · exact ⟨ρ1, ρ2, .inl ⟨hne, h2⟩, .inl ⟨hne, h3⟩, hp⟩
    · by_cases h4 : ∃ ρ, inst ≠ "" ∧ dflt = some inst ∧ dget i "default_installer" = some ρ
      · obtain ⟨ρ, hne, hdf, hg⟩ := h4
        right
        rcases hd with ⟨h2, _⟩ | ⟨ρ1, ρ2, h2, h3, hp⟩
        · rw [hg] at h2; simp at h2
        · exact ⟨ρ1, ρ2, .inr ⟨hne, hdf, h2⟩, .inr ⟨hne, hdf, h3⟩, hp⟩
      · left
        constructor
        · rintro ⟨ρ, ⟨a, b⟩ | ⟨a, b, c⟩⟩
          · exact h1 ⟨ρ, a, b⟩
          · exact h4 ⟨ρ, a, b, c⟩
        · rintro ⟨ρ, ⟨a, b⟩ | ⟨a, b, c⟩⟩
          · rcases hn with ⟨_, h3⟩ | ⟨ρ1, ρ2, h2, _, _⟩
            · rw [b] at h3; simp at h3
            · exact h1 ⟨ρ1, a, h2⟩
          · rcases hd with ⟨_, h3⟩ | ⟨ρ1, ρ2, h2, _, _⟩
            · rw [c] at h3; simp at h3
            · exact h4 ⟨ρ1, a, b, h2⟩
  · rcases h "default_installer" with ⟨h1, h2⟩ | ⟨ρ1, ρ2, h1, h2, _⟩ <;> simp [h1, h2]

theorem clash_of_rel {dflt : Option String} {i i' : InstDict} (h : ∀ n, RuleRel (dget i n) (dget i' n)) (hc : Clash dflt i') :
    Clash dflt i := by
  obtain ⟨name, h1, h2, h3⟩ := hc
  refine ⟨name, h1, ?_, ?_⟩
  · rcases h "default_installer" with ⟨_, b⟩ | ⟨_, _, a, _⟩
    · rw [b] at h2; simp at h2
    · rw [a]; rfl
  · rcases h name with ⟨_, b⟩ | ⟨_, _, a, _⟩
    · rw [b] at h3; simp at h3
    · rw [a]; rfl

theorem lookup_of_pyEq {r r' : Rules} (hr : GoodRules r) (hr' : GoodRules r') (h : pyEq r.toVal r'.toVal = true)
    (key os ver : String) (dflt : Option String) (hn : ∀ d ∈ consulted r key os ver, ¬ Clash dflt d) :
    SameLookup (lookupRules r key os ver dflt) (lookupRules r' key os ver dflt) := by
  have e0 := entry_of_pyEq hr hr' h key os ver
  have e1 := entry_of_pyEq hr hr' h key os "any_version"
  have e2 := entry_of_pyEq hr hr' h key "any_os" "any_version"
  simp only [consulted, List.mem_cons, List.not_mem_nil, or_false, forall_eq_or_imp, forall_eq] at hn
  have k : ∀ {i i' : InstDict}, (∀ n, RuleRel (dget i n) (dget i' n)) →
      ("default_installer" ∈ dkeys i ↔ "default_installer" ∈ dkeys i') := by
    intro i i' hi
    rw [mem_dkeys_iff, mem_dkeys_iff]
    rcases hi "default_installer" with ⟨a, b⟩ | ⟨_, _, a, b, _⟩ <;> simp [a, b]
  have hok : (∃ res, lookupRules r key os ver dflt = .ok res) ↔ ∃ res, lookupRules r' key os ver dflt = .ok res := by
    rw [lookupRules_ok_iff, lookupRules_ok_iff]
    simp only [consulted, List.mem_cons, List.not_mem_nil, or_false, forall_eq_or_imp, forall_eq]
    rw [k e0.2.2, k e1.2.2, k e2.2.2]
  cases hl : lookupRules r key os ver dflt with
  | error e =>
    cases hl' : lookupRules r' key os ver dflt with
    | error e' => exact .fails _ _
    | ok d' => rw [hl, hl'] at hok; simp at hok
  | ok d =>
    cases hl' : lookupRules r' key os ver dflt with
    | error e' => rw [hl, hl'] at hok; simp at hok
    | ok d' =>
      refine .ok _ _ fun inst => ?_
      rw [lookupRules_dget hl, lookupRules_dget hl']
      have one : ∀ {i i' : InstDict}, GoodInst i ∧ GoodInst i' ∧ (∀ n, RuleRel (dget i n) (dget i' n)) → ¬ Clash dflt i →
          RuleRel (effLast dflt inst i) (effLast dflt inst i') := fun hi hc =>
        effLast_rel hi.1.nodup hi.2.1.nodup hc (fun hc' => hc (clash_of_rel hi.2.2 hc')) (sameOffers_of_rel hi.2.2) inst
      exact (one e0 hn.1).or ((one e1 hn.2.1).or (one e2 hn.2.2))

/-- Reordering the entries of a dict gives an equal dict (Python `==`). -/
theorem pyEq_of_perm {d e : List (PKey × PVal)} (hd : (PVal.dict d).WF) (h : d.Perm e) : pyEq (.dict d) (.dict e) = true := by
  rw [wf_dict] at hd
  have hq := dget_perm h hd.1
  have he : DWF e := by
    unfold DWF dkeys at *
    exact (h.map Prod.fst).nodup_iff.1 hd.1
  rw [pyEq_dget hd.1 he]
  intro k
  rw [hq k]
  cases hk : dget e k with
  | none => exact .inl ⟨rfl, rfl⟩
  | some v => exact .inr ⟨v, v, rfl, rfl, pyEq_refl _ (hd.2 k v (h.mem_iff.2 (dget_some_mem hk)))⟩

/-- **C86** Two rules files whose parsed contents are equal in the sense of Python's `==` (in particular the same file with
entries of its dicts reordered, `C86_reordered`) either both fail to load, or both load, and then every lookup in the one agrees with the
lookup in the other — unless one of the consulted entries has two rules for the default installer. -/
theorem C86_equal_files (uni : Char → Bool) (v w : PVal) (hv : v.WF) (hw : w.WF) (h : pyEq v w = true) :
    ((∃ e, loadRulesData uni v = .error e) ∧ ∃ e, loadRulesData uni w = .error e) ∨
    ∃ r r' : Rules, loadRulesData uni v = .ok r.toVal ∧ loadRulesData uni w = .ok r'.toVal ∧
      ∀ key os ver dflt, (∀ d ∈ consulted r key os ver, ¬ TwiceForDefault dflt d) →
        SameLookup (lookupRules r key os ver dflt) (lookupRules r' key os ver dflt) := by
  cases hl : loadRulesData uni v with
  | error e =>
    left
    refine ⟨⟨e, rfl⟩, ?_⟩
    cases hl' : loadRulesData uni w with
    | error e' => exact ⟨e', rfl⟩
    | ok b =>
      obtain ⟨a, ha, _⟩ := loadRulesData_respects hw hv (pyEq_symm _ _ hv hw h) hl'
      rw [hl] at ha; simp at ha
  | ok a =>
    right
    obtain ⟨b, hb, hp⟩ := loadRulesData_respects hv hw h hl
    have typed : ∀ {v a}, loadRulesData uni v = .ok a → ∃ r : Rules, a = r.toVal := by
      intro v a h
      unfold loadRulesData at h
      obtain ⟨x, _, h⟩ := Except_bind_ok.1 h
      obtain ⟨_, hver, h⟩ := Except_bind_ok.1 h
      rw [pure_ok] at h; subst h
      exact verified_is_typed hver
    obtain ⟨r, rfl⟩ := typed hl
    obtain ⟨r', rfl⟩ := typed hb
    refine ⟨r, r', rfl, hb, fun key os ver dflt hn => ?_⟩
    exact lookup_of_pyEq (loaded_is_good hv hl) (loaded_is_good hw hb) hp key os ver dflt (fun d hd hc => hn d hd (clash_iff.1 hc))

/-- **C86** Reordering, at any depth: `w` is `v` with the entries of its dicts rearranged. -/
inductive Reordered : PVal → PVal → Prop
  | refl (v : PVal) : Reordered v v
  | perm (d e : List (PKey × PVal)) : d.Perm e → Reordered (.dict d) (.dict e)
  | value (d e : List (PKey × PVal)) (k : PKey) (v w : PVal) : Reordered v w → Reordered (.dict (d ++ (k, v) :: e)) (.dict (d ++ (k, w) :: e))
  | element (l m : List PVal) (v w : PVal) : Reordered v w → Reordered (.list (l ++ v :: m)) (.list (l ++ w :: m))
  | trans (u v w : PVal) : Reordered u v → Reordered v w → Reordered u w

theorem wfList_iff {l : List PVal} : PVal.WFList l ↔ ∀ v ∈ l, v.WF := by
  induction l with
  | nil => simp [PVal.WFList]
  | cons x l ih => simp [PVal.WFList, ih]

theorem pyEqList_append {l l' m m' : List PVal} (h : pyEqList l l' = true) (h' : pyEqList m m' = true) :
    pyEqList (l ++ m) (l' ++ m') = true := by
  induction l generalizing l' with
  | nil => cases l' with
    | nil => exact h'
    | cons => simp [pyEqList] at h
  | cons x l ih =>
    cases l' with
    | nil => simp [pyEqList] at h
    | cons y l' =>
      simp only [pyEqList, Bool.and_eq_true, List.cons_append] at h ⊢
      exact ⟨h.1, ih h.2⟩

theorem reordered_pyEq {v w : PVal} (h : Reordered v w) (hv : v.WF) : w.WF ∧ pyEq v w = true := by
  induction h with
  | refl v => exact ⟨hv, pyEq_refl _ hv⟩
  | perm d e h =>
    refine ⟨?_, pyEq_of_perm hv h⟩
    rw [wf_dict] at hv ⊢
    refine ⟨?_, fun k w hm => hv.2 k w (h.mem_iff.2 hm)⟩
    have := hv.1
    unfold DWF dkeys at *
    exact (h.map Prod.fst).nodup_iff.1 this
  | value d e k v w _ ih =>
    rw [wf_dict] at hv
    obtain ⟨hw, hp⟩ := ih (hv.2 k v (by simp))
    have hw' : ItemsWF (d ++ (k, w) :: e) := by
      refine ⟨?_, fun k' x hm => ?_⟩
      · have := hv.1; unfold DWF at this ⊢; simpa [dkeys] using this
      · simp only [List.mem_append, List.mem_cons, Prod.mk.injEq] at hm
        rcases hm with hm | ⟨rfl, rfl⟩ | hm
        · exact hv.2 k' x (by simp [hm])
        · exact hw
        · exact hv.2 k' x (by simp [hm])
    refine ⟨wf_dict.2 hw', ?_⟩
    rw [pyEq_dict]
    refine ⟨by simp, fun k' x hm => ?_⟩
    by_cases hk : (k', x) = (k, v)
    · injection hk with h1 h2; subst h1; subst h2
      exact ⟨w, mem_dget hw'.1 (by simp), hp⟩
    · refine ⟨x, mem_dget hw'.1 ?_, pyEq_refl _ (hv.2 _ _ hm)⟩
      simp only [List.mem_append, List.mem_cons] at hm ⊢
      rcases hm with hm | hm | hm
      · exact .inl hm
      · exact absurd hm hk
      · exact .inr (.inr hm)
  | element l m v w _ ih =>
    rw [PVal.WF, wfList_iff] at hv
    obtain ⟨hw, hp⟩ := ih (hv v (by simp))
    have refl : ∀ n : List PVal, (∀ x ∈ n, x.WF) → pyEqList n n = true := fun n hn => pyEqList_refl n (wfList_iff.2 hn)
    constructor
    · rw [PVal.WF, wfList_iff]
      intro x hx
      simp only [List.mem_append, List.mem_cons] at hx
      rcases hx with hx | rfl | hx
      · exact hv x (by simp [hx])
      · exact hw
      · exact hv x (by simp [hx])
    · show pyEqList _ _ = true
      refine pyEqList_append (refl l fun x hx => hv x (by simp [hx])) ?_
      simp only [pyEqList, Bool.and_eq_true]
      exact ⟨hp, refl m fun x hx => hv x (by simp [hx])⟩
  | trans u v w _ _ ih1 ih2 =>
    obtain ⟨h1, h2⟩ := ih1 hv
    obtain ⟨h3, h4⟩ := ih2 h1
    exact ⟨h3, pyEq_trans _ _ _ h2 h4⟩

/-- **C86** Rearranging the entries of a rules file changes neither whether it loads nor any unambiguous lookup. -/
theorem C86_reordered (uni : Char → Bool) (v w : PVal) (hv : v.WF) (h : Reordered v w) :
    ((∃ e, loadRulesData uni v = .error e) ∧ ∃ e, loadRulesData uni w = .error e) ∨
    ∃ r r' : Rules, loadRulesData uni v = .ok r.toVal ∧ loadRulesData uni w = .ok r'.toVal ∧
      ∀ key os ver dflt, (∀ d ∈ consulted r key os ver, ¬ TwiceForDefault dflt d) →
        SameLookup (lookupRules r key os ver dflt) (lookupRules r' key os ver dflt) := by
  obtain ⟨hw, hp⟩ := reordered_pyEq h hv
  exact C86_equal_files uni v w hv hw hp

/-! Non-vacuity and the exception -/

/-- `foo` on ubuntu with two installers. -/
def twoInst (a b : String) : PVal :=
  .dict [(.str "foo", .dict [(.str "ubuntu", .dict [(.str "any_version", .dict [(.str a, .str a), (.str b, .str b)])])])]

example : Reordered (twoInst "pip" "apt") (twoInst "apt" "pip") := by
  unfold twoInst
  exact .value [] [] _ _ _ (.value [] [] _ _ _ (.value [] [] _ _ _ (.perm _ _ (List.Perm.swap _ _ _))))
example : (twoInst "pip" "apt").WF := by
  simp [twoInst, PVal.WF, PVal.WFItems]
example : loadRulesData (fun _ => false) (twoInst "pip" "apt") = .ok (Rules.toVal [("foo", [("ubuntu", [("any_version",
    [("pip", [("packages", .list [.str "pip"])]), ("apt", [("packages", .list [.str "apt"])])])])])]) := by rfl

/-- **C86** (exception) With a rule for `default_installer` and one for the default installer `apt` itself, the order in which the dict is
iterated decides which of the two a lookup returns. -/
theorem C86_order_decides_refuted : ∃ (v w : PVal) (r r' : Rules), v.WF ∧ Reordered v w ∧ loadRulesData (fun _ => false) v = .ok r.toVal ∧
    loadRulesData (fun _ => false) w = .ok r'.toVal ∧
    lookupRules r "foo" "ubuntu" "lucid" (some "apt") = .ok [("apt", [("packages", .list [.str "apt"])])] ∧
    lookupRules r' "foo" "ubuntu" "lucid" (some "apt") = .ok [("apt", [("packages", .list [.str "default_installer"])])] := by
  refine ⟨twoInst "default_installer" "apt", twoInst "apt" "default_installer",
    [("foo", [("ubuntu", [("any_version", [("default_installer", [("packages", .list [.str "default_installer"])]),
      ("apt", [("packages", .list [.str "apt"])])])])])],
    [("foo", [("ubuntu", [("any_version", [("apt", [("packages", .list [.str "apt"])]),
      ("default_installer", [("packages", .list [.str "default_installer"])])])])])], ?_, ?_, rfl, rfl, rfl, rfl⟩
  · simp [twoInst, PVal.WF, PVal.WFItems]
  · unfold twoInst
    exact .value [] [] _ _ _ (.value [] [] _ _ _ (.value [] [] _ _ _ (.perm _ _ (List.Perm.swap _ _ _))))

end Verif
