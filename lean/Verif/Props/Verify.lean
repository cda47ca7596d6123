import Verif.Lemmas.Verify
import Verif.Spec.Rules
import Mathlib.Data.List.Nodup
/-! # Properties C10, C11, C12: verification of rules data -/
namespace Verif

/-- **C10** Verification of a rules value succeeds iff it is well formed (see `ValidRules`: identifiers valid at each
level, no `default_installer` under `any_os`, text rule keys, list-valued `packages`, `depends` a list of valid keys). -/
theorem C10_verify_iff_valid (uni : Char → Bool) (allow : Bool) (v : PVal) :
    verifyRulesDict uni allow v = .ok () ↔ ValidRules uni True v := verifyRulesDict_iff

/-- **C10** Any failure of verification is a ValueError. -/
theorem C10_only_valueError (uni : Char → Bool) (allow : Bool) (v : PVal) (e : Exc)
    (h : verifyRulesDict uni allow v = .error e) : e = .valueError := verifyRulesDict_err h

/-- **C10** The same for the installer dict, with default installers disallowed (as `RulesSource.lookup` calls it). -/
theorem C10_installer_dict (uni : Char → Bool) (allow : Bool) (v : PVal) :
    (verifyInstallerDict uni allow v = .ok () ↔ ValidInst uni (allow = true) v) ∧
    (∀ e, verifyInstallerDict uni allow v = .error e → e = .valueError) :=
  ⟨verifyInstallerDict_iff, fun _ h => verifyInstallerDict_err h⟩

/-- Sample accepted data. -/
def exVerified : PVal := .dict [(.str "foo", .dict [
  (.str "any_os", .dict [(.str "any_version", .dict [(.str "pip", .dict [(.str "packages", .list [.str "foo"])])])]),
  (.str "osx", .dict [(.str "mountain lion", .dict [(.str "default_installer",
     .dict [(.str "packages", .list []), (.str "depends", .list [.str "bar"])])])])])]

example : verifyRulesDict (fun _ => false) true exVerified = .ok () := by decide
/-- `default_installer` under `any_os` is rejected. -/
example : verifyRulesDict (fun _ => false) true (.dict [(.str "foo", .dict [(.str "any_os",
    .dict [(.str "any_version", .dict [(.str "default_installer", .dict [])])])])]) = .error .valueError := by decide

/-- **C11** A name is accepted iff it is text, is an accepted name and is not a keyword reserved for another position.
The four positions own, respectively, no keyword, `any_os`, `any_version`, `default_installer`. -/
theorem C11_identifier_iff (uni : Char → Bool) (k : PKey) :
    (verifyXylemKey uni k = .ok () ↔ ValidName uni none k) ∧
    (verifyOsName uni k = .ok () ↔ ValidName uni (some "any_os") k) ∧
    (verifyOsVersion uni k = .ok () ↔ ValidName uni (some "any_version") k) ∧
    (verifyInstallerName uni k = .ok () ↔ ValidName uni (some "default_installer") k) :=
  ⟨verifyXylemKey_iff, verifyOsName_iff, verifyOsVersion_iff, verifyInstallerName_iff⟩

/-- **C11** (violation of the documented character set) every accepted name except `mountain lion`, followed by a
newline, is accepted as well, unless it already ends in one. -/
theorem C11_trailing_newline (uni : Char → Bool) (body : List Char) (hne : body ≠ [])
    (hc : ∀ c ∈ body, NameChar uni c) :
    verifyXylemKey uni (.str (String.ofList (body ++ ['\n']))) = .ok () := by
  rw [verifyXylemKey_iff]
  refine ⟨_, rfl, .inr ⟨body, hne, hc, .inr (by simp)⟩, ?_⟩
  intro h
  exfalso
  have hl : ∀ s : String, String.ofList (body ++ ['\n']) = s → '\n' ∈ s.toList := by
    rintro s rfl; simp
  rcases h with h | h | h | h | h <;> exact absurd (hl _ h) (by decide)

example : verifyXylemKey (fun _ => false) (.str "foo\n") = .ok () := by decide
example : verifyXylemKey (fun _ => false) (.str "any_os") = .error .valueError := by decide
example : verifyXylemKey (fun _ => false) (.str "a b") = .error .valueError := by decide
example : verifyXylemKey (fun _ => false) (.str "") = .error .valueError := by decide
example : verifyOsName (fun _ => false) (.str "any_os") = .ok () := by decide

/-- A `default_installer` entry somewhere in the rules value. -/
def UsesDefault (v : PVal) : Prop :=
  ∃ d k od o vd ver id r, v = .dict d ∧ (k, PVal.dict od) ∈ d ∧ (o, PVal.dict vd) ∈ od ∧ (ver, PVal.dict id) ∈ vd ∧
    (PKey.str "default_installer", r) ∈ id

/-- **C12** (refuted) With default installers disallowed, `verify_rules_dict` accepts data that uses
`default_installer`: the flag has no effect at all at the top level. -/
theorem C12_flag_ignored :
    (∀ uni v, verifyRulesDict uni false v = verifyRulesDict uni true v) ∧
    (∃ v, UsesDefault v ∧ ∀ uni, verifyRulesDict uni false v = .ok ()) := by
  refine ⟨fun uni v => by cases v <;> rfl, ?_⟩
  refine ⟨.dict [(.str "foo", .dict [(.str "ubuntu", .dict [(.str "any_version",
    .dict [(.str "default_installer", .dict [(.str "packages", .list [])])])])])], ?_, ?_⟩
  · exact ⟨_, _, _, _, _, _, _, _, rfl, .head _, .head _, .head _, .head _⟩
  · intro uni
    rw [verifyRulesDict_iff]
    have acc : ∀ own s, s.toList ≠ [] → (∀ c ∈ s.toList, WordChar uni c) → (Reserved s → own = some s) →
        ValidName uni own (.str s) := fun own s h1 h2 h3 =>
      ⟨s, rfl, .inr ⟨_, h1, fun c hc => .inl (h2 c hc), .inl rfl⟩, h3⟩
    have wc : ∀ s : String, (s.toList.all fun c => c.isLower || c == '_') = true → ∀ c ∈ s.toList, WordChar uni c := by
      intro s hs c hc
      have := List.all_eq_true.1 hs c hc
      rw [Bool.or_eq_true, beq_iff_eq] at this
      rcases this with h | h
      · left
        simp only [Char.isLower, Bool.and_eq_true, decide_eq_true_eq] at h
        exact h
      · subst h; right; right; right; left; rfl
    refine ⟨_, rfl, ?_⟩
    intro k w hm; simp only [List.mem_singleton, Prod.mk.injEq] at hm; obtain ⟨rfl, rfl⟩ := hm
    refine ⟨acc _ _ (by decide) (wc _ (by decide)) (by unfold Reserved; decide), _, rfl, ?_⟩
    intro k w hm; simp only [List.mem_singleton, Prod.mk.injEq] at hm; obtain ⟨rfl, rfl⟩ := hm
    refine ⟨acc _ _ (by decide) (wc _ (by decide)) (by unfold Reserved; decide), _, rfl, ?_⟩
    intro k w hm; simp only [List.mem_singleton, Prod.mk.injEq] at hm; obtain ⟨rfl, rfl⟩ := hm
    refine ⟨acc _ _ (by decide) (wc _ (by decide)) (by intro; rfl), _, rfl, ?_⟩
    intro k w hm; simp only [List.mem_singleton, Prod.mk.injEq] at hm; obtain ⟨rfl, rfl⟩ := hm
    refine ⟨acc _ _ (by decide) (wc _ (by decide)) (by intro; rfl), by simp, _, rfl, ?_⟩
    intro k w hm; simp only [List.mem_singleton, Prod.mk.injEq] at hm; obtain ⟨rfl, rfl⟩ := hm
    simp

/-- **C12** (what holds) At the os, version and installer level the flag is honoured: data accepted with
default installers disallowed contains no `default_installer` entry. Missing: the top level. -/
theorem C12_flag_honoured_below_partial (uni : Char → Bool) :
    (∀ od, verifyOsDict uni false (.dict od) = .ok () → ∀ o vd ver id r, (o, PVal.dict vd) ∈ od →
      (ver, PVal.dict id) ∈ vd → (PKey.str "default_installer", r) ∉ id) ∧
    (∀ vd, verifyVersionDict uni false (.dict vd) = .ok () → ∀ ver id r,
      (ver, PVal.dict id) ∈ vd → (PKey.str "default_installer", r) ∉ id) ∧
    (∀ id, verifyInstallerDict uni false (.dict id) = .ok () → ∀ r, (PKey.str "default_installer", r) ∉ id) := by
  have hi : ∀ (P : Prop) id, ¬ P → ValidInst uni P (.dict id) → ∀ r, (PKey.str "default_installer", r) ∉ id := by
    rintro P id hP ⟨d, hd, h⟩ r hr
    injection hd with hd; subst hd
    exact hP ((h _ _ hr).2.1 rfl)
  have hv : ∀ (P : Prop) vd, ¬ P → ValidVer uni P (.dict vd) → ∀ ver id r,
      (ver, PVal.dict id) ∈ vd → (PKey.str "default_installer", r) ∉ id := by
    rintro P vd hP ⟨d, hd, h⟩ ver id r hm
    injection hd with hd; subst hd
    exact hi P id hP (h _ _ hm).2 r
  refine ⟨?_, ?_, ?_⟩
  · intro od h o vd ver id r h1 h2
    rw [verifyOsDict_iff] at h
    obtain ⟨d, hd, h⟩ := h
    injection hd with hd; subst hd
    exact hv _ vd (by simp) (h _ _ h1).2 ver id r h2
  · intro vd h
    rw [verifyVersionDict_iff] at h
    exact hv _ vd (by simp) h
  · intro id h
    rw [verifyInstallerDict_iff] at h
    exact hi _ id (by simp) h

example : verifyOsDict (fun _ => false) false (.dict [(.str "ubuntu", .dict [(.str "any_version",
    .dict [(.str "apt", .dict [(.str "packages", .list [])])])])]) = .ok () := by decide
example : verifyOsDict (fun _ => false) false (.dict [(.str "ubuntu", .dict [(.str "any_version",
    .dict [(.str "default_installer", .dict [(.str "packages", .list [])])])])]) = .error .valueError := by decide

/-! ## Verified data is typed -/

theorem typed_dict {β : Type} {P : PVal → Prop} {f : β → PVal} (d : List (PKey × PVal))
    (hk : ∀ k w, (k, w) ∈ d → (∃ s, k = PKey.str s) ∧ P w)
    (hf : ∀ w, P w → ∃ b, w = f b) : ∃ t : Dict String β, PVal.dict d = dictVal f t := by
  induction d with
  | nil => exact ⟨[], rfl⟩
  | cons x d ih =>
    obtain ⟨k, w⟩ := x
    obtain ⟨t, ht⟩ := ih (fun k w h => hk k w (List.mem_cons_of_mem _ h))
    obtain ⟨⟨s, rfl⟩, hp⟩ := hk k w (by simp)
    obtain ⟨b, rfl⟩ := hf w hp
    refine ⟨(s, b) :: t, ?_⟩
    simp only [dictVal, PVal.dict.injEq, List.map_cons] at ht ⊢
    rw [ht]

theorem ValidName.str {uni : Char → Bool} {o : Option String} {k : PKey} (h : ValidName uni o k) : ∃ s, k = .str s := by
  obtain ⟨s, h, _⟩ := h; exact ⟨s, h⟩

/-- Verified data is (the Python object of) a typed rules dict: the typed view used by lookup and merge covers
everything that can be loaded. -/
theorem verified_is_typed {uni : Char → Bool} {allow : Bool} {v : PVal}
    (h : verifyRulesDict uni allow v = .ok ()) : ∃ r : Rules, v = r.toVal := by
  rw [verifyRulesDict_iff] at h
  have h1 : ∀ w, ValidRule uni w → ∃ r : Rule, w = r.toVal := by
    rintro w ⟨d, rfl, h⟩
    exact typed_dict (P := fun _ => True) d (fun k w hm => ⟨(h k w hm).1, trivial⟩) (fun w _ => ⟨w, rfl⟩)
  have h2 : ∀ P w, ValidInst uni P w → ∃ r : InstDict, w = r.toVal := by
    rintro P w ⟨d, rfl, h⟩
    exact typed_dict d (fun k w hm => ⟨(h k w hm).1.str, (h k w hm).2.2⟩) h1
  have h3 : ∀ P w, ValidVer uni P w → ∃ r : VerDict, w = r.toVal := by
    rintro P w ⟨d, rfl, h⟩
    exact typed_dict d (fun k w hm => ⟨(h k w hm).1.str, (h k w hm).2⟩) (h2 P)
  have h4 : ∀ P w, ValidOs uni P w → ∃ r : OsDict, w = r.toVal := by
    rintro P w ⟨d, rfl, h⟩
    exact typed_dict (P := fun w => ∃ P, ValidVer uni P w) d
      (fun k w hm => ⟨(h k w hm).1.str, _, (h k w hm).2⟩) (fun w ⟨P, hp⟩ => h3 P w hp)
  obtain ⟨d, rfl, h⟩ := h
  exact typed_dict d (fun k w hm => ⟨(h k w hm).1.str, (h k w hm).2⟩) (h4 _)

theorem dictVal_WF {β : Type} {f : β → PVal} {t : Dict String β} :
    (dictVal f t).WF ↔ DWF t ∧ ∀ k b, (k, b) ∈ t → (f b).WF := by
  simp only [dictVal, PVal.WF, PVal.WFItems_iff, List.mem_map, Prod.mk.injEq, Prod.exists]
  refine and_congr ?_ ?_
  · unfold DWF dkeys
    rw [List.map_map]
    have : (Prod.fst ∘ fun kv : String × β => (PKey.str kv.1, f kv.2)) = PKey.str ∘ Prod.fst := rfl
    rw [this, ← List.map_map]
    exact ⟨fun h => h.of_map _, fun h => h.map (fun a b h => by injection h)⟩
  · constructor
    · intro h k b hm; exact h _ _ ⟨k, b, hm, rfl, rfl⟩
    · rintro h k v ⟨a, b, hm, _, rfl⟩; exact h _ _ hm

/-- A typed rules dict whose Python object has distinct keys everywhere is well formed. -/
theorem typed_WF {r : Rules} (h : r.toVal.WF) : r.WF := by
  obtain ⟨h1, h2⟩ := dictVal_WF.1 h
  refine ⟨h1, fun k o ho => ?_⟩
  obtain ⟨h3, h4⟩ := dictVal_WF.1 (h2 _ _ (dget_some_mem ho))
  refine ⟨h3, fun k o ho => ?_⟩
  obtain ⟨h3, h4⟩ := dictVal_WF.1 (h4 _ _ (dget_some_mem ho))
  refine ⟨h3, fun k o ho => ?_⟩
  exact (dictVal_WF.1 (h4 _ _ (dget_some_mem ho))).1

end Verif
