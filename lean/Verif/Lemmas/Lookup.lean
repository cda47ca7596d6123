import Verif.Spec.Rules
import Verif.Lemmas.Dict
/-! Helper lemmas about lookup. -/
namespace Verif

theorem truthy_eq_some {o : Option String} {s : String} : truthy o = some s ↔ o = some s ∧ s ≠ "" := by
  cases o with
  | none => simp [truthy]
  | some t =>
    simp only [truthy, Option.some.injEq]
    split
    · simp_all
    · simp_all; rintro rfl; simp_all

/-- effective name -/
def effName (dflt : Option String) (n : String) : Option String :=
  if n = "default_installer" then truthy dflt else some n

/-- last rule with the effective name -/
def effLast (dflt : Option String) (inst : String) : InstDict → Option Rule
  | [] => none
  | kv :: t => (effLast dflt inst t).or (if effName dflt kv.1 = some inst then some kv.2 else none)

theorem replaceDefault_eq (n : String) (dflt : Option String) :
    replaceDefaultInstaller n dflt = match effName dflt n with | some x => .ok x | none => .error .valueError := by
  unfold replaceDefaultInstaller effName
  split
  · cases truthy dflt <;> rfl
  · rfl

theorem mergeInst_cons (kv : String × Rule) (t c : InstDict) (dflt : Option String) :
    mergeInstallerDict (kv :: t) c dflt =
      match effName dflt kv.1 with
      | some x => mergeInstallerDict t (dset c x kv.2) dflt
      | none => .error .valueError := by
  simp only [mergeInstallerDict, List.foldlM_cons, replaceDefault_eq]
  cases effName dflt kv.1 <;> rfl

@[simp] theorem mergeInst_nil (c : InstDict) (dflt : Option String) : mergeInstallerDict [] c dflt = .ok c := rfl

theorem mergeInst_ok_iff {new c : InstDict} {dflt : Option String} :
    (∃ c', mergeInstallerDict new c dflt = .ok c') ↔ ∀ n ∈ dkeys new, effName dflt n ≠ none := by
  induction new generalizing c with
  | nil => simp
  | cons kv t ih =>
    rw [mergeInst_cons]
    cases h : effName dflt kv.1 with
    | none => simp [h]
    | some x => simp [h, ih]

theorem mergeInst_error {new c : InstDict} {dflt : Option String} {e : Exc}
    (h : mergeInstallerDict new c dflt = .error e) : e = .valueError := by
  induction new generalizing c with
  | nil => simp at h
  | cons kv t ih =>
    rw [mergeInst_cons] at h
    cases h' : effName dflt kv.1 with
    | none => simp_all
    | some x => rw [h'] at h; exact ih h

theorem mergeInst_dget {new c c' : InstDict} {dflt : Option String}
    (h : mergeInstallerDict new c dflt = .ok c') (inst : String) :
    dget c' inst = (effLast dflt inst new).or (dget c inst) := by
  induction new generalizing c with
  | nil => simp at h; subst h; simp [effLast]
  | cons kv t ih =>
    rw [mergeInst_cons] at h
    cases h' : effName dflt kv.1 with
    | none => simp [h'] at h
    | some x =>
      rw [h'] at h
      rw [ih h, dget_set]
      simp only [effLast, h']
      cases effLast dflt inst t <;> simp
      split <;> simp_all

theorem mergeInst_DWF {new c c' : InstDict} {dflt : Option String}
    (h : mergeInstallerDict new c dflt = .ok c') (hc : DWF c) : DWF c' := by
  induction new generalizing c with
  | nil => simp at h; subst h; exact hc
  | cons kv t ih =>
    rw [mergeInst_cons] at h
    cases h' : effName dflt kv.1 with
    | none => simp [h'] at h
    | some x => rw [h'] at h; exact ih h (DWF_set hc _ _)

theorem effLast_some_mem {dflt : Option String} {inst : String} {d : InstDict} {r : Rule}
    (h : effLast dflt inst d = some r) : ∃ n, (n, r) ∈ d ∧ effName dflt n = some inst := by
  induction d with
  | nil => simp [effLast] at h
  | cons kv t ih =>
    simp only [effLast] at h
    cases h1 : effLast dflt inst t with
    | some r' =>
      rw [h1] at h; simp at h; subst h
      obtain ⟨n, h2, h3⟩ := ih h1
      exact ⟨n, List.mem_cons_of_mem _ h2, h3⟩
    | none =>
      rw [h1] at h; simp at h
      exact ⟨kv.1, by rw [← h.2]; simp, h.1⟩

theorem effLast_isSome_of_mem {dflt : Option String} {inst n : String} {d : InstDict} {r : Rule}
    (hm : (n, r) ∈ d) (h : effName dflt n = some inst) : (effLast dflt inst d).isSome := by
  induction d with
  | nil => simp at hm
  | cons kv t ih =>
    simp only [effLast]
    rcases List.mem_cons.1 hm with h1 | h1
    · subst h1; simp [h]
    · simp [ih h1]

theorem offers_iff_mem {d : InstDict} (hd : DWF d) {dflt : Option String} {inst : String} {r : Rule} :
    Offers d dflt inst r ↔ ∃ n, (n, r) ∈ d ∧ effName dflt n = some inst := by
  constructor
  · rintro (⟨h1, h2⟩ | ⟨h1, h2, h3⟩)
    · exact ⟨inst, dget_some_mem h2, by simp [effName, h1]⟩
    · exact ⟨_, dget_some_mem h3, by simp [effName, truthy_eq_some, h1, h2]⟩
  · rintro ⟨n, h1, h2⟩
    unfold effName at h2
    split at h2
    · subst_vars
      rw [truthy_eq_some] at h2
      exact .inr ⟨h2.2, h2.1, mem_dget hd h1⟩
    · simp at h2; subst h2; exact .inl ⟨by assumption, mem_dget hd h1⟩

theorem offersSome_iff {d : InstDict} (hd : DWF d) {dflt : Option String} {inst : String} :
    OffersSome d dflt inst ↔ (effLast dflt inst d).isSome := by
  constructor
  · rintro ⟨r, h⟩
    obtain ⟨n, h1, h2⟩ := (offers_iff_mem hd).1 h
    exact effLast_isSome_of_mem h1 h2
  · intro h
    obtain ⟨r, h⟩ := Option.isSome_iff_exists.1 h
    exact ⟨r, (offers_iff_mem hd).2 (effLast_some_mem h)⟩

theorem effLast_offers {d : InstDict} (hd : DWF d) {dflt : Option String} {inst : String} {r : Rule}
    (h : effLast dflt inst d = some r) : Offers d dflt inst r :=
  (offers_iff_mem hd).2 (effLast_some_mem h)

theorem offers_unique {d : InstDict} {dflt : Option String} (hu : Unambiguous d dflt)
    {inst : String} {r r' : Rule} (h : Offers d dflt inst r) (h' : Offers d dflt inst r') : r = r' := by
  rcases h with ⟨h1, h2⟩ | ⟨h1, h2, h3⟩ <;> rcases h' with ⟨h1', h2'⟩ | ⟨h1', h2', h3'⟩
  · simp_all
  · rcases hu inst h2' h1 with h | h <;> simp_all
  · rcases hu inst h2 h1' with h | h <;> simp_all
  · simp_all

theorem effLast_eq_iff {d : InstDict} (hd : DWF d) {dflt : Option String} (hu : Unambiguous d dflt)
    {inst : String} {r : Rule} : effLast dflt inst d = some r ↔ Offers d dflt inst r := by
  constructor
  · exact effLast_offers hd
  · intro h
    obtain ⟨r', h'⟩ := Option.isSome_iff_exists.1 ((offersSome_iff hd).1 ⟨r, h⟩)
    rw [h', offers_unique hu h (effLast_offers hd h')]

theorem entryAt_eq (r : Rules) (key os ver : String) :
    entryAt r key os ver = (dget ((dget ((dget r key).getD []) os).getD []) ver).getD [] := by
  unfold entryAt
  cases h1 : dget r key with
  | none => simp
  | some od =>
    simp only [Option.getD_some]
    cases h2 : dget od os with
    | none => simp
    | some vd =>
      simp only [Option.getD_some]
      cases dget vd ver <;> simp

theorem entryAt_WF {r : Rules} (h : r.WF) (key os ver : String) : DWF (entryAt r key os ver) := by
  unfold entryAt
  split
  · simp
  · rename_i od h1
    split
    · simp
    · rename_i vd h2
      split
      · simp
      · rename_i i h3
        exact ((h.2 _ _ h1).2 _ _ h2).2 _ _ h3

theorem lookupRules_eq (r : Rules) (key os ver : String) (dflt : Option String) :
    lookupRules r key os ver dflt = (do
      let c0 ← mergeInstallerDict (entryAt r key "any_os" "any_version") [] dflt
      let c1 ← mergeInstallerDict (entryAt r key os "any_version") c0 dflt
      mergeInstallerDict (entryAt r key os ver) c1 dflt) := by
  simp only [lookupRules, entryAt_eq]

theorem lookupRules_ok {r : Rules} {key os ver : String} {dflt : Option String} {res : InstDict}
    (h : lookupRules r key os ver dflt = .ok res) :
    ∃ c0 c1, mergeInstallerDict (entryAt r key "any_os" "any_version") [] dflt = .ok c0 ∧
      mergeInstallerDict (entryAt r key os "any_version") c0 dflt = .ok c1 ∧
      mergeInstallerDict (entryAt r key os ver) c1 dflt = .ok res := by
  rw [lookupRules_eq] at h
  cases h0 : mergeInstallerDict (entryAt r key "any_os" "any_version") [] dflt with
  | error e => simp [h0, bind, Except.bind] at h
  | ok c0 =>
    simp only [h0, bind, Except.bind] at h
    cases h1 : mergeInstallerDict (entryAt r key os "any_version") c0 dflt with
    | error e => simp [h1] at h
    | ok c1 => simp only [h1] at h; exact ⟨c0, c1, rfl, h1, h⟩

theorem lookupRules_dget {r : Rules} {key os ver : String} {dflt : Option String} {res : InstDict}
    (h : lookupRules r key os ver dflt = .ok res) (inst : String) :
    dget res inst = (effLast dflt inst (entryAt r key os ver)).or
      ((effLast dflt inst (entryAt r key os "any_version")).or
        (effLast dflt inst (entryAt r key "any_os" "any_version"))) := by
  obtain ⟨c0, c1, h0, h1, h2⟩ := lookupRules_ok h
  rw [mergeInst_dget h2, mergeInst_dget h1, mergeInst_dget h0]; simp

theorem lookupRules_DWF {r : Rules} {key os ver : String} {dflt : Option String} {res : InstDict}
    (h : lookupRules r key os ver dflt = .ok res) : DWF res := by
  obtain ⟨c0, c1, h0, h1, h2⟩ := lookupRules_ok h
  exact mergeInst_DWF h2 (mergeInst_DWF h1 (mergeInst_DWF h0 (by simp)))

theorem effName_ne_none {dflt : Option String} {n : String} :
    effName dflt n ≠ none ↔ (n = "default_installer" → ∃ s, dflt = some s ∧ s ≠ "") := by
  unfold effName
  split
  · subst_vars
    simp only [forall_const]
    rw [← Option.isSome_iff_ne_none, Option.isSome_iff_exists]
    simp only [truthy_eq_some]
  · simp_all

theorem mergeInst_ok_iff' {new c : InstDict} {dflt : Option String} :
    (∃ c', mergeInstallerDict new c dflt = .ok c') ↔
      ("default_installer" ∈ dkeys new → ∃ s, dflt = some s ∧ s ≠ "") := by
  rw [mergeInst_ok_iff]
  simp only [effName_ne_none]
  constructor
  · intro h hm; exact h _ hm rfl
  · rintro h n hn rfl; exact h hn

theorem lookupRules_ok_iff (r : Rules) (key os ver : String) (dflt : Option String) :
    (∃ res, lookupRules r key os ver dflt = .ok res) ↔
      ∀ d ∈ consulted r key os ver, "default_installer" ∈ dkeys d → ∃ s, dflt = some s ∧ s ≠ "" := by
  simp only [consulted, List.mem_cons, List.not_mem_nil, or_false, forall_eq_or_imp, forall_eq]
  constructor
  · rintro ⟨res, h⟩
    obtain ⟨c0, c1, h0, h1, h2⟩ := lookupRules_ok h
    exact ⟨mergeInst_ok_iff'.1 ⟨_, h2⟩, mergeInst_ok_iff'.1 ⟨_, h1⟩, mergeInst_ok_iff'.1 ⟨_, h0⟩⟩
  · rintro ⟨h2, h1, h0⟩
    obtain ⟨c0, h0⟩ := (mergeInst_ok_iff' (c := [])).2 h0
    obtain ⟨c1, h1⟩ := (mergeInst_ok_iff' (c := c0)).2 h1
    obtain ⟨c2, h2⟩ := (mergeInst_ok_iff' (c := c1)).2 h2
    exact ⟨c2, by rw [lookupRules_eq, h0]; simp only [bind, Except.bind]; rw [h1]; exact h2⟩

theorem lookupRules_error {r : Rules} {key os ver : String} {dflt : Option String} {e : Exc}
    (h : lookupRules r key os ver dflt = .error e) : e = .valueError := by
  rw [lookupRules_eq] at h
  cases h0 : mergeInstallerDict (entryAt r key "any_os" "any_version") [] dflt with
  | error e => simp [h0, bind, Except.bind] at h; subst h; exact mergeInst_error h0
  | ok c0 =>
    simp only [h0, bind, Except.bind] at h
    cases h1 : mergeInstallerDict (entryAt r key os "any_version") c0 dflt with
    | error e => simp [h1] at h; subst h; exact mergeInst_error h1
    | ok c1 => simp only [h1] at h; exact mergeInst_error h

end Verif
