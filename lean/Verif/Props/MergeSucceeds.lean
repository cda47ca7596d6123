import Verif.Lemmas.Merge4
import Verif.Props.Merge
/-! # Property C17: exactly when rules dicts can be merged -/
namespace Verif

/-- The merged rules `m` have an `any_version` entry for the key and os which the `any_os` entry of `r` does not take away: `r` has no installer
under `any_os` of that key, or the entry has an installer not among these. -/
def Remains (m r : Rules) (key os : String) : Prop :=
  ∃ od vd i, dget m key = some od ∧ dget od os = some vd ∧ dget vd "any_version" = some i ∧
    (entryAt r key "any_os" "any_version" = [] ∨ ∃ inst, inst ∈ dkeys i ∧ inst ∉ dkeys (entryAt r key "any_os" "any_version"))

/-- `r` can be put in front of the rules dicts merged into `m`: it does not use `default_installer` under `any_os`, nor for a known os without default
installer, nor in an `any_version` entry where `m` keeps an `any_version` entry. -/
structure Placeable (dflts : Dict String (Option String)) (m r : Rules) : Prop where
  anyOs : ∀ key, "default_installer" ∉ dkeys (entryAt r key "any_os" "any_version")
  known : ∀ key os ver dflt, dget dflts os = some dflt → "default_installer" ∈ dkeys (entryAt r key os ver) → ∃ s, dflt = some s ∧ s ≠ ""
  free : ∀ key os, dget dflts os ≠ none → "default_installer" ∈ dkeys (entryAt r key os "any_version") → ¬ Remains m r key os

theorem entryAt_pres (r : Rules) (k o v : String) : entryAt r k o v = ((dget r k).bind fun od => pres od o v).getD [] := by
  unfold entryAt pres
  cases dget r k with
  | none => rfl
  | some od =>
    simp only [Option.bind_some]
    cases dget od o with
    | none => rfl
    | some vd =>
      simp only [Option.bind_some]
      cases dget vd v <;> rfl

theorem mem_entryAt {r : Rules} {k o v n : String} :
    n ∈ dkeys (entryAt r k o v) ↔ ∃ od i, dget r k = some od ∧ pres od o v = some i ∧ n ∈ dkeys i := by
  rw [entryAt_pres]
  cases dget r k with
  | none => simp
  | some od =>
    simp only [Option.bind_some, Option.some.injEq]
    cases hp : pres od o v with
    | none => simp [hp]
    | some i => simp [hp]

theorem survives_iff {m r : Rules} {key os : String} {od old : OsDict} (hr : dget r key = some od) (hm : dget m key = some old) :
    Survives od old os ↔ Remains m r key os := by
  have he : entryAt r key "any_os" "any_version" = (pres od "any_os" "any_version").getD [] := by rw [entryAt_pres, hr]; rfl
  unfold Survives Remains
  rw [he]
  constructor
  · rintro ⟨i, h1, h2⟩
    unfold pres at h1
    cases hv : dget old os with
    | none => simp [hv] at h1
    | some vd => exact ⟨old, vd, i, hm, hv, by simpa [hv] using h1, h2⟩
  · rintro ⟨od', vd, i, h1, h2, h3, h4⟩
    rw [hm] at h1; cases h1
    exact ⟨i, by simp [pres, h2, h3], h4⟩

theorem mergeOne_ok_iff {dflts : Dict String (Option String)} {m r : Rules} (hr : RulesOk r) (ht : DefaultTable dflts) (hm : RulesInv dflts m) :
    (∃ m', mergeOneRules dflts m r = .ok m') ↔ Placeable dflts m r := by
  rw [mergeOne_eq, updLoop_ok_iff hr.wf]
  have hcopy : ∀ k od, dget r k = some od → (OsCopyable dflts od ↔
      "default_installer" ∉ dkeys (entryAt r k "any_os" "any_version") ∧
      ∀ os ver dflt, dget dflts os = some dflt → "default_installer" ∈ dkeys (entryAt r k os ver) → ∃ s, dflt = some s ∧ s ≠ "") := by
    intro k od hk
    constructor
    · rintro ⟨h1, h2⟩
      refine ⟨?_, ?_⟩
      · rw [mem_entryAt]
        rintro ⟨od', i, h3, h4, h5⟩
        rw [hk] at h3; cases h3
        exact h1 i h4 h5
      · intro os ver dflt hd hx
        obtain ⟨od', i, h3, h4, h5⟩ := mem_entryAt.1 hx
        rw [hk] at h3; cases h3
        exact h2 os dflt ver i hd h4 h5
    · rintro ⟨h1, h2⟩
      refine ⟨fun i hi hkw => h1 (mem_entryAt.2 ⟨od, i, hk, hi, hkw⟩), fun o dflt v i hd hi hkw => ?_⟩
      exact h2 o v dflt hd (mem_entryAt.2 ⟨od, i, hk, hi, hkw⟩)
  constructor
  · intro h
    have hc : ∀ k od, dget r k = some od → OsCopyable dflts od := by
      intro k od hk
      obtain ⟨o, ho⟩ := h k od hk
      unfold mergeRulesStep at ho
      cases hck : dget m k with
      | none =>
        simp only [hck] at ho
        exact (copyOs_ok_iff (hr.os _ _ hk) ht.noAnyOs).1 (map_ok_iff.1 ⟨o, ho⟩)
      | some old =>
        simp only [hck] at ho
        exact ((mergeOs_ok_iff (hr.os _ _ hk) ht.noAnyOs (hm.os _ _ hck).1).1 (map_ok_iff.1 ⟨o, ho⟩)).1
    refine ⟨fun key hx => ?_, fun key os ver dflt hd hx => ?_, fun key os hd hx hrem => ?_⟩
    · obtain ⟨od, i, hk, _, _⟩ := mem_entryAt.1 hx
      exact ((hcopy key od hk).1 (hc key od hk)).1 hx
    · obtain ⟨od, i, hk, _, _⟩ := mem_entryAt.1 hx
      exact ((hcopy key od hk).1 (hc key od hk)).2 os ver dflt hd hx
    · obtain ⟨od, i, hk, hi, hkw⟩ := mem_entryAt.1 hx
      obtain ⟨old, vd, j, hck, _⟩ := id hrem
      obtain ⟨o, ho⟩ := h key od hk
      simp only [mergeRulesStep, hck] at ho
      have := ((mergeOs_ok_iff (hr.os _ _ hk) ht.noAnyOs (hm.os _ _ hck).1).1 (map_ok_iff.1 ⟨o, ho⟩)).2 os i
        (Option.isSome_iff_ne_none.2 hd) hi hkw
      exact this ((survives_iff hk hck).2 hrem)
  · intro hp k od hk
    have hc : OsCopyable dflts od := (hcopy k od hk).2 ⟨hp.anyOs k, fun os ver dflt => hp.known k os ver dflt⟩
    unfold mergeRulesStep
    cases hck : dget m k with
    | none => exact map_ok_iff.2 ((copyOs_ok_iff (hr.os _ _ hk) ht.noAnyOs).2 hc)
    | some old =>
      refine map_ok_iff.2 ((mergeOs_ok_iff (hr.os _ _ hk) ht.noAnyOs (hm.os _ _ hck).1).2 ⟨hc, fun o i hd hi hkw hs => ?_⟩)
      exact hp.free k o (Option.isSome_iff_ne_none.1 hd) (mem_entryAt.2 ⟨od, i, hk, hi, hkw⟩) ((survives_iff hk hck).1 hs)

theorem mergeRules_cons_ok_iff {dflts : Dict String (Option String)} {r : Rules} {rs : List Rules} (hrs : ∀ x ∈ r :: rs, MergeInput x)
    (ht : DefaultTable dflts) :
    (∃ m, mergeRules (r :: rs) dflts = .ok m) ↔ ∃ m, mergeRules rs dflts = .ok m ∧ Placeable dflts m r := by
  rw [mergeRules_cons]
  have inv : ∀ m, mergeRules rs dflts = .ok m → RulesInv dflts m := fun m h =>
    (mergeRules_spec (fun x hx => (hrs x (by simp [hx])).rulesOk) ht.noAnyOs ht.noKw h).1
  constructor
  · rintro ⟨m', h⟩
    obtain ⟨m, h1, h2⟩ := Except_bind_ok.1 h
    exact ⟨m, h1, (mergeOne_ok_iff (hrs r (by simp)).rulesOk ht (inv m h1)).1 ⟨m', h2⟩⟩
  · rintro ⟨m, h1, h2⟩
    obtain ⟨m', h3⟩ := (mergeOne_ok_iff (hrs r (by simp)).rulesOk ht (inv m h1)).2 h2
    exact ⟨m', by rw [h1]; exact h3⟩

/-- **C17** Merging a list of rules dicts succeeds exactly if every one of them can be put in front of the merged later ones: it uses
`default_installer` neither under `any_os`, nor for an os without default installer, nor in an `any_version` entry for an os for which the merged
later ones have an `any_version` entry that is not taken away by its own `any_os` entry. -/
theorem C17_merge_succeeds_iff (rs : List Rules) (dflts : Dict String (Option String)) (hrs : ∀ r ∈ rs, MergeInput r) (ht : DefaultTable dflts) :
    (∃ m, mergeRules rs dflts = .ok m) ↔
      ∀ pre r post, rs = pre ++ r :: post → ∃ m, mergeRules post dflts = .ok m ∧ Placeable dflts m r := by
  induction rs with
  | nil =>
    constructor
    · intro _ pre r post h
      simp at h
    · intro _; exact ⟨[], rfl⟩
  | cons a rs ih =>
    rw [mergeRules_cons_ok_iff hrs ht]
    have ih' := ih fun r hr => hrs r (by simp [hr])
    constructor
    · rintro ⟨m, h1, h2⟩ pre r post h
      cases pre with
      | nil =>
        simp only [List.nil_append, List.cons.injEq] at h
        obtain ⟨rfl, rfl⟩ := h
        exact ⟨m, h1, h2⟩
      | cons p pre =>
        simp only [List.cons_append, List.cons.injEq] at h
        exact ih'.1 ⟨m, h1⟩ pre r post h.2
    · intro h
      exact h [] a rs rfl

/-- **C17** If merging rules dicts fails, it is with ValueError. -/
theorem C17_merge_error (rs : List Rules) (dflts : Dict String (Option String)) (hrs : ∀ r ∈ rs, MergeInput r) (ht : DefaultTable dflts)
    (e : Exc) (h : mergeRules rs dflts = .error e) : e = .valueError := by
  induction rs with
  | nil => simp [mergeRules, pure, Except.pure] at h
  | cons r rs ih =>
    rw [mergeRules_cons] at h
    cases h1 : mergeRules rs dflts with
    | error e' =>
      simp only [h1, bind, Except.bind, Except.error.injEq] at h
      subst h
      exact ih (fun x hx => hrs x (by simp [hx])) h1
    | ok m =>
      simp only [h1, bind, Except.bind] at h
      have inv := (mergeRules_spec (fun x hx => (hrs x (by simp [hx])).rulesOk) ht.noAnyOs ht.noKw h1).1
      have hr := (hrs r (by simp)).rulesOk
      rw [mergeOne_eq] at h
      obtain ⟨k, od, hk, h2⟩ := updLoop_error hr.wf h
      unfold mergeRulesStep at h2
      cases hck : dget m k with
      | none =>
        simp only [hck] at h2
        exact copyOs_err (hr.os _ _ hk) (map_err h2)
      | some old =>
        simp only [hck] at h2
        exact mergeOs_err (hr.os _ _ hk) (inv.os _ _ hck).1 (map_err h2)

/-- The two rules dicts of `C17_merge_crashes` fail the condition: the second one's entry remains. -/
example : Remains [("foo", [("ubuntu", [("any_version", [("apt", [("packages", .list [.str "libfoo-old"])])])])])] exMergeA "foo" "ubuntu" :=
  ⟨_, _, _, rfl, rfl, rfl, .inl rfl⟩

/-- With an `any_os` entry for the same installer the older entry is taken away, and the merge succeeds although both use `default_installer`
under `any_version`. -/
example : mergeRules [[("foo", [("any_os", [("any_version", [("apt", [])])]), ("ubuntu", [("any_version", [("default_installer", [("a", .none)])])])])], exMergeB]
    [("ubuntu", some "apt")] =
    .ok [("foo", [("any_os", [("any_version", [("apt", [])])]), ("ubuntu", [("any_version", [("apt", [("a", .none)])])])])] := rfl

end Verif
