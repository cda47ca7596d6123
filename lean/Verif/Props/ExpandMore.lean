import Verif.Props.Compact
/-! # More about expansion and compaction: dependency shorthands (C08), empty files (C09), failing compaction of whole files (C16) -/
namespace Verif

/-- The ways to write a list of dependencies. -/
inductive ListShorthand : List PVal → PVal → Prop
  | null : ListShorthand [] .none
  | text (s : String) : ListShorthand [.str s] (.str s)
  | list (l : List PVal) : ListShorthand l (.list l)

/-- The explicit form: no entry for an empty list of dependencies. -/
def withDepends (d : List (PKey × PVal)) (l : List PVal) : List (PKey × PVal) :=
  if l.isEmpty then d else d ++ [(.str "depends", .list l)]

theorem dset_append_last {d : List (PKey × PVal)} {k : PKey} {v w : PVal} (h : dget d k = none) :
    dset (d ++ [(k, v)]) k w = d ++ [(k, w)] := by
  induction d with
  | nil => simp [dset]
  | cons x t ih =>
    obtain ⟨a, b⟩ := x
    rw [dget_cons] at h
    by_cases ha : a = k
    · rw [if_pos ha] at h; simp at h
    · rw [if_neg ha] at h
      rw [List.cons_append, dset, if_neg ha, ih h]; rfl

theorem dget_append_last {d : List (PKey × PVal)} {k k' : PKey} {v : PVal} :
    dget (d ++ [(k, v)]) k' = if (dget d k').isSome then dget d k' else if k = k' then some v else none := by
  induction d with
  | nil => simp [dget]
  | cons x t ih =>
    obtain ⟨a, b⟩ := x
    rw [List.cons_append, dget_cons, dget_cons]
    by_cases ha : a = k'
    · simp [ha]
    · simp only [if_neg ha, ih]

theorem ddel_append_last {d : List (PKey × PVal)} {k : PKey} {v : PVal} (h : dget d k = none) :
    ddel (d ++ [(k, v)]) k = d := by
  induction d with
  | nil => simp [ddel]
  | cons x t ih =>
    obtain ⟨a, b⟩ := x
    rw [dget_cons] at h
    by_cases ha : a = k
    · rw [if_pos ha] at h; simp at h
    · rw [if_neg ha] at h
      have := ih h
      simp only [ddel, List.cons_append] at this ⊢
      simp [ha, this]

theorem dset_append_of_some {d : List (PKey × PVal)} {k : PKey} {v w : PVal} {e : List (PKey × PVal)} (h : dget d k = some v) :
    dset (d ++ e) k w = dset d k w ++ e := by
  induction d with
  | nil => simp [dget] at h
  | cons x t ih =>
    obtain ⟨a, b⟩ := x
    rw [dget_cons] at h
    by_cases ha : a = k
    · simp [dset, ha]
    · rw [if_neg ha] at h
      rw [List.cons_append, dset, if_neg ha, ih h, dset, if_neg ha]; rfl

theorem normPackages_append {d : List (PKey × PVal)} {v : PVal} :
    normPackages (d ++ [(.str "depends", v)]) = normPackages d ++ [(.str "depends", v)] := by
  unfold normPackages
  rw [dget_append_last, if_neg (show ¬ (PKey.str "depends" = .str "packages") by decide)]
  cases h : dget d (.str "packages") with
  | none => simp
  | some x =>
    simp only [Option.isSome_some, if_true]
    cases x <;> simp only <;> exact dset_append_of_some h

theorem normPackages_depends {d : List (PKey × PVal)} : dget (normPackages d) (.str "depends") = dget d (.str "depends") := by
  unfold normPackages
  split <;> simp [dget_set]

theorem normDepends_append {d : List (PKey × PVal)} {v : PVal} {l : List PVal} (h : ListShorthand l v) (hd : dget d (.str "depends") = none) :
    normDepends (d ++ [(.str "depends", v)]) = withDepends d l := by
  have hl : listify v = .list l := by cases h <;> rfl
  unfold normDepends
  rw [dget_append_last]
  simp only [hd, Option.isSome_none, Bool.false_eq_true, if_false, if_true, hl]
  cases l with
  | nil =>
    rw [if_pos (by simp [pyEq, pyEqList]), dset_append_last hd, ddel_append_last hd]; rfl
  | cons a t =>
    rw [if_neg (by simp [pyEq, pyEqList]), dset_append_last hd]; rfl

theorem expand_depends (key os ver inst : PKey) (ho : os ≠ .str "any_os") (d : List (PKey × PVal))
    (hd : dget d (.str "depends") = none) (l : List PVal) (x : PVal) (h : ListShorthand l x) :
    expandRules (file4 key os ver inst (.dict (d ++ [(.str "depends", x)]))) =
      .ok (file4 key os ver inst (.dict (withDepends (normPackages d) l))) := by
  rw [expand_file4 ho]
  simp only [expandDefinition, upConvert, bind, Except.bind, pure, Except.pure]
  rw [normPackages_append, normDepends_append h (by rw [normPackages_depends, hd])]

/-- **C08** Dependencies: in a rule with any other entries, every way to write the list of dependencies expands like the explicit list, and no
dependencies like leaving them out; and the explicit list is in the result. -/
theorem C08_depends_shorthands (key os ver inst : PKey) (ho : os ≠ .str "any_os") (d : List (PKey × PVal))
    (hd : dget d (.str "depends") = none) (l : List PVal) (x : PVal) (h : ListShorthand l x) :
    expandRules (file4 key os ver inst (.dict (d ++ [(.str "depends", x)]))) = expandRules (file4 key os ver inst (.dict (withDepends d l))) ∧
    ∃ e, expandRules (file4 key os ver inst (.dict (d ++ [(.str "depends", x)]))) = .ok (file4 key os ver inst (.dict e)) ∧
      dget e (.str "depends") = if l = [] then none else some (.list l) := by
  have h1 := expand_depends key os ver inst ho d hd l x h
  refine ⟨?_, _, h1, ?_⟩
  · cases l with
    | nil =>
      rw [h1]
      refine ((expand_file4 ho).2 ?_).symm
      simp only [withDepends, List.isEmpty_nil, if_true, expandDefinition, upConvert, bind, Except.bind, pure, Except.pure]
      rw [normDepends]
      rw [show dget (normPackages d) (.str "depends") = none by rw [normPackages_depends, hd]]
    | cons a t =>
      rw [h1]
      simp only [withDepends, List.isEmpty_cons, Bool.false_eq_true, if_false]
      rw [expand_depends key os ver inst ho d hd (a :: t) _ (.list _)]
      simp [withDepends]
  · cases l with
    | nil => simp [withDepends, normPackages_depends, hd]
    | cons a t => simp [withDepends, dget_append_last, normPackages_depends, hd]

example : expandRules (file4 (.str "foo") (.str "ubuntu") (.str "lucid") (.str "apt")
      (.dict [(.str "packages", .str "libfoo"), (.str "depends", .str "bar")])) =
    .ok (file4 (.str "foo") (.str "ubuntu") (.str "lucid") (.str "apt")
      (.dict [(.str "packages", .list [.str "libfoo"]), (.str "depends", .list [.str "bar"])])) := rfl
example : dget [(PKey.str "packages", PVal.str "libfoo")] (.str "depends") = none ∧ ListShorthand [.str "bar"] (.str "bar") := ⟨rfl, .text _⟩

/-- **C09** An empty rules file is the rules file without entries, which expands to no rules. -/
theorem C09_empty_file : expandRules .none = .ok (.dict []) ∧ expandRules (.dict []) = .ok (.dict []) := ⟨rfl, rfl⟩

/-! ## C16 for whole files -/

/-- The default installer of the os has a rule twice: as `default_installer` and under its name. -/
def DefaultTwice (dflts : Dict String (Option String)) (r : Rules) : Prop :=
  ∃ key od os vd ver i name, dget r key = some od ∧ dget od os = some vd ∧ os ≠ "any_os" ∧ dget vd ver = some i ∧
    dget dflts os = some (some name) ∧ name ≠ "" ∧ "default_installer" ∈ dkeys i ∧ name ∈ dkeys i

theorem okv_ok {x : Except Exc PVal} : x = .ok (okv x) ↔ ∃ c, x = .ok c := by
  constructor
  · exact fun h => ⟨_, h⟩
  · rintro ⟨c, rfl⟩; rfl

theorem cVal_ok {d : InstDict} {dflt : Option String} : compactInstallerDict d dflt = .ok (cVal dflt d) ↔ ∃ c, compactInstallerDict d dflt = .ok c := by
  constructor
  · exact fun h => ⟨_, h⟩
  · rintro ⟨c, h⟩; rw [h]; simp [cVal, h]

/-- **C16** Compacting loaded rules succeeds unless, for some key, os and version, there is a rule both for `default_installer` and for the
os' default installer by name. -/
theorem C16_file_succeeds_iff (r : Rules) (hr : GoodRules r) (dflts : Dict String (Option String)) :
    (∃ c, compactRules r dflts = .ok c) ↔ ¬ DefaultTwice dflts r := by
  simp only [compactRules_iff hr.nodup, okv_ok, exists_and_left, exists_eq, and_true]
  constructor
  · rintro h ⟨key, od, os, vd, ver, i, name, h1, h2, h3, h4, h5, h6, h7, h8⟩
    have go := hr.oss _ _ h1
    obtain ⟨c, hc⟩ := h _ _ h1
    have := okv_ok.1 (((compactOs_iff go.nodup).1 hc).1 _ _ h2)
    obtain ⟨c2, hc2⟩ := this
    unfold compactOsEntry at hc2
    rw [if_neg h3, h5] at hc2
    have gv := go.vers _ _ h2
    obtain ⟨h9, -⟩ := (compactVer_iff gv.nodup).1 hc2
    have h10 := h9 _ _ h4
    have := (C16_fails_iff i (gv.insts _ _ h4) (some name) .valueError).2 ⟨rfl, name, rfl, h6, h7, h8⟩
    simp only [Option.getD_some] at h10
    rw [this] at h10; simp at h10
  · intro hn key od hk
    have go := hr.oss _ _ hk
    refine ⟨_, (compactOs_iff go.nodup).2 ⟨fun os vd ho => okv_ok.2 ?_, rfl⟩⟩
    have gv := go.vers _ _ ho
    have inst : ∀ ver i, dget vd ver = some i → ∀ dflt, (dflt = none ∨ (os ≠ "any_os" ∧ dflt = (dget dflts os).getD none)) →
        ∃ c, compactInstallerDict i dflt = .ok c := by
      intro ver i hi dflt hdf
      cases hc : compactInstallerDict i dflt with
      | ok c => exact ⟨c, rfl⟩
      | error e =>
        obtain ⟨-, name, h1, h2, h3, h4⟩ := (C16_fails_iff i (gv.insts _ _ hi) dflt e).1 hc
        rcases hdf with rfl | ⟨hne, rfl⟩
        · simp at h1
        · refine absurd ⟨key, od, os, vd, ver, i, name, hk, ho, hne, hi, ?_, h2, h3, h4⟩ hn
          cases hd : dget dflts os with
          | none => rw [hd] at h1; simp at h1
          | some x => rw [hd] at h1; simp at h1; rw [h1]
    unfold compactOsEntry
    by_cases ha : os = "any_os"
    · rw [if_pos ha]
      subst ha
      obtain ⟨i, rfl, -⟩ := go.anyOs _ ho
      have : dget [("any_version", i)] "any_version" = some i := by simp [dget]
      simp only [this]
      exact inst _ _ this none (.inl rfl)
    · rw [if_neg ha]
      exact ⟨_, (compactVer_iff gv.nodup).2 ⟨fun ver i hi => cVal_ok.2 (inst _ _ hi _ (.inr ⟨ha, rfl⟩)), rfl⟩⟩

example : DefaultTwice [("ubuntu", some "apt")] [("foo", [("ubuntu", [("lucid", [("default_installer", [("packages", .list [])]),
    ("apt", [("packages", .list [])])])])])] :=
  ⟨"foo", _, "ubuntu", _, "lucid", _, "apt", rfl, rfl, by decide, rfl, rfl, by decide, by decide, by decide⟩
example : compactRules [("foo", [("ubuntu", [("lucid", [("default_installer", [("packages", .list [])]),
    ("apt", [("packages", .list [])])])])])] [("ubuntu", some "apt")] = .error .valueError := rfl
example : ∃ c, compactRules [("foo", [("ubuntu", [("lucid", [("default_installer", [("packages", .list [])]),
    ("pip", [("packages", .list [])])])])])] [("ubuntu", some "apt")] = .ok c := ⟨_, rfl⟩

end Verif
