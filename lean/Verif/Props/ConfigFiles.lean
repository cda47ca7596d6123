import Verif.Props.Config
import Verif.Lemmas.Text
/-!
# Config values, config files, descriptions

C50 (values), C51 (files), C52 (descriptions), C72 (command line arguments of different options).
-/
namespace Verif

/-! ## C50 -/

/-- A value that was accepted passes verification unchanged. -/
theorem C50_accepted_values_verify {expand : String → String} {t : CType} {v w : PVal} (h : t.fromYaml expand v = .ok w) :
    t.verify w = .ok w ∧ Valid t w :=
  ⟨verify_iff.2 ⟨rfl, fromYaml_valid h⟩, fromYaml_valid h⟩

/-- Verification accepts exactly the values of the right form, returns them unchanged and raises only `ConfigValueError` on the others. -/
theorem C50_verification {t : CType} {v : PVal} : (Valid t v → t.verify v = .ok v) ∧ (¬ Valid t v → t.verify v = .error .configValueError) := by
  constructor
  · exact fun h => verify_iff.2 ⟨rfl, h⟩
  · intro h
    rcases hv : t.verify v with e | w
    · rw [verify_err hv]
    · exact absurd (verify_iff.1 hv).2 h

/-- A config file value is accepted exactly if it has the right form; otherwise a `ConfigValueError` is raised, never another error. -/
theorem C50_reading {expand : String → String} {t : CType} (ht : t.KeysOk) {v : PVal} :
    (Readable t v → ∃ w, t.fromYaml expand v = .ok w ∧ Valid t w) ∧ (¬ Readable t v → t.fromYaml expand v = .error .configValueError) := by
  constructor
  · intro h
    obtain ⟨w, hw⟩ := (fromYaml_ok_iff ht).2 h
    exact ⟨w, hw, fromYaml_valid hw⟩
  · intro h
    rcases hv : t.fromYaml expand v with e | w
    · rw [fromYaml_err ht hv]
    · exact absurd ((fromYaml_ok_iff ht).1 ⟨w, hv⟩) h

/-- Accepted values are taken as they are, except that paths are expanded and null means the empty dict for merging dicts. -/
theorem C50_values_kept {expand : String → String} {t : CType} (ht : t.Plain) {v w : PVal} (hwf : v.WF) (h : t.fromYaml expand v = .ok w) : w = v :=
  fromYaml_plain ht hwf h

/-- Null always means "unset". -/
theorem C50_null_is_unset (expand : String → String) (t : CType) : t.fromYaml expand .none = .ok t.unset := by
  cases t <;> rfl

example : CType.fromYaml (fun s => "/x" ++ s) (.dict (.list .path) .string) (.dict [(.str "a", .list [.str "p", .none])])
    = .ok (.dict [(.str "a", .list [.str "/xp", .none])]) := by rfl
example : CType.fromYaml id (.dict (.list .string) .string) (.dict [(.str "a", .list [.str "p", .int 3])]) = .error .configValueError := by rfl

theorem yamlToConfig_err {α : Type} {x : Except Exc α} {e : Exc} (h : yamlToConfig x = .error e) : e = .configValueError ∨ (x = .error e ∧ e ≠ .yamlError) := by
  cases x with
  | ok a => cases h
  | error y => cases y <;> first | (cases h; exact .inl rfl) | (cases h; exact .inr ⟨rfl, by simp⟩)

theorem parseListArg_err {loadYaml : String → Except Exc PVal} (hl : ∀ s e, loadYaml s = .error e → e = .yamlError) {s : String} {e : Exc}
    (h : parseListArg loadYaml s = .error e) : e = .configValueError := by
  unfold parseListArg at h
  have again : ∀ {e}, (yamlToConfig (loadYaml ("[" ++ s ++ "]")) >>= fun
    | .list l => .ok l
    | _ => .error .configValueError : Except Exc (List PVal)) = .error e → e = .configValueError := by
    intro e h
    rcases Except_bind_err.1 h with h | ⟨v, -, h⟩
    · rcases yamlToConfig_err h with h | ⟨h1, h2⟩
      · exact h
      · exact absurd (hl _ _ h1) h2
    · cases v <;> first | (cases h; rfl) | cases h
  cases hs : loadYaml s with
  | error e' =>
    have := hl _ _ hs; subst this
    simp only [hs] at h; exact again h
  | ok v =>
    simp only [hs] at h
    cases v with
    | list l => cases h
    | _ => exact again h

theorem parseDictArg_err {loadYaml : String → Except Exc PVal} (hl : ∀ s e, loadYaml s = .error e → e = .yamlError) {s : String} {e : Exc}
    (h : parseDictArg loadYaml s = .error e) : e = .configValueError := by
  unfold parseDictArg at h
  have again : ∀ {e}, (yamlToConfig (loadYaml ("{" ++ s ++ "}")) >>= fun
    | .dict l => .ok l
    | _ => .error .configValueError : Except Exc (List (PKey × PVal))) = .error e → e = .configValueError := by
    intro e h
    rcases Except_bind_err.1 h with h | ⟨v, -, h⟩
    · rcases yamlToConfig_err h with h | ⟨h1, h2⟩
      · exact h
      · exact absurd (hl _ _ h1) h2
    · cases v <;> first | (cases h; rfl) | cases h
  cases hs : loadYaml s with
  | error e' =>
    have := hl _ _ hs; subst this
    simp only [hs] at h; exact again h
  | ok v =>
    simp only [hs] at h
    cases v with
    | dict l => cases h
    | _ => exact again h

theorem parseListArgs_err {loadYaml : String → Except Exc PVal} (hl : ∀ s e, loadYaml s = .error e → e = .yamlError) {l : List String} {e : Exc}
    (h : parseListArgs loadYaml l = .error e) : e = .configValueError := by
  induction l generalizing e with
  | nil => cases h
  | cons s l ih =>
    rcases Except_bind_err.1 h with h | ⟨v, -, h⟩
    · exact parseListArg_err hl h
    · rcases Except_bind_err.1 h with h | ⟨v, -, h⟩
      · exact ih h
      · cases h

theorem parseDictArgs_err {loadYaml : String → Except Exc PVal} (hl : ∀ s e, loadYaml s = .error e → e = .yamlError) {l : List String}
    {acc : Dict PKey PVal} {e : Exc} (h : parseDictArgs loadYaml acc l = .error e) : e = .configValueError := by
  induction l generalizing acc e with
  | nil => cases h
  | cons s l ih =>
    rcases Except_bind_err.1 h with h | ⟨v, -, h⟩
    · exact parseDictArg_err hl h
    · split at h
      · cases h; rfl
      · exact ih h

/-- Whether the types of the arguments fit what the parser of command lines gives: lists only for list and dict options. -/
def CmdVal.FitsType : CmdVal → CType → Prop
  | .many _, .list _ => True
  | .many _, .dict _ _ => True
  | .many _, .mergingDict _ _ => True
  | .many _, _ => False
  | _, _ => True

/-- Command line values: unset if omitted; what is accepted passes verification; what is not raises `ConfigValueError`. -/
theorem C50_command_line_values {loadYaml : String → Except Exc PVal} {expand : String → String} (hl : ∀ s e, loadYaml s = .error e → e = .yamlError)
    {t : CType} (ht : t.KeysOk) {raw : CmdVal} (hr : raw.FitsType t) :
    t.fromCommandLine loadYaml expand .none = .ok t.unset ∧ (∀ w, t.fromCommandLine loadYaml expand raw = .ok w → Valid t w) ∧
      ∀ e, t.fromCommandLine loadYaml expand raw = .error e → e = .configValueError := by
  refine ⟨by cases t <;> rfl, ?_, ?_⟩
  · intro w h
    have hun : Valid t t.unset := by cases t <;> simp [Valid, CType.unset]
    cases raw with
    | none =>
      have : t.fromCommandLine loadYaml expand .none = .ok t.unset := by cases t <;> rfl
      rw [this] at h; cases h; exact hun
    | one s =>
      cases t with
      | string => exact fromYaml_valid (expand := expand) (v := .str s) h
      | path => exact fromYaml_valid (expand := expand) (v := .str s) h
      | list e => obtain ⟨l, -, h⟩ := Except_bind_ok.1 h; exact fromYaml_valid h
      | dict a b => obtain ⟨l, -, h⟩ := Except_bind_ok.1 h; exact fromYaml_valid h
      | mergingDict a b => obtain ⟨l, -, h⟩ := Except_bind_ok.1 h; exact fromYaml_valid h
      | any => obtain ⟨l, -, h⟩ := Except_bind_ok.1 h; exact fromYaml_valid h
      | boolean => obtain ⟨l, -, h⟩ := Except_bind_ok.1 h; exact fromYaml_valid h
    | many l =>
      cases t with
      | list e => obtain ⟨l, -, h⟩ := Except_bind_ok.1 h; exact fromYaml_valid h
      | dict a b => obtain ⟨l, -, h⟩ := Except_bind_ok.1 h; exact fromYaml_valid h
      | mergingDict a b => obtain ⟨l, -, h⟩ := Except_bind_ok.1 h; exact fromYaml_valid h
      | _ => cases hr
  · intro e h
    cases raw with
    | none =>
      have : t.fromCommandLine loadYaml expand .none = .ok t.unset := by cases t <;> rfl
      rw [this] at h; cases h
    | one s =>
      cases t with
      | string => exact fromYaml_err (expand := expand) (v := .str s) ht h
      | path => exact fromYaml_err (expand := expand) (v := .str s) ht h
      | list _ => rcases Except_bind_err.1 h with h | ⟨_, -, h⟩; exacts [parseListArgs_err hl h, fromYaml_err ht h]
      | dict _ _ => rcases Except_bind_err.1 h with h | ⟨_, -, h⟩; exacts [parseDictArgs_err hl h, fromYaml_err ht h]
      | mergingDict _ _ => rcases Except_bind_err.1 h with h | ⟨_, -, h⟩; exacts [parseDictArgs_err hl h, fromYaml_err ht h]
      | any =>
        rcases Except_bind_err.1 h with h | ⟨_, -, h⟩
        · rcases yamlToConfig_err h with h | ⟨h1, h2⟩
          · exact h
          · exact absurd (hl _ _ h1) h2
        · exact fromYaml_err ht h
      | boolean =>
        rcases Except_bind_err.1 h with h | ⟨_, -, h⟩
        · rcases yamlToConfig_err h with h | ⟨h1, h2⟩
          · exact h
          · exact absurd (hl _ _ h1) h2
        · exact fromYaml_err ht h
    | many l =>
      cases t with
      | list _ => rcases Except_bind_err.1 h with h | ⟨_, -, h⟩; exacts [parseListArgs_err hl h, fromYaml_err ht h]
      | dict _ _ => rcases Except_bind_err.1 h with h | ⟨_, -, h⟩; exacts [parseDictArgs_err hl h, fromYaml_err ht h]
      | mergingDict _ _ => rcases Except_bind_err.1 h with h | ⟨_, -, h⟩; exacts [parseDictArgs_err hl h, fromYaml_err ht h]
      | _ => cases hr

/-! ## C51 -/

/-- Every option gets the value the file gives it (unset if the file does not mention it). -/
theorem C51_every_option {expand : String → String} {data : Dict PKey PVal} {desc : Desc} (hd : desc.Built) {c : Config}
    (h : configFromParsedYaml expand data desc false = .ok c) {n : String} {i : ConfigItem} (hi : desc.Has n i) :
    ∃ v, i.type.fromYaml expand ((fileEntry data n).getD .none) = .ok v ∧ readOpt c n = .ok v := by
  have hw := hd.wf
  exact (parsedYaml_spec hw h).2 n i (hw.has.1 hi)

/-- Options the file does not mention are unset. -/
theorem C51_missing_is_unset {expand : String → String} {data : Dict PKey PVal} {desc : Desc} (hd : desc.Built) {c : Config}
    (h : configFromParsedYaml expand data desc false = .ok c) {n : String} {i : ConfigItem} (hi : desc.Has n i) (hm : fileEntry data n = none) :
    readOpt c n = .ok i.type.unset := by
  obtain ⟨v, h1, h2⟩ := C51_every_option hd h hi
  rw [hm] at h1
  simp only [Option.getD_none, C50_null_is_unset] at h1
  cases h1; exact h2

/-- With defaults filled in (as when a dict is passed as the config of an API call). -/
theorem C51_every_option_with_defaults {expand : String → String} {data : Dict PKey PVal} {desc : Desc} (hd : desc.Built)
    (hdef : ∀ n i, desc.Has n i → DefaultFits i) {c : Config}
    (h : configFromParsedYaml expand data desc true = .ok c) {n : String} {i : ConfigItem} (hi : desc.Has n i) :
    ∃ v w, i.type.fromYaml expand ((fileEntry data n).getD .none) = .ok v ∧ readOpt c n = .ok w ∧ Effective i.type [v, i.default] w := by
  have hw := hd.wf
  have hi' := hw.has.1 hi
  unfold configFromParsedYaml at h
  obtain ⟨c0, h0, h⟩ := Except_bind_ok.1 h
  obtain ⟨c1, h1, h⟩ := Except_bind_ok.1 h
  simp only [if_true] at h
  obtain ⟨dflt, hdflt, h⟩ := Except_bind_ok.1 h
  have hc1 : configFromParsedYaml expand data desc false = .ok c1 := by
    simp only [configFromParsedYaml, h0, h1, bind, Except.bind]; rfl
  obtain ⟨f1, f2⟩ := parsedYaml_spec hw hc1
  obtain ⟨d1, d2⟩ := defaults_fit hw (fun n i hi => hdef n i (hw.has.2 hi)) hdflt
  obtain ⟨va, vb, w, ha, hb, hr, he⟩ := two_layers hd ((complete_iff hw).2 f1) ((complete_iff hw).2 d1) h hi
  obtain ⟨v, hv, hr1⟩ := f2 n i hi'
  rw [ha] at hr1; cases hr1
  rw [d2 n i hi'] at hb; cases hb
  exact ⟨_, w, hv, hr, he⟩

/-- The config has no keys but the described ones. -/
theorem C51_no_other_keys {expand : String → String} {data : Dict PKey PVal} {desc : Desc} (hd : desc.Built) {c : Config}
    (h : configFromParsedYaml expand data desc false = .ok c) {k : String} (hk : k ∈ dkeys c) :
    (∃ i, desc.Has k i ∧ groupOf k = none) ∨ ∃ n i s, desc.Has n i ∧ groupOf n = some (k, s) := by
  have hw := hd.wf
  unfold configFromParsedYaml at h
  obtain ⟨c0, h0, h⟩ := Except_bind_ok.1 h
  obtain ⟨c1, h1, h⟩ := Except_bind_ok.1 h
  simp only [Bool.false_eq_true, if_false, pure_ok] at h
  subst h
  by_cases hki : k ∈ dkeys desc.items ∧ groupOf k = none
  · obtain ⟨i, hi⟩ := Option.isSome_iff_exists.1 (mem_dkeys_iff.1 hki.1)
    exact .inl ⟨i, hw.has.2 hi, hki.2⟩
  · have e1 := (fillItems_spec _ hw.items h1).2 k (by tauto)
    by_cases hkg : k ∈ dkeys desc.groups
    · obtain ⟨gd, hgd⟩ := Option.isSome_iff_exists.1 (mem_dkeys_iff.1 hkg)
      obtain ⟨-, hne, hh⟩ := hw.ofGroup k gd hgd
      cases gd with
      | nil => exact absurd rfl hne
      | cons x gd =>
        obtain ⟨s, i⟩ := x
        obtain ⟨a, b⟩ := hh s i (by simp [dget])
        exact .inr ⟨i.name, i, s, hw.has.2 b, a⟩
    · have e2 := (fillGroups_spec _ hw.groups h0).2 k hkg
      rw [mem_dkeys_iff, e1, e2] at hk
      simp at hk

theorem fillGroup_congr {v v' : String → ConfigItem → Except Exc PVal} (l : List (String × ConfigItem)) (h : ∀ s i, (s, i) ∈ l → v s i = v' s i)
    (acc : Dict String PVal) : fillGroup v acc l = fillGroup v' acc l := by
  induction l generalizing acc with
  | nil => rfl
  | cons x l ih =>
    obtain ⟨s, i⟩ := x
    simp only [fillGroup, h s i (by simp)]
    congr 1; funext w
    exact ih (fun s i hm => h s i (List.mem_cons_of_mem _ hm)) _

theorem fillGroups_congr {v v' : String → String → ConfigItem → Except Exc PVal} (l : List (String × Dict String ConfigItem))
    (h : ∀ g gd s i, (g, gd) ∈ l → (s, i) ∈ gd → v g s i = v' g s i) (acc : Config) : fillGroups v acc l = fillGroups v' acc l := by
  induction l generalizing acc with
  | nil => rfl
  | cons x l ih =>
    obtain ⟨g, gd⟩ := x
    simp only [fillGroups, fillGroup_congr gd (fun s i hm => h g gd s i (by simp) hm)]
    congr 1; funext w
    exact ih (fun g gd s i hm => h g gd s i (List.mem_cons_of_mem _ hm)) _

theorem fillItems_congr {v v' : String → ConfigItem → Except Exc PVal} (l : List (String × ConfigItem))
    (h : ∀ n i, (n, i) ∈ l → groupOf n = none → v n i = v' n i) (acc : Config) : fillItems v acc l = fillItems v' acc l := by
  induction l generalizing acc with
  | nil => rfl
  | cons x l ih =>
    obtain ⟨n, i⟩ := x
    have ih' := fun acc => ih (fun n i hm => h n i (List.mem_cons_of_mem _ hm)) acc
    cases hg : groupOf n with
    | some p => rw [fillItems_cons_grp hg, fillItems_cons_grp hg]; exact ih' acc
    | none =>
      rw [fillItems_cons_top hg, fillItems_cons_top hg, h n i (by simp) hg]
      congr 1; funext w
      exact ih' _

/-- The result depends only on the entries of described options: other keys, at the top or in groups, are ignored. -/
theorem C51_unknown_keys_ignored {expand : String → String} {data data' : Dict PKey PVal} {desc : Desc} (hd : desc.Built) (ud : Bool)
    (hsame : ∀ n i, desc.Has n i → fileEntry data n = fileEntry data' n)
    (hgr : ∀ n i g s, desc.Has n i → groupOf n = some (g, s) →
      (∀ v, dget data (.str g) = some v → v.isDict) ∧ ∀ v, dget data' (.str g) = some v → v.isDict) :
    configFromParsedYaml expand data desc ud = configFromParsedYaml expand data' desc ud := by
  have hw := hd.wf
  have e1 : fillGroups (yamlGroupValue expand data) [] desc.groups = fillGroups (yamlGroupValue expand data') [] desc.groups := by
    apply fillGroups_congr
    intro g gd s i hm hm2
    obtain ⟨w, -, hh⟩ := hw.ofGroup g gd (mem_dget hw.groups hm)
    obtain ⟨a, b⟩ := hh s i (mem_dget w hm2)
    have hs := hsame i.name i (hw.has.2 b)
    obtain ⟨g1, g2⟩ := hgr i.name i g s (hw.has.2 b) a
    simp only [fileEntry, a] at hs
    unfold yamlGroupValue yamlValue
    cases hx : dget data (.str g) with
    | none =>
      cases hy : dget data' (.str g) with
      | none => rfl
      | some y =>
        have := g2 y hy
        cases y <;> simp [PVal.isDict] at this
        simp [hx, hy] at hs
        simp [← hs]
    | some x =>
      have := g1 x hx
      cases x <;> simp [PVal.isDict] at this
      cases hy : dget data' (.str g) with
      | none =>
        simp [hx, hy] at hs
        simp [hs]
      | some y =>
        have := g2 y hy
        cases y <;> simp [PVal.isDict] at this
        simp [hx, hy] at hs
        simp [hs]
  have e2 : ∀ c, fillItems (yamlValue expand data) c desc.items = fillItems (yamlValue expand data') c desc.items := by
    intro c
    apply fillItems_congr
    intro n i hm hg
    have := hsame n i (hw.has.2 (mem_dget hw.items hm))
    simp only [fileEntry, hg] at this
    simp [yamlValue, this]
  unfold configFromParsedYaml
  simp only [e1, e2]

/-- Errors, given that every described group in the file is a dict: some described option has a value that cannot be read, and the error is a
`ConfigValueError`. (Missing: a group that is present but not a dict, see `C51_null_group_refuted`.) -/
theorem C51_errors_partial {expand : String → String} {data : Dict PKey PVal} {desc : Desc} (hd : desc.Built) (hkt : ∀ n i, desc.Has n i → i.type.KeysOk)
    (hgr : ∀ n i g s, desc.Has n i → groupOf n = some (g, s) → ∀ v, dget data (.str g) = some v → v.isDict) :
    (∃ c, configFromParsedYaml expand data desc false = .ok c) ∨
      (configFromParsedYaml expand data desc false = .error .configValueError ∧
        ∃ n i v, desc.Has n i ∧ fileEntry data n = some v ∧ ¬ Readable i.type v) := by
  have hw := hd.wf
  rcases h : (fillGroups (yamlGroupValue expand data) [] desc.groups >>= fun c => fillItems (yamlValue expand data) c desc.items) with e | c
  · right
    obtain ⟨n, i, hi, he⟩ := fill_error hw h
    have hi' := hw.has.2 hi
    have he' : i.type.fromYaml expand ((fileEntry data n).getD .none) = .error e := by
      unfold optValue at he
      unfold fileEntry
      cases hg : groupOf n with
      | none => simpa [hg, yamlValue] using he
      | some p =>
        obtain ⟨g, s⟩ := p
        simp only [hg, yamlGroupValue] at he
        cases hx : dget data (.str g) with
        | none => simpa [hx, yamlValue] using he
        | some x =>
          have := hgr n i g s hi' hg x hx
          cases x <;> simp [PVal.isDict] at this
          simpa [hx, yamlValue] using he
    have hee := fromYaml_err (hkt n i hi') he'
    subst hee
    constructor
    · unfold configFromParsedYaml
      rcases Except_bind_err.1 h with h1 | ⟨c0, h0, h1⟩
      · simp [h1, bind, Except.bind]
      · simp [h0, h1, bind, Except.bind]
    · cases hf : fileEntry data n with
      | none => rw [hf] at he'; simp only [Option.getD_none, C50_null_is_unset] at he'; cases he'
      | some v =>
        refine ⟨n, i, v, hi', hf, fun hr => ?_⟩
        obtain ⟨w, hw'⟩ := (fromYaml_ok_iff (expand := expand) (hkt n i hi')).2 hr
        rw [hf] at he'; simp only [Option.getD_some] at he'
        rw [hw'] at he'; cases he'
  · left
    obtain ⟨c0, h0, h1⟩ := Except_bind_ok.1 h
    exact ⟨c, by simp [configFromParsedYaml, h0, h1, bind, Except.bind, pure, Except.pure]⟩

/-- Refutation: a group with a null (or any other non-dict) value in the file always makes reading fail, whatever the other entries are. -/
theorem C51_null_group_refuted {expand : String → String} {data : Dict PKey PVal} {desc : Desc} (hd : desc.Built) {n : String} {i : ConfigItem}
    {g s : String} (hi : desc.Has n i) (hg : groupOf n = some (g, s)) {v : PVal} (hv : dget data (.str g) = some v) (hnd : v.isDict = false) :
    ¬ ∃ c, configFromParsedYaml expand data desc false = .ok c := by
  have hw := hd.wf
  rintro ⟨c, h⟩
  unfold configFromParsedYaml at h
  obtain ⟨c0, h0, h⟩ := Except_bind_ok.1 h
  obtain ⟨c1, h1, -⟩ := Except_bind_ok.1 h
  obtain ⟨w, hw1, -⟩ := (fill_spec hw (Except_bind_ok.2 ⟨c0, h0, h1⟩)).1 n i (hw.has.1 hi)
  unfold optValue yamlGroupValue at hw1
  simp only [hg, hv, Option.getD_some] at hw1
  cases v <;> simp [PVal.isDict] at hnd hw1

/-- The concrete case: `os_options:` with nothing below it in xylem's config file gives an AttributeError. -/
theorem C51_null_group_witness (expand : String → String) :
    configFromParsedYaml expand [(.str "os_options", .none)] xylemDescription false = .error .attributeError := by rfl

/-- A missing or empty file is the empty config: it always loads, and every option is unset. -/
theorem C51_empty_file {loadYaml : String → Except Exc PVal} {expand : String → String} {desc : Desc} (hd : desc.Built) {f : FileText}
    (hf : f = .missing ∨ ∃ s, f = .text s ∧ loadYaml s = .ok .none) :
    ∃ c, configFromFile loadYaml expand desc f = .ok c ∧ ∀ n i, desc.Has n i → readOpt c n = .ok i.type.unset := by
  have hw := hd.wf
  have hload : loadConfigFileYaml loadYaml f = .ok [] := by
    rcases hf with rfl | ⟨s, rfl, hs⟩
    · rfl
    · simp [loadConfigFileYaml, hs, yamlToConfig, processConfigFileYaml, bind, Except.bind]
  have hfile : configFromFile loadYaml expand desc f = configFromParsedYaml expand [] desc false := by
    simp [configFromFile, hload, bind, Except.bind]
  have hc : ∃ c, configFromParsedYaml expand [] desc false = .ok c := by
    rcases h : (fillGroups (yamlGroupValue expand []) [] desc.groups >>= fun c => fillItems (yamlValue expand []) c desc.items) with e | c
    · obtain ⟨n, i, hi, he⟩ := fill_error hw h
      unfold optValue at he
      cases hg : groupOf n with
      | none => simp [hg, yamlValue, C50_null_is_unset] at he
      | some p => simp [hg, yamlGroupValue, yamlValue, C50_null_is_unset] at he
    · obtain ⟨c0, h0, h1⟩ := Except_bind_ok.1 h
      exact ⟨c, by simp [configFromParsedYaml, h0, h1, bind, Except.bind, pure, Except.pure]⟩
  obtain ⟨c, hc⟩ := hc
  refine ⟨c, by rw [hfile, hc], fun n i hi => C51_missing_is_unset hd hc hi ?_⟩
  unfold fileEntry
  split <;> rfl

/-- Files that cannot be read, parsed, or are not a dict with text keys raise `ConfigValueError`. -/
theorem C51_bad_files {loadYaml : String → Except Exc PVal} (hl : ∀ s e, loadYaml s = .error e → e = .yamlError) {f : FileText} :
    (∀ e, loadConfigFileYaml loadYaml f = .error e → e = .configValueError) ∧
      ∀ d, loadConfigFileYaml loadYaml f = .ok d → d = [] ∨ (∃ s, f = .text s ∧ loadYaml s = .ok (.dict d) ∧ ∀ k v, (k, v) ∈ d → ∃ t, k = .str t) := by
  cases f with
  | missing => exact ⟨fun e h => (by cases h), fun d h => (by cases h; exact .inl rfl)⟩
  | unreadable => exact ⟨fun e h => (by cases h; rfl), fun d h => (by cases h)⟩
  | text s =>
    constructor
    · intro e h
      rcases Except_bind_err.1 h with h | ⟨v, -, h⟩
      · rcases yamlToConfig_err h with h | ⟨h1, h2⟩
        · exact h
        · exact absurd (hl _ _ h1) h2
      · cases v with
        | none => cases h
        | dict d =>
          simp only [processConfigFileYaml] at h
          split at h
          · cases h
          · cases h; rfl
        | _ => simp [processConfigFileYaml] at h; exact h.symm
    · intro d h
      obtain ⟨v, hv, h⟩ := Except_bind_ok.1 h
      have hv' : loadYaml s = .ok v := by
        cases hs : loadYaml s with
        | ok w => rw [hs] at hv; exact hv
        | error e => rw [hs] at hv; cases e <;> cases hv
      cases v with
      | none => cases h; exact .inl rfl
      | dict d' =>
        simp only [processConfigFileYaml] at h
        split at h
        · next hall =>
          cases h
          refine .inr ⟨s, rfl, hv', fun k v hm => ?_⟩
          have := List.all_eq_true.1 hall (k, v) hm
          cases k <;> simp at this ⊢
        · cases h
      | _ => simp [processConfigFileYaml] at h

/-! ## C52 -/

/-- Names are distinct, whatever calls of `add` were made, also if some of them raised. -/
theorem C52_names_distinct {desc : Desc} (hd : desc.Built) : (desc.itemlist.map ConfigItem.name).Nodup := by
  have hw := hd.wf
  have : desc.itemlist.map ConfigItem.name = dkeys desc.items := by
    rw [← hw.listed]; simp [dkeys]
  rw [this]; exact hw.items

/-- The config file keys are distinct: no two options have the same place in the file, and no place of an option is a group. -/
theorem C52_keys_distinct {desc : Desc} (hd : desc.Built) {n m : String} {i j : ConfigItem} (hn : desc.Has n i) (hm : desc.Has m j) :
    (groupOf n = groupOf m → groupOf n ≠ none → n = m) ∧ ∀ g s, groupOf n = some (g, s) → g ≠ m := by
  have hw := hd.wf
  refine ⟨?_, sep_of_items hw (mem_dkeys_iff.2 (by simp [hw.has.1 hn])) (mem_dkeys_iff.2 (by simp [hw.has.1 hm]))⟩
  intro h hne
  cases hg : groupOf n with
  | none => exact absurd hg hne
  | some p => exact groupOf_inj hg (h ▸ hg)

/-- Adding an item whose name or group clashes raises and leaves the description as it was; other items are appended. -/
theorem C52_add {desc : Desc} (hd : desc.Built) (s : ItemSpec) :
    let clash := (∃ i, desc.Has s.name i) ∨ (∃ n i sub, desc.Has n i ∧ groupOf n = some (s.name, sub)) ∨
      (∃ g sub i, groupOf s.name = some (g, sub) ∧ desc.Has g i)
    (clash → desc.add s = (desc, .error .configDescriptionError)) ∧ (¬ clash → (desc.add s).1.itemlist = desc.itemlist ++ [mkItem s]) := by
  intro clash
  have hw := hd.wf
  have hiff : clash ↔ desc.Refuses s := by
    constructor
    · rintro (⟨i, hi⟩ | ⟨n, i, sub, hi, hg⟩ | ⟨g, sub, i, hg, hi⟩)
      · exact .inl (mem_dkeys_iff.2 (by simp [hw.has.1 hi]))
      · obtain ⟨gd, hgd, -⟩ := hw.inGroup n i _ _ (hw.has.1 hi) hg
        exact .inr (.inl (mem_dkeys_iff.2 (by simp [hgd])))
      · have hgi : g ∈ dkeys desc.items := mem_dkeys_iff.2 (by simp [hw.has.1 hi])
        exact .inr (.inr ⟨g, sub, hg, hw.disjoint g hgi, hgi⟩)
    · rintro (h | h | ⟨g, sub, hg, -, h⟩)
      · obtain ⟨i, hi⟩ := Option.isSome_iff_exists.1 (mem_dkeys_iff.1 h)
        exact .inl ⟨i, hw.has.2 hi⟩
      · obtain ⟨gd, hgd⟩ := Option.isSome_iff_exists.1 (mem_dkeys_iff.1 h)
        obtain ⟨-, hne, hh⟩ := hw.ofGroup _ gd hgd
        cases gd with
        | nil => exact absurd rfl hne
        | cons x gd =>
          obtain ⟨sub, i⟩ := x
          obtain ⟨a, b⟩ := hh sub i (by simp [dget])
          exact .inr (.inl ⟨i.name, i, sub, hw.has.2 b, a⟩)
      · obtain ⟨i, hi⟩ := Option.isSome_iff_exists.1 (mem_dkeys_iff.1 h)
        exact .inr (.inr ⟨g, sub, i, hg, hw.has.2 hi⟩)
  constructor
  · intro h; exact Desc.add_refused (hiff.1 h)
  · intro h
    rw [Desc.add_accepted (fun hr => h (hiff.2 hr))]
    rfl

/-- Refutation for command line arguments: after the error about a duplicate argument the option is there all the same, so two options share the
argument. -/
theorem C52_arguments_refuted : ∃ (desc : Desc) (s : ItemSpec), desc.Built ∧ (desc.add s).2 = .error .configDescriptionError ∧
    ∃ i j, i ∈ (desc.add s).1.itemlist ∧ j ∈ (desc.add s).1.itemlist ∧ i.name ≠ j.name ∧ i.commandLine = true ∧ j.commandLine = true ∧
      i.argument = j.argument := by
  refine ⟨(Desc.add {} { name := "a_b", commandLine := some true }).1, { name := "a/b", commandLine := some true }, .add .empty _, by rfl,
    mkItem { name := "a_b", commandLine := some true }, mkItem { name := "a/b", commandLine := some true }, ?_, ?_, by decide, rfl, rfl, by rfl⟩
  · exact List.mem_cons_self ..
  · exact List.mem_cons_of_mem _ (List.mem_cons_self ..)

theorem addAll_built (l : List ItemSpec) {d0 d : Desc} (h0 : d0.Built)
    (h : l.foldlM (fun d s => match d.add s with
      | (d', .ok _) => .ok d'
      | (_, .error e) => .error e) d0 = (.ok d : Except Exc Desc)) : d.Built := by
  induction l generalizing d0 with
  | nil => cases h; exact h0
  | cons s l ih =>
    rw [List.foldlM_cons] at h
    obtain ⟨d1, h1, h⟩ := Except_bind_ok.1 h
    refine ih ?_ h
    split at h1
    · next e => cases h1; rw [show d1 = (d0.add s).1 by rw [e]]; exact .add h0 s
    · cases h1

/-- The command line arguments in the description are those of its options. -/
def ArgsListed (d : Desc) : Prop := dkeys d.arguments = (d.itemlist.filter ConfigItem.commandLine).map ConfigItem.argument

theorem addAll_args (l : List ItemSpec) {d0 d : Desc} (h0 : ArgsListed d0) (hw0 : DWF d0.arguments)
    (h : l.foldlM (fun d s => match d.add s with
      | (d', .ok _) => .ok d'
      | (_, .error e) => .error e) d0 = (.ok d : Except Exc Desc)) : ArgsListed d ∧ DWF d.arguments := by
  induction l generalizing d0 with
  | nil => cases h; exact ⟨h0, hw0⟩
  | cons s l ih =>
    rw [List.foldlM_cons] at h
    obtain ⟨d1, h1, h⟩ := Except_bind_ok.1 h
    have key : ArgsListed d1 ∧ DWF d1.arguments := by
      by_cases hr : d0.Refuses s
      · rw [Desc.add_refused hr] at h1; cases h1
      · rw [Desc.add_accepted hr] at h1
        cases hc : (mkItem s).commandLine with
        | false =>
          simp only [hc, Bool.false_eq_true, false_and, if_false] at h1
          cases h1
          refine ⟨?_, ?_⟩
          · simpa [ArgsListed, Desc.added, hc] using h0
          · simpa [Desc.added, hc] using hw0
        | true =>
          by_cases ha : (mkItem s).argument ∈ dkeys d0.arguments
          · simp [hc, ha] at h1
          · simp only [hc, ha, and_false, if_false] at h1
            cases h1
            have hh := dhas_eq_false.2 ha
            refine ⟨?_, ?_⟩
            · have h0' : dkeys d0.arguments = _ := h0
              simp [ArgsListed, Desc.added, hc, hh, dset_fresh ha, h0']
            · simpa [Desc.added, hc, hh] using DWF_set hw0 _ _
    exact ih key.1 key.2 h

/-- If no call of `add` raised, the command line arguments are distinct as well. (Missing: histories in which `add` raised because of a duplicate
argument, for which the claim is false, see `C52_arguments_refuted`.) -/
theorem C52_arguments_partial {l : List ItemSpec} {desc : Desc} (h : addAll l = .ok desc) :
    desc.Built ∧ ((desc.itemlist.filter ConfigItem.commandLine).map ConfigItem.argument).Nodup := by
  refine ⟨addAll_built l .empty h, ?_⟩
  obtain ⟨h1, h2⟩ := addAll_args l (d0 := {}) (by simp [ArgsListed]) (by simp) h
  rw [← h1]; exact h2

/-- xylem's own description: no call of `add` raises. -/
theorem C52_xylem_description : addAll xylemItems = .ok xylemDescription := by rfl

theorem xylem_built : xylemDescription.Built := (C52_arguments_partial C52_xylem_description).1

/-- The hypotheses on defaults and key types hold for xylem's description. -/
theorem xylem_defaults {n : String} {i : ConfigItem} (h : xylemDescription.Has n i) : DefaultFits i ∧ i.type.KeysOk := by
  obtain ⟨h, -⟩ := h
  have : ∀ i ∈ xylemItems.map mkItem, DefaultFits i ∧ i.type.KeysOk := by
    simp [xylemItems, mkItem, DefaultFits, CType.KeysOk, CType.unset, PVal.isNone]
  have e : xylemDescription.itemlist = xylemItems.map mkItem := by rfl
  exact this i (e ▸ h)

end Verif
