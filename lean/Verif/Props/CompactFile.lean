import Verif.Props.Order
import Verif.Model.Commands
import Verif.Lemmas.Database
/-! # Property C82: `xylem _compact_rules_file` -/
set_option linter.unusedSimpArgs false
namespace Verif

/-! ## The compacted rules are valid -/

/-- Every default installer of the table has a name rules files may use. -/
def DefaultsNamed (uni : Char → Bool) (dflts : Dict String (Option String)) : Prop :=
  ∀ os name, dget dflts os = some (some name) → name ≠ "" → ValidName uni none (.str name)

theorem mem_dset {α : Type} {d : Dict String α} {k : String} {v : α} {x : String × α} (h : x ∈ dset d k v) : x ∈ d ∨ x = (k, v) := by
  induction d with
  | nil => simp [dset] at h; exact .inr h
  | cons y d ih =>
    simp only [dset] at h
    split at h
    · rename_i hk
      rcases List.mem_cons.1 h with h | h
      · subst h; exact .inr (by rw [hk])
      · exact .inl (List.mem_cons_of_mem _ h)
    · rcases List.mem_cons.1 h with h | h
      · exact .inl (by simp [h])
      · exact (ih h).imp (List.mem_cons_of_mem _) id

theorem mem_ddel {α : Type} {d : Dict String α} {k : String} {x : String × α} (h : x ∈ ddel d k) : x ∈ d := by
  induction d with
  | nil => simp [ddel] at h
  | cons y d ih =>
    simp only [ddel] at h
    split at h
    · exact List.mem_cons_of_mem _ (ih h)
    · rcases List.mem_cons.1 h with h | h
      · simp [h]
      · exact List.mem_cons_of_mem _ (ih h)

/-- Validity of a dict of typed values. -/
theorem valid_dictVal {α : Type} {f : α → PVal} {d : Dict String α} {P : PKey → PVal → Prop} :
    (∃ e, dictVal f d = .dict e ∧ ∀ k w, (k, w) ∈ e → P k w) ↔ ∀ x ∈ d, P (.str x.1) (f x.2) := by
  constructor
  · rintro ⟨e, h, hP⟩ x hx
    injection h with h; subst h
    exact hP _ _ (List.mem_map.2 ⟨x, hx, rfl⟩)
  · intro h
    refine ⟨_, rfl, fun k w hm => ?_⟩
    obtain ⟨x, hx, he⟩ := List.mem_map.1 hm
    injection he with h1 h2
    subst h1; subst h2
    exact h x hx

theorem ValidName.widen {uni : Char → Bool} {own : Option String} {k : PKey} (h : ValidName uni none k) : ValidName uni own k := by
  obtain ⟨s, h1, h2, h3⟩ := h
  exact ⟨s, h1, h2, fun hr => absurd (h3 hr) (by simp)⟩

theorem ValidName.notDefault {uni : Char → Bool} {s : String} (h : ValidName uni none (.str s)) : s ≠ "default_installer" := by
  obtain ⟨s', h1, _, h3⟩ := h
  injection h1 with h1; subst h1
  rintro rfl
  exact absurd (h3 (by simp [Reserved])) (by simp)

theorem accepted_default (uni : Char → Bool) : AcceptedName uni "default_installer" := by
  refine .inr ⟨"default_installer".toList, by decide, ?_, .inl rfl⟩
  have : ∀ c ∈ "default_installer".toList, ('a' ≤ c ∧ c ≤ 'z') ∨ c = '_' := by decide
  intro c hc
  rcases this c hc with h | h
  · exact .inl (.inl h)
  · exact .inl (.inr (.inr (.inr (.inl h))))

theorem reInst_valid {uni : Char → Bool} {P : Prop} (hP : P) {dflt : Option String}
    (hd : ∀ name, truthy dflt = some name → ValidName uni none (.str name)) {i : InstDict}
    (h : ValidInst uni P i.toVal) : ValidInst uni P (reInst dflt i).toVal := by
  unfold ValidInst InstDict.toVal at h ⊢
  rw [valid_dictVal] at h ⊢
  have hren : ∀ x ∈ renameD dflt i, ValidName uni (some "default_installer") (.str x.1) ∧
      (PKey.str x.1 = .str "default_installer" → P) ∧ ValidRule uni (Rule.toVal x.2) := by
    intro x hx
    unfold renameD at hx
    split at hx
    · rename_i name hn
      split at hx
      · rename_i ρ hρ
        rcases mem_dset (mem_ddel hx) with hx | rfl
        · exact h x hx
        · exact ⟨(hd _ hn).widen, fun _ => hP, (h _ (dget_some_mem hρ)).2.2⟩
      · exact h x hx
    · exact h x hx
  intro x hx
  unfold reInst at hx
  split at hx
  · rename_i n l he
    split at hx
    · simp only [List.mem_cons, List.not_mem_nil, or_false] at hx
      subst hx
      refine ⟨⟨"default_installer", rfl, ?_, fun _ => rfl⟩, fun _ => hP, ?_⟩
      · exact accepted_default uni
      · have := (hren (n, pkgRule l) (by rw [he]; simp [pkgRule])).2.2
        simpa [pkgRule, Rule.toVal] using this
    · exact hren x hx
  · exact hren x hx

theorem mem_keptVer {dflt : Option String} {vd : VerDict} {x : String × InstDict} (h : x ∈ keptVer dflt vd) : x ∈ vd := by
  unfold keptVer at h
  split at h
  · rename_i av hav
    rcases List.mem_cons.1 h with rfl | h
    · exact dget_some_mem hav
    · exact (List.mem_filter.1 h).1
  · exact (List.mem_filter.1 h).1

theorem reRules_valid {uni : Char → Bool} {dflts : Dict String (Option String)} (hd : DefaultsNamed uni dflts) {r : Rules}
    (h : ValidRules uni True r.toVal) : ValidRules uni True (reRules dflts r).toVal := by
  unfold ValidRules Rules.toVal at h ⊢
  rw [valid_dictVal] at h ⊢
  intro x hx
  obtain ⟨⟨key, od⟩, ho, rfl⟩ := List.mem_map.1 hx
  obtain ⟨h1, h2⟩ := h _ ho
  refine ⟨h1, ?_⟩
  unfold ValidOs OsDict.toVal at h2 ⊢
  rw [valid_dictVal] at h2 ⊢
  intro x hx
  obtain ⟨⟨os, vd⟩, hv, rfl⟩ := List.mem_map.1 hx
  obtain ⟨h3, h4⟩ := h2 _ hv
  refine ⟨h3, ?_⟩
  by_cases hos : os = "any_os"
  · simpa only [reOsEntry, if_pos hos] using h4
  · simp only [reOsEntry, if_neg hos]
    unfold ValidVer VerDict.toVal at h4 ⊢
    rw [valid_dictVal] at h4 ⊢
    intro x hx
    obtain ⟨⟨ver, i⟩, hi, rfl⟩ := List.mem_map.1 hx
    obtain ⟨h5, h6⟩ := h4 _ (mem_keptVer hi)
    refine ⟨h5, reInst_valid ⟨trivial, by simpa using hos⟩ ?_ h6⟩
    intro name hn
    obtain ⟨hn, hne⟩ := truthy_eq_some.1 hn
    unfold dfltOf at hn
    cases hg : dget dflts os with
    | none => rw [hg] at hn; simp at hn
    | some o => rw [hg] at hn; simp at hn; subst hn; exact hd os name hg hne

/-! ## The compacted rules have distinct keys -/

theorem strDict_WF {α : Type} {f : String → α → PVal} {d : Dict String α} (hd : DWF d) (h : ∀ k a, dget d k = some a → (f k a).WF) :
    (PVal.dict (d.map fun x => (PKey.str x.1, f x.1 x.2))).WF := by
  rw [wf_dict]
  refine ⟨DWF_str' hd, fun k w hm => ?_⟩
  obtain ⟨x, hx, he⟩ := List.mem_map.1 hm
  injection he with h1 h2
  subst h2
  exact h _ _ (mem_dget hd hx)

theorem compactRule_WF {ρ : Rule} (h : GoodRule ρ) : (compactInstallerRule ρ).WF := by
  rcases compactRule_cases h with ⟨l, rfl, e⟩ | ⟨_, e⟩
  · rw [e]; exact h.vals "packages" _ rfl
  · rw [e]; exact h.wf

theorem compactInst_WF {dflt : Option String} {i : InstDict} (h : GoodInst i) {c : PVal} (hc : compactInstallerDict i dflt = .ok c) : c.WF := by
  have hr := renameD_good (dflt := dflt) h
  rcases compactInst_eq h dflt with ⟨_, e⟩ | ⟨_, ⟨l, hl, e⟩ | ⟨_, e⟩⟩
  · rw [e] at hc; simp at hc
  · rw [e] at hc; injection hc with hc; subst hc
    have : dget (renameD dflt i) (dname dflt) = some (pkgRule l) := by rw [hl]; simp [dget]
    exact (hr.rules _ _ this).vals "packages" _ rfl
  · rw [e] at hc; injection hc with hc; subst hc
    exact strDict_WF (f := fun _ ρ => compactInstallerRule ρ) hr.nodup fun k ρ hk => compactRule_WF (hr.rules _ _ hk)

theorem compactVer_WF {dflt : Option String} {vd : VerDict} (h : GoodVer vd) {c : PVal} (hc : compactVersionDict vd dflt = .ok c) : c.WF := by
  obtain ⟨h1, rfl⟩ := (compactVer_iff h.nodup).1 hc
  have hk : ∀ k i, dget (keptVer dflt vd) k = some i → (cVal dflt i).WF := by
    intro k i hi
    have hm := mem_dget h.nodup (mem_keptVer (dget_some_mem hi))
    exact compactInst_WF (h.insts _ _ hm) (h1 _ _ hm)
  have hd : (dictVal (cVal dflt) (keptVer dflt vd)).WF := strDict_WF (f := fun _ i => cVal dflt i) (keptVer_DWF h.nodup) hk
  unfold verOut
  split
  · rename_i av hav
    split
    · exact compactInst_WF (h.insts _ _ hav) (h1 _ _ hav)
    · exact hd
  · exact hd

theorem compactOs_WF {dflts : Dict String (Option String)} {od : OsDict} (h : GoodOs od) {c : PVal} (hc : compactOsDict od dflts = .ok c) : c.WF := by
  obtain ⟨h1, rfl⟩ := (compactOs_iff h.nodup).1 hc
  refine strDict_WF (f := fun os vd => okv (compactOsEntry dflts os vd)) h.nodup fun os vd hv => ?_
  have h2 := h1 _ _ hv
  generalize okv (compactOsEntry dflts os vd) = x at h2 ⊢
  unfold compactOsEntry at h2
  split at h2
  · split at h2
    · simp at h2
    · rename_i i hi; exact compactInst_WF ((h.vers _ _ hv).insts _ _ hi) h2
  · exact compactVer_WF (h.vers _ _ hv) h2

theorem compactRules_WF {dflts : Dict String (Option String)} {r : Rules} (h : GoodRules r) {c : PVal} (hc : compactRules r dflts = .ok c) : c.WF := by
  obtain ⟨h1, rfl⟩ := (compactRules_iff h.nodup).1 hc
  exact strDict_WF (f := fun _ od => okv (compactOsDict od dflts)) h.nodup fun k od hv => compactOs_WF (h.oss _ _ hv) (h1 _ _ hv)

/-! ## What the command does to the file -/

/-- The file content is replaced in the end by `t`. -/
theorem applyText_pieces (f : TextFile) (ps : List (List Char)) :
    applyText f (.truncate :: ps.map .append) = some ps.flatten := by
  have : ∀ (acc : List Char), applyText (some acc) (ps.map .append) = some (acc ++ ps.flatten) := by
    induction ps with
    | nil => intro acc; simp [applyText]
    | cons p ps ih =>
      intro acc
      have := ih (acc ++ p)
      simp only [applyText, List.map_cons, List.foldl_cons, TextStep.apply, Option.getD_some, List.flatten_cons] at this ⊢
      rw [this, List.append_assoc]
  simpa [applyText, TextStep.apply] using this []

theorem compactedText_ok {uni : Char → Bool} {y : Yaml} {dflts : Except Exc (Dict String (Option String))} {f : TextFile} {t : List Char} :
    compactedText uni y dflts f = .ok t ↔ ∃ text v r d c, f = some text ∧ y.load text = .ok v ∧ loadRulesData uni v = .ok (Rules.toVal r) ∧
      dflts = .ok d ∧ compactRules r d = .ok c ∧ y.dump c = .ok t := by
  unfold compactedText
  constructor
  · intro h
    obtain ⟨text, h1, h⟩ := Except_bind_ok.1 h
    obtain ⟨v, h2, h⟩ := Except_bind_ok.1 h
    obtain ⟨a, h3, h⟩ := Except_bind_ok.1 h
    obtain ⟨d, h4, h⟩ := Except_bind_ok.1 h
    have : ∃ r : Rules, a = r.toVal := by
      unfold loadRulesData at h3
      obtain ⟨x, _, h3⟩ := Except_bind_ok.1 h3
      obtain ⟨_, hver, h3⟩ := Except_bind_ok.1 h3
      rw [pure_ok] at h3; subst h3
      exact verified_is_typed hver
    obtain ⟨r, rfl⟩ := this
    rw [rulesOfVal_toVal] at h
    obtain ⟨c, h5, h⟩ := Except_bind_ok.1 h
    refine ⟨text, v, r, d, c, ?_, h2, h3, h4, h5, h⟩
    cases f with
    | none => simp [readText] at h1
    | some x => simp [readText] at h1; rw [h1]
  · rintro ⟨text, v, r, d, c, rfl, h2, h3, h4, h5, h6⟩
    refine Except_bind_ok.2 ⟨text, rfl, Except_bind_ok.2 ⟨v, h2, Except_bind_ok.2 ⟨_, h3, Except_bind_ok.2 ⟨d, h4, ?_⟩⟩⟩⟩
    rw [rulesOfVal_toVal]
    exact Except_bind_ok.2 ⟨c, h5, h6⟩

/-- **C82** The command changes the file only if it is asked to (`--write`) and only after reading, parsing, expanding, verifying,
compacting and formatting have all succeeded; without `--write` it prints the text it would have written. -/
theorem C82_touched_only_if (on write : Bool) (uni : Char → Bool) (y : Yaml) (dflts : Except Exc (Dict String (Option String)))
    (w : TextWrite) (f : TextFile) :
    ((compactCommand on write uni y dflts w f).steps ≠ [] → write = true ∧ w.opens = .ok () ∧
      ∃ text v r d c t, f = some text ∧ y.load text = .ok v ∧ loadRulesData uni v = .ok (Rules.toVal r) ∧ dflts = .ok d ∧
        compactRules r d = .ok c ∧ y.dump c = .ok t) ∧
    (write = false → (compactCommand on write uni y dflts w f).run.res = .ok () →
      ∃ text v r d c t, f = some text ∧ y.load text = .ok v ∧ loadRulesData uni v = .ok (Rules.toVal r) ∧ dflts = .ok d ∧
        compactRules r d = .ok c ∧ y.dump c = .ok t ∧ (compactCommand on write uni y dflts w f).run = info on t) := by
  unfold compactCommand
  cases hc : compactedText uni y dflts f with
  | error e =>
    refine ⟨fun h => absurd rfl h, fun _ h => ?_⟩
    cases e <;> simp [quietInterrupt] at h
  | ok t =>
    obtain ⟨text, v, r, d, c, h1, h2, h3, h4, h5, h6⟩ := compactedText_ok.1 hc
    constructor
    · intro h
      cases write with
      | false => simp at h
      | true =>
        refine ⟨rfl, ?_, text, v, r, d, c, t, h1, h2, h3, h4, h5, h6⟩
        simp only [if_true, writeText] at h
        cases ho : w.opens with
        | ok u => rfl
        | error e => rw [ho] at h; simp at h
    · rintro rfl hr
      refine ⟨text, v, r, d, c, t, h1, h2, h3, h4, h5, h6, ?_⟩
      simp only [Bool.false_eq_true, if_false, quietInterrupt, info] at hr ⊢

theorem SameLookup.trans {a b c : Except Exc InstDict} (h : SameLookup a b) (h' : SameLookup b c) : SameLookup a c := by
  cases h with
  | fails e e' => cases h' with | fails _ e'' => exact .fails e e''
  | ok d d' h =>
    cases h' with
    | ok _ d'' h' =>
      refine .ok d d'' fun inst => ?_
      rcases h inst with ⟨h1, h2⟩ | ⟨ρ, ρ', h1, h2, hp⟩
      · rcases h' inst with ⟨h3, h4⟩ | ⟨σ, σ', h3, _, _⟩
        · exact .inl ⟨h1, h4⟩
        · rw [h2] at h3; simp at h3
      · rcases h' inst with ⟨h3, _⟩ | ⟨σ, σ', h3, h4, hp'⟩
        · rw [h2] at h3; simp at h3
        · rw [h2] at h3; injection h3 with h3; subst h3
          exact .inr ⟨ρ, σ', h1, h4, pyEq_trans _ _ _ hp hp'⟩

/-- What is assumed about the YAML library: parsed dicts have distinct keys, and what was dumped is read back as an equal value. -/
structure YamlWorks (y : Yaml) : Prop where
  wf : ∀ t v, y.load t = .ok v → v.WF
  roundTrip : ∀ v t, y.dump v = .ok t → ∃ w, y.load t = .ok w ∧ pyEq v w = true

/-- **C82** If the command with `--write` returns normally, the file holds the formatted compact rules, loads again, and every lookup on
it (any key, os, version, with the default installers the command used) agrees with the lookup on the old file. -/
theorem C82_written (on : Bool) (uni : Char → Bool) (y : Yaml) (hy : YamlWorks y) (d : Dict String (Option String))
    (hd : DefaultsNamed uni d) (w : TextWrite) (hw : ∀ t, (w.pieces t).flatten = t) (text : List Char) (v : PVal)
    (hv : y.load text = .ok v)
    (hres : (compactCommand on true uni y (.ok d) w (some text)).run.res = .ok ()) :
    ∃ (r r' : Rules) (t : List Char) (v' : PVal), loadRulesData uni v = .ok r.toVal ∧
      applyText (some text) (compactCommand on true uni y (.ok d) w (some text)).steps = some t ∧
      y.load t = .ok v' ∧ loadRulesData uni v' = .ok r'.toVal ∧
      ∀ key os ver, os ≠ "any_os" →
        SameLookup (lookupRules r key os ver ((dget d os).getD none)) (lookupRules r' key os ver ((dget d os).getD none)) := by
  unfold compactCommand at hres ⊢
  cases hc : compactedText uni y (.ok d) (some text) with
  | error e => rw [hc] at hres; cases e <;> simp [quietInterrupt] at hres
  | ok t =>
    rw [hc] at hres
    obtain ⟨text', v1, r, d', c, h1, h2, h3, h4, h5, h6⟩ := compactedText_ok.1 hc
    injection h1 with h1; subst h1
    injection h4 with h4; subst h4
    rw [hv] at h2; injection h2 with h2; subst h2
    simp only [if_true, writeText] at hres ⊢
    cases ho : w.opens with
    | error e => rw [ho] at hres; cases e <;> simp [quietInterrupt] at hres
    | ok u =>
      have hwfv := hy.wf _ _ hv
      have gr := loaded_is_good hwfv h3
      have g1 := reRules_good (dflts := d) gr
      obtain ⟨v', hv', hp⟩ := hy.roundTrip _ _ h6
      have hex := expand_rules gr h5
      -- the rules written are valid
      have hval : loadRulesData uni c = .ok (reRules d r).toVal := by
        unfold loadRulesData
        refine Except_bind_ok.2 ⟨_, hex, Except_bind_ok.2 ⟨(), ?_, rfl⟩⟩
        refine verifyRulesDict_iff.2 (reRules_valid hd ?_)
        unfold loadRulesData at h3
        obtain ⟨x, _, h3⟩ := Except_bind_ok.1 h3
        obtain ⟨_, hver, h3⟩ := Except_bind_ok.1 h3
        rw [pure_ok] at h3; subst h3
        exact verifyRulesDict_iff.1 hver
      have cwf : c.WF := compactRules_WF gr h5
      have hwfv' := hy.wf _ _ hv'
      obtain ⟨b, hb, hpb⟩ := loadRulesData_respects cwf hwfv' hp hval
      have : ∃ r' : Rules, b = r'.toVal := by
        unfold loadRulesData at hb
        obtain ⟨x, _, h3⟩ := Except_bind_ok.1 hb
        obtain ⟨_, hver, h3⟩ := Except_bind_ok.1 h3
        rw [pure_ok] at h3; subst h3
        exact verified_is_typed hver
      obtain ⟨r', rfl⟩ := this
      refine ⟨r, r', t, v', h3, ?_, hv', hb, fun key os ver hos => ?_⟩
      · rw [applyText_pieces, hw]
      · obtain ⟨r1, hr1, hl1⟩ := C14_compaction_preserves_lookup r gr d c h5
        have e : r1 = reRules d r := by
          rw [hex] at hr1
          injection hr1 with hr1
          have := congrArg rulesOfVal hr1
          rw [rulesOfVal_toVal, rulesOfVal_toVal] at this
          injection this with this; exact this.symm
        subst e
        refine (hl1 key os ver hos).trans (lookup_of_pyEq g1 (loaded_is_good hwfv' hb) hpb key os ver _ ?_)
        obtain ⟨f1, f2, f3, f4, f5, f6⟩ := compact_facts gr h5 key os ver hos rfl
        simp only [consulted, List.mem_cons, List.not_mem_nil, or_false, forall_eq_or_imp, forall_eq]
        refine ⟨f4 _, f4 _, ?_⟩
        rw [f1]
        rintro ⟨_, _, hh, _⟩
        rw [f2] at hh; simp at hh

/-! ## Crashes while writing -/

theorem applyText_prefix (f : TextFile) (ps : List (List Char)) (p : List TextStep) (h : p <+: .truncate :: ps.map .append) :
    applyText f p = f ∨ ∃ s, s <+: ps.flatten ∧ applyText f p = some s := by
  cases p with
  | nil => exact .inl rfl
  | cons x p =>
    right
    obtain ⟨rfl, hp⟩ := List.cons_prefix_cons.1 h
    obtain ⟨n, rfl⟩ : ∃ n, p = (ps.take n).map .append := by
      obtain ⟨q, hq⟩ := hp
      refine ⟨p.length, ?_⟩
      have := congrArg (List.take p.length) hq
      simpa [List.map_take] using this
    refine ⟨(ps.take n).flatten, ?_, applyText_pieces f _⟩
    refine ⟨(ps.drop n).flatten, ?_⟩
    rw [← List.flatten_append, List.take_append_drop]

/-- **C82** Whenever the program stops — also in the middle of writing — the file holds the old text or a beginning of the new one. -/
theorem C82_crash_contents (on write : Bool) (uni : Char → Bool) (y : Yaml) (dflts : Except Exc (Dict String (Option String)))
    (w : TextWrite) (hw : ∀ t, (w.pieces t).flatten = t) (f : TextFile) (p : List TextStep)
    (hp : p <+: (compactCommand on write uni y dflts w f).steps) :
    applyText f p = f ∨ ∃ t s, compactedText uni y dflts f = .ok t ∧ s <+: t ∧ applyText f p = some s := by
  unfold compactCommand at hp
  cases hc : compactedText uni y dflts f with
  | error e => rw [hc] at hp; simp at hp; subst hp; exact .inl rfl
  | ok t =>
    rw [hc] at hp
    cases write with
    | false => simp at hp; subst hp; exact .inl rfl
    | true =>
      simp only [if_true, writeText] at hp
      cases ho : w.opens with
      | error e => rw [ho] at hp; simp at hp; subst hp; exact .inl rfl
      | ok u =>
        rw [ho] at hp
        rcases applyText_prefix f _ p hp with h | ⟨s, h1, h2⟩
        · exact .inl h
        · exact .inr ⟨t, s, rfl, by rwa [hw] at h1, h2⟩

/-- **C82** (refuted: writing is not safe against crashes) Every time the command writes, there is a moment at which the old rules are
gone: a crash right after opening leaves an empty file, which — an empty YAML document being null — loads without complaint as "no rules
for any key". -/
theorem C82_crash_loses_rules_refuted (on write : Bool) (uni : Char → Bool) (y : Yaml) (hy : y.load [] = .ok .none)
    (dflts : Except Exc (Dict String (Option String))) (w : TextWrite) (f : TextFile)
    (h : (compactCommand on write uni y dflts w f).steps ≠ []) :
    ∃ p, p <+: (compactCommand on write uni y dflts w f).steps ∧ applyText f p = some [] ∧
      ∃ v, y.load [] = .ok v ∧ loadRulesData uni v = .ok (Rules.toVal []) ∧
        ∀ key os ver dflt, lookupRules [] key os ver dflt = .ok [] := by
  refine ⟨[.truncate], ?_, rfl, .none, hy, rfl, ?_⟩
  · unfold compactCommand at h ⊢
    cases hc : compactedText uni y dflts f with
    | error e => rw [hc] at h; simp at h
    | ok t =>
      rw [hc] at h
      cases write with
      | false => simp at h
      | true =>
        simp only [if_true, writeText] at h ⊢
        cases ho : w.opens with
        | error e => rw [ho] at h; simp at h
        | ok u => exact ⟨_, rfl⟩
  · intro key os ver dflt
    have hok : ∃ res, lookupRules [] key os ver dflt = .ok res := by
      rw [lookupRules_ok_iff]
      simp [consulted, entryAt, dget]
    obtain ⟨res, hres⟩ := hok
    have : ∀ inst, dget res inst = none := by
      intro inst
      rw [lookupRules_dget hres]
      simp [entryAt, dget, effLast]
    rw [hres]
    cases res with
    | nil => rfl
    | cons x t => have := this x.1; simp [dget] at this

/-! ## Repeated runs -/

/-- A YAML library that reads back exactly what it wrote. -/
structure YamlExact (y : Yaml) : Prop where
  wf : ∀ t v, y.load t = .ok v → v.WF
  exact : ∀ v t, y.dump v = .ok t → y.load t = .ok v

/-- The text the command computes for the file holding `text`, once more for the file holding that text, ... -/
def compactTimes (uni : Char → Bool) (y : Yaml) (d : Dict String (Option String)) : Nat → List Char → Except Exc (List Char)
  | 0, t => .ok t
  | n + 1, t => do
    let t' ← compactedText uni y (.ok d) (some t)
    compactTimes uni y d n t'

theorem typed_after_load {uni : Char → Bool} {d : Dict String (Option String)} (hd : DefaultsNamed uni d) {r : Rules} {v c : PVal}
    (gr : GoodRules r) (h3 : loadRulesData uni v = .ok r.toVal) (h5 : compactRules r d = .ok c) :
    loadRulesData uni c = .ok (reRules d r).toVal := by
  unfold loadRulesData
  refine Except_bind_ok.2 ⟨_, expand_rules gr h5, Except_bind_ok.2 ⟨(), ?_, rfl⟩⟩
  refine verifyRulesDict_iff.2 (reRules_valid hd ?_)
  unfold loadRulesData at h3
  obtain ⟨x, _, h3⟩ := Except_bind_ok.1 h3
  obtain ⟨_, hver, h3⟩ := Except_bind_ok.1 h3
  rw [pure_ok] at h3; subst h3
  exact verifyRulesDict_iff.1 hver

theorem toVal_inj {r s : Rules} (h : r.toVal = s.toVal) : r = s := by
  have := congrArg rulesOfVal h
  rw [rulesOfVal_toVal, rulesOfVal_toVal] at this
  injection this

/-- **C82** From the second run on the command leaves the file as it is: if two runs (with the same default installers) have succeeded,
every later run succeeds and writes the very same text. -/
theorem C82_settles (uni : Char → Bool) (y : Yaml) (hy : YamlExact y) (d : Dict String (Option String)) (hd : DefaultsNamed uni d)
    (text t2 : List Char) (h : compactTimes uni y d 2 text = .ok t2) (n : Nat) : compactTimes uni y d (n + 2) text = .ok t2 := by
  obtain ⟨t1, h1, h⟩ := Except_bind_ok.1 h
  obtain ⟨t2', h2, h⟩ := Except_bind_ok.1 h
  injection h with h; subst h
  have hfix : compactedText uni y (.ok d) (some t2') = .ok t2' := by
    obtain ⟨text', v, r, d', c, e1, e2, e3, e4, e5, e6⟩ := compactedText_ok.1 h1
    injection e1 with e1; subst e1
    injection e4 with e4; subst e4
    obtain ⟨t1', v1, r1, d', c1, f1, f2, f3, f4, f5, f6⟩ := compactedText_ok.1 h2
    injection f1 with f1; subst f1
    injection f4 with f4; subst f4
    have gr := loaded_is_good (hy.wf _ _ e2) e3
    rw [hy.exact _ _ e6] at f2
    injection f2 with f2; subst f2
    have hl := typed_after_load hd gr e3 e5
    rw [hl] at f3
    injection f3 with f3
    have f3 := toVal_inj f3
    subst f3
    have g1 := reRules_good (dflts := d) gr
    have hl1 := typed_after_load hd g1 hl f5
    obtain ⟨r', r'', c', k1, k2, k3, k4⟩ := C15_second_round_is_fixed r gr d c e5
    rw [expand_rules gr e5] at k1
    injection k1 with k1
    have k1 := toVal_inj k1
    subst k1
    rw [f5] at k2
    injection k2 with k2; subst k2
    rw [expand_rules g1 f5] at k3
    injection k3 with k3
    have k3 := toVal_inj k3
    subst k3
    exact compactedText_ok.2 ⟨_, _, _, _, _, rfl, hy.exact _ _ f6, hl1, rfl, k4, f6⟩
  show (compactedText uni y (.ok d) (some text) >>= fun t' => compactTimes uni y d (n + 1) t') = _
  rw [h1]
  show (compactedText uni y (.ok d) (some t1) >>= fun t' => compactTimes uni y d n t') = _
  rw [h2]
  show compactTimes uni y d n t2' = _
  clear h1 h2
  induction n with
  | zero => rfl
  | succ n ih =>
    show (compactedText uni y (.ok d) (some t2') >>= fun t' => compactTimes uni y d n t') = _
    rw [hfix]; exact ih

/-- **C82** A run with `--write` on a file the command no longer changes rewrites the same text. -/
theorem C82_settled_file (on : Bool) (uni : Char → Bool) (y : Yaml) (d : Dict String (Option String)) (w : TextWrite)
    (hw : ∀ t, (w.pieces t).flatten = t) (t : List Char) (h : compactTimes uni y d 1 t = .ok t) :
    applyText (some t) (compactCommand on true uni y (.ok d) w (some t)).steps = some t := by
  obtain ⟨t1, h1, h⟩ := Except_bind_ok.1 h
  injection h with h; subst h
  unfold compactCommand
  rw [h1]
  simp only [if_true, writeText]
  cases w.opens with
  | error e => rfl
  | ok u => simp only [applyText_pieces, hw]

/-! ## How the command ends -/

/-- What becomes of an exception raised while the command works: an interrupt is turned into exit code 1. -/
def compactEnds : Exc → Exc
  | .keyboardInterrupt => .systemExit 1
  | .eofError => .systemExit 1
  | e => e

/-- **C82** How the command ends: an exception while the new text is computed, while the file is opened or while it is written ends the
command with that exception — an interrupt with exit code 1 and no message — and nothing was printed; only in the last case the file was
touched. Otherwise it returns normally. -/
theorem C82_ends (on write : Bool) (uni : Char → Bool) (y : Yaml) (dflts : Except Exc (Dict String (Option String))) (w : TextWrite)
    (f : TextFile) :
    (∀ e, compactedText uni y dflts f = .error e →
      (compactCommand on write uni y dflts w f).run = ⟨[], .error (compactEnds e)⟩ ∧
      (compactCommand on write uni y dflts w f).steps = []) ∧
    (∀ t, compactedText uni y dflts f = .ok t → write = false →
      (compactCommand on write uni y dflts w f).run = info on t ∧ (compactCommand on write uni y dflts w f).steps = []) ∧
    (∀ t, compactedText uni y dflts f = .ok t → write = true →
      (∀ e, w.opens = .error e → (compactCommand on write uni y dflts w f).run = ⟨[], .error (compactEnds e)⟩ ∧
        (compactCommand on write uni y dflts w f).steps = []) ∧
      (∀ e, w.opens = .ok () → w.stops = some e → (compactCommand on write uni y dflts w f).run = ⟨[], .error (compactEnds e)⟩) ∧
      (w.opens = .ok () → w.stops = none → (compactCommand on write uni y dflts w f).run = ⟨[], .ok ()⟩)) := by
  have hq : ∀ e, quietInterrupt ⟨[], .error e⟩ = ⟨[], .error (compactEnds e)⟩ := by intro e; cases e <;> rfl
  unfold compactCommand
  refine ⟨fun e h => ?_, fun t h hw => ?_, fun t h hw => ⟨fun e ho => ?_, fun e ho hs => ?_, fun ho hs => ?_⟩⟩
  · rw [h]; exact ⟨hq e, rfl⟩
  · subst hw; rw [h]; exact ⟨rfl, rfl⟩
  · subst hw; rw [h]; simp only [if_true, writeText, ho, hq, and_self]
  · subst hw; rw [h]; simp only [if_true, writeText, ho, hs, hq]
  · subst hw; rw [h]; simp only [if_true, writeText, ho, hs, quietInterrupt]

/-! ## Non-vacuity -/

/-- A toy YAML library that knows a few documents. -/
def exYaml : Yaml where
  load t := if t = [] then .ok .none else if t = "old".toList then .ok exDrop.toVal else .ok (okv (compactRules exDrop exDflts))
  dump v := if pyEq v (okv (compactRules exDrop exDflts)) then .ok "new".toList else .error .valueError

/-- Writing works, in two pieces. -/
def exWrite : TextWrite where
  opens := .ok ()
  pieces t := [t.take 1, t.drop 1]
  stops := none

example : ∀ t, (exWrite.pieces t).flatten = t := by intro t; simp [exWrite, ← List.drop_one]
example : DefaultsNamed (fun _ => false) exDflts := by
  intro os name h _
  simp only [exDflts, dget] at h
  split at h
  · injection h with h; injection h with h; subst h
    refine ⟨"apt", rfl, .inr ⟨"apt".toList, by decide, ?_, .inl rfl⟩, ?_⟩
    · have : ∀ c ∈ "apt".toList, 'a' ≤ c ∧ c ≤ 'z' := by decide
      intro c hc; exact .inl (.inl (this c hc))
    · intro h; simp [Reserved] at h
  · simp at h
example : (compactCommand true true (fun _ => false) exYaml (.ok exDflts) exWrite (some "old".toList)).run.res = .ok () := by rfl
example : applyText (some "old".toList) (compactCommand true true (fun _ => false) exYaml (.ok exDflts) exWrite (some "old".toList)).steps =
    some "new".toList := by rfl
example : YamlWorks exYaml := by
  constructor
  · intro t v h
    simp only [exYaml] at h
    split at h
    · injection h with h; subst h; simp [PVal.WF]
    · split at h
      · injection h with h; subst h
        simp [exDrop, Rules.toVal, OsDict.toVal, VerDict.toVal, InstDict.toVal, Rule.toVal, dictVal, PVal.WF, PVal.WFItems, PVal.WFList]
      · injection h with h; subst h
        exact compactRules_WF (dflts := exDflts) exDrop_good rfl
  · intro v t h
    simp only [exYaml] at h
    split at h
    · rename_i hp
      injection h with h; subst h
      exact ⟨_, rfl, hp⟩
    · simp at h

/-- The compact form after one run and after two runs on `exDrop`. -/
def exOnce : PVal := okv (compactRules exDrop exDflts)
def exAfterTwo : PVal := okv (compactRules (reRules exDflts exDrop) exDflts)

open Classical in
/-- A YAML library for these documents that reads back exactly what it wrote. -/
noncomputable def exExact : Yaml where
  load t := if t = "old".toList then .ok exDrop.toVal else if t = "one".toList then .ok exOnce else .ok exAfterTwo
  dump v := if v = exAfterTwo then .ok "two".toList else if v = exOnce then .ok "one".toList else .error .valueError

example : YamlExact exExact := by
  constructor
  · intro t v h
    simp only [exExact] at h
    split at h
    · injection h with h; subst h
      simp [exDrop, Rules.toVal, OsDict.toVal, VerDict.toVal, InstDict.toVal, Rule.toVal, dictVal, PVal.WF, PVal.WFItems, PVal.WFList]
    · split at h
      · injection h with h; subst h
        exact compactRules_WF (dflts := exDflts) exDrop_good rfl
      · injection h with h; subst h
        exact compactRules_WF (dflts := exDflts) (reRules_good (dflts := exDflts) exDrop_good) rfl
  · intro v t h
    simp only [exExact] at h
    split at h
    · rename_i e
      injection h with h; subst h; subst e
      simp only [exExact]
      rw [if_neg (by decide), if_neg (by decide)]
    · split at h
      · rename_i e
        injection h with h; subst h; subst e
        simp only [exExact]
        rw [if_neg (by decide)]; rfl
      · simp at h

/-- Two runs succeed and the second one changes the file (the first did not reach the fixed form). -/
example : compactTimes (fun _ => false) exExact exDflts 2 "old".toList = .ok "two".toList ∧ exOnce ≠ exAfterTwo := by
  have hne : exOnce ≠ exAfterTwo := by
    intro h
    have : pyEq exOnce exAfterTwo = true := by rw [h]; decide +kernel
    revert this
    decide +kernel
  refine ⟨?_, hne⟩
  have h1 : compactedText (fun _ => false) exExact (.ok exDflts) (some "old".toList) = .ok "one".toList := by
    show exExact.dump exOnce = _
    simp only [exExact, if_neg hne, if_true]
  have h2 : compactedText (fun _ => false) exExact (.ok exDflts) (some "one".toList) = .ok "two".toList := by
    have : compactedText (fun _ => false) exExact (.ok exDflts) (some "one".toList) = exExact.dump exAfterTwo := by
      refine (show _ = _ from ?_)
      rfl
    rw [this]
    simp only [exExact, if_true]
  show (compactedText (fun _ => false) exExact (.ok exDflts) (some "old".toList) >>= fun t' => compactTimes _ exExact exDflts 1 t') = _
  rw [h1]
  show (compactedText (fun _ => false) exExact (.ok exDflts) (some "one".toList) >>= fun t' => compactTimes _ exExact exDflts 0 t') = _
  rw [h2]
  rfl

end Verif
