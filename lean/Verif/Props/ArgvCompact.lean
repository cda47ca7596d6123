import Verif.Props.ArgvWords
import Verif.Props.ArgvExamples
import Verif.Props.CompactFile
import Verif.Props.ProgramExamples
/-! # The words of `_compact_rules_file` (C139) -/
namespace Verif
variable {σ : Type}

/-- An option given is the beginning of a word, or one of the characters of a word with one dash. -/
theorem written_given_in {l : List Given} {ws : List String} (h : Written ArgWord l ws) {g : Given} (hg : g ∈ l) :
    ∃ w ∈ ws, g.flag.toList <+: w.toList ∨ ∃ c r, g.flag = shortFlag c ∧ w.toList = '-' :: r ∧ c ∈ r := by
  have later : ∀ {ws ws' : List String}, (∀ w ∈ ws, w ∈ ws') → (∃ w ∈ ws, g.flag.toList <+: w.toList ∨ ∃ c r, g.flag = shortFlag c ∧ w.toList = '-' :: r ∧ c ∈ r) →
      ∃ w ∈ ws', g.flag.toList <+: w.toList ∨ ∃ c r, g.flag = shortFlag c ∧ w.toList = '-' :: r ∧ c ∈ r :=
    fun hs ⟨w, hw, h⟩ => ⟨w, hs w hw, h⟩
  induction h with
  | nil => simp at hg
  | alone f _ _ ih =>
    rcases List.mem_cons.1 hg with rfl | hg
    · exact ⟨_, List.mem_cons_self, .inl List.prefix_rfl⟩
    · exact later (fun w hw => List.mem_cons_of_mem _ hw) (ih hg)
  | apart f v _ hv _ ih =>
    rcases List.mem_cons.1 hg with rfl | hg
    · exact ⟨_, List.mem_cons_self, .inl List.prefix_rfl⟩
    · exact later (fun w hw => List.mem_cons_of_mem _ (List.mem_cons_of_mem _ hw)) (ih hg)
  | joined f v _ ih =>
    rcases List.mem_cons.1 hg with rfl | hg
    · refine ⟨_, List.mem_cons_self, .inl ?_⟩
      rw [String.toList_ofList]
      exact List.prefix_append _ _
    · exact later (fun w hw => List.mem_cons_of_mem _ hw) (ih hg)
  | bundle c d cs hc _ ih =>
    rcases List.mem_append.1 hg with hg | hg
    · obtain ⟨x, hx, rfl⟩ := List.mem_map.1 hg
      exact ⟨_, List.mem_cons_self, .inr ⟨x, _, rfl, String.toList_ofList, hx⟩⟩
    · exact later (fun w hw => List.mem_cons_of_mem _ hw) (ih hg)
  | bundleEq c d cs hc _ ih =>
    rcases List.mem_append.1 hg with hg | hg
    · obtain ⟨x, hx, rfl⟩ := List.mem_map.1 hg
      refine ⟨_, List.mem_cons_self, .inr ⟨x, _, rfl, String.toList_ofList, ?_⟩⟩
      rcases List.mem_cons.1 hx with rfl | hx
      · exact List.mem_cons_self
      · exact List.mem_cons_of_mem _ (List.mem_cons_of_mem _ hx)
    · exact later (fun w hw => List.mem_cons_of_mem _ hw) (ih hg)

theorem compact_switch {top sub : List OptSpec} (h : ParsersFor "_compact_rules_file" top sub) {fresh : Bool} {before after : List Given} {ns : ArgSpace}
    (hp : parseCommandLine fresh top sub before after = .ok ns) : switchOn ns "write" = true ↔ IsGiven sub "--write" after :=
  command_switch (o := ⟨["-w", "--write"], "write", .storeTrue⟩) h.top h.sub h.facts.1 h.facts.2 hp (by simp [commandOptions]) rfl (by simp)

theorem reached_parsed {env : StartEnv} {desc : Desc} {fresh : Bool} {top sub : List OptSpec} {x : Except Exc Unit} {p : Process} {before after : List Given}
    {r : Process × ArgSpace} (h : reached env desc fresh top sub x p before after = .ok r) : parseCommandLine fresh top sub before after = .ok r.2 := by
  unfold reached at h
  obtain ⟨ns, h1, h⟩ := Except_bind_ok.1 h
  obtain ⟨_, _, h⟩ := Except_bind_ok.1 h
  obtain ⟨c, _, h⟩ := Except_bind_ok.1 h
  rw [h1, ← pure_ok.1 h]

/-- The word asks for writing, or could: it begins with a dash and has a `w` in it. -/
def WriteWord (w : String) : Prop := ∃ r, w.toList = '-' :: r ∧ 'w' ∈ r

theorem given_write {top sub : List OptSpec} (hp : ParsersFor "_compact_rules_file" top sub) {l : List Given} {ws : List String} (hw : Written ArgWord l ws)
    {g : Given} (hg : g ∈ l) (hm : Means sub g.flag "--write") : ∃ w ∈ ws, WriteWord w := by
  obtain ⟨_, e2, hu, hf, _⟩ := hp.common
  have hmem : (⟨["-w", "--write"], "write", .storeTrue⟩ : OptSpec) ∈ sub := by
    rw [e2]; exact List.mem_append_left _ (by simp [commandOptions])
  have hfind := (means_iff hf hu.nodup hmem (by simp)).1 hm
  obtain ⟨q, hq, hqf, hm'⟩ := hm
  have := apart_unique hf hq hmem hqf (by simp)
  subst this
  have key : g.flag = "-w" ∨ "--w".toList <+: g.flag.toList := by
    have long : "--".toList <+: g.flag.toList → g.flag.toList <+: "--write".toList → "--w".toList <+: g.flag.toList := by
      intro h1 h2
      by_cases hl : 3 ≤ g.flag.toList.length
      · exact List.prefix_of_prefix_length_le (by decide +kernel) h2 hl
      · exfalso
        have h2 : g.flag.toList = "--".toList := by
          have h3 : "--".toList.length = 2 := by decide +kernel
          exact (h1.eq_of_length_le (by rw [h3]; omega)).symm
        have h4 : g.flag = "--" := by
          have := congrArg String.ofList h2
          rwa [String.ofList_toList, String.ofList_toList] at this
        rw [h4, e2, hp.common.1] at hfind
        have h5 : (findOption (commandOptions "_compact_rules_file" ++ sharedOptions) "--").isOk = false := by decide +kernel
        rw [hfind] at h5
        cases h5
    have short : ¬ "--".toList <+: "-w".toList := by decide +kernel
    rcases hm' with hm' | ⟨h, hh, ha⟩
    · rcases List.mem_cons.1 hm' with e | hm'
      · exact .inl e
      · rw [List.mem_singleton.1 hm']; exact .inr (by decide +kernel)
    · rcases List.mem_cons.1 hh with e | hh
      · rw [e] at ha
        exact absurd (ha.2.1.trans ha.2.2.2.1) short
      · rw [List.mem_singleton.1 hh] at ha
        exact .inr (long ha.2.1 ha.2.2.2.1)
  obtain ⟨w, hw', hx⟩ := written_given_in hw hg
  refine ⟨w, hw', ?_⟩
  rcases hx with hx | ⟨c, r, e, hwr, hc⟩
  · rcases key with e | hk
    · rw [e, show "-w".toList = ['-', 'w'] by decide +kernel] at hx
      obtain ⟨t, ht⟩ := hx
      exact ⟨'w' :: t, ht.symm, List.mem_cons_self⟩
    · obtain ⟨t, ht⟩ := hk.trans hx
      rw [show "--w".toList = ['-', '-', 'w'] by decide +kernel] at ht
      exact ⟨'-' :: 'w' :: t, ht.symm, by simp⟩
  · rw [e, shortFlag_toList] at key
    rcases key with e' | hk
    · have := congrArg String.toList e'
      rw [show "-w".toList = ['-', 'w'] by decide +kernel, shortFlag_toList] at this
      injection this with _ this
      injection this with this
      rw [this] at hc
      exact ⟨r, hwr, hc⟩
    · have h6 : "--w".toList.length = 3 := by decide +kernel
      have h7 := hk.length_le
      rw [h6] at h7
      simp at h7

/-- **C139** xylem writes to a rules file only if asked for it: the word `_compact_rules_file` is on the command line, the file is one of the words, and another
word begins with a dash and has a `w` in it. It writes to no more than one. This holds for all words. -/
theorem C139_write_needs_word (o : Outside σ) (fresh : Bool) (p : Process) (words : List String) (s : σ) :
    (xylemDone o xylemDescription fresh p words s).rules.length ≤ 1 ∧
    ∀ f steps, (f, steps) ∈ (xylemDone o xylemDescription fresh p words s).rules → steps ≠ [] →
      "_compact_rules_file" ∈ words ∧ f ∈ words ∧ ∃ w ∈ words, WriteWord w := by
  rcases C139_every_run o fresh p words s with ⟨e, _, _, h⟩ | ⟨cmd, hc, top, sub, before, wb, a1, w1, keys, kw, a2, w2, hp, i1, i2, i3, i4, i5, i6, i7, i8, _, h⟩
  · rw [h]; exact ⟨by simp [Done.nothing], fun f x hx => absurd hx (by simp [Done.nothing])⟩
  · rw [h]
    have hcases : cmd = "update" ∨ cmd = "resolve" ∨ cmd = "lookup" ∨ cmd = "install" ∨ cmd = "_compact_rules_file" := by
      simpa [commandNames] using hc
    rcases hcases with rfl | rfl | rfl | rfl | rfl
    · exact ⟨by simp [doneBy], fun f x hx => absurd hx (by simp [doneBy])⟩
    · exact ⟨by simp [doneBy, Done.nothing], fun f x hx => absurd hx (by simp [doneBy, Done.nothing])⟩
    · exact ⟨by simp [doneBy, Done.nothing], fun f x hx => absurd hx (by simp [doneBy, Done.nothing])⟩
    · exact ⟨by simp [doneBy], fun f x hx => absurd hx (by simp [doneBy])⟩
    · have hk := (keysFor_iff hc keys).2 i8
      have hlen : keys.length = 1 := by simpa [KeysFor] using hk
      simp only [doneBy]
      cases hr : reached o.env xylemDescription fresh top sub (.ok ()) p before (a1 ++ a2) with
      | error e => exact ⟨by simp [Done.nothing], fun f x hx => absurd hx (by simp [Done.nothing])⟩
      | ok r =>
        refine ⟨by simp [hlen], fun f x hx hne => ?_⟩
        obtain ⟨k, hk', e⟩ := List.mem_map.1 hx
        injection e with e1 e2
        subst e1
        have hkw : k ∈ words := by
          rw [i1]
          rcases i4 with ⟨rfl, _⟩ | ⟨rfl, k1, k2, rfl, rfl, _⟩
          · simp [hk']
          · rcases List.mem_append.1 hk' with m | m <;> simp [m]
        refine ⟨by rw [i1]; simp, hkw, ?_⟩
        have hon : switchOn r.2 "write" = true := by
          rw [← e2] at hne
          exact ((C82_touched_only_if _ _ _ _ _ _ _).1 hne).1
        obtain ⟨g, hg, hm⟩ := (compact_switch hp (reached_parsed hr)).1 hon
        rcases List.mem_append.1 hg with hg | hg
        · obtain ⟨w, hw, h⟩ := given_write hp i3 hg hm
          exact ⟨w, by rw [i1]; simp [hw], h⟩
        · obtain ⟨w, hw, h⟩ := given_write hp i5 hg hm
          exact ⟨w, by rw [i1]; simp [hw], h⟩

theorem write_word : ¬ ArgWord "--write" := by
  unfold ArgWord PlainWord
  decide +kernel

theorem no_write_top : ∀ q, findOption sharedOptions "--write" ≠ .ok q := by
  have : (findOption sharedOptions "--write").isOk = false := by decide +kernel
  intro q h
  rw [h] at this
  cases this

/-- **C139** With the word `--write` on the command line (in front of any `--`), the text `_compact_rules_file` has made of a file is written to that file,
whatever the other words are, and is not printed. -/
theorem C139_write_word (o : Outside σ) (fresh : Bool) (p : Process) (words : List String) (s : σ) (hd : "--write" ∈ words.takeWhile (· ≠ "--"))
    {f : String} {steps : List TextStep} (hx : (f, steps) ∈ (xylemDone o xylemDescription fresh p words s).rules) :
    (∀ text, compactedText o.world.uni o.compact.yaml o.compact.dflts (o.compact.file f) = .ok text → steps = (writeText o.compact.write text).1) ∧
    ∀ e, compactedText o.world.uni o.compact.yaml o.compact.dflts (o.compact.file f) = .error e → steps = [] := by
  rcases C139_every_run o fresh p words s with ⟨e, _, _, h⟩ | ⟨cmd, hc, top, sub, before, wb, a1, w1, keys, kw, a2, w2, hp, i1, i2, i3, i4, i5, i6, i7, i8, _, h⟩
  · rw [h] at hx; simp [Done.nothing] at hx
  · rw [h] at hx
    have hcases : cmd = "update" ∨ cmd = "resolve" ∨ cmd = "lookup" ∨ cmd = "install" ∨ cmd = "_compact_rules_file" := by
      simpa [commandNames] using hc
    rcases hcases with rfl | rfl | rfl | rfl | rfl
    · simp [doneBy] at hx
    · simp [doneBy, Done.nothing] at hx
    · simp [doneBy, Done.nothing] at hx
    · simp [doneBy] at hx
    · have hk := (keysFor_iff hc keys).2 i8
      obtain ⟨k0, hk0⟩ : ∃ k, keys = [k] := by simpa [KeysFor, List.length_eq_one_iff] using hk
      have hg : IsGiven sub "--write" (a1 ++ a2) := by
        refine word_is_given hp i1 i4 i2 i3 i5 i6 i7 hd write_word (by decide +kernel) ⟨"write".toList, by decide +kernel⟩ (by decide) ?_ ?_
        · rw [hp.common.1]; exact no_write_top
        · rw [hp.common.2.1]
          unfold allFlags
          rw [List.flatMap_append]
          exact List.mem_append_left _ (by decide)
      simp only [doneBy] at hx
      cases hr : reached o.env xylemDescription fresh top sub (.ok ()) p before (a1 ++ a2) with
      | error e => rw [hr] at hx; simp [Done.nothing] at hx
      | ok r =>
        rw [hr] at hx
        obtain ⟨k, hk', e⟩ := List.mem_map.1 hx
        injection e with e1 e2
        subst e1
        have hon := (compact_switch hp (reached_parsed hr)).2 hg
        rw [hk0] at hk' e2
        have := List.mem_singleton.1 hk'
        subst this
        unfold compactOn compactCommand at e2
        rw [hon, List.headD_cons] at e2
        refine ⟨fun text ht => ?_, fun e he => ?_⟩
        · rw [ht] at e2; exact e2.symm
        · rw [he] at e2; exact e2.symm

/-- The config of `xylem -w _compact_rules_file`, and the keys. -/
def exCompactKeys : List String :=
  match parseArgv true sharedOptions (commandNames.map xylemCommand) ["_compact_rules_file", "f.yaml", "--write"] with
  | .error _ => []
  | .ok r => if r.1.name = "_compact_rules_file" ∧ (handleConfigArguments exStart xylemDescription (handleSwitches exStart r.2.1 exProcess) r.2.1).res.isOk = true then r.2.2 else []

/-- `xylem _compact_rules_file f.yaml --write` gets to `f.yaml`. -/
example (o : Outside σ) (s : σ) (he : o.env = exStart) : "--write" ∈ ["_compact_rules_file", "f.yaml", "--write"].takeWhile (· ≠ "--") ∧
    ∃ steps, ("f.yaml", steps) ∈ (xylemDone o xylemDescription true exProcess ["_compact_rules_file", "f.yaml", "--write"] s).rules := by
  refine ⟨by decide, ?_⟩
  have hk : exCompactKeys = ["f.yaml"] := by decide +kernel
  unfold exCompactKeys at hk
  unfold xylemDone
  rw [parseXylem_eq, he]
  cases hp : parseArgv true sharedOptions (commandNames.map xylemCommand) ["_compact_rules_file", "f.yaml", "--write"] with
  | error e => rw [hp] at hk; cases hk
  | ok r =>
    rw [hp] at hk
    simp only at hk ⊢
    split at hk
    · rename_i h
      cases hc : (handleConfigArguments exStart xylemDescription (handleSwitches exStart r.2.1 exProcess) r.2.1).res with
      | error e => rw [hc] at h; exact absurd h.2 (by simp [Except.isOk, Except.toBool])
      | ok c =>
        simp only [h.1, commandDone, hk]
        exact ⟨_, List.mem_singleton.2 rfl⟩
    · cases hk

end Verif
