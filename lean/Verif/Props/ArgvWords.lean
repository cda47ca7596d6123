import Verif.Props.ArgvProgram
import Verif.Lemmas.ArgvErrors
/-! # C139: what the words on the command line guarantee -/
namespace Verif
variable {σ : Type}

/-- An option written in full in a word of its own is among the options given. -/
theorem written_word {l : List Given} {ws : List String} (h : Written ArgWord l ws) {d : String} (hd : d ∈ ws) (h1 : ¬ ArgWord d) (h2 : '=' ∉ d.toList)
    (h3 : ∃ r, d.toList = '-' :: '-' :: r) : ∃ g ∈ l, g.flag = d := by
  induction h with
  | nil => simp at hd
  | alone f _ _ ih =>
    rcases List.mem_cons.1 hd with rfl | hd
    · exact ⟨_, List.mem_cons_self, rfl⟩
    · obtain ⟨g, hg, e⟩ := ih hd; exact ⟨g, List.mem_cons_of_mem _ hg, e⟩
  | apart f v _ hv _ ih =>
    rcases List.mem_cons.1 hd with rfl | hd
    · exact ⟨_, List.mem_cons_self, rfl⟩
    · rcases List.mem_cons.1 hd with rfl | hd
      · exact absurd hv h1
      · obtain ⟨g, hg, e⟩ := ih hd; exact ⟨g, List.mem_cons_of_mem _ hg, e⟩
  | joined f v _ ih =>
    rcases List.mem_cons.1 hd with rfl | hd
    · rw [String.toList_ofList] at h2
      exact absurd (List.mem_append_right _ List.mem_cons_self) h2
    · obtain ⟨g, hg, e⟩ := ih hd; exact ⟨g, List.mem_cons_of_mem _ hg, e⟩
  | bundle c d' cs hc _ ih =>
    rcases List.mem_cons.1 hd with rfl | hd
    · obtain ⟨r, h3⟩ := h3
      rw [String.toList_ofList] at h3
      injection h3 with _ h3
      injection h3 with h3 _
      exact absurd (by rw [h3]; exact List.mem_cons_self) hc
    · obtain ⟨g, hg, e⟩ := ih hd; exact ⟨g, List.mem_append_right _ hg, e⟩
  | bundleEq c d' cs hc _ ih =>
    rcases List.mem_cons.1 hd with rfl | hd
    · obtain ⟨r, h3⟩ := h3
      rw [String.toList_ofList] at h3
      injection h3 with _ h3
      injection h3 with h3 _
      exact absurd (by rw [h3]; exact List.mem_cons_self) hc
    · obtain ⟨g, hg, e⟩ := ih hd; exact ⟨g, List.mem_append_right _ hg, e⟩

/-- An option given is the beginning of a word, or one of the characters of a word with one dash. -/
theorem written_given {l : List Given} {ws : List String} (h : Written ArgWord l ws) {g : Given} (hg : g ∈ l) :
    (∃ w ∈ ws, g.flag.toList <+: w.toList) ∨ ∃ c, c ≠ '-' ∧ g.flag = shortFlag c := by
  have bundled : ∀ {cs : List Char}, '-' ∉ cs → g ∈ cs.map switchGiven → ∃ c, c ≠ '-' ∧ g.flag = shortFlag c := by
    intro cs hn hm
    obtain ⟨c, hc, rfl⟩ := List.mem_map.1 hm
    exact ⟨c, fun e => hn (e ▸ hc), rfl⟩
  induction h with
  | nil => simp at hg
  | alone f _ _ ih =>
    rcases List.mem_cons.1 hg with rfl | hg
    · exact .inl ⟨_, List.mem_cons_self, List.prefix_rfl⟩
    · rcases ih hg with ⟨w, hw, e⟩ | h
      · exact .inl ⟨w, List.mem_cons_of_mem _ hw, e⟩
      · exact .inr h
  | apart f v _ hv _ ih =>
    rcases List.mem_cons.1 hg with rfl | hg
    · exact .inl ⟨_, List.mem_cons_self, List.prefix_rfl⟩
    · rcases ih hg with ⟨w, hw, e⟩ | h
      · exact .inl ⟨w, List.mem_cons_of_mem _ (List.mem_cons_of_mem _ hw), e⟩
      · exact .inr h
  | joined f v _ ih =>
    rcases List.mem_cons.1 hg with rfl | hg
    · refine .inl ⟨_, List.mem_cons_self, ?_⟩
      rw [String.toList_ofList]
      exact List.prefix_append _ _
    · rcases ih hg with ⟨w, hw, e⟩ | h
      · exact .inl ⟨w, List.mem_cons_of_mem _ hw, e⟩
      · exact .inr h
  | bundle c d' cs hc _ ih =>
    rcases List.mem_append.1 hg with hg | hg
    · exact .inr (bundled hc hg)
    · rcases ih hg with ⟨w, hw, e⟩ | h
      · exact .inl ⟨w, List.mem_cons_of_mem _ hw, e⟩
      · exact .inr h
  | bundleEq c d' cs hc _ ih =>
    rcases List.mem_append.1 hg with hg | hg
    · exact .inr (bundled hc hg)
    · rcases ih hg with ⟨w, hw, e⟩ | h
      · exact .inl ⟨w, List.mem_cons_of_mem _ hw, e⟩
      · exact .inr h

theorem mem_takeWhile_append {a b : List String} {d : String} (h : d ∈ (a ++ "--" :: b).takeWhile (· ≠ "--")) : d ∈ a := by
  induction a with
  | nil => simp at h
  | cons x a ih =>
    rw [List.cons_append, List.takeWhile_cons] at h
    split at h
    · rcases List.mem_cons.1 h with rfl | h
      · exact List.mem_cons_self
      · exact List.mem_cons_of_mem _ (ih h)
    · simp at h

/-- Where a word in front of any `--` stands that can only be an option. -/
theorem option_word {words wb w1 kw w2 keys : List String} {cmd d : String} (h : words = wb ++ cmd :: (w1 ++ (kw ++ w2))) (hk : KeyWords keys kw w2)
    (hd : d ∈ words.takeWhile (· ≠ "--")) (h1 : ¬ ArgWord d) (hc : d ≠ cmd) : d ∈ wb ∨ d ∈ w1 ∨ d ∈ w2 := by
  rcases hk with ⟨rfl, hk⟩ | ⟨rfl, k1, k2, _, rfl, hk⟩
  · have hm := (List.takeWhile_sublist _).subset hd
    rw [h] at hm
    simp only [List.mem_append, List.mem_cons] at hm
    rcases hm with hm | hm | hm | hm | hm
    · exact .inl hm
    · exact absurd hm hc
    · exact .inr (.inl hm)
    · exact absurd (hk d hm) h1
    · exact .inr (.inr hm)
  · have hd' : d ∈ ((wb ++ cmd :: (w1 ++ k1)) ++ "--" :: k2).takeWhile (· ≠ "--") := by
      rw [h] at hd
      simpa using hd
    have hm := mem_takeWhile_append hd'
    simp only [List.mem_append, List.mem_cons] at hm
    rcases hm with hm | hm | hm | hm
    · exact .inl hm
    · exact absurd hm hc
    · exact .inr (.inl hm)
    · exact absurd (hk d hm) h1

/-- A command's own option, in a word of its own in front of any `--`: the command gets it. -/
theorem word_is_given {cmd : String} {top sub : List OptSpec} (hp : ParsersFor cmd top sub) {before a1 a2 : List Given}
    {words wb w1 kw w2 keys : List String} (h : words = wb ++ cmd :: (w1 ++ (kw ++ w2))) (hk : KeyWords keys kw w2) (hb : Written ArgWord before wb)
    (i1 : Written ArgWord a1 w1) (i2 : Written ArgWord a2 w2) (gb : ∀ g ∈ before, Fitting top g) (ga : ∀ g ∈ a1 ++ a2, Fitting sub g) {d : String}
    (hd : d ∈ words.takeWhile (· ≠ "--")) (h1 : ¬ ArgWord d) (h2 : '=' ∉ d.toList) (h3 : ∃ r, d.toList = '-' :: '-' :: r) (hc : d ≠ cmd)
    (ht : ∀ q, findOption top d ≠ .ok q) (hs : d ∈ allFlags sub) : IsGiven sub d (a1 ++ a2) := by
  have found : ∀ {g : Given}, g ∈ a1 ++ a2 → g.flag = d → IsGiven sub d (a1 ++ a2) := by
    intro g hg e
    obtain ⟨q, hq, hf⟩ := List.mem_flatMap.1 hs
    exact ⟨g, hg, q, hq, hf, .inl (by rw [e]; exact hf)⟩
  rcases option_word h hk hd h1 hc with hm | hm | hm
  · obtain ⟨g, hg, e⟩ := written_word hb hm h1 h2 h3
    obtain ⟨q, hq, _⟩ := gb g hg
    exact absurd (e ▸ hq) (ht q)
  · obtain ⟨g, hg, e⟩ := written_word i1 hm h1 h2 h3
    exact found (List.mem_append_left _ hg) e
  · obtain ⟨g, hg, e⟩ := written_word i2 hm h1 h2 h3
    exact found (List.mem_append_right _ hg) e

theorem dry_run_word : ¬ ArgWord "--dry-run" := by
  unfold ArgWord PlainWord
  decide +kernel

theorem no_dry_run_top : ∀ q, findOption sharedOptions "--dry-run" ≠ .ok q := by
  have : (findOption sharedOptions "--dry-run").isOk = false := by decide +kernel
  intro q h
  rw [h] at this
  cases this

/-- **C139** If the word `--dry-run` is on the command line, in front of any `--`, then, whatever all the other words are, in the environment and in the config
files, xylem executes no command to install anything. -/
theorem C139_dry_run_word (o : Outside σ) (fresh : Bool) (p : Process) (words : List String) (s : σ) (hd : "--dry-run" ∈ words.takeWhile (· ≠ "--")) :
    executedOf (xylemDone o xylemDescription fresh p words s).effect.ev = [] := by
  rcases C139_every_run o fresh p words s with ⟨e, _, _, h⟩ | ⟨cmd, hc, top, sub, before, wb, a1, w1, keys, kw, a2, w2, hp, i1, i2, i3, i4, i5, i6, i7, _, _, h⟩
  · rw [h]; rfl
  · rw [h]
    have hcases : cmd = "update" ∨ cmd = "resolve" ∨ cmd = "lookup" ∨ cmd = "install" ∨ cmd = "_compact_rules_file" := by
      simpa [commandNames] using hc
    rcases hcases with rfl | rfl | rfl | rfl | rfl
    · rfl
    · rfl
    · rfl
    · have hg : IsGiven sub "--dry-run" (a1 ++ a2) := by
        refine word_is_given hp i1 i4 i2 i3 i5 i6 i7 hd dry_run_word (by decide +kernel) ⟨"dry-run".toList, by decide +kernel⟩ (by decide) ?_ ?_
        · rw [hp.common.1]; exact no_dry_run_top
        · rw [hp.common.2.1]
          unfold allFlags
          rw [List.flatMap_append]
          exact List.mem_append_left _ (by decide)
      exact (C101_dry_run hp o.env o.world fresh p before (a1 ++ a2) keys s hg).1
    · show executedOf (doneBy o xylemDescription fresh top sub p before (a1 ++ a2) keys s "_compact_rules_file").effect.ev = []
      simp only [doneBy]
      cases reached o.env xylemDescription fresh top sub (.ok ()) p before (a1 ++ a2) <;> rfl

/-- **C139** If no word begins with `--f`, then, whatever the words are, no plugin is asked to fix its prerequisites. -/
theorem C139_fix_needs_word (o : Outside σ) (fresh : Bool) (p : Process) (words : List String) (s : σ) (hw : ∀ w ∈ words, ¬ "--f".toList <+: w.toList)
    (fix : Bool) :
    (∀ n r, .general n fix r ∈ (xylemDone o xylemDescription fresh p words s).effect.ev → fix = false) ∧
    (∀ n rs r, .prereq n rs fix r ∈ (xylemDone o xylemDescription fresh p words s).effect.ev → fix = false) := by
  rcases C139_every_run o fresh p words s with ⟨e, _, _, h⟩ | ⟨cmd, hc, top, sub, before, wb, a1, w1, keys, kw, a2, w2, hp, i1, i2, i3, i4, i5, i6, i7, _, _, h⟩
  · rw [h]; exact ⟨fun _ _ h => absurd h (by simp [Done.nothing]), fun _ _ _ h => absurd h (by simp [Done.nothing])⟩
  · rw [h]
    have hcases : cmd = "update" ∨ cmd = "resolve" ∨ cmd = "lookup" ∨ cmd = "install" ∨ cmd = "_compact_rules_file" := by
      simpa [commandNames] using hc
    rcases hcases with rfl | rfl | rfl | rfl | rfl
    · exact ⟨fun _ _ h => absurd h (by simp [doneBy]), fun _ _ _ h => absurd h (by simp [doneBy])⟩
    · exact ⟨fun _ _ h => absurd h (by simp [doneBy, Done.nothing]), fun _ _ _ h => absurd h (by simp [doneBy, Done.nothing])⟩
    · exact ⟨fun _ _ h => absurd h (by simp [doneBy, Done.nothing]), fun _ _ _ h => absurd h (by simp [doneBy, Done.nothing])⟩
    · have hg : ¬ IsGiven sub "--fix-prerequisites" (a1 ++ a2) := by
        rintro ⟨g, hg, hm⟩
        obtain ⟨_, e2, hu, hf, _⟩ := hp.common
        have hmem : (⟨["--fix-prerequisites"], "fix_prerequisites", .storeTrue⟩ : OptSpec) ∈ sub := by
          rw [e2]; exact List.mem_append_left _ (by simp [commandOptions])
        have hfind := (means_iff hf hu.nodup hmem (List.mem_singleton.2 rfl)).1 hm
        obtain ⟨_, q, hq, hqf, hm'⟩ : ∃ x, ∃ q ∈ sub, "--fix-prerequisites" ∈ q.flags ∧ (g.flag ∈ q.flags ∨ ∃ h ∈ q.flags, Abbreviates sub g.flag h) := by
          obtain ⟨q, a, b, c⟩ := hm; exact ⟨(), q, a, b, c⟩
        have := apart_unique hf hq hmem hqf (List.mem_singleton.2 rfl)
        subst this
        have hpre : "--".toList <+: g.flag.toList ∧ g.flag.toList <+: "--fix-prerequisites".toList := by
          rcases hm' with hm' | ⟨h, hh, ha⟩
          · rw [List.mem_singleton.1 hm']; exact ⟨by decide +kernel, List.prefix_rfl⟩
          · rw [List.mem_singleton.1 hh] at ha; exact ⟨ha.2.1, ha.2.2.2.1⟩
        have hlong : "--f".toList <+: g.flag.toList := by
          by_cases hl : 3 ≤ g.flag.toList.length
          · exact List.prefix_of_prefix_length_le (by decide +kernel) hpre.2 hl
          · have h2 : g.flag.toList = "--".toList := by
              have h3 : "--".toList.length = 2 := by decide +kernel
              exact (hpre.1.eq_of_length_le (by rw [h3]; omega)).symm
            have h4 : g.flag = "--" := by
              have := congrArg String.ofList h2
              rwa [String.ofList_toList, String.ofList_toList] at this
            rw [h4, e2, hp.common.1] at hfind
            have h5 : (findOption (commandOptions "install" ++ sharedOptions) "--").isOk = false := by decide +kernel
            rw [hfind] at h5
            cases h5
        have inw : ∀ {l : List Given} {ws : List String}, Written ArgWord l ws → g ∈ l → (∀ w ∈ ws, w ∈ words) → False := by
          intro l ws hwr hgl hsub
          rcases written_given hwr hgl with ⟨w, hw', hpw⟩ | ⟨c, hc', e⟩
          · exact hw w (hsub w hw') (hlong.trans hpw)
          · rw [e, shortFlag_toList] at hlong
            have h6 : "--f".toList.length = 3 := by decide +kernel
            have h7 := hlong.length_le
            rw [h6] at h7
            simp at h7
        rcases List.mem_append.1 hg with hg | hg
        · exact inw i3 hg (fun w hw' => by rw [i1]; simp [hw'])
        · exact inw i5 hg (fun w hw' => by rw [i1]; simp [hw'])
      have key := C101_fix_only_if_given hp o.env o.world fresh p before (a1 ++ a2) keys s fix
      refine ⟨fun n r hm => ?_, fun n rs r hm => ?_⟩
      · rw [← Bool.not_eq_true, key.1 n r hm]; exact hg
      · rw [← Bool.not_eq_true, key.2 n rs r hm]; exact hg
    · simp only [doneBy]
      cases reached o.env xylemDescription fresh top sub (.ok ()) p before (a1 ++ a2) <;>
        exact ⟨fun _ _ h => absurd h (by simp [Done.nothing]), fun _ _ _ h => absurd h (by simp [Done.nothing])⟩

/-! ## Words that are refused -/

theorem keysFor_iff {cmd : String} (hc : cmd ∈ commandNames) (keys : List String) : KeysFor cmd keys ↔ (commandPositionals cmd).admits keys := by
  have hcases : cmd = "update" ∨ cmd = "resolve" ∨ cmd = "lookup" ∨ cmd = "install" ∨ cmd = "_compact_rules_file" := by
    simpa [commandNames] using hc
  rcases hcases with rfl | rfl | rfl | rfl | rfl <;> simp [KeysFor, commandPositionals, Positionals.admits, List.length_eq_one_iff]

/-- **C139** Another number of keys than the command takes (none for `install`, `resolve` and `lookup`, even with `--all`; some for `update`; other than one for
`_compact_rules_file`): nothing is done, and the program does not get as far as the command. -/
theorem C139_wrong_number_of_keys_run (o : Outside σ) (fresh : Bool) (p : Process) (s : σ) {cmd : String} (hc : cmd ∈ commandNames) {top sub : List OptSpec}
    (hp : ParsersFor cmd top sub) {before a1 a2 : List Given} {wb w1 w2 keys : List String} (hb : Written PlainWord before wb) (h1 : Written PlainWord a1 w1)
    (h2 : Written PlainWord a2 w2) (gb : ∀ g ∈ before, Fitting top g) (g1 : ∀ g ∈ a1, Fitting sub g) (g2 : ∀ g ∈ a2, Fitting sub g)
    (hk : ∀ w ∈ keys, PlainWord w) (ha : ¬ KeysFor cmd keys) {ns : ArgSpace}
    (hn : parseCommandLine fresh top sub before (a1 ++ a2) = .ok ns) :
    xylemMain o xylemDescription fresh p (wb ++ cmd :: (w1 ++ (keys ++ w2))) s = (p, ⟨[], uncaught (.systemExit 2)⟩) ∧
    xylemDone o xylemDescription fresh p (wb ++ cmd :: (w1 ++ (keys ++ w2))) s = .nothing s := by
  have key : parseXylem fresh xylemDescription (wb ++ cmd :: (w1 ++ (keys ++ w2))) = .error (.systemExit 2) := by
    obtain ⟨e1, e2, hu, hf, hs⟩ := hp.common
    rw [parseXylem_eq]
    subst e2
    rw [e1] at hu hf hs gb g1 g2 hn
    have := C139_wrong_number_of_keys (fresh := fresh) (k := xylemCommand cmd) rfl hu hf hs (positionals_proper cmd) (found_command hc) (names_plain cmd hc)
      hb h1 h2 gb g1 g2 hk (fun h => ha ((keysFor_iff hc keys).2 h))
    rw [show (xylemCommand cmd).name = cmd from rfl] at this
    rw [this, hn]; rfl
  unfold xylemMain xylemDone
  rw [key]
  exact ⟨rfl, rfl⟩

/-- **C140** Keys with options between them (`xylem install a --reinstall b`): nothing is done, and the program does not get as far as the command. -/
theorem C140_keys_apart_run_refuted (o : Outside σ) (fresh : Bool) (p : Process) (s : σ) {cmd : String} (hc : cmd ∈ commandNames) {top sub : List OptSpec}
    (hp : ParsersFor cmd top sub) {before a1 am a2 : List Given} {wb w1 wm w2 k1 k2 : List String} (hb : Written PlainWord before wb)
    (h1 : Written PlainWord a1 w1) (hm : Written PlainWord am wm) (h2 : Written PlainWord a2 w2) (gb : ∀ g ∈ before, Fitting top g)
    (g1 : ∀ g ∈ a1, Fitting sub g) (gm : ∀ g ∈ am, Fitting sub g) (g2 : ∀ g ∈ a2, Fitting sub g) (hk1 : ∀ w ∈ k1, PlainWord w)
    (hk2 : ∀ w ∈ k2, PlainWord w) (n1 : k1 ≠ []) (nm : am ≠ []) (n2 : k2 ≠ []) {ns : ArgSpace}
    (hn : parseCommandLine fresh top sub before (a1 ++ (am ++ a2)) = .ok ns) :
    xylemMain o xylemDescription fresh p (wb ++ cmd :: (w1 ++ (k1 ++ (wm ++ (k2 ++ w2))))) s = (p, ⟨[], uncaught (.systemExit 2)⟩) ∧
    xylemDone o xylemDescription fresh p (wb ++ cmd :: (w1 ++ (k1 ++ (wm ++ (k2 ++ w2))))) s = .nothing s := by
  have key : parseXylem fresh xylemDescription (wb ++ cmd :: (w1 ++ (k1 ++ (wm ++ (k2 ++ w2))))) = .error (.systemExit 2) := by
    obtain ⟨e1, e2, hu, hf, hs⟩ := hp.common
    rw [parseXylem_eq]
    subst e2
    rw [e1] at hu hf hs gb g1 gm g2 hn
    have := C140_keys_apart_refuted (fresh := fresh) (k := xylemCommand cmd) rfl hu hf hs (positionals_proper cmd) (found_command hc) (names_plain cmd hc)
      hb h1 hm h2 gb g1 gm g2 hk1 hk2 n1 nm n2
    rw [show (xylemCommand cmd).name = cmd from rfl] at this
    rw [this, hn]; rfl
  unfold xylemMain xylemDone
  rw [key]
  exact ⟨rfl, rfl⟩

theorem own_options (cmd : String) : ∀ o ∈ commandOptions cmd, o.action ≠ .append := by
  unfold commandOptions
  split <;> decide

/-- The ways words are refused; for exit status 0, one of the words asks for it. -/
theorem refusals_end (fresh : Bool) (words : List String) {e : Exc} (h : parseXylem fresh xylemDescription words = .error e) :
    Ends (fun w => QuitWord sharedOptions w ∨ ∃ n, QuitWord (commandOptions n ++ sharedOptions) w) words e := by
  rw [parseXylem_eq] at h
  have hu : ∀ n, Usual (commandOptions n ++ sharedOptions) := fun n => usual_of (xylem_usual n).1 (xylem_usual n).2
  have hdn : ∀ n, ((commandOptions n ++ sharedOptions).map OptSpec.dest).Nodup := by
    intro n
    obtain ⟨sub, hs, hd, _⟩ := xylem_parser n
    rw [sub_parser] at hs
    exact (Except.ok.inj hs) ▸ hd
  have hdc : (sharedOptions.map OptSpec.dest).Nodup := by
    have := hdn ""
    rw [List.map_append] at this
    exact (List.nodup_append.1 this).2.1
  have hempty : ∀ opts, Appendable opts [] := fun opts o _ _ => ⟨[], rfl⟩
  obtain ⟨t1, t2⟩ := readAll_both (hu "").right hdc .command (hempty _) words
  unfold parseArgv at h
  cases ht : readAll sharedOptions .command [] words with
  | error e' =>
    rw [ht] at h
    have : e' = e := by injection h
    exact (this ▸ t1 _ ht).mono (fun _ h => h) fun _ h => Or.inl h
  | ok t =>
    rw [ht] at h
    obtain ⟨hA, hrest⟩ := t2 t ht
    replace h : callCommand fresh (commandNames.map xylemCommand) t t.rest = .error e := h
    cases hr : t.rest with
    | nil =>
      rw [hr] at h
      injection h with h
      exact .inl h.symm
    | cons c ws =>
      rw [hr] at h hrest
      unfold callCommand at h
      simp only at h
      cases hf : (commandNames.map xylemCommand).find? fun k => k.name == c with
      | none =>
        rw [hf] at h
        injection h with h
        exact .inl h.symm
      | some k =>
        rw [hf] at h
        obtain ⟨n, hn, rfl⟩ := List.mem_map.1 (List.mem_of_find?_eq_some hf)
        have hA' : Appendable (commandOptions n ++ sharedOptions) (if fresh = true then [] else t.ns) := by
          cases fresh with
          | true => exact hempty _
          | false =>
            intro o ho ha
            rcases List.mem_append.1 ho with ho | ho
            · exact absurd ha (own_options n o ho)
            · exact hA o ho ha
        obtain ⟨s1, _⟩ := readAll_both (hu n) (hdn n) (commandPositionals n) hA' ws
        replace h : (readAll (commandOptions n ++ sharedOptions) (commandPositionals n) (if fresh = true then [] else t.ns) ws).bind _ = .error e := h
        cases hs : readAll (commandOptions n ++ sharedOptions) (commandPositionals n) (if fresh = true then [] else t.ns) ws with
        | error e' =>
          rw [hs] at h
          have : e' = e := by injection h
          refine (this ▸ s1 _ hs : Ends _ ws e).mono (fun w hw => hrest w (List.mem_cons_of_mem _ hw)) ?_
          exact fun _ h => .inr ⟨n, h⟩
        | ok s =>
          rw [hs] at h
          replace h : (if t.extras = [] ∧ s.extras = [] then _ else _) = Except.error e := h
          split at h
          · cases h
          · injection h with h
            exact .inl h.symm

/-- **C140** Whatever the words: if they are refused, then with exit status 2 (a usage error) or 0 (`--help`, `--version`), except that a word `-c=` (as in
`xylem -v= update`) makes argparse fail with an exception. -/
theorem C140_refusals_partial (fresh : Bool) (words : List String) {e : Exc} (h : parseXylem fresh xylemDescription words = .error e) :
    e = .systemExit 2 ∨ e = .systemExit 0 ∨ (e = .indexError ∧ ∃ c, String.ofList ['-', c, '='] ∈ words) := by
  rcases refusals_end fresh words h with h | ⟨h, _⟩ | h
  · exact .inl h
  · exact .inr (.inl h)
  · exact .inr (.inr h)

/-- **C140** Such a word ends the program with an exception. -/
theorem C140_empty_value_refuted (fresh : Bool) : parseXylem fresh xylemDescription ["-v=", "update"] = .error .indexError := by
  rw [parseXylem_eq]
  cases fresh <;> rfl

end Verif
