import Verif.Spec.AskHelp
import Verif.Props.ArgvExamples
/-! # C144: asking for help or for the version -/
namespace Verif
variable {σ : Type}

theorem shared_dests (n : String) : ((commandOptions n ++ sharedOptions).map OptSpec.dest).Nodup := by
  obtain ⟨sub, hs, hd, _⟩ := xylem_parser n
  rw [sub_parser] at hs
  exact (Except.ok.inj hs) ▸ hd

theorem top_dests : (sharedOptions.map OptSpec.dest).Nodup := by
  have := shared_dests ""
  rw [List.map_append] at this
  exact (List.nodup_append.1 this).2.1

/-! ## Words that ask for it -/

theorem quits_are (n : String) : ∀ o ∈ commandOptions n ++ sharedOptions, o.action = .quit → o.flags = ["-h", "--help"] ∨ o.flags = ["--version"] := by
  unfold commandOptions
  split <;> decide +kernel

theorem help_found (n : String) : ∀ f ∈ helpFlags, ∃ o, findOption (commandOptions n ++ sharedOptions) f = .ok o ∧ o.action = .quit := by
  have h : ∀ f ∈ helpFlags, (match findOption (commandOptions n ++ sharedOptions) f with | .ok o => decide (o.action = .quit) | .error _ => false) = true := by
    unfold commandOptions
    split <;> decide +kernel
  intro f hf
  have := h f hf
  cases hx : findOption (commandOptions n ++ sharedOptions) f with
  | error e => rw [hx] at this; cases this
  | ok o => rw [hx] at this; exact ⟨o, rfl, by simpa using this⟩

theorem help_found_top : ∀ f ∈ helpFlags, ∃ o, findOption sharedOptions f = .ok o ∧ o.action = .quit := help_found ""

theorem short_of_help {n : String} {w : String} (h : QuitWord (commandOptions n ++ sharedOptions) w) : AsksHelp w := by
  have hpre : ∀ w ∈ (List.range 7).map (fun k => String.ofList ("--help".toList.take k)) ++ (List.range 10).map (fun k => String.ofList ("--version".toList.take k)),
      (findOption (commandOptions n ++ sharedOptions) w).isOk = true → w ∈ helpFlags := by
    unfold commandOptions
    split <;> decide +kernel
  rcases h with ⟨o, hf, ho⟩ | ⟨o, hm, ho, c, r, hc, hw, hr, hcr⟩
  · have hok : (findOption (commandOptions n ++ sharedOptions) w).isOk = true := by rw [hf]; rfl
    have taken : ∀ f : String, w.toList <+: f.toList → w ∈ (List.range (f.toList.length + 1)).map (fun k => String.ofList (f.toList.take k)) := by
      intro f hp
      refine List.mem_map.2 ⟨w.toList.length, List.mem_range.2 (Nat.lt_succ_of_le hp.length_le), ?_⟩
      rw [List.prefix_iff_eq_take.1 hp |>.symm, String.ofList_toList]
    have e1 : "--help".toList.length + 1 = 7 := by decide +kernel
    have e2 : "--version".toList.length + 1 = 10 := by decide +kernel
    have hmem : ∃ f ∈ o.flags, o ∈ commandOptions n ++ sharedOptions ∧ (w = f ∨ (['-', '-'] <+: w.toList ∧ w.toList <+: f.toList)) := by
      rcases findOption_cases hf with hx | ⟨_, g, _, h1, h2, h3, h4⟩
      · obtain ⟨h1, h2⟩ := exactly_some hx
        exact ⟨w, h2, h1, .inl rfl⟩
      · exact ⟨g, h1, h2, .inr ⟨h3, h4⟩⟩
    obtain ⟨f, hff, hom, hwf⟩ := hmem
    left
    have hcase : f = "-h" ∨ f = "--help" ∨ f = "--version" := by
      rcases quits_are n o hom ho with e | e <;> rw [e] at hff <;> simp at hff
      · rcases hff with h | h
        · exact .inl h
        · exact .inr (.inl h)
      · exact .inr (.inr hff)
    rcases hwf with rfl | ⟨h1, h2⟩
    · rcases hcase with rfl | rfl | rfl <;> decide
    · rcases hcase with rfl | rfl | rfl
      · exact absurd (h1.trans h2) (by decide +kernel)
      · exact hpre w (List.mem_append_left _ (e1 ▸ taken _ h2)) hok
      · exact hpre w (List.mem_append_right _ (e2 ▸ taken _ h2)) hok
  · right
    refine ⟨r, hw, hr, ?_⟩
    have hlist : ∀ f : String, f ∈ ["-h", "--help", "--version"] → f.toList = ['-', c] → c = 'h' := by
      intro f hf
      rcases List.mem_cons.1 hf with rfl | hf
      · intro e
        have e1 : "-h".toList = ['-', 'h'] := by decide +kernel
        rw [e1] at e
        simpa using e.symm
      · intro e
        have : ∀ f ∈ ["--help", "--version"], f.toList.length ≠ 2 := by decide +kernel
        exact absurd (by rw [e]; rfl) (this f hf)
    have hmem : shortFlag c ∈ ["-h", "--help", "--version"] := by
      rcases quits_are n o hm ho with e | e <;> rw [e] at hc
      · rcases List.mem_cons.1 hc with h | h
        · rw [h]; decide
        · rw [List.mem_singleton.1 h]; decide
      · rw [List.mem_singleton.1 hc]; decide
    rw [← hlist _ hmem (shortFlag_toList c)]
    exact hcr

/-- **C144** If xylem ends with exit status 0 before it calls a command, then because a word of the command line asks for help or for the version. -/
theorem C144_only_if_asked (fresh : Bool) (words : List String) (h : parseXylem fresh xylemDescription words = .error (.systemExit 0)) :
    ∃ w ∈ words, AsksHelp w := by
  rcases refusals_end fresh words h with h | ⟨_, w, hw, hq⟩ | ⟨h, _⟩
  · cases h
  · refine ⟨w, hw, ?_⟩
    rcases hq with hq | ⟨n, hq⟩
    · exact short_of_help (n := "") hq
    · exact short_of_help hq
  · cases h

/-! ## What happens then -/

/-- Options that fit the parser are read without an error, unless one of them asks for help or for the version. -/
theorem fold_fitting {opts : List OptSpec} (hd : (opts.map OptSpec.dest).Nodup) (hu : Usual opts) : ∀ (l : List Given) (ns : ArgSpace), (∀ g ∈ l, Fitting opts g) →
    Appendable opts ns →
    ((∃ g ∈ l, ∃ o, findOption opts g.flag = .ok o ∧ o.action = .quit) ∧ l.foldlM (takeGiven opts) ns = .error (.systemExit 0)) ∨
    ((∀ g ∈ l, ∀ o, findOption opts g.flag = .ok o → o.action ≠ .quit) ∧ ∃ ns', l.foldlM (takeGiven opts) ns = .ok ns' ∧ Appendable opts ns') := by
  intro l
  induction l with
  | nil => intro ns _ hA; exact .inr ⟨by simp, ns, rfl, hA⟩
  | cons g l ih =>
    intro ns hf hA
    obtain ⟨o, h1, h2⟩ := hf g List.mem_cons_self
    have ho : o ∈ opts := (hu.found h1).1
    rw [List.foldlM_cons, takeGiven_found h1]
    have hrun : (o.action = .quit ∧ runAction o g.value ns = .error (.systemExit 0)) ∨ (o.action ≠ .quit ∧ ∃ ns', runAction o g.value ns = .ok ns') := by
      cases hv : g.value with
      | none =>
        rw [hv] at h2
        cases ha : o.action with
        | store => exact absurd (h2.2 (.inl ha)) (by simp)
        | append => exact absurd (h2.2 (.inr ha)) (by simp)
        | storeTrue => exact .inr ⟨by simp, _, by unfold runAction; rw [ha]⟩
        | quit => exact .inl ⟨rfl, by unfold runAction; rw [ha]⟩
      | some v =>
        rw [hv] at h2
        rcases h2.1 rfl with ha | ha
        · exact .inr ⟨by rw [ha]; simp, _, by unfold runAction; rw [ha]⟩
        · obtain ⟨x, hx⟩ := hA o ho ha
          exact .inr ⟨by rw [ha]; simp, _, by unfold runAction; rw [ha, hx]; rfl⟩
    rcases hrun with ⟨ha, hr⟩ | ⟨ha, ns', hr⟩
    · rw [hr]
      exact .inl ⟨⟨g, List.mem_cons_self, o, h1, ha⟩, rfl⟩
    · rw [hr]
      rcases ih ns' (fun x hx => hf x (List.mem_cons_of_mem _ hx)) (appendable_step hd hA ho hr) with ⟨⟨x, hx, h3⟩, h4⟩ | ⟨h3, h4⟩
      · exact .inl ⟨⟨x, List.mem_cons_of_mem _ hx, h3⟩, h4⟩
      · refine .inr ⟨fun x hx q hq => ?_, h4⟩
        rcases List.mem_cons.1 hx with rfl | hx
        · rw [h1] at hq; cases hq; exact ha
        · exact h3 x hx q hq

/-- Sensible words can be told apart, by the parser of a command and by the top level parser. -/
theorem sensible_words {extra top : List OptSpec} (hu : Usual (extra ++ top)) (hf : FlagsApart (extra ++ top)) (hs : NoShadow top (extra ++ top)) (rest : List String) :
    (∀ w ∈ rest.takeWhile (· ≠ "--"), Sensible (extra ++ top) w) →
    (∃ ks, classifyAll top rest = .ok ks) ∧ (∃ ks, classifyAll (extra ++ top) rest = .ok ks) := by
  induction rest with
  | nil => intro _; exact ⟨⟨[], rfl⟩, ⟨[], rfl⟩⟩
  | cons w rest ih =>
    intro h
    by_cases hw : w = "--"
    · subst hw
      exact ⟨⟨_, by rw [classifyAll, if_pos rfl]⟩, ⟨_, by rw [classifyAll, if_pos rfl]⟩⟩
    · have htw : (w :: rest).takeWhile (· ≠ "--") = w :: rest.takeWhile (· ≠ "--") := by simp [hw]
      rw [htw] at h
      obtain ⟨⟨k1, i1⟩, k2, i2⟩ := ih fun x hx => h x (List.mem_cons_of_mem _ hx)
      have hk : (∃ k, classify top w = .ok k) ∧ ∃ k, classify (extra ++ top) w = .ok k := by
        rcases h w List.mem_cons_self with hp | ⟨o, ho⟩ | ⟨f, v, o, ho, rfl⟩
        · exact ⟨⟨_, classify_plain hp⟩, _, classify_plain hp⟩
        · obtain ⟨g, hg⟩ := classify_found hu ho
          exact ⟨calm_found hu hf hs ho, _, hg⟩
        · obtain ⟨g, hg⟩ := classify_joined hu ho (v := v) (w := String.ofList (f.toList ++ '=' :: v.toList)) (String.toList_ofList)
          exact ⟨calm_joined hu hf hs ho, _, hg⟩
      obtain ⟨⟨a, ha⟩, b, hb⟩ := hk
      exact ⟨⟨_, by rw [classifyAll_cons hw ha, i1]; rfl⟩, ⟨_, by rw [classifyAll_cons hw hb, i2]; rfl⟩⟩

/-- Options that fit and ask for help, then words that can be told apart or not: how reading them ends. -/
theorem read_help {opts : List OptSpec} (hd : (opts.map OptSpec.dest).Nodup) (hu : Usual opts) (hf : FlagsApart opts) (p : Positionals) {l : List Given}
    {ws rest : List String} (hw : Written PlainWord l ws) (hl : ∀ g ∈ l, Fitting opts g) {ns : ArgSpace} (hA : Appendable opts ns)
    (hq : ∃ g ∈ l, ∃ o, findOption opts g.flag = .ok o ∧ o.action = .quit) :
    (readAll opts p ns (ws ++ rest) = .error (.systemExit 2) ∧ ¬ ∃ ks, classifyAll opts rest = .ok ks) ∨
    readAll opts p ns (ws ++ rest) = .error (.systemExit 0) := by
  obtain ⟨kb, _, c1, r1⟩ := read_written hu hf p hw hl
  unfold readAll
  rw [c1]
  cases hr : classifyAll opts rest with
  | error e =>
    have := classifyAll_error rest hr
    subst this
    exact .inl ⟨rfl, by rintro ⟨ks, h⟩; cases h⟩
  | ok ks =>
    right
    show (readWords opts p (kb ++ ks) ⟨opts.foldl addDefault ns, [], [], .before, []⟩).bind _ = _
    rw [r1]
    rcases fold_fitting hd hu l (opts.foldl addDefault ns) hl (defaults_appendable hd hA) with ⟨_, h⟩ | ⟨h, _⟩
    · show ((l.foldlM (takeGiven opts) (opts.foldl addDefault ns)).bind _).bind _ = _
      rw [h]; rfl
    · obtain ⟨g, hg, o, h1, h2⟩ := hq
      exact absurd h2 (h g hg o h1)

theorem usual_all (n : String) : Usual (commandOptions n ++ sharedOptions) := usual_of (xylem_usual n).1 (xylem_usual n).2

theorem apart_all (n : String) : FlagsApart (commandOptions n ++ sharedOptions) := (parsersFor n).common.2.2.2.1

theorem appendable_nil (opts : List OptSpec) : Appendable opts [] := fun _ _ _ => ⟨[], rfl⟩

/-- A run whose words are refused. -/
theorem refused_run (o : Outside σ) {fresh : Bool} (p : Process) {words : List String} (s : σ) {e : Exc} (h : parseXylem fresh xylemDescription words = .error e) :
    xylemMain o xylemDescription fresh p words s = (p, ⟨[], uncaught e⟩) ∧ xylemDone o xylemDescription fresh p words s = .nothing s := by
  unfold xylemMain xylemDone
  rw [h]
  exact ⟨rfl, rfl⟩

/-- **C144** `xylem --help` and `xylem --version`, possibly with other options before (or in the same word, as in `-vh`), and with anything behind: nothing is done,
no variable of xylem changes, and the exit status is 0. If there are words behind it that the parser does not know or finds ambiguous, it may instead be 2,
nothing being done either. -/
theorem C144_help (o : Outside σ) (fresh : Bool) (p : Process) (s : σ) {before : List Given} {wb rest : List String} (hb : Written PlainWord before wb)
    (gb : ∀ g ∈ before, Fitting sharedOptions g) (hh : ∃ g ∈ before, g.flag ∈ helpFlags) :
    xylemDone o xylemDescription fresh p (wb ++ rest) s = .nothing s ∧
    ∃ c, xylemMain o xylemDescription fresh p (wb ++ rest) s = (p, ⟨[], .exit c⟩) ∧ (c = 0 ∨ c = 2) ∧
      ((∀ w ∈ rest.takeWhile (· ≠ "--"), Sensible sharedOptions w) → c = 0) := by
  have hq : ∃ g ∈ before, ∃ o, findOption sharedOptions g.flag = .ok o ∧ o.action = .quit := by
    obtain ⟨g, hg, hm⟩ := hh
    exact ⟨g, hg, help_found_top _ hm⟩
  rcases read_help top_dests (usual_all "").right (apart_all "").right .command hb gb (rest := rest) (appendable_nil _) hq with ⟨h, hn⟩ | h
  · have hp : parseXylem fresh xylemDescription (wb ++ rest) = .error (.systemExit 2) := by
      rw [parseXylem_eq]; unfold parseArgv; rw [h]; rfl
    obtain ⟨h1, h2⟩ := refused_run o p s hp
    refine ⟨h2, 2, h1, .inr rfl, fun hs => absurd ?_ hn⟩
    exact (sensible_words (extra := commandOptions "") (usual_all "") (apart_all "") (xylem_shadow "") rest hs).1
  · have hp : parseXylem fresh xylemDescription (wb ++ rest) = .error (.systemExit 0) := by
      rw [parseXylem_eq]; unfold parseArgv; rw [h]; rfl
    obtain ⟨h1, h2⟩ := refused_run o p s hp
    exact ⟨h2, 0, h1, .inl rfl, fun _ => rfl⟩

/-- The parser of a command, asked for help behind some options and keys. -/
theorem sub_help {opts : List OptSpec} (hd : (opts.map OptSpec.dest).Nodup) (hu : Usual opts) (hf : FlagsApart opts) {p : Positionals} (hp : p ≠ .command)
    {a1 a2 : List Given} {w1 w2 keys rest : List String} (h1 : Written PlainWord a1 w1) (h2 : Written PlainWord a2 w2) (g1 : ∀ g ∈ a1, Fitting opts g)
    (g2 : ∀ g ∈ a2, Fitting opts g) (hk : ∀ k ∈ keys, PlainWord k) {ns : ArgSpace} (hA : Appendable opts ns)
    (hq : ∃ g ∈ a1 ++ a2, ∃ o, findOption opts g.flag = .ok o ∧ o.action = .quit) :
    (readAll opts p ns (w1 ++ (keys ++ (w2 ++ rest))) = .error (.systemExit 2) ∧ ¬ ∃ ks, classifyAll opts rest = .ok ks) ∨
    readAll opts p ns (w1 ++ (keys ++ (w2 ++ rest))) = .error (.systemExit 0) := by
  obtain ⟨k1, _, c1, r1⟩ := read_written hu hf p h1 g1
  obtain ⟨k2, _, c2, r2⟩ := read_written hu hf p h2 g2
  unfold readAll
  rw [c1, classifyAll_plain hk, c2]
  cases hr : classifyAll opts rest with
  | error e =>
    have := classifyAll_error rest hr
    subst this
    exact .inl ⟨rfl, by rintro ⟨ks, h⟩; cases h⟩
  | ok ks =>
    right
    show (readWords opts p (k1 ++ (keys.map (fun k => (k, WordKind.arg)) ++ (k2 ++ ks))) (startReading opts ns)).bind _ = _
    rw [r1]
    show ((a1.foldlM (takeGiven opts) (opts.foldl addDefault ns)).bind _).bind _ = _
    rcases fold_fitting hd hu a1 (opts.foldl addDefault ns) g1 (defaults_appendable hd hA) with ⟨_, h⟩ | ⟨hno, ns1, h, hA1⟩
    · rw [h]; rfl
    · rw [h]
      show (readWords opts p (keys.map (fun k => (k, WordKind.arg)) ++ (k2 ++ ks)) ((startReading opts ns).after a1 ns1)).bind _ = _
      rw [read_args hp, r2, words_ns]
      have h3 : ((startReading opts ns).after a1 ns1).ns = ns1 := by
        refine after_ns _ _ _ fun e => ?_
        subst e
        cases h
        rfl
      rw [h3]
      rcases fold_fitting hd hu a2 ns1 g2 hA1 with ⟨_, h⟩ | ⟨hno2, _⟩
      · rw [h]; rfl
      · obtain ⟨g, hg, o, h4, h5⟩ := hq
        rcases List.mem_append.1 hg with hg | hg
        · exact absurd h5 (hno g hg o h4)
        · exact absurd h5 (hno2 g hg o h4)

/-- **C144** The same behind the name of a command: `xylem install --help` and the like, even without the keys the command needs, even with words behind that
would make another number of keys; the options and keys in front have no effect. -/
theorem C144_help_of_command (o : Outside σ) (fresh : Bool) (p : Process) (s : σ) {cmd : String} (hc : cmd ∈ commandNames) {top sub : List OptSpec}
    (hp : ParsersFor cmd top sub) {before a1 a2 : List Given} {wb w1 w2 keys rest : List String} (hb : Written PlainWord before wb)
    (h1 : Written PlainWord a1 w1) (h2 : Written PlainWord a2 w2) (gb : ∀ g ∈ before, Fitting top g) (g1 : ∀ g ∈ a1, Fitting sub g)
    (g2 : ∀ g ∈ a2, Fitting sub g) (hk : ∀ w ∈ keys, PlainWord w) (hh : ∃ g ∈ before ++ (a1 ++ a2), g.flag ∈ helpFlags) :
    xylemDone o xylemDescription fresh p (wb ++ cmd :: (w1 ++ (keys ++ (w2 ++ rest)))) s = .nothing s ∧
    ∃ c, xylemMain o xylemDescription fresh p (wb ++ cmd :: (w1 ++ (keys ++ (w2 ++ rest)))) s = (p, ⟨[], .exit c⟩) ∧ (c = 0 ∨ c = 2) ∧
      ((∀ w ∈ rest.takeWhile (· ≠ "--"), Sensible sub w) → c = 0) := by
  obtain ⟨rfl, rfl⟩ := parsersFor_eq hp
  have key : (parseXylem fresh xylemDescription (wb ++ cmd :: (w1 ++ (keys ++ (w2 ++ rest)))) = .error (.systemExit 2) ∧
      ¬ ∀ w ∈ rest.takeWhile (· ≠ "--"), Sensible (commandOptions cmd ++ sharedOptions) w) ∨
      parseXylem fresh xylemDescription (wb ++ cmd :: (w1 ++ (keys ++ (w2 ++ rest)))) = .error (.systemExit 0) := by
    rw [parseXylem_eq]
    unfold parseArgv
    have hu := usual_all cmd
    have hf := apart_all cmd
    have hs := xylem_shadow cmd
    have hcalm : (∃ ks, classifyAll sharedOptions rest = .ok ks) → ∃ ks, classifyAll sharedOptions (w1 ++ (keys ++ (w2 ++ rest))) = .ok ks := fun h =>
      classifyAll_calm (calm_written hu hf hs h1 g1) _ (classifyAll_calm (calm_plain hk) _ (classifyAll_calm (calm_written hu hf hs h2 g2) _ h))
    by_cases hcl : ∃ ks, classifyAll sharedOptions (w1 ++ (keys ++ (w2 ++ rest))) = .ok ks
    · rcases top_reads hu hf hb gb (names_plain cmd hc) hcl with ⟨e, e1, e2⟩ | ⟨t, e1, e2, e3, e4⟩
      · rw [e2]
        right
        unfold parseInto at e1
        rcases fold_fitting top_dests hu.right before _ gb (defaults_appendable top_dests (appendable_nil _)) with ⟨_, h⟩ | ⟨_, ns, h, _⟩
        · rw [h] at e1; cases e1; rfl
        · rw [h] at e1; cases e1
      · rw [e2]
        have htop : (∀ g ∈ before, ∀ q, findOption sharedOptions g.flag = .ok q → q.action ≠ .quit) ∧ Appendable sharedOptions t.ns := by
          unfold parseInto at e1
          rcases fold_fitting top_dests hu.right before _ gb (defaults_appendable top_dests (appendable_nil _)) with ⟨_, h⟩ | ⟨h0, ns, h, h3⟩
          · rw [h] at e1; cases e1
          · rw [h] at e1; cases e1; exact ⟨h0, h3⟩
        have hq : ∃ g ∈ a1 ++ a2, ∃ q, findOption (commandOptions cmd ++ sharedOptions) g.flag = .ok q ∧ q.action = .quit := by
          obtain ⟨g, hg, hm⟩ := hh
          rcases List.mem_append.1 hg with hg | hg
          · obtain ⟨q, i1, i2⟩ := help_found_top _ hm
            exact absurd i2 (htop.1 g hg q i1)
          · exact ⟨g, hg, help_found cmd _ hm⟩
        have hA : Appendable (commandOptions cmd ++ sharedOptions) (if fresh = true then [] else t.ns) := by
          cases fresh with
          | true => exact appendable_nil _
          | false =>
            intro q hq ha
            rcases List.mem_append.1 hq with hq | hq
            · exact absurd ha (own_options cmd q hq)
            · exact htop.2 q hq ha
        show (callCommand fresh (commandNames.map xylemCommand) t t.rest = _ ∧ _) ∨ callCommand fresh (commandNames.map xylemCommand) t t.rest = _
        rw [e3]
        rw [show (cmd :: (w1 ++ (keys ++ (w2 ++ rest)))) = (xylemCommand cmd).name :: (w1 ++ (keys ++ (w2 ++ rest))) from rfl, callCommand_found (found_command hc)]
        rcases sub_help (shared_dests cmd) hu hf (positionals_proper cmd) h1 h2 g1 g2 hk (rest := rest) hA hq with ⟨h, hn⟩ | h
        · left
          refine ⟨?_, fun hsens => hn (sensible_words hu hf hs rest hsens).2⟩
          show (readAll (commandOptions cmd ++ sharedOptions) (commandPositionals cmd) (if fresh = true then [] else t.ns) (w1 ++ (keys ++ (w2 ++ rest)))).bind _ = _
          have h' : readAll (commandOptions cmd ++ sharedOptions) (commandPositionals cmd) (if fresh = true then [] else t.ns) (w1 ++ (keys ++ (w2 ++ rest))) = .error (.systemExit 2) := h
          rw [h']; rfl
        · right
          show (readAll (commandOptions cmd ++ sharedOptions) (commandPositionals cmd) (if fresh = true then [] else t.ns) (w1 ++ (keys ++ (w2 ++ rest)))).bind _ = _
          have h' : readAll (commandOptions cmd ++ sharedOptions) (commandPositionals cmd) (if fresh = true then [] else t.ns) (w1 ++ (keys ++ (w2 ++ rest))) = .error (.systemExit 0) := h
          rw [h']; rfl
    · left
      refine ⟨?_, fun hsens => hcl (hcalm (sensible_words hu hf hs rest hsens).1)⟩
      have herr : classifyAll sharedOptions (w1 ++ (keys ++ (w2 ++ rest))) = .error (.systemExit 2) := by
        cases hx : classifyAll sharedOptions (w1 ++ (keys ++ (w2 ++ rest))) with
        | ok ks => exact absurd ⟨ks, hx⟩ hcl
        | error e => rw [classifyAll_error _ hx]
      obtain ⟨kb, _, c1, _⟩ := read_written hu.right hf.right .command hb gb
      unfold readAll
      rw [c1, classifyAll_cons (names_plain cmd hc).ne (classify_plain (names_plain cmd hc)), herr]
      rfl
  rcases key with ⟨h, hn⟩ | h
  · obtain ⟨i1, i2⟩ := refused_run o p s h
    exact ⟨i2, 2, i1, .inr rfl, fun hs => absurd hs hn⟩
  · obtain ⟨i1, i2⟩ := refused_run o p s h
    exact ⟨i2, 0, i1, .inl rfl, fun _ => rfl⟩

/-! ## Examples -/

theorem sensible_plain {opts : List OptSpec} {ws : List String} (h : ws.all (fun w => decide (w.toList.head? ≠ some '-')) = true) :
    ∀ w ∈ ws.takeWhile (· ≠ "--"), Sensible opts w := by
  intro w hw
  left
  show w.toList.head? ≠ some '-'
  exact of_decide_eq_true (List.all_eq_true.1 h w (List.takeWhile_subset _ hw))

/-- `xylem -vh update`: exit status 0. -/
example (o : Outside σ) (fresh : Bool) (p : Process) (s : σ) :
    xylemMain o xylemDescription fresh p ["-vh", "update"] s = (p, ⟨[], .exit 0⟩) := by
  obtain ⟨_, c, h, _, h0⟩ := C144_help o fresh p s (rest := ["update"]) (.bundle 'v' 'h' [] (by decide) .nil)
    (all_fitting (by decide +kernel)) ⟨switchGiven 'h', by simp, by decide⟩
  rw [h0 (sensible_plain (by decide +kernel))] at h
  exact h

/-- `xylem install boost --help`: exit status 0, nothing is installed. -/
example (o : Outside σ) (fresh : Bool) (p : Process) (s : σ) :
    xylemMain o xylemDescription fresh p ["install", "boost", "--help"] s = (p, ⟨[], .exit 0⟩) ∧
    xylemDone o xylemDescription fresh p ["install", "boost", "--help"] s = .nothing s := by
  obtain ⟨h1, c, h, _, h0⟩ := C144_help_of_command o fresh p s (cmd := "install") (by decide) (parsersFor _) (before := []) (a1 := []) (a2 := [⟨"--help", none⟩])
    (keys := ["boost"]) (rest := []) .nil .nil (.alone "--help" (by decide) .nil) (by simp) (by simp) (all_fitting (by decide +kernel))
    (by intro w hw; rw [List.mem_singleton.1 hw]; show _ ≠ _; decide) ⟨⟨"--help", none⟩, by simp, by decide⟩
  rw [h0 (by simp)] at h
  exact ⟨h, h1⟩

/-- `xylem --help --ver` ends with exit status 2: `--ver` is ambiguous. -/
example : parseXylem true xylemDescription ["--help", "--ver"] = .error (.systemExit 2) := by
  rw [parseXylem_eq]; rfl

/-- `--vers` asks for the version, `--ver` for nothing. -/
example : AsksHelp "--vers" ∧ ¬ AsksHelp "--ver" ∧ ¬ AsksHelp "-v" ∧ AsksHelp "-vh" := by
  refine ⟨.inl (by decide), ?_, ?_, .inr ⟨['v', 'h'], by decide +kernel, by decide, by decide⟩⟩
  · rintro (h | ⟨r, h1, h2, -⟩)
    · revert h; decide
    · rw [show "--ver".toList = ['-', '-', 'v', 'e', 'r'] by decide +kernel] at h1
      injection h1 with _ h1
      rw [← h1] at h2
      exact h2 rfl
  · rintro (h | ⟨r, h1, -, h3⟩)
    · revert h; decide
    · rw [show "-v".toList = ['-', 'v'] by decide +kernel] at h1
      injection h1 with _ h1
      rw [← h1] at h3
      revert h3; decide

end Verif
