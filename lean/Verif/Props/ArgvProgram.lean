import Verif.Lemmas.ArgvXylem
/-! # C139: whole runs of xylem, from the words of the command line -/
namespace Verif
variable {σ : Type}

/-! ## The parsers -/

/-- The parser of a command. -/
def xylemCommand (n : String) : CommandParser := ⟨n, commandOptions n ++ sharedOptions, commandPositionals n⟩

theorem top_parser : mkParser [] xylemDescription = .ok sharedOptions := by
  obtain ⟨top, ht, -, -⟩ := xylem_parser ""
  have ht : mkParser [] xylemDescription = .ok top := ht
  rw [ht, (mkParser_ok ht).1]
  rfl

theorem sub_parser (n : String) : mkParser (commandOptions n) xylemDescription = .ok (commandOptions n ++ sharedOptions) := by
  obtain ⟨sub, hs, -, -⟩ := xylem_parser n
  rw [hs, (mkParser_ok hs).1, List.append_assoc]
  rfl

theorem parsersFor (n : String) : ParsersFor n sharedOptions (commandOptions n ++ sharedOptions) := ⟨top_parser, sub_parser n⟩

theorem parsersFor_eq {n : String} {top sub : List OptSpec} (h : ParsersFor n top sub) : top = sharedOptions ∧ sub = commandOptions n ++ sharedOptions :=
  ⟨Except.ok.inj (h.top.symm.trans top_parser), Except.ok.inj (h.sub.symm.trans (sub_parser n))⟩

theorem builtin_ok (l : List String) : builtinCommands xylemDescription l = .ok (l.map xylemCommand) := by
  have h1 : ∀ n, builtinCommand xylemDescription n = .ok (xylemCommand n) := by
    intro n
    unfold builtinCommand
    rw [sub_parser]
    rfl
  unfold builtinCommands
  induction l with
  | nil => rfl
  | cons a t ih => rw [List.mapM_cons, h1, ih]; rfl

theorem parseXylem_eq (fresh : Bool) (words : List String) :
    parseXylem fresh xylemDescription words = parseArgv fresh sharedOptions (commandNames.map xylemCommand) words := by
  unfold parseXylem
  rw [top_parser, builtin_ok]
  rfl

theorem names_plain : ∀ n ∈ commandNames, PlainWord n := by
  unfold PlainWord
  decide +kernel

theorem positionals_proper (n : String) : commandPositionals n ≠ .command := by
  unfold commandPositionals
  split <;> simp

theorem found_command {n : String} (h : n ∈ commandNames) : (commandNames.map xylemCommand).find? (fun c => c.name == (xylemCommand n).name) = some (xylemCommand n) := by
  revert n
  have : ∀ n ∈ commandNames, (commandNames.find? (· == n)) = some n := by decide
  intro n hn
  have h1 := this n hn
  rw [List.find?_map]
  have : ((fun c => c.name == (xylemCommand n).name) ∘ xylemCommand) = (· == n) := rfl
  rw [this, h1]
  rfl

/-! ## Options and keys are read as they are written -/

/-- What is behind the words: the program of the command, with these options and keys. -/
theorem run_of_parse (o : Outside σ) {fresh : Bool} (p : Process) {words : List String} (s : σ) {cmd : String} (hc : cmd ∈ commandNames)
    {top sub : List OptSpec} {before after : List Given} {keys : List String} (ha : (commandPositionals cmd).admits keys)
    (h : parseXylem fresh xylemDescription words = (parseCommandLine fresh top sub before after).map fun ns => (xylemCommand cmd, ns, keys)) :
    xylemMain o xylemDescription fresh p words s = programOf o xylemDescription fresh top sub p before after keys s cmd ∧
    xylemDone o xylemDescription fresh p words s = doneBy o xylemDescription fresh top sub p before after keys s cmd := by
  have hcases : cmd = "update" ∨ cmd = "resolve" ∨ cmd = "lookup" ∨ cmd = "install" ∨ cmd = "_compact_rules_file" := by
    simpa [commandNames] using hc
  have hk : cmd = "resolve" ∨ cmd = "lookup" ∨ cmd = "install" → requireKeys keys = .ok () := by
    intro h
    have : keys ≠ [] := by rcases h with rfl | rfl | rfl <;> exact ha
    unfold requireKeys
    rw [if_neg this]
  unfold xylemMain xylemDone
  rw [h]
  cases hp : parseCommandLine fresh top sub before after with
  | error e =>
    rcases hcases with rfl | rfl | rfl | rfl | rfl <;>
      simp [programOf, doneBy, Except.map, xylemInstallTelling, xylemResolveSaying, xylemLookupSaying, xylemUpdateSaying, mainWith, hp, installEffect, updateEffect,
        reached, Done.nothing, bind, Except.bind]
  | ok ns =>
    refine ⟨?_, ?_⟩
    · rcases hcases with rfl | rfl | rfl | rfl | rfl <;>
        simp [programOf, commandFunc, Except.map, xylemInstallTelling, xylemResolveSaying, xylemLookupSaying, xylemUpdateSaying, mainWith, hp, xylemCommand, hk]
    · show (match (handleConfigArguments o.env xylemDescription (handleSwitches o.env ns p) ns).res with
        | .error _ => _
        | .ok c => _) = _
      cases hh : (handleConfigArguments o.env xylemDescription (handleSwitches o.env ns p) ns).res with
      | error e =>
        rcases hcases with rfl | rfl | rfl | rfl | rfl <;>
          simp [doneBy, installEffect, updateEffect, reached, hp, hk, hh, Done.nothing, bind, Except.bind]
      | ok c =>
        rcases hcases with rfl | rfl | rfl | rfl | rfl <;>
          simp [doneBy, installEffect, updateEffect, reached, hp, hk, hh, Done.nothing, bind, Except.bind, commandDone, xylemCommand, pure, Except.pure]

/-- **C139** `xylem OPTIONS COMMAND OPTIONS KEYS OPTIONS`, where the options are xylem's and the command's own, written in any of the usual ways: what
the program prints and does, and how it ends, is what the program of that command prints and does with these options and keys. -/
theorem C139_run_of_words (o : Outside σ) (fresh : Bool) (p : Process) (s : σ) {cmd : String} (hc : cmd ∈ commandNames) {top sub : List OptSpec}
    (hp : ParsersFor cmd top sub) {before a1 a2 : List Given} {wb w1 w2 keys : List String} (hb : Written PlainWord before wb) (h1 : Written PlainWord a1 w1)
    (h2 : Written PlainWord a2 w2) (gb : ∀ g ∈ before, Fitting top g) (g1 : ∀ g ∈ a1, Fitting sub g) (g2 : ∀ g ∈ a2, Fitting sub g)
    (hk : ∀ w ∈ keys, PlainWord w) (ha : (commandPositionals cmd).admits keys) :
    xylemMain o xylemDescription fresh p (wb ++ cmd :: (w1 ++ (keys ++ w2))) s =
      programOf o xylemDescription fresh top sub p before (a1 ++ a2) keys s cmd ∧
    xylemDone o xylemDescription fresh p (wb ++ cmd :: (w1 ++ (keys ++ w2))) s =
      doneBy o xylemDescription fresh top sub p before (a1 ++ a2) keys s cmd := by
  refine run_of_parse o p s hc ha ?_
  obtain ⟨e1, e2, hu, hf, hs⟩ := hp.common
  rw [parseXylem_eq]
  subst e2
  rw [e1] at hu hf hs gb g1 g2 ⊢
  exact C139_words_as_options (k := xylemCommand cmd) rfl hu hf hs (positionals_proper cmd) (found_command hc) (names_plain cmd hc) hb h1 h2 gb g1 g2 hk ha

/-- **C139** The same with words behind `--`, which are keys whatever they look like. -/
theorem C139_run_behind_dashes (o : Outside σ) (fresh : Bool) (p : Process) (s : σ) {cmd : String} (hc : cmd ∈ commandNames) {top sub : List OptSpec}
    (hp : ParsersFor cmd top sub) (hm : cmd ≠ "update") {before a1 : List Given} {wb w1 k1 k2 : List String} (hb : Written PlainWord before wb)
    (h1 : Written PlainWord a1 w1) (gb : ∀ g ∈ before, Fitting top g) (g1 : ∀ g ∈ a1, Fitting sub g) (hk : ∀ w ∈ k1, PlainWord w)
    (ha : (commandPositionals cmd).admits (k1 ++ k2)) :
    xylemMain o xylemDescription fresh p (wb ++ cmd :: (w1 ++ (k1 ++ "--" :: k2))) s =
      programOf o xylemDescription fresh top sub p before a1 (k1 ++ k2) s cmd ∧
    xylemDone o xylemDescription fresh p (wb ++ cmd :: (w1 ++ (k1 ++ "--" :: k2))) s =
      doneBy o xylemDescription fresh top sub p before a1 (k1 ++ k2) s cmd := by
  refine run_of_parse o p s hc ha ?_
  obtain ⟨e1, e2, hu, hf, hs⟩ := hp.common
  rw [parseXylem_eq]
  subst e2
  rw [e1] at hu hf hs gb g1 ⊢
  refine C139_behind_dashes (k := xylemCommand cmd) rfl hu hf hs ?_ (found_command hc) (names_plain cmd hc) hb h1 gb g1 hk ha
  have : ∀ n ∈ commandNames, n ≠ "update" → commandPositionals n = .many ∨ commandPositionals n = .one := by decide
  exact this cmd hc hm

/-! ## Every run -/

/-- **C139** Whatever the words: either they are refused, then nothing at all is done and printed, except by argparse; or they are options for xylem, the name of a
command, options for it, its keys, and options for it, and the run is the run of the program of this command with these options and keys. So all that is proved of
those programs for all options and keys holds of xylem for all words. -/
theorem C139_every_run (o : Outside σ) (fresh : Bool) (p : Process) (words : List String) (s : σ) :
    (∃ e, parseXylem fresh xylemDescription words = .error e ∧ xylemMain o xylemDescription fresh p words s = (p, ⟨[], uncaught e⟩) ∧
      xylemDone o xylemDescription fresh p words s = .nothing s) ∨
    ∃ cmd ∈ commandNames, ∃ top sub before wb a1 w1 keys kw a2 w2, ParsersFor cmd top sub ∧ words = wb ++ cmd :: (w1 ++ (kw ++ w2)) ∧
      Written ArgWord before wb ∧ Written ArgWord a1 w1 ∧ KeyWords keys kw w2 ∧ Written ArgWord a2 w2 ∧
      (∀ g ∈ before, Fitting top g) ∧ (∀ g ∈ a1 ++ a2, Fitting sub g) ∧ (commandPositionals cmd).admits keys ∧
      xylemMain o xylemDescription fresh p words s = programOf o xylemDescription fresh top sub p before (a1 ++ a2) keys s cmd ∧
      xylemDone o xylemDescription fresh p words s = doneBy o xylemDescription fresh top sub p before (a1 ++ a2) keys s cmd := by
  cases h : parseXylem fresh xylemDescription words with
  | error e =>
    left
    refine ⟨e, rfl, ?_, ?_⟩
    · unfold xylemMain; rw [h]
    · unfold xylemDone; rw [h]
  | ok r =>
    right
    obtain ⟨k, ns, keys⟩ := r
    have h' := h
    rw [parseXylem_eq] at h'
    have hu : ∀ n, Usual (commandOptions n ++ sharedOptions) := fun n => usual_of (xylem_usual n).1 (xylem_usual n).2
    obtain ⟨hm, before, wb, a1, w1, kw, a2, w2, i1, i2, i3, i4, i5, i6, i7, i8, i9⟩ :=
      C139_accepted (hu "").right (fun k hk => by
        obtain ⟨n, _, rfl⟩ := List.mem_map.1 hk
        exact ⟨hu n, positionals_proper n⟩) h'
    obtain ⟨cmd, hc, rfl⟩ := List.mem_map.1 hm
    obtain ⟨j1, j2⟩ := run_of_parse o p s hc i8 (by rw [h, i9]; rfl)
    exact ⟨cmd, hc, _, _, before, wb, a1, w1, keys, kw, a2, w2, parsersFor cmd, i1, i2, i3, i4, i5, i6, i7, i8, j1, j2⟩

end Verif
