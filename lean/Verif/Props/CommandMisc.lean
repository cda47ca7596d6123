import Verif.Props.CommandOutput
import Verif.Props.Api
import Verif.Props.Interrupt
/-! # C81: the exit status of `xylem update`; C83: command plugins; C84: stand-alone commands; C85: output of `xylem lookup` -/
namespace Verif

variable {σ : Type}

/-! ## C81 -/

/-- **C81 refuted**: once the cache directory exists and the source lists could be read, `xylem update` ends with status 0 whatever happens to the
sources (short of an interrupt), even if none of them could be downloaded and nothing was written. -/
theorem C81_failed_update_exits_zero_refuted (on debug dryRun : Bool) (text : Bool → Exc → List Char) (env : CacheEnv) (plugins : List Spec)
    (dir : DirWorld) (w : SourcesWorld) (sourcesDir : String) (outcome : Source → Outcome) (sources : List Source)
    (hdir : ensureCacheDir dir = .ok ()) (hopen : openDatabase env plugins w sourcesDir = .ok sources)
    (hni : ∀ s ∈ sources, NotInterrupted env (s, outcome s)) :
    (mainTry on debug text (updateCommand on dryRun env plugins dir w sourcesDir outcome).returnsNone).ending.status = 0 ∧
    ((∀ s ∈ sources, ∀ d, ¬ Downloaded s (outcome s) d) → ∀ fs p,
      applySteps fs (updateApi dryRun env plugins dir w sourcesDir outcome).steps p = fs p) := by
  have hni' : ∀ so ∈ sources.map fun s => (s, outcome s), NotInterrupted env so := by
    intro so hso; obtain ⟨s, hs, rfl⟩ := List.mem_map.1 hso; exact hni s hs
  have e1 : updateApi dryRun env plugins dir w sourcesDir outcome =
      ⟨(dbUpdate env false (sources.map fun s => (s, outcome s))).steps, (dbUpdate env false (sources.map fun s => (s, outcome s))).raised⟩ := by
    unfold updateApi; simp only [hdir, hopen]
  have e2 : (updateApi dryRun env plugins dir w sourcesDir outcome).res = .ok () := by
    rw [e1]; unfold ApiUpdate.res; rw [(C19_update_memory env _ hni').1]
  constructor
  · unfold updateCommand; rw [interruptible_status, e2]; rfl
  · intro hd fs p
    rw [e1, dbUpdate_false env _ hni']
    have : (sources.map fun s => (s, outcome s)).flatMap (srcSteps env) = [] := by
      rw [List.flatMap_eq_nil_iff]
      intro so hso
      obtain ⟨s, hs, rfl⟩ := List.mem_map.1 hso
      unfold srcSteps
      cases hl : s.loadFromSource (outcome s).net (outcome s).now with
      | error e => simp only
      | ok s' =>
        exfalso
        unfold Source.loadFromSource at hl
        obtain ⟨d, h1, h2⟩ := Except_bind_ok.1 hl
        obtain ⟨_, h3, _⟩ := Except_bind_ok.1 h2
        exact hd s hs d ⟨h1, h3⟩
    simp only [this]
    rfl

/-- **C81 (partial)** The status of `xylem update` is 0 exactly if the cache directory could be created, the source lists could be read and no
interrupt ended the loop; an error of the first two kinds or an interrupt by the user gives status 1. Missing for the full claim: failed
downloads and failed writes must give status 1 (refuted above). -/
theorem C81_update_status_partial (on debug dryRun : Bool) (text : Bool → Exc → List Char) (env : CacheEnv) (plugins : List Spec)
    (dir : DirWorld) (w : SourcesWorld) (sourcesDir : String) (outcome : Source → Outcome)
    (h1 : NoSystemExit (ensureCacheDir dir)) (h2 : NoSystemExit (openDatabase env plugins w sourcesDir))
    (h3 : ∀ sources, openDatabase env plugins w sourcesDir = .ok sources →
      ∀ c, (dbUpdate env false (sources.map fun s => (s, outcome s))).raised ≠ some (.systemExit c)) :
    ((mainTry on debug text (updateCommand on dryRun env plugins dir w sourcesDir outcome).returnsNone).ending.status = 0 ↔
      ensureCacheDir dir = .ok () ∧ ∃ sources, openDatabase env plugins w sourcesDir = .ok sources ∧
        (dbUpdate env false (sources.map fun s => (s, outcome s))).raised = none) ∧
    ((mainTry on debug text (updateCommand on dryRun env plugins dir w sourcesDir outcome).returnsNone).ending.status = 0 ∨
      (mainTry on debug text (updateCommand on dryRun env plugins dir w sourcesDir outcome).returnsNone).ending.status = 1) := by
  unfold updateCommand
  rw [interruptible_status]
  cases hd : ensureCacheDir dir with
  | error e =>
    have e1 : (updateApi dryRun env plugins dir w sourcesDir outcome).res = .error e := by unfold updateApi; simp only [hd]; rfl
    rw [e1, show (Run.lift (.error e : Except Exc Unit)).res = .error e from rfl, statusOf_error fun c h => h1 c (h ▸ hd)]
    exact ⟨⟨fun h => by simp at h, fun ⟨h, _⟩ => by simp at h⟩, .inr rfl⟩
  | ok u =>
    cases ho : openDatabase env plugins w sourcesDir with
    | error e =>
      have e1 : (updateApi dryRun env plugins dir w sourcesDir outcome).res = .error e := by unfold updateApi; simp only [hd, ho]; rfl
      rw [e1, show (Run.lift (.error e : Except Exc Unit)).res = .error e from rfl, statusOf_error fun c h => h2 c (h ▸ ho)]
      exact ⟨⟨fun h => by simp at h, fun ⟨_, _, h, _⟩ => by simp at h⟩, .inr rfl⟩
    | ok sources =>
      cases hr : (dbUpdate env false (sources.map fun s => (s, outcome s))).raised with
      | none =>
        have e1 : (updateApi dryRun env plugins dir w sourcesDir outcome).res = .ok () := by
          unfold updateApi ApiUpdate.res; simp only [hd, ho, hr]
        rw [e1]
        exact ⟨⟨fun _ => ⟨rfl, sources, rfl, hr⟩, fun _ => rfl⟩, .inl rfl⟩
      | some e =>
        have e1 : (updateApi dryRun env plugins dir w sourcesDir outcome).res = .error e := by
          unfold updateApi ApiUpdate.res; simp only [hd, ho, hr]
        rw [e1, show (Run.lift (.error e : Except Exc Unit)).res = .error e from rfl, statusOf_error fun c h => h3 sources ho c (h ▸ hr)]
        refine ⟨⟨fun h => by simp at h, ?_⟩, .inr rfl⟩
        rintro ⟨_, ss, hs, hn⟩
        injection hs with hs; subst hs
        rw [hr] at hn; simp at hn

/-! ## C85 -/

/-- What `xylem lookup` is to print for a key, without colours, given the YAML text of its rules: the text without its last line break. -/
def lookupBlock (key os yaml : List Char) : List Char := "Rules for '".toList ++ key ++ "' on '".toList ++ os ++ "':\n".toList ++ yaml

theorem block_plain (k os y : List Char) :
    "Rules for '".toList ++ (ansi false "cyanf" ++ k ++ ansi false "reset") ++ "' on '".toList ++
      (ansi false "cyanf" ++ os ++ ansi false "reset") ++ "':\n".toList ++ (ansi false "yellowf" ++ dropLast (y ++ ['\n'])) ++ ansi false "reset" =
    lookupBlock k os y := by
  have h1 : ansi false "cyanf" = [] := rfl
  have h2 : ansi false "reset" = [] := rfl
  have h3 : ansi false "yellowf" = [] := rfl
  have h4 : dropLast (y ++ ['\n']) = y := by unfold dropLast; simp
  rw [h1, h2, h3, h4]
  unfold lookupBlock
  simp only [List.nil_append, List.append_nil]

theorem lookupLoop_cons_ok {on : Bool} {dump : PVal → Except Exc (List Char)} {lookup : String → Except Exc PVal} {osString : Except Exc (List Char)}
    {key : String} {t : List String} {v : PVal} {os d : List Char} (h1 : lookup key = .ok v) (h2 : osString = .ok os) (h3 : dump v = .ok d) :
    lookupLoop on dump lookup osString (key :: t) =
      ⟨.out ("Rules for '".toList ++ (ansi on "cyanf" ++ key.toList ++ ansi on "reset") ++ "' on '".toList ++
        (ansi on "cyanf" ++ os ++ ansi on "reset") ++ "':\n".toList ++ (ansi on "yellowf" ++ dropLast d) ++ ansi on "reset") ::
        (lookupLoop on dump lookup osString t).lines, (lookupLoop on dump lookup osString t).res⟩ := by
  rw [lookupLoop, h1, run_lift_ok, h2, run_lift_ok, h3, run_lift_ok, run_bind_ok (a := ()) rfl]
  rfl

/-- **C85** `xylem lookup` prints, with colours off, one block for each given key, in the given order, up to the first key whose rules cannot be
looked up (or dumped); what was printed before stays, and the process ends with status 0 exactly if there is no such key. Keys given twice
are printed twice. -/
theorem C85_lookup_output (debug : Bool) (text : Bool → Exc → List Char) (dump : PVal → Except Exc (List Char))
    (lookup : InstallerCtx σ → String → Except Exc PVal) (osString : InstallerCtx σ → Except Exc (List Char)) (ic : InstallerCtx σ)
    (os : List Char) (hos : osString ic = .ok os) (keys : List String) :
    (∀ yamls : List (List Char), List.Forall₂ (fun k y => ∃ v, lookup ic k = .ok v ∧ dump v = .ok (y ++ ['\n'])) keys yamls →
      (lookupCommand false dump lookup osString (.ok ic) keys).lines =
        List.zipWith (fun k y => .out (lookupBlock k.toList os y)) keys yamls ∧
      (mainTry false debug text (lookupCommand false dump lookup osString (.ok ic) keys).returnsNone).ending.status = 0) ∧
    (∀ pre bad post yamls e, keys = pre ++ bad :: post → (lookup ic bad >>= dump) = .error e → (∀ c, e ≠ .systemExit c) →
      e ≠ .keyboardInterrupt → e ≠ .eofError →
      List.Forall₂ (fun k y => ∃ v, lookup ic k = .ok v ∧ dump v = .ok (y ++ ['\n'])) pre yamls →
      (lookupCommand false dump lookup osString (.ok ic) keys).lines =
        List.zipWith (fun k y => .out (lookupBlock k.toList os y)) pre yamls ∧
      (mainTry false debug text (lookupCommand false dump lookup osString (.ok ic) keys).returnsNone).ending.status = 1) := by
  have step : ∀ (pre : List String) (yamls : List (List Char)) (rest : List String),
      List.Forall₂ (fun k y => ∃ v, lookup ic k = .ok v ∧ dump v = .ok (y ++ ['\n'])) pre yamls →
      lookupLoop false dump (lookup ic) (osString ic) (pre ++ rest) =
        ⟨List.zipWith (fun k y => .out (lookupBlock k.toList os y)) pre yamls ++ (lookupLoop false dump (lookup ic) (osString ic) rest).lines,
          (lookupLoop false dump (lookup ic) (osString ic) rest).res⟩ := by
    intro pre yamls rest h
    induction h with
    | nil => rfl
    | @cons k y ks ys h1 h2 ih =>
      obtain ⟨v, g1, g2⟩ := h1
      rw [List.cons_append, lookupLoop_cons_ok g1 hos g2, ih, block_plain k.toList os y]
      rfl
  have cmd : lookupCommand false dump lookup osString (.ok ic) keys = interruptible false (lookupLoop false dump (lookup ic) (osString ic) keys) := by
    unfold lookupCommand; rw [run_lift_ok]
  constructor
  · intro yamls h
    have := step keys yamls [] h
    rw [List.append_nil] at this
    rw [cmd, interruptible_status, this]
    constructor
    · rw [interruptible_ok rfl]; simp [lookupLoop, pure]
    · rfl
  · intro pre bad post yamls e hk he hx hki hee h
    have hbad : lookupLoop false dump (lookup ic) (osString ic) (bad :: post) = ⟨[], .error e⟩ := by
      rw [lookupLoop]
      cases hl : lookup ic bad with
      | error e' =>
        rw [hl] at he; simp only [bind, Except.bind, Except.error.injEq] at he; subst he
        rw [run_lift_error]
      | ok v =>
        rw [hl] at he; simp only [bind, Except.bind] at he
        rw [run_lift_ok, hos, run_lift_ok, he, run_lift_error]
    have := step pre yamls (bad :: post) h
    rw [hbad] at this
    rw [cmd, interruptible_status, hk, this]
    constructor
    · rw [interruptible_error (e := e) rfl, if_neg (by simp [hki, hee])]; simp
    · cases e <;> first | rfl | exact absurd rfl (hx _)

/-- Non-vacuity: two keys found, then one that is unknown. -/
example : (mainTry false false (fun _ _ => "unknown".toList) (lookupCommand false (fun v => match v with | .str s => .ok (s.toList ++ ['\n']) | _ => .error .valueError)
      (fun _ k => if k = "c" then .error .lookupError else .ok (.str (k ++ "-rules"))) (fun _ => .ok "ubuntu:trusty".toList) (.ok outIc)
      ["a", "b", "c", "d"]).returnsNone) =
    ⟨[.out "Rules for 'a' on 'ubuntu:trusty':\na-rules".toList, .out "Rules for 'b' on 'ubuntu:trusty':\nb-rules".toList],
      .traceback .lookupError⟩ := rfl

/-! ## C83 -/

/-- The entry points that count: for each entry point the first one of its name. -/
def effectiveEntry (entries : List CmdEntry) (name : String) : Option CmdEntry := entries.find? fun e => e.name == name

theorem loadCommandDefinition_eq (entries : List CmdEntry) (name : String) :
    loadCommandDefinition entries name = match effectiveEntry entries name with | some e => e.load | none => .ok none := by
  induction entries with
  | nil => rfl
  | cons e t ih =>
    unfold loadCommandDefinition effectiveEntry
    by_cases h : e.name = name
    · rw [if_pos h, List.find?_cons_of_pos (by simp [h])]
    · rw [if_neg h, ih, List.find?_cons_of_neg (by simp [h])]; rfl

/-- The definition run for the name of a command: that of the first entry point of that name, if it is a dict. -/
def commandOf (entries : List CmdEntry) (n : String) : Option CmdDef :=
  match entries.find? fun e => e.name == n with
  | some ⟨_, .ok (some d)⟩ => some d
  | _ => none

theorem commandOf_eq (entries : List CmdEntry) (n : String) :
    commandOf entries n = match loadCommandDefinition entries n with | .ok o => o | .error _ => none := by
  rw [loadCommandDefinition_eq]
  unfold commandOf effectiveEntry
  cases entries.find? fun e => e.name == n with
  | none => rfl
  | some e =>
    obtain ⟨m, l⟩ := e
    cases l with
    | error e => rfl
    | ok o => cases o <;> rfl

theorem foldl_erase_filter (f : String → Bool) (l pre : List String) (h : ∀ x ∈ pre, f x = false) :
    (l.filter f).foldl List.erase (pre ++ l) = pre ++ l.filter fun x => !f x := by
  induction l generalizing pre with
  | nil => simp
  | cons a t ih =>
    by_cases ha : f a = true
    · rw [List.filter_cons_of_pos ha, List.foldl_cons, List.filter_cons_of_neg (by simp [ha])]
      have hn : a ∉ pre := fun hm => by rw [h a hm] at ha; simp at ha
      rw [List.erase_append_right _ hn, List.erase_cons_head, ih pre h]
    · rw [Bool.not_eq_true] at ha
      rw [List.filter_cons_of_neg (by simp [ha]), List.filter_cons_of_pos (by simp [ha])]
      have := ih (pre ++ [a]) (by
        intro x hx
        rcases List.mem_append.1 hx with hx | hx
        · exact h x hx
        · rw [List.mem_singleton.1 hx]; exact ha)
      simpa using this

/-- The loop collects the definitions of the names in order and removes the names without definition. -/
theorem definitionsLoop_ok (entries : List CmdEntry) (names : List String) (cmds : List String) (defis : List CmdDef)
    (r : List String × List CmdDef) (h : definitionsLoop entries cmds defis names = .ok r) :
    r.2 = defis ++ names.filterMap (commandOf entries) ∧
    r.1 = (names.filter fun n => (commandOf entries n).isNone).foldl List.erase cmds := by
  induction names generalizing cmds defis with
  | nil => simp only [definitionsLoop, Except.ok.injEq] at h; subst h; simp
  | cons n t ih =>
    unfold definitionsLoop at h
    have hc := commandOf_eq entries n
    cases hl : loadCommandDefinition entries n with
    | error e => rw [hl] at h; simp at h
    | ok o =>
      rw [hl] at h hc
      cases o with
      | none =>
        obtain ⟨b, c⟩ := ih _ _ h
        exact ⟨by rw [b, List.filterMap_cons_none hc], by rw [c, List.filter_cons_of_pos (by rw [hc]; rfl), List.foldl_cons]⟩
      | some d =>
        obtain ⟨b, c⟩ := ih _ _ h
        exact ⟨by rw [b, List.filterMap_cons_some hc]; simp, by rw [c, List.filter_cons_of_neg (by rw [hc]; simp)]⟩

theorem definitionsLoop_error (entries : List CmdEntry) (names : List String) (cmds : List String) (defis : List CmdDef) (n : String) (e : Exc)
    (hn : n ∈ names) (he : loadCommandDefinition entries n = .error e) : ∃ e', definitionsLoop entries cmds defis names = .error e' := by
  induction names generalizing cmds defis with
  | nil => simp at hn
  | cons m t ih =>
    unfold definitionsLoop
    cases hl : loadCommandDefinition entries m with
    | error e' => exact ⟨e', rfl⟩
    | ok o =>
      rcases List.mem_cons.1 hn with rfl | hn
      · rw [hl] at he; simp at he
      · cases o with
        | none => exact ih _ _ hn
        | some d => exact ih _ _ hn

theorem addParsers_cases (ps : Dict String CmdDef) (l : List CmdDef) :
    (∀ ps', addParsers ps l = .ok ps' → (∀ d ∈ l, d.prepare = .ok ()) ∧
      ∀ t, dget ps' t = match l.reverse.find? (fun d => d.title == t) with | some d => some d | none => dget ps t) ∧
    (∀ d ∈ l, ∀ e, d.prepare = .error e → ∃ e', addParsers ps l = .error e') := by
  induction l generalizing ps with
  | nil => exact ⟨fun ps' h => by simp only [addParsers, Except.ok.injEq] at h; subst h; simp, by simp⟩
  | cons d t ih =>
    constructor
    · intro ps' h
      unfold addParsers at h
      cases hd : d.prepare with
      | error e => rw [hd] at h; simp at h
      | ok u =>
        rw [hd] at h
        obtain ⟨a, b⟩ := (ih _).1 ps' h
        refine ⟨fun x hx => ?_, fun k => ?_⟩
        · rcases List.mem_cons.1 hx with rfl | hx
          · exact hd
          · exact a x hx
        · rw [b k, List.reverse_cons, List.find?_append]
          cases hf : t.reverse.find? (fun d => d.title == k) with
          | some x => simp
          | none =>
            simp only [Option.none_or]
            by_cases hk : d.title = k
            · subst hk; simp [dget_dset_self']
            · rw [List.find?_cons_of_neg (by simp [hk])]
              simp [dget_dset_ne' _ _ hk]
    · intro x hx e he
      unfold addParsers
      cases hd : d.prepare with
      | error e' => exact ⟨e', rfl⟩
      | ok u =>
        rcases List.mem_cons.1 hx with rfl | hx
        · rw [hd] at he; simp at he
        · exact (ih _).2 x hx e he

/-- **C83** Which command is run: if the commands can be set up, an argument `title` runs the definition of that title among the definitions of the
entry points, where of entry points with the same name the first counts, and entry points that are no dict are left out; of several
definitions with the same title the last is used. The help lists exactly the names of the entry points with a definition that do not start
with an underscore. -/
theorem C83_commands (entries : List CmdEntry) (p : Parsers) (h : createSubparsers entries = .ok p) :
    (∀ title, dget p.byTitle title =
      ((entries.map (·.name)).filterMap (commandOf entries)).reverse.find? fun d => d.title == title) ∧
    (∀ n, n ∈ p.shown ↔ n.toList.head? ≠ some '_' ∧ ∃ d, commandOf entries n = some d) := by
  unfold createSubparsers at h
  obtain ⟨r, h1, h2⟩ := Except_bind_ok.1 h
  obtain ⟨e2, e1⟩ := definitionsLoop_ok entries _ _ _ r h1
  rw [List.nil_append] at e2
  have e1' := foldl_erase_filter (fun n => (commandOf entries n).isNone) (listCommands entries) [] (by simp)
  rw [List.nil_append, List.nil_append, ← e1] at e1'
  have hmem : ∀ n, n ∈ r.1 ↔ ∃ d, commandOf entries n = some d := by
    intro n
    rw [e1', List.mem_filter]
    constructor
    · rintro ⟨_, hn⟩
      cases hc : commandOf entries n with
      | none => simp [hc] at hn
      | some d => exact ⟨d, rfl⟩
    · rintro ⟨d, hd⟩
      refine ⟨?_, by simp [hd]⟩
      unfold commandOf at hd
      cases hf : entries.find? fun e => e.name == n with
      | none => rw [hf] at hd; simp at hd
      | some e =>
        have := List.find?_some hf
        exact List.mem_map.2 ⟨e, List.mem_of_find?_eq_some hf, by simpa using this⟩
  by_cases hn : r.2 = [] ∨ r.1 = []
  · rw [if_pos hn, pure_ok] at h2
    subst h2
    have hempty : ∀ n, commandOf entries n = none := by
      intro n
      cases hc : commandOf entries n with
      | none => rfl
      | some d =>
        exfalso
        have hm := (hmem n).2 ⟨d, hc⟩
        rcases hn with hn | hn
        · rw [e1', List.mem_filter] at hm
          have : d ∈ r.2 := by rw [e2]; exact List.mem_filterMap.2 ⟨n, hm.1, hc⟩
          rw [hn] at this; simp at this
        · rw [hn] at hm; simp at hm
    constructor
    · intro title
      have : (entries.map (·.name)).filterMap (commandOf entries) = [] := by
        rw [List.filterMap_eq_nil_iff]; intro n _; exact hempty n
      rw [this]; rfl
    · intro n; simp [hempty]
  · rw [if_neg hn] at h2
    obtain ⟨ps, h3, h4⟩ := Except_bind_ok.1 h2
    rw [pure_ok] at h4
    subst h4
    constructor
    · intro title
      rw [((addParsers_cases [] r.2).1 ps h3).2 title, e2]
      unfold listCommands
      cases ((entries.map (·.name)).filterMap (commandOf entries)).reverse.find? fun d => d.title == title <;> rfl
    · intro n
      rw [List.mem_filter, hmem]
      have : (!startsWith n "_") = true ↔ n.toList.head? ≠ some '_' := by
        unfold startsWith
        rw [show "_".toList = ['_'] from rfl]
        cases n.toList with
        | nil => simp
        | cons c t =>
          rw [List.head?_cons, List.isPrefixOf_cons₂, List.isPrefixOf_nil_left, Bool.and_true, Bool.not_eq_true', beq_eq_false_iff_ne, Ne, Ne,
            Option.some.injEq, eq_comm]
      rw [this, and_comm]

/-- **C83 refuted**: one command plugin that cannot be imported, or whose parser cannot be set up, takes down every command: no command line at all
can be run any more, not even those of other plugins; the process ends with a traceback. -/
theorem C83_broken_plugin_refuted (on debug : Bool) (text : Bool → Exc → List Char) (entries : List CmdEntry) (n : String)
    (hn : n ∈ entries.map (·.name))
    (h : (∃ e, loadCommandDefinition entries n = .error e) ∨ (∃ d e, commandOf entries n = some d ∧ d.prepare = .error e))
    (rest : Parsers → Except Exc (Run (Option Int))) :
    ∃ e, createSubparsers entries = .error e ∧ (mainProcess on debug text (createSubparsers entries >>= rest)).ending = uncaught e ∧
      (mainProcess on debug text (createSubparsers entries >>= rest)).lines = [] := by
  have key : ∃ e, createSubparsers entries = .error e := by
    unfold createSubparsers
    rcases h with ⟨e, he⟩ | ⟨d, e, hd, he⟩
    · obtain ⟨e', h'⟩ := definitionsLoop_error entries (listCommands entries) (listCommands entries) [] n e hn he
      exact ⟨e', by rw [h']; rfl⟩
    · cases hl : definitionsLoop entries (listCommands entries) [] (listCommands entries) with
      | error e' => exact ⟨e', rfl⟩
      | ok r =>
        obtain ⟨e2, e1⟩ := definitionsLoop_ok entries _ _ _ r hl
        have e1' := foldl_erase_filter (fun n => (commandOf entries n).isNone) (listCommands entries) [] (by simp)
        rw [List.nil_append, List.nil_append, ← e1] at e1'
        have m1 : d ∈ r.2 := by rw [e2]; exact List.mem_filterMap.2 ⟨n, hn, hd⟩
        have m2 : n ∈ r.1 := by rw [e1', List.mem_filter]; exact ⟨hn, by simp [hd]⟩
        obtain ⟨e', h'⟩ := (addParsers_cases [] r.2).2 d m1 e he
        refine ⟨e', ?_⟩
        simp only [bind, Except.bind]
        rw [if_neg (by rintro (h | h) <;> simp_all), h']
  obtain ⟨e, he⟩ := key
  refine ⟨e, he, ?_, ?_⟩ <;> rw [he] <;> rfl

/-- The commands of xylem, for the examples. -/
def ownCommands (main : String → Run (Option Int)) : List CmdEntry :=
  ["update", "resolve", "lookup", "install", "_compact_rules_file"].map fun n => ⟨n, .ok (some ⟨n, .ok (), main n⟩)⟩

/-- Non-vacuity: xylem's own commands, one with an underscore, and a plugin that is no dict. -/
example (main : String → Run (Option Int)) : ∃ p, createSubparsers (ownCommands main ++ [⟨"odd", .ok none⟩]) = .ok p ∧
    p.shown = ["update", "resolve", "lookup", "install"] ∧ (dget p.byTitle "lookup").map (·.main) = some (main "lookup") ∧
    (dget p.byTitle "_compact_rules_file").map (·.main) = some (main "_compact_rules_file") ∧ dget p.byTitle "odd" = none := by
  refine ⟨_, rfl, ?_, rfl, rfl, rfl⟩
  simp only [listCommands, ownCommands, List.map_append, List.map_cons, List.map_nil, List.cons_append, List.nil_append]
  decide
example (main : String → Run (Option Int)) : createSubparsers (ownCommands main ++ [⟨"bad", .error .typeError⟩]) = .error .typeError := rfl

/-! ## C84 -/

/-- **C84 refuted**: the stand-alone command `xylem-update` never updates anything: whatever its definition, the process ends with an exception
(AttributeError, unless the preparation fails before), status 1 (or that of a SystemExit) and no output. -/
theorem C84_standalone_always_fails_refuted (d : CmdDef) :
    (standaloneMain d).lines = [] ∧
    (d.prepare = .ok () → (standaloneMain d).ending = .traceback .attributeError) ∧
    (∀ e, d.prepare = .error e → (standaloneMain d).ending = uncaught e) ∧
    ((∀ c, d.prepare ≠ .error (.systemExit c)) → (standaloneMain d).ending.status = 1) := by
  unfold standaloneMain commandHandleNoArgs
  cases h : d.prepare with
  | ok u => exact ⟨rfl, fun _ => rfl, fun e he => by simp at he, fun _ => rfl⟩
  | error e =>
    refine ⟨rfl, fun he => by simp at he, fun e' he => by injection he with he; subst he; rfl, fun hc => ?_⟩
    cases e <;> first | rfl | exact absurd rfl (hc _)

/-- Non-vacuity: although the command itself would work. -/
example : (standaloneMain ⟨"update", .ok (), ⟨[], .ok none⟩⟩).ending.status = 1 := rfl

end Verif
