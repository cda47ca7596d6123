import Verif.Lemmas.Argv3
/-! # C139: the words of the command line -/
namespace Verif

/-- What the parser of a command starts with. -/
def startReading (opts : List OptSpec) (ns : ArgSpace) : Reading := ⟨opts.foldl addDefault ns, [], [], .before, []⟩

/-- Options, then keys, then options: what the parser of a command has read. -/
theorem sub_read {opts : List OptSpec} (hu : Usual opts) (hf : FlagsApart opts) {p : Positionals} (hp : p ≠ .command)
    {a1 a2 : List Given} {w1 w2 keys : List String} (h1 : Written PlainWord a1 w1) (h2 : Written PlainWord a2 w2)
    (g1 : ∀ g ∈ a1, Fitting opts g) (g2 : ∀ g ∈ a2, Fitting opts g) (hk : ∀ k ∈ keys, PlainWord k) (ns : ArgSpace) :
    ∃ ks, classifyAll opts (w1 ++ (keys ++ w2)) = .ok ks ∧ readWords opts p ks (startReading opts ns) =
      (a1.foldlM (takeGiven opts) (opts.foldl addDefault ns)).bind fun ns1 => (a2.foldlM (takeGiven opts) ns1).bind fun ns2 =>
        .ok ((keys.foldl (Reading.word p) ((startReading opts ns).after a1 ns1)).after a2 ns2) := by
  obtain ⟨k1, _, c1, r1⟩ := read_written hu hf p h1 g1
  obtain ⟨k2, _, c2, r2⟩ := read_written hu hf p h2 g2
  have c3 : classifyAll opts w2 = .ok k2 := by
    have := c2 []
    simpa [classifyAll, Except.map] using this
  refine ⟨k1 ++ (keys.map (fun k => (k, WordKind.arg)) ++ k2), ?_, ?_⟩
  · rw [c1, classifyAll_plain hk, c3]; rfl
  · rw [r1]
    show (a1.foldlM (takeGiven opts) (opts.foldl addDefault ns)).bind _ = _
    cases hx : a1.foldlM (takeGiven opts) (opts.foldl addDefault ns) with
    | error e => rfl
    | ok ns1 =>
      show readWords opts p (keys.map (fun k => (k, WordKind.arg)) ++ k2) ((startReading opts ns).after a1 ns1) = (a2.foldlM (takeGiven opts) ns1).bind _
      rw [read_args hp]
      have h3 : ((startReading opts ns).after a1 ns1).ns = ns1 := by
        refine after_ns _ _ _ fun e => ?_
        subst e
        cases hx
        rfl
      have := r2 [] (keys.foldl (Reading.word p) ((startReading opts ns).after a1 ns1))
      rw [List.append_nil, words_ns, h3] at this
      rw [this]
      cases a2.foldlM (takeGiven opts) ns1 <;> rfl

/-- With as many keys as the command takes, they are its keys, and no word is left over. -/
theorem admitted {p : Positionals} (hp : p ≠ .command) {keys : List String} (hk : p.admits keys) (r : Reading) (h1 : r.phase = .before) (h2 : r.keys = [])
    (h3 : r.extras = []) : (keys.foldl (Reading.word p) r).keys = keys ∧ (keys.foldl (Reading.word p) r).extras = [] := by
  cases p with
  | command => exact absurd rfl hp
  | none =>
    have : keys = [] := hk
    subst this
    exact ⟨h2, h3⟩
  | one =>
    obtain ⟨k, rfl⟩ := hk
    simp [Reading.word, h1, h2, h3]
  | many =>
    obtain ⟨_, i2, i3, _, _⟩ := words_many keys r (by rw [h1]; simp)
    exact ⟨by rw [i2, h2]; rfl, by rw [i3, h3]⟩

theorem complete_of {p : Positionals} (hp : p ≠ .command) {keys : List String} (hk : p.admits keys) {r : Reading} (h : r.keys = keys) : r.complete p = true := by
  cases p with
  | command => exact absurd rfl hp
  | none => rfl
  | one => obtain ⟨k, rfl⟩ := hk; simp [Reading.complete, h]
  | many => 
    have : keys ≠ [] := hk
    simp [Reading.complete, h, this]

/-- The parser of a command reads options and keys. -/
theorem sub_accepts {opts : List OptSpec} (hu : Usual opts) (hf : FlagsApart opts) {p : Positionals} (hp : p ≠ .command)
    {a1 a2 : List Given} {w1 w2 keys : List String} (h1 : Written PlainWord a1 w1) (h2 : Written PlainWord a2 w2)
    (g1 : ∀ g ∈ a1, Fitting opts g) (g2 : ∀ g ∈ a2, Fitting opts g) (hk : ∀ k ∈ keys, PlainWord k) (ha : p.admits keys) (ns : ArgSpace) :
    (∃ e, parseInto opts ns (a1 ++ a2) = .error e ∧ readAll opts p ns (w1 ++ (keys ++ w2)) = .error e) ∨
    (∃ r, parseInto opts ns (a1 ++ a2) = .ok r.ns ∧ readAll opts p ns (w1 ++ (keys ++ w2)) = .ok r ∧ r.keys = keys ∧ r.extras = []) := by
  obtain ⟨ks, hc, hr⟩ := sub_read hu hf hp h1 h2 g1 g2 hk ns
  unfold parseInto readAll
  rw [hc, List.foldlM_append]
  show (∃ e, (a1.foldlM (takeGiven opts) (opts.foldl addDefault ns)).bind _ = _ ∧ (readWords opts p ks (startReading opts ns)).bind _ = _) ∨
    (∃ r, (a1.foldlM (takeGiven opts) (opts.foldl addDefault ns)).bind _ = _ ∧ (readWords opts p ks (startReading opts ns)).bind _ = _ ∧ _)
  rw [hr]
  cases hx : a1.foldlM (takeGiven opts) (opts.foldl addDefault ns) with
  | error e => exact .inl ⟨e, rfl, rfl⟩
  | ok ns1 =>
    cases hy : a2.foldlM (takeGiven opts) ns1 with
    | error e => 
      refine .inl ⟨e, hy, ?_⟩
      show ((a2.foldlM (takeGiven opts) ns1).bind _).bind _ = _
      rw [hy]; rfl
    | ok ns2 =>
      obtain ⟨i1, i2⟩ := admitted hp ha ((startReading opts ns).after a1 ns1) (after_before _ _ _ rfl) (after_keys _ _ _) (after_extras _ _ _)
      have hn1 : ((startReading opts ns).after a1 ns1).ns = ns1 := by
        refine after_ns _ _ _ fun e => ?_
        subst e; cases hx; rfl
      have hn2 : ((keys.foldl (Reading.word p) ((startReading opts ns).after a1 ns1)).after a2 ns2).ns = ns2 := by
        refine after_ns _ _ _ fun e => ?_
        rw [words_ns, hn1]; subst e; cases hy; rfl
      refine .inr ⟨(keys.foldl (Reading.word p) ((startReading opts ns).after a1 ns1)).after a2 ns2, by rw [hn2]; exact hy, ?_, ?_, ?_⟩
      · show ((a2.foldlM (takeGiven opts) ns1).bind _).bind _ = _
        rw [hy]
        show (if Reading.complete p _ = true then _ else _) = _
        rw [if_pos (complete_of hp ha (by rw [after_keys, i1]))]
        rfl
      · rw [after_keys, i1]
      · rw [after_extras, i2]

/-- The top level parser: options, then the command with all words behind it. -/
theorem top_reads {extra top : List OptSpec} (hu : Usual (extra ++ top)) (hf : FlagsApart (extra ++ top)) {before : List Given} {wb : List String}
    (hb : Written PlainWord before wb) (gb : ∀ g ∈ before, Fitting top g) {c : String} (hc : PlainWord c) {ws : List String}
    (hs : ∃ ks, classifyAll top ws = .ok ks) :
    (∃ e, parseInto top [] before = .error e ∧ readAll top .command [] (wb ++ c :: ws) = .error e) ∨
    (∃ r, parseInto top [] before = .ok r.ns ∧ readAll top .command [] (wb ++ c :: ws) = .ok r ∧ r.rest = c :: ws ∧ r.extras = []) := by
  obtain ⟨kb, _, c1, r1⟩ := read_written hu.right hf.right .command hb gb
  obtain ⟨ks, hks⟩ := hs
  have hcl : classifyAll top (wb ++ c :: ws) = .ok (kb ++ (c, .arg) :: ks) := by
    rw [c1, classifyAll_cons hc.ne (classify_plain hc), hks]; rfl
  have hr := r1 ((c, .arg) :: ks) (startReading top [])
  unfold parseInto readAll
  rw [hcl]
  show (∃ e, before.foldlM (takeGiven top) (top.foldl addDefault []) = _ ∧ (readWords top .command _ (startReading top [])).bind _ = _) ∨
    (∃ r, before.foldlM (takeGiven top) (top.foldl addDefault []) = _ ∧ (readWords top .command _ (startReading top [])).bind _ = _ ∧ _)
  rw [hr]
  show (∃ e, before.foldlM (takeGiven top) (top.foldl addDefault []) = _ ∧ ((before.foldlM (takeGiven top) (top.foldl addDefault [])).bind _).bind _ = _) ∨
    (∃ r, before.foldlM (takeGiven top) (top.foldl addDefault []) = _ ∧ ((before.foldlM (takeGiven top) (top.foldl addDefault [])).bind _).bind _ = _ ∧ _)
  cases hx : before.foldlM (takeGiven top) (top.foldl addDefault []) with
  | error e => exact .inl ⟨e, rfl, rfl⟩
  | ok ns =>
    refine .inr ⟨{ (startReading top []).after before ns with rest := c :: ks.map Prod.fst }, ?_, ?_, ?_, ?_⟩
    · show Except.ok ns = .ok ((startReading top []).after before ns).ns
      rw [after_ns]
      intro e; subst e; cases hx; rfl
    · show (readWords top .command ((c, .arg) :: ks) _).bind _ = _
      rw [readWords, if_pos rfl]
      rfl
    · show c :: ks.map Prod.fst = c :: ws
      rw [classifyAll_fst hks]
    · exact after_extras _ _ _

theorem callCommand_found {fresh : Bool} {cmds : List CommandParser} {k : CommandParser} (hc : cmds.find? (fun c => c.name == k.name) = some k) (t : Reading)
    (ws : List String) : callCommand fresh cmds t (k.name :: ws) =
      (readAll k.opts k.positionals (if fresh then [] else t.ns) ws).bind fun s =>
        if t.extras = [] ∧ s.extras = [] then .ok (k, if fresh then dupdate t.ns s.ns else s.ns, s.keys) else .error (.systemExit 2) := by
  simp only [callCommand, hc]
  rfl

theorem calm_plain {opts : List OptSpec} {keys : List String} (h : ∀ k ∈ keys, PlainWord k) : ∀ w ∈ keys, ∃ k, classify opts w = .ok k :=
  fun w hw => ⟨_, classify_plain (h w hw)⟩

/-- **C139** A command line of options for xylem, the name of a command, options for it, its keys, and further options for it is read as just that:
the words give the command the values `parseCommandLine` computes from the options (`Model/CommandLine`), and the keys in their order. The
options may be written in any of the ways `Written` lists, in full or abbreviated; the ways of failing are the same, too. -/
theorem C139_words_as_options {fresh : Bool} {extra top : List OptSpec} {cmds : List CommandParser} {k : CommandParser}
    (hk : k.opts = extra ++ top) (hu : Usual (extra ++ top)) (hf : FlagsApart (extra ++ top)) (hs : NoShadow top (extra ++ top))
    (hp : k.positionals ≠ .command) (hc : cmds.find? (fun c => c.name == k.name) = some k) (hn : PlainWord k.name)
    {before a1 a2 : List Given} {wb w1 w2 keys : List String} (hb : Written PlainWord before wb) (h1 : Written PlainWord a1 w1)
    (h2 : Written PlainWord a2 w2) (gb : ∀ g ∈ before, Fitting top g) (g1 : ∀ g ∈ a1, Fitting (extra ++ top) g)
    (g2 : ∀ g ∈ a2, Fitting (extra ++ top) g) (hkeys : ∀ w ∈ keys, PlainWord w) (ha : k.positionals.admits keys) :
    parseArgv fresh top cmds (wb ++ k.name :: (w1 ++ (keys ++ w2))) =
      (parseCommandLine fresh top (extra ++ top) before (a1 ++ a2)).map fun ns => (k, ns, keys) := by
  have hcalm : ∃ ks, classifyAll top (w1 ++ (keys ++ w2)) = .ok ks := by
    refine classifyAll_calm (calm_written hu hf hs h1 g1) _ (classifyAll_calm (calm_plain hkeys) _ ?_)
    have := classifyAll_calm (calm_written hu hf hs h2 g2) [] ⟨[], rfl⟩
    simpa using this
  unfold parseArgv parseCommandLine
  rcases top_reads hu hf hb gb hn hcalm with ⟨e, e1, e2⟩ | ⟨t, e1, e2, e3, e4⟩
  · rw [e1, e2]; rfl
  · rw [e1, e2]
    show callCommand fresh cmds t t.rest = Except.map _ (if fresh = true then _ else _)
    rw [e3, callCommand_found hc, hk]
    cases fresh with
    | true =>
      rcases sub_accepts hu hf hp h1 h2 g1 g2 hkeys ha [] with ⟨e, i1, i2⟩ | ⟨s, i1, i2, i3, i4⟩
      · simp only [if_true]
        rw [i1, i2]; rfl
      · simp only [if_true]
        rw [i1, i2]
        show (if t.extras = [] ∧ s.extras = [] then _ else _) = _
        rw [if_pos ⟨e4, i4⟩, i3]; rfl
    | false =>
      rcases sub_accepts hu hf hp h1 h2 g1 g2 hkeys ha t.ns with ⟨e, i1, i2⟩ | ⟨s, i1, i2, i3, i4⟩
      · simp only [Bool.false_eq_true, if_false]
        rw [i1, i2]; rfl
      · simp only [Bool.false_eq_true, if_false]
        rw [i1, i2]
        show (if t.extras = [] ∧ s.extras = [] then _ else _) = _
        rw [if_pos ⟨e4, i4⟩, i3]; rfl

/-! ## Words that are refused -/

/-- Another number of keys than the command takes: some are missing or left over. -/
theorem not_admitted {p : Positionals} (hp : p ≠ .command) {keys : List String} (hk : ¬ p.admits keys) (r : Reading) (h1 : r.phase = .before) (h2 : r.keys = [])
    (h3 : r.extras = []) : (keys.foldl (Reading.word p) r).complete p = false ∨ (keys.foldl (Reading.word p) r).extras ≠ [] := by
  cases p with
  | command => exact absurd rfl hp
  | none =>
    right
    cases keys with
    | nil => exact absurd rfl hk
    | cons k t =>
      rw [List.foldl_cons]
      intro e
      have h4 := words_extras .none t (r.word .none k)
      rw [e] at h4
      have h5 : (r.word .none k).extras = [k] := by unfold Reading.word; rw [h1]; simp [h3]
      rw [h5] at h4
      exact absurd h4 (by simp)
  | one =>
    match keys, hk with
    | [], _ => left; simp [Reading.complete, h2]
    | [k], hk => exact absurd ⟨k, rfl⟩ hk
    | k :: j :: t, _ =>
      right
      rw [List.foldl_cons, List.foldl_cons]
      intro e
      have h4 := words_extras .one t ((r.word .one k).word .one j)
      rw [e] at h4
      have h5 : ((r.word .one k).word .one j).extras = [j] := by simp [Reading.word, h1, h3]
      rw [h5] at h4
      exact absurd h4 (by simp)
  | many =>
    have : keys = [] := Classical.not_not.1 hk
    subst this
    left
    simp [Reading.complete, h2]

/-- A reading that is not complete, or leaves words over, is refused. -/
def Refused (p : Positionals) (r : Reading) : Prop := r.complete p = false ∨ r.extras ≠ []

theorem after_refused {p : Positionals} (hp : p ≠ .command) {r : Reading} (h : Refused p r) (l : List Given) (ns : ArgSpace) : Refused p (r.after l ns) := by
  unfold Refused at h ⊢
  rw [after_extras]
  rcases h with h | h
  · left
    cases p with
    | command => exact absurd rfl hp
    | none => exact h
    | one => simpa [Reading.complete, after_keys] using h
    | many => simpa [Reading.complete, after_keys] using h
  · exact .inr h

/-- If the parser of the command refuses what it has read, the program ends with status 2, unless it has ended before. -/
theorem refused_ends {fresh : Bool} {extra top : List OptSpec} {cmds : List CommandParser} {k : CommandParser}
    (hk : k.opts = extra ++ top) (hu : Usual (extra ++ top)) (hf : FlagsApart (extra ++ top))
    (hc : cmds.find? (fun c => c.name == k.name) = some k) (hn : PlainWord k.name)
    {before after : List Given} {wb ws : List String} (hb : Written PlainWord before wb) (gb : ∀ g ∈ before, Fitting top g)
    (hcalm : ∃ ks, classifyAll top ws = .ok ks)
    (hsub : ∀ ns, ∃ ks, classifyAll (extra ++ top) ws = .ok ks ∧ ∃ F : ArgSpace → Reading,
      readWords (extra ++ top) k.positionals ks (startReading (extra ++ top) ns) = (parseInto (extra ++ top) ns after).map F ∧
      ∀ ns', Refused k.positionals (F ns')) :
    parseArgv fresh top cmds (wb ++ k.name :: ws) =
      (parseCommandLine fresh top (extra ++ top) before after).bind fun _ => .error (.systemExit 2) := by
  have key : ∀ ns, readAll (extra ++ top) k.positionals ns ws = (parseInto (extra ++ top) ns after).bind (fun _ => .error (.systemExit 2)) ∨
      ∃ F : ArgSpace → Reading, readAll (extra ++ top) k.positionals ns ws = (parseInto (extra ++ top) ns after).map F ∧
        ∀ ns', parseInto (extra ++ top) ns after = .ok ns' → (F ns').extras ≠ [] := by
    intro ns
    obtain ⟨ks, h1, F, h2, h3⟩ := hsub ns
    have h4 : readAll (extra ++ top) k.positionals ns ws = ((parseInto (extra ++ top) ns after).map F).bind fun r =>
        if r.complete k.positionals = true then .ok r else .error (.systemExit 2) := by
      unfold readAll
      rw [h1, ← h2]
      rfl
    cases hx : parseInto (extra ++ top) ns after with
    | error e => left; rw [h4, hx]; rfl
    | ok ns' =>
      rw [hx] at h4
      by_cases hcmp : (F ns').complete k.positionals = true
      · right
        refine ⟨F, ?_, ?_⟩
        · rw [h4]
          show (if (F ns').complete k.positionals = true then _ else _) = _
          rw [if_pos hcmp]; rfl
        · rintro ns'' h
          cases h
          rcases h3 ns' with h5 | h5
          · rw [hcmp] at h5; cases h5
          · exact h5
      · left
        rw [h4]
        show (if (F ns').complete k.positionals = true then _ else _) = _
        rw [if_neg hcmp]; rfl
  unfold parseArgv parseCommandLine
  rcases top_reads hu hf hb gb hn hcalm with ⟨e, e1, e2⟩ | ⟨t, e1, e2, e3, e4⟩
  · rw [e1, e2]; rfl
  · rw [e1, e2]
    show callCommand fresh cmds t t.rest = Except.bind (if fresh = true then _ else _) _
    rw [e3, callCommand_found hc, hk]
    cases fresh with
    | true =>
      simp only [if_true]
      rcases key [] with h | ⟨F, h, hF⟩
      · rw [h]
        cases parseInto (extra ++ top) [] after <;> rfl
      · rw [h]
        cases hx : parseInto (extra ++ top) [] after with
        | error e => rfl
        | ok ns' =>
          show (if t.extras = [] ∧ (F ns').extras = [] then _ else _) = _
          rw [if_neg fun h' => hF ns' hx h'.2]
          rfl
    | false =>
      simp only [Bool.false_eq_true, if_false]
      rcases key t.ns with h | ⟨F, h, hF⟩
      · rw [h]
        cases parseInto (extra ++ top) t.ns after <;> rfl
      · rw [h]
        cases hx : parseInto (extra ++ top) t.ns after with
        | error e => rfl
        | ok ns' =>
          show (if t.extras = [] ∧ (F ns').extras = [] then _ else _) = _
          rw [if_neg fun h' => hF ns' hx h'.2]
          rfl

/-- **C139** Keys where the command takes none, two where it takes one, or none where it needs some (as in `xylem install --all`): the program ends
with status 2 (unless an option has ended it before), whatever the options say. -/
theorem C139_wrong_number_of_keys {fresh : Bool} {extra top : List OptSpec} {cmds : List CommandParser} {k : CommandParser}
    (hk : k.opts = extra ++ top) (hu : Usual (extra ++ top)) (hf : FlagsApart (extra ++ top)) (hs : NoShadow top (extra ++ top))
    (hp : k.positionals ≠ .command) (hc : cmds.find? (fun c => c.name == k.name) = some k) (hn : PlainWord k.name)
    {before a1 a2 : List Given} {wb w1 w2 keys : List String} (hb : Written PlainWord before wb) (h1 : Written PlainWord a1 w1)
    (h2 : Written PlainWord a2 w2) (gb : ∀ g ∈ before, Fitting top g) (g1 : ∀ g ∈ a1, Fitting (extra ++ top) g)
    (g2 : ∀ g ∈ a2, Fitting (extra ++ top) g) (hkeys : ∀ w ∈ keys, PlainWord w) (ha : ¬ k.positionals.admits keys) :
    parseArgv fresh top cmds (wb ++ k.name :: (w1 ++ (keys ++ w2))) =
      (parseCommandLine fresh top (extra ++ top) before (a1 ++ a2)).bind fun _ => .error (.systemExit 2) := by
  refine refused_ends hk hu hf hc hn hb gb ?_ ?_
  · refine classifyAll_calm (calm_written hu hf hs h1 g1) _ (classifyAll_calm (calm_plain hkeys) _ ?_)
    have := classifyAll_calm (calm_written hu hf hs h2 g2) [] ⟨[], rfl⟩
    simpa using this
  · intro ns
    obtain ⟨ks, i1, i2⟩ := sub_read hu hf hp h1 h2 g1 g2 hkeys ns
    have hall : ∀ ns1 ns2, Refused k.positionals
        ((keys.foldl (Reading.word k.positionals) ((startReading (extra ++ top) ns).after a1 ns1)).after a2 ns2) := fun ns1 ns2 =>
      after_refused hp (not_admitted hp ha _ (after_before _ _ _ rfl) (after_keys _ _ _) (after_extras _ _ _)) a2 ns2
    unfold parseInto
    rw [List.foldlM_append]
    cases hx : a1.foldlM (takeGiven (extra ++ top)) ((extra ++ top).foldl addDefault ns) with
    | error e =>
      rw [hx] at i2
      exact ⟨ks, i1, _, i2, fun ns' => hall [] ns'⟩
    | ok ns1 =>
      rw [hx] at i2
      refine ⟨ks, i1, fun ns' => ((keys.foldl (Reading.word k.positionals) ((startReading (extra ++ top) ns).after a1 ns1)).after a2 ns'), ?_, hall ns1⟩
      rw [i2]
      show (a2.foldlM (takeGiven (extra ++ top)) ns1).bind _ = (a2.foldlM (takeGiven (extra ++ top)) ns1).map _
      cases a2.foldlM (takeGiven (extra ++ top)) ns1 <;> rfl

theorem word_phase (p : Positionals) (r : Reading) (k : String) : (r.word p k).phase ≠ .before := by
  unfold Reading.word
  split <;> simp_all

theorem words_phase (p : Positionals) (k : String) (t : List String) : ∀ (r : Reading), ((k :: t).foldl (Reading.word p) r).phase ≠ .before := by
  induction t generalizing k with
  | nil => intro r; exact word_phase p r k
  | cons j t ih => intro r; exact ih j (r.word p k)

/-- A key behind options that follow other keys is left over. -/
theorem apart_refused (p : Positionals) (k : String) (t : List String) (g : Given) (l : List Given) (j : String) (u : List String) (r : Reading) (ns : ArgSpace) :
    ((j :: u).foldl (Reading.word p) (((k :: t).foldl (Reading.word p) r).after (g :: l) ns)).extras ≠ [] := by
  have h1 := words_phase p k t r
  generalize (k :: t).foldl (Reading.word p) r = q at h1
  have h2 : (q.after (g :: l) ns).phase = .after := by
    show q.phase.cut = .after
    cases hq : q.phase with
    | before => exact absurd hq h1
    | within => rfl
    | after => rfl
  generalize q.after (g :: l) ns = q' at h2
  rw [List.foldl_cons]
  intro e
  have h3 := words_extras p u (q'.word p j)
  rw [e] at h3
  have h4 : (q'.word p j).extras = q'.extras ++ [j] := by
    unfold Reading.word
    rw [h2]
    cases p <;> rfl
  rw [h4] at h3
  exact absurd h3 (by simp)

/-- **C140** Keys must stand together: if options stand between keys (`xylem install a --reinstall b`), the program ends with status 2 (unless an option has
ended it before), although every option is correct. -/
theorem C140_keys_apart_refuted {fresh : Bool} {extra top : List OptSpec} {cmds : List CommandParser} {k : CommandParser}
    (hk : k.opts = extra ++ top) (hu : Usual (extra ++ top)) (hf : FlagsApart (extra ++ top)) (hs : NoShadow top (extra ++ top))
    (hp : k.positionals ≠ .command) (hc : cmds.find? (fun c => c.name == k.name) = some k) (hn : PlainWord k.name)
    {before a1 am a2 : List Given} {wb w1 wm w2 k1 k2 : List String} (hb : Written PlainWord before wb) (h1 : Written PlainWord a1 w1)
    (hm : Written PlainWord am wm) (h2 : Written PlainWord a2 w2) (gb : ∀ g ∈ before, Fitting top g) (g1 : ∀ g ∈ a1, Fitting (extra ++ top) g)
    (gm : ∀ g ∈ am, Fitting (extra ++ top) g) (g2 : ∀ g ∈ a2, Fitting (extra ++ top) g) (hk1 : ∀ w ∈ k1, PlainWord w) (hk2 : ∀ w ∈ k2, PlainWord w)
    (n1 : k1 ≠ []) (nm : am ≠ []) (n2 : k2 ≠ []) :
    parseArgv fresh top cmds (wb ++ k.name :: (w1 ++ (k1 ++ (wm ++ (k2 ++ w2))))) =
      (parseCommandLine fresh top (extra ++ top) before (a1 ++ (am ++ a2))).bind fun _ => .error (.systemExit 2) := by
  refine refused_ends hk hu hf hc hn hb gb ?_ ?_
  · refine classifyAll_calm (calm_written hu hf hs h1 g1) _ (classifyAll_calm (calm_plain hk1) _ (classifyAll_calm (calm_written hu hf hs hm gm) _
      (classifyAll_calm (calm_plain hk2) _ ?_)))
    have := classifyAll_calm (calm_written hu hf hs h2 g2) [] ⟨[], rfl⟩
    simpa using this
  · intro ns
    obtain ⟨ka, _, c1, r1⟩ := read_written hu hf k.positionals h1 g1
    obtain ⟨km, _, cm, rm⟩ := read_written hu hf k.positionals hm gm
    obtain ⟨kb, _, c2, r2⟩ := read_written hu hf k.positionals h2 g2
    have c3 : classifyAll (extra ++ top) w2 = .ok kb := by
      have := c2 []
      simpa [classifyAll, Except.map] using this
    let W := Reading.word k.positionals
    let S := startReading (extra ++ top) ns
    obtain ⟨a, t, rfl⟩ := List.exists_cons_of_ne_nil n1
    obtain ⟨g, l, rfl⟩ := List.exists_cons_of_ne_nil nm
    obtain ⟨j, u, rfl⟩ := List.exists_cons_of_ne_nil n2
    have hall : ∀ x1 x2 x3, Refused k.positionals (((j :: u).foldl W (((a :: t).foldl W (S.after a1 x1)).after (g :: l) x2)).after a2 x3) := fun x1 x2 x3 =>
      after_refused hp (.inr (apart_refused _ a t g l j u _ x2)) a2 x3
    have step : readWords (extra ++ top) k.positionals (ka ++ ((a :: t).map (fun k => (k, WordKind.arg)) ++ (km ++ ((j :: u).map (fun k => (k, WordKind.arg)) ++ kb)))) S =
        (a1.foldlM (takeGiven (extra ++ top)) S.ns).bind fun x1 => ((g :: l).foldlM (takeGiven (extra ++ top)) (S.after a1 x1).ns).bind fun x2 =>
          (a2.foldlM (takeGiven (extra ++ top)) x2).bind fun x3 =>
            .ok (((j :: u).foldl W (((a :: t).foldl W (S.after a1 x1)).after (g :: l) x2)).after a2 x3) := by
      rw [r1]
      congr 1
      funext x1
      rw [read_args hp, rm, words_ns]
      congr 1
      funext x2
      rw [read_args hp]
      have := r2 [] ((j :: u).foldl W (((a :: t).foldl W (S.after a1 x1)).after (g :: l) x2))
      rw [List.append_nil] at this
      rw [this, words_ns]
      show (a2.foldlM (takeGiven (extra ++ top)) x2).bind _ = _
      cases a2.foldlM (takeGiven (extra ++ top)) x2 <;> rfl
    refine ⟨ka ++ ((a :: t).map (fun k => (k, WordKind.arg)) ++ (km ++ ((j :: u).map (fun k => (k, WordKind.arg)) ++ kb))), ?_, ?_⟩
    · rw [c1, classifyAll_plain hk1, cm, classifyAll_plain hk2, c3]; rfl
    · unfold parseInto
      rw [List.foldlM_append]
      show ∃ F, readWords (extra ++ top) k.positionals _ S = Except.map F ((a1.foldlM (takeGiven (extra ++ top)) S.ns).bind _) ∧ _
      rw [step]
      cases hx : a1.foldlM (takeGiven (extra ++ top)) S.ns with
      | error e => exact ⟨fun ns' => ((j :: u).foldl W (((a :: t).foldl W (S.after a1 [])).after (g :: l) [])).after a2 ns', rfl, hall [] []⟩
      | ok x1 =>
        have hn1 : (S.after a1 x1).ns = x1 := by
          refine after_ns _ _ _ fun e => ?_
          subst e; cases hx; rfl
        show ∃ F, (((g :: l).foldlM (takeGiven (extra ++ top)) (S.after a1 x1).ns).bind _) = Except.map F (((g :: l) ++ a2).foldlM (takeGiven (extra ++ top)) x1) ∧ _
        rw [hn1, List.foldlM_append]
        show ∃ F, (((g :: l).foldlM (takeGiven (extra ++ top)) x1).bind _) = Except.map F (((g :: l).foldlM (takeGiven (extra ++ top)) x1).bind _) ∧ _
        cases (g :: l).foldlM (takeGiven (extra ++ top)) x1 with
        | error e => exact ⟨fun ns' => ((j :: u).foldl W (((a :: t).foldl W (S.after a1 x1)).after (g :: l) [])).after a2 ns', rfl, hall x1 []⟩
        | ok x2 =>
          refine ⟨fun ns' => ((j :: u).foldl W (((a :: t).foldl W (S.after a1 x1)).after (g :: l) x2)).after a2 ns', ?_, hall x1 x2⟩
          show (a2.foldlM (takeGiven (extra ++ top)) x2).bind _ = (a2.foldlM (takeGiven (extra ++ top)) x2).map _
          cases a2.foldlM (takeGiven (extra ++ top)) x2 <;> rfl

/-! ## Everything behind `--` -/

theorem read_separated {opts : List OptSpec} {p : Positionals} (hp : p ≠ .command) (k2 : List String) (r : Reading) :
    readWords opts p (("--", .dashes) :: k2.map fun v => (v, .arg)) r = .ok (k2.foldl (Reading.word p) (r.separator p)) := by
  rw [readWords, if_neg hp]
  have := read_args (opts := opts) hp k2 [] (r.separator p)
  rw [List.append_nil] at this
  rw [this]
  rfl

/-- The separator is no key, and all words behind it are keys. -/
theorem separated {p : Positionals} (hp : p = .many ∨ p = .one) {k1 k2 : List String} (hk : p.admits (k1 ++ k2)) (r : Reading) (h1 : r.phase = .before)
    (h2 : r.keys = []) (h3 : r.extras = []) : (k2.foldl (Reading.word p) ((k1.foldl (Reading.word p) r).separator p)).keys = k1 ++ k2 ∧
      (k2.foldl (Reading.word p) ((k1.foldl (Reading.word p) r).separator p)).extras = [] := by
  rcases hp with rfl | rfl
  · obtain ⟨_, i2, i3, i4, _⟩ := words_many k1 r (by rw [h1]; simp)
    have hsep : (k1.foldl (Reading.word .many) r).separator .many = k1.foldl (Reading.word .many) r := by
      unfold Reading.separator
      cases hq : (k1.foldl (Reading.word .many) r).phase with
      | before => rfl
      | within => rfl
      | after => exact absurd hq i4
    rw [hsep]
    obtain ⟨_, j2, j3, _, _⟩ := words_many k2 _ i4
    exact ⟨by rw [j2, i2, h2]; rfl, by rw [j3, i3, h3]⟩
  · obtain ⟨k, hk⟩ := hk
    rcases List.append_eq_singleton_iff.1 hk with ⟨rfl, rfl⟩ | ⟨rfl, rfl⟩
    · simp [Reading.word, Reading.separator, h1, h2, h3]
    · simp [Reading.word, Reading.separator, h1, h2, h3]

/-- **C139** Words behind `--` are keys whatever they look like. -/
theorem C139_behind_dashes {fresh : Bool} {extra top : List OptSpec} {cmds : List CommandParser} {k : CommandParser}
    (hk : k.opts = extra ++ top) (hu : Usual (extra ++ top)) (hf : FlagsApart (extra ++ top)) (hs : NoShadow top (extra ++ top))
    (hp : k.positionals = .many ∨ k.positionals = .one) (hc : cmds.find? (fun c => c.name == k.name) = some k) (hn : PlainWord k.name)
    {before a1 : List Given} {wb w1 k1 k2 : List String} (hb : Written PlainWord before wb) (h1 : Written PlainWord a1 w1)
    (gb : ∀ g ∈ before, Fitting top g) (g1 : ∀ g ∈ a1, Fitting (extra ++ top) g) (hk1 : ∀ w ∈ k1, PlainWord w)
    (ha : k.positionals.admits (k1 ++ k2)) :
    parseArgv fresh top cmds (wb ++ k.name :: (w1 ++ (k1 ++ "--" :: k2))) =
      (parseCommandLine fresh top (extra ++ top) before a1).map fun ns => (k, ns, k1 ++ k2) := by
  have hp' : k.positionals ≠ .command := by rcases hp with h | h <;> rw [h] <;> simp
  have hcl : ∀ opts, classifyAll opts ("--" :: k2) = .ok (("--", .dashes) :: k2.map fun v => (v, .arg)) := by
    intro opts; rw [classifyAll, if_pos rfl]
  have hcalm : ∃ ks, classifyAll top (w1 ++ (k1 ++ "--" :: k2)) = .ok ks :=
    classifyAll_calm (calm_written hu hf hs h1 g1) _ (classifyAll_calm (calm_plain hk1) _ ⟨_, hcl top⟩)
  have hsub : ∀ ns, (∃ e, parseInto (extra ++ top) ns a1 = .error e ∧ readAll (extra ++ top) k.positionals ns (w1 ++ (k1 ++ "--" :: k2)) = .error e) ∨
      (∃ r, parseInto (extra ++ top) ns a1 = .ok r.ns ∧ readAll (extra ++ top) k.positionals ns (w1 ++ (k1 ++ "--" :: k2)) = .ok r ∧
        r.keys = k1 ++ k2 ∧ r.extras = []) := by
    intro ns
    obtain ⟨ka, _, c1, r1⟩ := read_written hu hf k.positionals h1 g1
    unfold parseInto readAll
    rw [c1, classifyAll_plain hk1, hcl]
    show (∃ e, a1.foldlM (takeGiven (extra ++ top)) (startReading (extra ++ top) ns).ns = _ ∧
        (readWords (extra ++ top) k.positionals (ka ++ (k1.map (fun k => (k, WordKind.arg)) ++ (("--", .dashes) :: k2.map fun v => (v, .arg)))) (startReading (extra ++ top) ns)).bind _ = _) ∨
      (∃ r, a1.foldlM (takeGiven (extra ++ top)) (startReading (extra ++ top) ns).ns = _ ∧
        (readWords (extra ++ top) k.positionals (ka ++ (k1.map (fun k => (k, WordKind.arg)) ++ (("--", .dashes) :: k2.map fun v => (v, .arg)))) (startReading (extra ++ top) ns)).bind _ = _ ∧ _)
    rw [r1]
    cases hx : a1.foldlM (takeGiven (extra ++ top)) (startReading (extra ++ top) ns).ns with
    | error e => exact .inl ⟨e, rfl, rfl⟩
    | ok ns1 =>
      right
      have hn1 : ((startReading (extra ++ top) ns).after a1 ns1).ns = ns1 := by
        refine after_ns _ _ _ fun e => ?_
        subst e; cases hx; rfl
      obtain ⟨i1, i2⟩ := separated hp ha ((startReading (extra ++ top) ns).after a1 ns1) (after_before _ _ _ rfl) (after_keys _ _ _) (after_extras _ _ _)
      refine ⟨k2.foldl (Reading.word k.positionals) ((k1.foldl (Reading.word k.positionals) ((startReading (extra ++ top) ns).after a1 ns1)).separator k.positionals),
        ?_, ?_, i1, i2⟩
      · rw [words_ns]
        have : ∀ (q : Reading), (q.separator k.positionals).ns = q.ns := by
          intro q; unfold Reading.separator; split <;> rfl
        rw [this, words_ns, hn1]
      · show (readWords (extra ++ top) k.positionals (k1.map (fun k => (k, WordKind.arg)) ++ (("--", .dashes) :: k2.map fun v => (v, .arg))) _).bind _ = _
        rw [read_args hp', read_separated hp']
        show (if Reading.complete k.positionals _ = true then _ else _) = _
        rw [if_pos (complete_of hp' ha i1)]
        rfl
  unfold parseArgv parseCommandLine
  rcases top_reads hu hf hb gb hn hcalm with ⟨e, e1, e2⟩ | ⟨t, e1, e2, e3, e4⟩
  · rw [e1, e2]; rfl
  · rw [e1, e2]
    show callCommand fresh cmds t t.rest = Except.map _ (if fresh = true then _ else _)
    rw [e3, callCommand_found hc, hk]
    cases fresh with
    | true =>
      rcases hsub [] with ⟨e, i1, i2⟩ | ⟨s, i1, i2, i3, i4⟩
      · simp only [if_true]
        rw [i1, i2]; rfl
      · simp only [if_true]
        rw [i1, i2]
        show (if t.extras = [] ∧ s.extras = [] then _ else _) = _
        rw [if_pos ⟨e4, i4⟩, i3]; rfl
    | false =>
      rcases hsub t.ns with ⟨e, i1, i2⟩ | ⟨s, i1, i2, i3, i4⟩
      · simp only [Bool.false_eq_true, if_false]
        rw [i1, i2]; rfl
      · simp only [Bool.false_eq_true, if_false]
        rw [i1, i2]
        show (if t.extras = [] ∧ s.extras = [] then _ else _) = _
        rw [if_pos ⟨e4, i4⟩, i3]; rfl

end Verif
