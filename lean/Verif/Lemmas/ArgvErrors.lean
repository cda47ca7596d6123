import Verif.Lemmas.ArgvXylem
/-! # How reading the words fails -/
namespace Verif

/-- The ways argparse ends the program, with `-c=` for the exception it raises by mistake. -/
def Ends (quits : String → Prop) (words : List String) (e : Exc) : Prop :=
  e = .systemExit 2 ∨ (e = .systemExit 0 ∧ ∃ w ∈ words, quits w) ∨ (e = .indexError ∧ ∃ c, String.ofList ['-', c, '='] ∈ words)

theorem Ends.mono {Q Q' : String → Prop} {a b : List String} (h : ∀ w ∈ a, w ∈ b) (hq : ∀ w, Q w → Q' w) {e : Exc} (he : Ends Q a e) : Ends Q' b e := by
  rcases he with h1 | ⟨h1, w, hw, hq'⟩ | ⟨h1, c, hc⟩
  · exact .inl h1
  · exact .inr (.inl ⟨h1, w, h w hw, hq w hq'⟩)
  · exact .inr (.inr ⟨h1, c, h _ hc⟩)

theorem guessed_error {w : List Char} {l : List (String × OptSpec × Option (List Char))} {e : Exc} (h : guessed w l = .error e) : e = .systemExit 2 := by
  unfold guessed at h
  split at h
  · split at h
    · cases h
    · split at h <;> cases h
  · cases h
  · injection h with h; exact h.symm

theorem classify_error {opts : List OptSpec} {w : String} {e : Exc} (h : classify opts w = .error e) : e = .systemExit 2 := by
  unfold classify at h
  split at h
  · cases h
  · split at h
    · cases h
    · split at h
      · cases h
      · split at h
        · cases h
        · exact guessed_error h

theorem classifyAll_error {opts : List OptSpec} (ws : List String) {e : Exc} : classifyAll opts ws = .error e → e = .systemExit 2 := by
  induction ws with
  | nil => intro h; cases h
  | cons w ws ih =>
    intro h
    rw [classifyAll] at h
    split at h
    · cases h
    · cases hk : classify opts w with
      | error e' =>
        rw [hk] at h
        have : e' = e := by injection h
        exact this ▸ classify_error hk
      | ok k =>
        rw [hk] at h
        cases hks : classifyAll opts ws with
        | error e' =>
          rw [hks] at h
          have : e' = e := by injection h
          exact this ▸ ih (this ▸ hks)
        | ok ks => rw [hks] at h; cases h

theorem runAction_error {opts : List OptSpec} {ns : ArgSpace} (hA : Appendable opts ns) {o : OptSpec} (ho : o ∈ opts) {v : Option String} {e : Exc}
    (h : runAction o v ns = .error e) : e = .systemExit 2 ∨ (e = .systemExit 0 ∧ o.action = .quit ∧ v = none) := by
  unfold runAction at h
  split at h
  · cases h
  · rename_i ha
    obtain ⟨l, hl⟩ := hA o ho ha
    rw [hl] at h
    cases h
  · cases h
  · rename_i ha; injection h with h; exact .inr ⟨h.symm, ha, rfl⟩
  · injection h with h; exact .inl h.symm

theorem applyAll_both {opts : List OptSpec} (hd : (opts.map OptSpec.dest).Nodup) {o : OptSpec} (ho : o ∈ opts) {v : Option String} (pre : List OptSpec) :
    (∀ q ∈ pre, q ∈ opts) → ∀ {ns : ArgSpace}, Appendable opts ns →
      (∀ e, applyAll ns pre o v = .error e → e = .systemExit 2 ∨ (e = .systemExit 0 ∧ ((∃ q ∈ pre, q.action = .quit) ∨ (o.action = .quit ∧ v = none)))) ∧ (∀ ns', applyAll ns pre o v = .ok ns' → Appendable opts ns') := by
  induction pre with
  | nil =>
    intro _ ns hA
    refine ⟨fun e h => ?_, fun ns' h => appendable_step hd hA ho h⟩
    rcases runAction_error hA ho h with h | ⟨h, h2⟩
    · exact .inl h
    · exact .inr ⟨h, .inr h2⟩
  | cons q pre ih =>
    intro hq ns hA
    have hstep : applyAll ns (q :: pre) o v = (runAction q none ns).bind fun ns => applyAll ns pre o v := by
      unfold applyAll
      rw [List.foldlM_cons]
      cases runAction q none ns <;> rfl
    rw [hstep]
    cases hr : runAction q none ns with
    | error e' =>
      refine ⟨fun e h => ?_, fun ns' h => by cases h⟩
      cases h
      rcases runAction_error hA (hq q List.mem_cons_self) hr with h | ⟨h, h2, _⟩
      · exact .inl h
      · exact .inr ⟨h, .inl ⟨q, List.mem_cons_self, h2⟩⟩
    | ok n1 =>
      obtain ⟨i1, i2⟩ := ih (fun x hx => hq x (List.mem_cons_of_mem _ hx)) (appendable_step hd hA (hq q List.mem_cons_self) hr)
      refine ⟨fun e h => ?_, i2⟩
      rcases i1 e h with h | ⟨h, ⟨z, hz, hz2⟩ | h2⟩
      · exact .inl h
      · exact .inr ⟨h, .inl ⟨z, List.mem_cons_of_mem _ hz, hz2⟩⟩
      · exact .inr ⟨h, .inr h2⟩

/-- The options a word stands for are options of the parser; if there is an exception, it is because of `-c=`. -/
theorem unbundle_both {opts : List OptSpec} (cs : List Char) : ∀ {o : OptSpec} {short : Bool}, o ∈ opts →
    (∀ e, unbundle opts o short cs = .error e → e = .systemExit 2 ∨ (e = .indexError ∧ cs = [] ∧ short = true)) ∧
    (∀ pre q v, unbundle opts o short cs = .ok (pre, q, v) → (∀ x ∈ pre, x ∈ opts) ∧ q ∈ opts) := by
  induction cs with
  | nil =>
    intro o short ho
    unfold unbundle
    cases o.action.takesValue with
    | true => exact ⟨fun e h => (by cases h), fun pre q v h => by cases h; exact ⟨by simp, ho⟩⟩
    | false =>
      cases short with
      | true => exact ⟨fun e h => (by cases h; exact .inr ⟨rfl, rfl, rfl⟩), fun pre q v h => by cases h⟩
      | false => exact ⟨fun e h => (by cases h; exact .inl rfl), fun pre q v h => by cases h⟩
  | cons c cs ih =>
    intro o short ho
    rw [unbundle]
    cases o.action.takesValue with
    | true => exact ⟨fun e h => (by cases h), fun pre q v h => by cases h; exact ⟨by simp, ho⟩⟩
    | false =>
      cases short with
      | false => exact ⟨fun e h => (by cases h; exact .inl rfl), fun pre q v h => by cases h⟩
      | true =>
        simp only [Bool.false_eq_true, if_false, if_true]
        cases hx : exactly opts (String.ofList ['-', c]) with
        | none => exact ⟨fun e h => (by cases h; exact .inl rfl), fun pre q v h => by cases h⟩
        | some o' =>
          have ho' := (exactly_some hx).1
          by_cases hc : cs = []
          · simp only [hc, if_true]
            exact ⟨fun e h => (by cases h), fun pre q v h => by cases h; exact ⟨by simpa using ho, ho'⟩⟩
          · simp only [hc, if_false]
            obtain ⟨i1, i2⟩ := ih (short := true) ho'
            cases hu : unbundle opts o' true cs with
            | error e' =>
              refine ⟨fun e h => ?_, fun pre q v h => by cases h⟩
              cases h
              rcases i1 _ hu with h | ⟨_, h, _⟩
              · exact .inl h
              · exact absurd h hc
            | ok r =>
              refine ⟨fun e h => (by cases h), fun pre q v h => ?_⟩
              obtain ⟨pre', q', v'⟩ := r
              obtain ⟨j1, j2⟩ := i2 _ _ _ hu
              cases h
              refine ⟨fun x hx => ?_, j2⟩
              rcases List.mem_cons.1 hx with rfl | hx
              · exact ho
              · exact j1 x hx

/-- The option a word is classified as is one of the parser; with nothing attached to a short option behind it, the word is `-c=`. -/
theorem classify_in {opts : List OptSpec} (hu : Usual opts) {w : String} {o : OptSpec} {f : String} {v : Option (List Char)}
    (h : classify opts w = .ok (.opt o f v)) : o ∈ opts ∧ (v = some [] → isShort f = true → ∃ c, w = String.ofList ['-', c, '=']) := by
  unfold classify at h
  split at h
  · cases h
  · split at h
    · rename_i o' hx
      cases h
      exact ⟨(exactly_some hx).1, fun e => by cases e⟩
    · rename_i hx
      split at h
      · cases h
      · rename_i hne
        split at h
        · rename_i k hk
          cases h
          unfold withEq at hk
          split at hk
          · cases hk
          · rename_i r hr
            obtain ⟨o', ho', e⟩ := Option.map_eq_some_iff.1 hk
            cases e
            obtain ⟨k1, k2⟩ := exactly_some ho'
            refine ⟨k1, fun hv hs => ?_⟩
            obtain ⟨a, b⟩ := r
            obtain ⟨e1, e2⟩ := cutEq_some hr
            injection hv with hv
            simp only at hv
            subst hv
            rcases hu.form _ k1 _ k2 with ⟨c, t, e3⟩ | ⟨c, hc, e3, _⟩
            · simp only [isShort, e3] at hs
              simp at hs
            · refine ⟨c, ?_⟩
              have e4 := congrArg String.toList e3
              rw [String.toList_ofList, shortFlag_toList] at e4
              simp only at e4
              rw [e4] at e1
              have e5 := congrArg String.ofList e1
              rw [String.ofList_toList] at e5
              exact e5
        · have hsingle : ∀ l : List (String × OptSpec × Option (List Char)), guessed w.toList l = .ok (.opt o f v) → l = [(f, o, v)] := by
            intro l hl
            unfold guessed at hl
            split at hl
            · split at hl
              · cases hl
              · split at hl <;> cases hl
            · rename_i m
              obtain ⟨a, b, c⟩ := m
              cases hl; rfl
            · cases hl
          have hl := hsingle _ h
          unfold matching at hl
          split at hl
          · obtain ⟨⟨g, q⟩, e1, e2⟩ := map_eq_single hl
            have hm : (g, q) ∈ flagTable opts := by
              have : (g, q) ∈ (flagTable opts).filter fun g => (cutWord w.toList).1.isPrefixOf g.1.toList := by rw [e1]; exact List.mem_cons_self
              exact (List.mem_filter.1 this).1
            have hp : (cutWord w.toList).1.isPrefixOf g.toList = true := by
              have : (g, q) ∈ (flagTable opts).filter fun g => (cutWord w.toList).1.isPrefixOf g.1.toList := by rw [e1]; exact List.mem_cons_self
              exact (List.mem_filter.1 this).2
            simp only [Prod.mk.injEq] at e2
            obtain ⟨rfl, rfl, e2⟩ := e2
            obtain ⟨h1, h2⟩ := mem_flagTable.1 hm
            refine ⟨h1, fun hv hs => ?_⟩
            exfalso
            rename_i hdd
            rcases hu.form q h1 g h2 with ⟨c, t, e3⟩ | ⟨c, hc, e3, _⟩
            · simp [isShort, e3] at hs
            · -- the word begins with two dashes, so the option string does, too
              rw [e3, shortFlag_toList, List.isPrefixOf_iff_prefix] at hp
              unfold cutWord at hp e2
              cases hcut : cutEq w.toList with
              | none => rw [hcut] at e2; simp only at e2; rw [hv] at e2; cases e2
              | some r =>
                obtain ⟨a, b⟩ := r
                obtain ⟨e4, e5⟩ := cutEq_some hcut
                rw [hcut] at hp
                simp only at hp
                rw [List.isPrefixOf_iff_prefix] at hdd
                rw [e4] at hdd
                have hdd : ['-', '-'] <+: a ++ '=' :: b := hdd
                match a, hp, hdd with
                | [], _, hdd => simp at hdd
                | [x], _, hdd => simp at hdd
                | x :: y :: a, hp, hdd =>
                  simp only [List.cons_append, List.cons_prefix_cons] at hdd
                  simp only [List.cons_prefix_cons] at hp
                  exact hc (hp.2.1.symm.trans hdd.2.1.symm)
          · obtain ⟨⟨g, q⟩, hm, hs⟩ := filterMap_mem hl
            obtain ⟨h1, h2⟩ := mem_flagTable.1 hm
            unfold shortMatch at hs
            split at hs
            · rename_i ht
              injection hs with hs
              simp only [Prod.mk.injEq] at hs
              obtain ⟨rfl, rfl, rfl⟩ := hs
              refine ⟨h1, fun hv _ => ?_⟩
              exfalso
              injection hv with hv
              have e1 : w.toList = g.toList := by
                have := List.take_append_drop 2 w.toList
                rw [hv, List.append_nil] at this
                rw [← this]; exact ht.symm
              have e2 : w = g := by
                have := congrArg String.ofList e1
                rwa [String.ofList_toList, String.ofList_toList] at this
              exact absurd h2 (exactly_none.1 hx q h1 ∘ (e2 ▸ ·))
            · split at hs
              · injection hs with hs
                simp only [Prod.mk.injEq] at hs
                obtain ⟨rfl, rfl, rfl⟩ := hs
                exact ⟨h1, fun hv => by cases hv⟩
              · cases hs

theorem word_ns (p : Positionals) (r : Reading) (w : String) : (r.word p w).ns = r.ns := words_ns p [w] r

theorem word_rest (p : Positionals) (r : Reading) (w : String) : (r.word p w).rest = r.rest := by
  unfold Reading.word; split <;> rfl

theorem separator_rest (p : Positionals) (r : Reading) : (r.separator p).rest = r.rest := by
  unfold Reading.separator; split <;> rfl

theorem separator_ns (p : Positionals) (r : Reading) : (r.separator p).ns = r.ns := by
  unfold Reading.separator; split <;> rfl

/-- What holds of what has been read from words: lists can be appended to, and the words of the command are among them. -/
def Sound (opts : List OptSpec) (before : Reading) (ws : List String) (r : Reading) : Prop :=
  Appendable opts r.ns ∧ ∀ x ∈ r.rest, x ∈ before.rest ∨ x ∈ ws

theorem Sound.weaken {opts : List OptSpec} {b b' : Reading} {ws ws' : List String} {r : Reading} (h : Sound opts b ws r) (hb : b.rest = b'.rest)
    (hs : ∀ x ∈ ws, x ∈ ws') : Sound opts b' ws' r :=
  ⟨h.1, fun x hx => (h.2 x hx).imp (fun h => hb ▸ h) (hs x)⟩

/-- The options in a word of one dash are among those of its letters. -/
theorem unbundle_quit {opts : List OptSpec} (cs : List Char) : ∀ {o : OptSpec} {pre : List OptSpec} {q : OptSpec} {x : Option (List Char)},
    unbundle opts o true cs = .ok (pre, q, x) → (∃ z ∈ pre, z.action = .quit) ∨ (q.action = .quit ∧ x = none) →
      o.action = .quit ∨ ∃ c ∈ cs, ∃ z, exactly opts (shortFlag c) = some z ∧ z.action = .quit := by
  induction cs with
  | nil =>
    intro o pre q x h hq
    unfold unbundle at h
    split at h
    · cases h
      rcases hq with ⟨z, hz, _⟩ | ⟨_, h⟩
      · simp at hz
      · cases h
    · cases h
  | cons c cs ih =>
    intro o pre q x h hq
    rw [unbundle] at h
    cases ho : o.action.takesValue with
    | true =>
      rw [ho] at h
      cases h
      rcases hq with ⟨z, hz, _⟩ | ⟨_, h⟩
      · simp at hz
      · cases h
    | false =>
      rw [ho] at h
      simp only [Bool.false_eq_true, if_false, if_true] at h
      cases hx : exactly opts (String.ofList ['-', c]) with
      | none => rw [hx] at h; cases h
      | some o' =>
        rw [hx] at h
        simp only at h
        by_cases hc : cs = []
        · rw [if_pos hc] at h
          cases h
          rcases hq with ⟨z, hz, h2⟩ | ⟨h2, _⟩
          · rw [List.mem_singleton.1 hz] at h2; exact .inl h2
          · exact .inr ⟨c, List.mem_cons_self, _, hx, h2⟩
        · rw [if_neg hc] at h
          cases hu : unbundle opts o' true cs with
          | error e => rw [hu] at h; cases h
          | ok r =>
            obtain ⟨pre', q', x'⟩ := r
            rw [hu] at h
            cases h
            have : o.action = .quit ∨ ((∃ z ∈ pre', z.action = .quit) ∨ (q.action = .quit ∧ x = none)) := by
              rcases hq with ⟨z, hz, h2⟩ | h2
              · rcases List.mem_cons.1 hz with rfl | hz
                · exact .inl h2
                · exact .inr (.inl ⟨z, hz, h2⟩)
              · exact .inr (.inr h2)
            rcases this with h2 | h2
            · exact .inl h2
            · rcases ih hu h2 with h3 | ⟨d, hd, z, hz, h3⟩
              · exact .inr ⟨c, List.mem_cons_self, _, hx, h3⟩
              · exact .inr ⟨d, List.mem_cons_of_mem _ hd, z, hz, h3⟩

/-- If a word stands for an option that ends the program, then it asks for that. -/
theorem optionsOf_quit {opts : List OptSpec} (hu : Usual opts) {w : String} {o : OptSpec} {f : String} {v : Option (List Char)}
    (hc : classify opts w = .ok (.opt o f v)) {pre : List OptSpec} {q : OptSpec} {x : Option (List Char)} (h : optionsOf opts o f v = .ok (pre, q, x))
    (hq : (∃ z ∈ pre, z.action = .quit) ∨ (q.action = .quit ∧ x = none)) : QuitWord opts w := by
  rcases classify_opt hu hc with ⟨rfl, hfind⟩ | ⟨y, g, rfl, hs, _, _⟩ | ⟨y, c, rfl, rfl, hcd, hex, htv, hw⟩
  · cases h
    rcases hq with ⟨z, hz, _⟩ | ⟨h2, _⟩
    · simp at hz
    · exact .inl ⟨o, hfind, h2⟩
  · replace h : unbundle opts o (isShort f) y = .ok (pre, q, x) := h
    rw [hs] at h
    exfalso
    cases y with
    | nil =>
      unfold unbundle at h
      split at h
      · cases h
        rcases hq with ⟨z, hz, _⟩ | ⟨_, h⟩
        · simp at hz
        · cases h
      · simp at h
    | cons d y =>
      rw [unbundle] at h
      split at h
      · cases h
        rcases hq with ⟨z, hz, _⟩ | ⟨_, h⟩
        · simp at hz
        · cases h
      · simp at h
  · have hs : isShort (shortFlag c) = true := by simp [isShort, shortFlag_toList, hcd]
    replace h : unbundle opts o (isShort (shortFlag c)) y = .ok (pre, q, x) := h
    rw [hs] at h
    have hmem : ∃ d, (d = c ∨ d ∈ y) ∧ ∃ z, exactly opts (shortFlag d) = some z ∧ z.action = .quit := by
      rcases unbundle_quit y h hq with h2 | ⟨d, hd, z, hz, h2⟩
      · exact ⟨c, .inl rfl, o, hex, h2⟩
      · exact ⟨d, .inr hd, z, hz, h2⟩
    obtain ⟨d, hd, z, hz, h2⟩ := hmem
    obtain ⟨k1, k2⟩ := exactly_some hz
    rcases hw with hw | hw
    · refine .inr ⟨z, k1, h2, d, c :: y, k2, by rw [hw, String.toList_ofList], by simpa using hcd, ?_⟩
      rcases hd with rfl | hd
      · exact List.mem_cons_self
      · exact List.mem_cons_of_mem _ hd
    · refine .inr ⟨z, k1, h2, d, c :: '=' :: y, k2, by rw [hw, String.toList_ofList], by simpa using hcd, ?_⟩
      rcases hd with rfl | hd
      · exact List.mem_cons_self
      · exact List.mem_cons_of_mem _ (List.mem_cons_of_mem _ hd)

/-- Reading words fails in the ways `Ends` lists, and the namespace stays as it should be. -/
theorem read_both {opts : List OptSpec} (hu : Usual opts) (hd : (opts.map OptSpec.dest).Nodup) (p : Positionals) : ∀ (n : Nat) (ws : List String)
    (ks : List (String × WordKind)) (r : Reading), ws.length ≤ n → ((classifyAll opts ws = .ok ks) ∨ ks = ws.map fun v => (v, .arg)) → Appendable opts r.ns →
      (∀ e, readWords opts p ks r = .error e → Ends (QuitWord opts) ws e) ∧ (∀ r', readWords opts p ks r = .ok r' → Sound opts r ws r') := by
  intro n
  induction n with
  | zero =>
    intro ws ks r hl hk hA
    have : ws = [] := List.length_eq_zero_iff.1 (Nat.le_zero.1 hl)
    subst this
    have : ks = [] := by
      rcases hk with h | h
      · cases h; rfl
      · exact h
    subst this
    exact ⟨fun e h => (by cases h), fun r' h => by cases h; exact ⟨hA, fun x hx => .inl hx⟩⟩
  | succ n ih =>
    intro ws ks r hl hk hA
    cases ws with
    | nil =>
      have : ks = [] := by
        rcases hk with h | h
        · cases h; rfl
        · exact h
      subst this
      exact ⟨fun e h => (by cases h), fun r' h => by cases h; exact ⟨hA, fun x hx => .inl hx⟩⟩
    | cons w ws =>
      have hlen : ws.length ≤ n := by simpa using hl
      -- the words behind this one, read from some state
      have onward : ∀ (kt : List (String × WordKind)) (r' : Reading), (classifyAll opts ws = .ok kt ∨ kt = ws.map fun v => (v, .arg)) → Appendable opts r'.ns → r'.rest = r.rest →
          (∀ e, readWords opts p kt r' = .error e → Ends (QuitWord opts) (w :: ws) e) ∧ (∀ r'', readWords opts p kt r' = .ok r'' → Sound opts r (w :: ws) r'') := by
        intro kt r' hkt hA' hrest
        obtain ⟨i1, i2⟩ := ih ws kt r' hlen hkt hA'
        exact ⟨fun e h => (i1 e h).mono (fun x hx => List.mem_cons_of_mem _ hx) fun _ h => h, fun r'' h => (i2 r'' h).weaken hrest fun x hx => List.mem_cons_of_mem _ hx⟩
      have anArg : ∀ kt, (classifyAll opts ws = .ok kt ∨ kt = ws.map fun v => (v, .arg)) →
          (∀ e, readWords opts p ((w, .arg) :: kt) r = .error e → Ends (QuitWord opts) (w :: ws) e) ∧ (∀ r', readWords opts p ((w, .arg) :: kt) r = .ok r' → Sound opts r (w :: ws) r') := by
        intro kt hkt
        rw [readWords]
        by_cases hp : p = .command
        · rw [if_pos hp]
          have hfst : kt.map Prod.fst = ws := by
            rcases hkt with h | h
            · exact classifyAll_fst h
            · subst h; simp [List.map_map, Function.comp_def]
          refine ⟨fun e h => (by cases h), fun r' h => ?_⟩
          cases h
          refine ⟨hA, fun x hx => .inr ?_⟩
          rw [← hfst]; exact hx
        · rw [if_neg hp]
          exact onward kt _ hkt (by rw [word_ns]; exact hA) (word_rest ..)
      rcases hk with hk | hk
      · rcases classifyAll_inv hk with ⟨_, rfl⟩ | ⟨_, k, kt, h1, h2, rfl⟩
        · rw [readWords]
          by_cases hp : p = .command
          · rw [if_pos hp]
            exact ⟨fun e h => (by cases h; exact .inl rfl), fun r' h => by cases h⟩
          · rw [if_neg hp]
            exact onward _ _ (.inr rfl) (by rw [separator_ns]; exact hA) (separator_rest ..)
        · cases k with
          | arg => exact anArg kt (.inl h2)
          | dashes => exact absurd h1 fun h => classify_not_dashes h
          | unknown =>
            rw [readWords]
            exact onward kt _ (.inl h2) hA rfl
          | opt o f v =>
            obtain ⟨ho, hv⟩ := classify_in hu h1
            have hopts : (∀ e, optionsOf opts o f v = .error e → Ends (QuitWord opts) (w :: ws) e) ∧
                (∀ pre q x, optionsOf opts o f v = .ok (pre, q, x) → (∀ y ∈ pre, y ∈ opts) ∧ q ∈ opts) := by
              cases v with
              | none => exact ⟨fun e h => (by cases h), fun pre q x h => by cases h; exact ⟨by simp, ho⟩⟩
              | some x =>
                obtain ⟨u1, u2⟩ := unbundle_both (opts := opts) x (short := isShort f) ho
                refine ⟨fun e h => ?_, u2⟩
                rcases u1 e h with h | ⟨h, hx, hs⟩
                · exact .inl h
                · obtain ⟨c, hc⟩ := hv (by rw [hx]) hs
                  exact .inr (.inr ⟨h, c, by rw [hc]; exact List.mem_cons_self⟩)
            have apply1 : ∀ (pre : List OptSpec) (q : OptSpec) (y : Option String) (kt' : List (String × WordKind)) (ws' : List String),
                (∀ z ∈ pre, z ∈ opts) → q ∈ opts → ((∃ z ∈ pre, z.action = .quit) ∨ (q.action = .quit ∧ y = none) → QuitWord opts w) → ws'.length ≤ n → (∀ z ∈ ws', z ∈ w :: ws) →
                (classifyAll opts ws' = .ok kt' ∨ kt' = ws'.map fun v => (v, .arg)) →
                (∀ e, (match applyAll r.ns pre q y with | .error e => (Except.error e : Except Exc Reading) | .ok ns => readWords opts p kt' (r.opted ns)) = .error e → Ends (QuitWord opts) (w :: ws) e) ∧
                (∀ r', (match applyAll r.ns pre q y with | .error e => (Except.error e : Except Exc Reading) | .ok ns => readWords opts p kt' (r.opted ns)) = .ok r' → Sound opts r (w :: ws) r') := by
              intro pre q y kt' ws' hpre hq hquit hlen' hsub hkt'
              obtain ⟨b1, b2⟩ := applyAll_both hd hq (v := y) pre hpre hA
              cases ha : applyAll r.ns pre q y with
              | error e' =>
                refine ⟨fun e h => ?_, fun r' h => by cases h⟩
                have : e' = e := by injection h
                subst this
                rcases b1 _ ha with h | ⟨h, h2⟩
                · exact .inl h
                · exact .inr (.inl ⟨h, w, List.mem_cons_self, hquit h2⟩)
              | ok ns =>
                obtain ⟨i1, i2⟩ := ih ws' kt' (r.opted ns) hlen' hkt' (b2 _ ha)
                exact ⟨fun e h => (i1 e h).mono hsub fun _ h => h, fun r' h => (i2 r' h).weaken rfl hsub⟩
            cases hop : optionsOf opts o f v with
            | error e' =>
              rw [readWords, hop]
              refine ⟨fun e h => ?_, fun r' h => by cases h⟩
              have : e' = e := by injection h
              subst this
              exact hopts.1 _ hop
            | ok res =>
              obtain ⟨pre, q, x⟩ := res
              obtain ⟨j1, j2⟩ := hopts.2 _ _ _ hop
              have jq := optionsOf_quit hu h1 hop
              rw [readWords, hop]
              cases x with
              | some x => exact apply1 pre q _ kt ws j1 j2 (fun h => jq (h.imp id fun h => absurd h.2 (by simp))) hlen (fun z hz => List.mem_cons_of_mem _ hz) (.inl h2)
              | none =>
                simp only
                by_cases htv : q.action.takesValue = true
                · rw [if_pos htv]
                  cases ws with
                  | nil =>
                    cases h2
                    exact ⟨fun e h => (by cases h; exact .inl rfl), fun r' h => by cases h⟩
                  | cons w' ws' =>
                    have hl' : ws'.length ≤ n := by simp at hlen; omega
                    rcases classifyAll_inv h2 with ⟨_, rfl⟩ | ⟨_, k', kt', h1', h2', rfl⟩
                    · exact ⟨fun e h => (by cases h; exact .inl rfl), fun r' h => by cases h⟩
                    · cases k' with
                      | arg => exact apply1 pre q _ kt' ws' j1 j2 (fun h => jq (h.imp id fun h => absurd h.2 (by simp))) hl' (fun z hz => List.mem_cons_of_mem _ (List.mem_cons_of_mem _ hz)) (.inl h2')
                      | dashes => exact ⟨fun e h => (by cases h; exact .inl rfl), fun r' h => by cases h⟩
                      | unknown => exact ⟨fun e h => (by cases h; exact .inl rfl), fun r' h => by cases h⟩
                      | opt a b c => exact ⟨fun e h => (by cases h; exact .inl rfl), fun r' h => by cases h⟩
                · rw [if_neg htv]
                  exact apply1 pre q _ kt ws j1 j2 (fun h => jq (h.imp id fun h => ⟨h.1, rfl⟩)) hlen (fun z hz => List.mem_cons_of_mem _ hz) (.inl h2)
      · subst hk
        exact anArg _ (.inr rfl)

/-- Defaults do not spoil the namespace. -/
theorem defaults_appendable {opts : List OptSpec} (hd : (opts.map OptSpec.dest).Nodup) {ns : ArgSpace} (hA : Appendable opts ns) :
    Appendable opts (opts.foldl addDefault ns) := by
  intro o ho ha
  obtain ⟨l, hl⟩ := hA o ho ha
  have hg := addDefaults_dget opts ns o.dest
  rw [findSome_dest hd ho] at hg
  cases hx : dget ns o.dest with
  | some x =>
    rw [hx] at hg
    exact ⟨l, by rw [← hl]; apply listSoFar_congr; rw [hg, hx]; rfl⟩
  | none =>
    rw [hx, ha] at hg
    refine ⟨[], ?_⟩
    unfold listSoFar
    rw [hg]
    rfl

theorem readAll_both {opts : List OptSpec} (hu : Usual opts) (hd : (opts.map OptSpec.dest).Nodup) (p : Positionals) {ns : ArgSpace} (hA : Appendable opts ns)
    (ws : List String) : (∀ e, readAll opts p ns ws = .error e → Ends (QuitWord opts) ws e) ∧ (∀ r, readAll opts p ns ws = .ok r → Appendable opts r.ns ∧ ∀ x ∈ r.rest, x ∈ ws) := by
  unfold readAll
  cases hc : classifyAll opts ws with
  | error e' =>
    refine ⟨fun e h => ?_, fun r h => by cases h⟩
    have : e' = e := by injection h
    exact .inl (this ▸ classifyAll_error ws hc)
  | ok ks =>
    obtain ⟨b1, b2⟩ := read_both hu hd p _ ws ks ⟨opts.foldl addDefault ns, [], [], .before, []⟩ (Nat.le_refl _) (.inl hc) (defaults_appendable hd hA)
    show (∀ e, (readWords opts p ks _).bind _ = .error e → _) ∧ (∀ r, (readWords opts p ks _).bind _ = .ok r → _)
    cases hr : readWords opts p ks ⟨opts.foldl addDefault ns, [], [], .before, []⟩ with
    | error e' =>
      refine ⟨fun e h => ?_, fun r h => by cases h⟩
      have : e' = e := by injection h
      exact this ▸ b1 _ hr
    | ok r =>
      show (∀ e, (if r.complete p = true then _ else _) = _ → _) ∧ (∀ r', (if r.complete p = true then _ else _) = _ → _)
      split
      · exact ⟨fun e h => (by cases h), fun r' h => by cases h; exact ⟨(b2 _ hr).1, fun x hx => ((b2 _ hr).2 x hx).resolve_left (by simp)⟩⟩
      · exact ⟨fun e h => (by cases h; exact .inl rfl), fun r' h => by cases h⟩

end Verif
