import Verif.Lemmas.Argv4
/-! # Lemmas about the words of the command line: an accepted command line, taken apart -/
namespace Verif

theorem classifyAll_inv {opts : List OptSpec} {w : String} {ws : List String} {ks : List (String × WordKind)} (h : classifyAll opts (w :: ws) = .ok ks) :
    (w = "--" ∧ ks = (w, .dashes) :: ws.map fun v => (v, .arg)) ∨
    (w ≠ "--" ∧ ∃ k kt, classify opts w = .ok k ∧ classifyAll opts ws = .ok kt ∧ ks = (w, k) :: kt) := by
  rw [classifyAll] at h
  split at h
  · rename_i e; injection h with h; exact .inl ⟨e, h.symm⟩
  · rename_i e
    obtain ⟨k, h1, h2⟩ := Except_bind_ok.1 h
    obtain ⟨kt, h3, h4⟩ := Except_bind_ok.1 h2
    cases h4
    exact .inr ⟨e, k, kt, h1, h3, rfl⟩

theorem fitting_none {opts : List OptSpec} {f : String} {o : OptSpec} (h : findOption opts f = .ok o) (hv : o.action.takesValue = false) : Fitting opts ⟨f, none⟩ := by
  refine ⟨o, h, ?_⟩
  constructor
  · intro e; simp at e
  · intro e; rw [← takesValue_iff, hv] at e; cases e

theorem fitting_some {opts : List OptSpec} {f v : String} {o : OptSpec} (h : findOption opts f = .ok o) (hv : o.action.takesValue = true) :
    Fitting opts ⟨f, some v⟩ := ⟨o, h, ⟨fun _ => (takesValue_iff _).1 hv, fun _ => rfl⟩⟩

/-- A word that is an option is read as one or more options, possibly with the next word as value. -/
theorem opt_step {opts : List OptSpec} (hu : Usual opts) {p : Positionals} {w : String} {ws : List String}
    {ks : List (String × WordKind)} {o : OptSpec} {f : String} {v : Option (List Char)} {r r' : Reading} (hw : w ≠ "--")
    (hc : classify opts w = .ok (.opt o f v)) (hks : classifyAll opts ws = .ok ks) (h : readWords opts p ((w, .opt o f v) :: ks) r = .ok r') :
    ∃ l u ws' ks' ns, w :: ws = u ++ ws' ∧ l ≠ [] ∧ u ≠ [] ∧ (∀ l' ws'', Written ArgWord l' ws'' → Written ArgWord (l ++ l') (u ++ ws'')) ∧
      (∀ g ∈ l, Fitting opts g) ∧ classifyAll opts ws' = .ok ks' ∧ l.foldlM (takeGiven opts) r.ns = .ok ns ∧
      readWords opts p ks' (r.opted ns) = .ok r' := by
  have single : ∀ {g : Given} {o : OptSpec} {x : Option String}, findOption opts g.flag = .ok o → g.value = x →
      [g].foldlM (takeGiven opts) r.ns = (runAction o x r.ns).bind fun ns => .ok ns := by
    intro g o x hg hx
    rw [List.foldlM_cons, takeGiven_found hg, hx]
    rfl
  rcases classify_opt hu hc with ⟨rfl, h1⟩ | ⟨x, g, rfl, hs, rfl, h1⟩ | ⟨x, c, rfl, rfl, hcd, hx, hv, hform⟩
  · cases hv : o.action.takesValue with
    | false =>
      rw [read_switch hv] at h
      obtain ⟨ns, h2, h3⟩ := Except_bind_ok.1 h
      refine ⟨[⟨w, none⟩], [w], ws, ks, ns, rfl, by simp, by simp, fun l' ws'' hw' => .alone w hw hw', ?_, hks, ?_, h3⟩
      · intro g hg
        rw [List.mem_singleton.1 hg]
        exact fitting_none h1 hv
      · rw [single (g := ⟨w, none⟩) h1 rfl, h2]; rfl
    | true =>
      match ws, ks, hks with
      | [], ks, hks =>
        cases hks
        rw [readWords] at h
        simp only [optionsOf, hv, if_true] at h
        cases h
      | x :: ws, ks, hks =>
        have noArg : ∀ {kt : List (String × WordKind)} {kk : WordKind}, kk ≠ .arg → readWords opts p ((w, .opt o f none) :: (x, kk) :: kt) r ≠ .ok r' := by
          intro kt kk hne hh
          rw [readWords] at hh
          simp only [optionsOf, hv, if_true] at hh
          cases kk with
          | arg => exact hne rfl
          | dashes => cases hh
          | unknown => cases hh
          | opt _ _ _ => cases hh
        rcases classifyAll_inv hks with ⟨_, rfl⟩ | ⟨hxd, kk, kt, hkk, hkt, rfl⟩
        · exact absurd h (noArg (by simp))
        · cases kk with
          | dashes => exact absurd h (noArg (by simp))
          | unknown => exact absurd h (noArg (by simp))
          | opt _ _ _ => exact absurd h (noArg (by simp))
          | arg =>
            rw [read_value hv] at h
            obtain ⟨ns, h2, h3⟩ := Except_bind_ok.1 h
            refine ⟨[⟨w, some x⟩], [w, x], ws, kt, ns, rfl, by simp, by simp, fun l' ws'' hw' => .apart w x hw (classify_arg hkk) hw', ?_, hkt, ?_, h3⟩
            · intro g hg
              rw [List.mem_singleton.1 hg]
              exact fitting_some h1 hv
            · rw [single (g := ⟨w, some x⟩) h1 rfl, h2]; rfl
  · cases hv : o.action.takesValue with
    | false =>
      exfalso
      rw [readWords] at h
      have : optionsOf opts o f (some x) = .error (.systemExit 2) := by
        unfold optionsOf
        cases x <;> simp [unbundle, hv, hs]
      simp only [this] at h
      cases h
    | true =>
      rw [read_attached hv] at h
      obtain ⟨ns, h2, h3⟩ := Except_bind_ok.1 h
      refine ⟨[⟨g, some (String.ofList x)⟩], [String.ofList (g.toList ++ '=' :: x)], ws, ks, ns, rfl, by simp, by simp, fun l' ws'' hw' => ?_, ?_, hks, ?_, h3⟩
      · have := Written.joined (value := ArgWord) g (String.ofList x) hw'
        rw [String.toList_ofList] at this
        exact this
      · intro a ha
        rw [List.mem_singleton.1 ha]
        exact fitting_some h1 hv
      · rw [single (g := ⟨g, some (String.ofList x)⟩) h1 rfl, h2]; rfl
  · have hshort : isShort (shortFlag c) = true := by
      unfold isShort
      rw [shortFlag_toList]
      simpa using hcd
    have hub : ∃ res, unbundle opts o true x = .ok res := by
      rw [readWords] at h
      have h0 : optionsOf opts o (shortFlag c) (some x) = unbundle opts o true x := by unfold optionsOf; rw [hshort]
      cases hb : unbundle opts o true x with
      | ok res => exact ⟨res, rfl⟩
      | error e =>
        rw [hb] at h0
        simp only [h0] at h
        cases h
    obtain ⟨res, hub⟩ := hub
    obtain ⟨hne, hnd, hall⟩ := unbundle_ok hu x hv hub
    obtain ⟨d, cs, rfl⟩ := List.exists_cons_of_ne_nil hne
    rw [read_bundle hshort hv hall] at h
    obtain ⟨ns, h2, h3⟩ := Except_bind_ok.1 h
    have hno : '-' ∉ c :: d :: cs := by
      intro hm
      rcases List.mem_cons.1 hm with e | hm
      · exact hcd e.symm
      · exact hnd hm
    have hfit : ∀ g ∈ (c :: d :: cs).map switchGiven, Fitting opts g := by
      intro g hg
      obtain ⟨a, ha, rfl⟩ := List.mem_map.1 hg
      rcases List.mem_cons.1 ha with rfl | ha
      · exact fitting_none (by rw [findOption_eq, hx]) hv
      · obtain ⟨o', i1, i2⟩ := hall a ha
        exact fitting_none (by rw [findOption_eq, i1]) i2
    have hfold : ((c :: d :: cs).map switchGiven).foldlM (takeGiven opts) r.ns = .ok ns := by
      rw [List.map_cons, List.foldlM_cons, takeGiven_found (g := switchGiven c) (o := o)]
      · exact h2
      · show findOption opts (shortFlag c) = _
        rw [findOption_eq, hx]
    rcases hform with rfl | rfl
    · exact ⟨(c :: d :: cs).map switchGiven, [String.ofList ('-' :: c :: d :: cs)], ws, ks, ns, rfl, by simp, by simp,
        fun l' ws'' hw' => .bundle c d cs hno hw', hfit, hks, hfold, h3⟩
    · exact ⟨(c :: d :: cs).map switchGiven, [String.ofList ('-' :: c :: '=' :: d :: cs)], ws, ks, ns, rfl, by simp, by simp,
        fun l' ws'' hw' => .bundleEq c d cs hno hw', hfit, hks, hfold, h3⟩

/-! ## Words left over stay left over -/

theorem word_extras (p : Positionals) (r : Reading) (w : String) : r.extras <+: (r.word p w).extras := words_extras p [w] r

theorem separator_extras (p : Positionals) (r : Reading) : r.extras <+: (r.separator p).extras := by
  unfold Reading.separator
  split <;> simp

theorem read_extras {opts : List OptSpec} (hu : Usual opts) {p : Positionals} (hp : p ≠ .command) : ∀ (n : Nat) (ws : List String) (ks : List (String × WordKind)) (r r' : Reading),
    ws.length ≤ n → classifyAll opts ws = .ok ks → readWords opts p ks r = .ok r' → r.extras <+: r'.extras := by
  intro n
  induction n with
  | zero =>
    intro ws ks r r' hn hc h
    have : ws = [] := List.eq_nil_of_length_eq_zero (by omega)
    subst this
    cases hc
    cases h
    exact List.prefix_rfl
  | succ n ih =>
    intro ws ks r r' hn hc h
    cases ws with
    | nil => cases hc; cases h; exact List.prefix_rfl
    | cons w ws =>
      simp only [List.length_cons] at hn
      rcases classifyAll_inv hc with ⟨rfl, rfl⟩ | ⟨hw, k, kt, hk, hkt, rfl⟩
      · rw [readWords, if_neg hp] at h
        have := read_args (opts := opts) hp ws [] (r.separator p)
        rw [List.append_nil] at this
        rw [this] at h
        cases h
        exact (separator_extras p r).trans (words_extras p ws _)
      · cases k with
        | unknown =>
          rw [readWords] at h
          exact List.IsPrefix.trans (List.prefix_append _ _) (ih ws kt (r.extra w) r' (by omega) hkt h)
        | dashes =>
          rw [readWords, if_neg hp] at h
          exact (separator_extras p r).trans (ih ws kt _ r' (by omega) hkt h)
        | arg =>
          rw [readWords, if_neg hp] at h
          exact (word_extras p r w).trans (ih ws kt _ r' (by omega) hkt h)
        | opt o f v =>
          obtain ⟨l, u, ws', ks', ns, e1, _, e3, _, _, e6, _, e8⟩ := opt_step hu hw hk hkt h
          have hl : ws'.length ≤ n := by
            have := congrArg List.length e1
            simp only [List.length_cons, List.length_append] at this
            have h2 : 0 < u.length := List.length_pos_iff.2 e3
            omega
          exact ih ws' ks' (r.opted ns) r' hl e6 e8

theorem no_extras {opts : List OptSpec} (hu : Usual opts) {p : Positionals} (hp : p ≠ .command) {ws : List String} {ks : List (String × WordKind)} {r r' : Reading}
    (hc : classifyAll opts ws = .ok ks) (h : readWords opts p ks r = .ok r') (he : r'.extras = []) : r.extras = [] := by
  have := read_extras hu hp ws.length ws ks r r' (Nat.le_refl _) hc h
  rw [he] at this
  exact List.prefix_nil.1 this

/-! ## Taking a command line apart -/

/-- Only `--` itself is a separator. -/
theorem classify_not_dashes {opts : List OptSpec} {w : String} (hk : classify opts w = .ok .dashes) : False := by
  unfold classify at hk
  split at hk
  · cases hk
  · cases hx : exactly opts w with
    | some o => rw [hx] at hk; cases hk
    | none =>
      rw [hx] at hk
      simp only at hk
      split at hk
      · cases hk
      · split at hk
        · rename_i q hq
          unfold withEq at hq
          split at hq
          · cases hq
          · rw [Option.map_eq_some_iff] at hq
            obtain ⟨o, _, rfl⟩ := hq
            cases hk
        · generalize matching opts w.toList = m at hk
          match m, hk with
          | [], hk =>
            change (if negativeNumber w.toList then Except.ok WordKind.arg else if w.toList.contains ' ' then .ok .arg else .ok .unknown) = Except.ok WordKind.dashes at hk
            split at hk
            · cases hk
            · split at hk <;> cases hk
          | [_], hk => cases hk
          | _ :: _ :: _, hk => cases hk


/-- Behind the keys there are only options. -/
theorem read_after {opts : List OptSpec} (hu : Usual opts) {p : Positionals} (hp : p ≠ .command) : ∀ (n : Nat) (ws : List String) (ks : List (String × WordKind)) (r r' : Reading),
    ws.length ≤ n → classifyAll opts ws = .ok ks → readWords opts p ks r = .ok r' → r.phase = .after → r'.extras = [] →
    ∃ l, Written ArgWord l ws ∧ (∀ g ∈ l, Fitting opts g) ∧ l.foldlM (takeGiven opts) r.ns = .ok r'.ns ∧ r'.keys = r.keys := by
  intro n
  induction n with
  | zero =>
    intro ws ks r r' hn hc h _ _
    have : ws = [] := List.eq_nil_of_length_eq_zero (by omega)
    subst this
    cases hc
    cases h
    exact ⟨[], .nil, by simp, rfl, rfl⟩
  | succ n ih =>
    intro ws ks r r' hn hc h hph he
    cases ws with
    | nil => cases hc; cases h; exact ⟨[], .nil, by simp, rfl, rfl⟩
    | cons w ws =>
      simp only [List.length_cons] at hn
      have hsepx : (r.separator p).extras ≠ [] := by
        unfold Reading.separator; rw [hph]; cases p <;> simp
      rcases classifyAll_inv hc with ⟨rfl, rfl⟩ | ⟨hw, k, kt, hk, hkt, rfl⟩
      · exfalso
        rw [readWords, if_neg hp] at h
        have := read_args (opts := opts) hp ws [] (r.separator p)
        rw [List.append_nil] at this
        rw [this] at h
        cases h
        have h2 := words_extras p ws (r.separator p)
        rw [he] at h2
        exact hsepx (List.prefix_nil.1 h2)
      · cases k with
        | unknown =>
          exfalso
          rw [readWords] at h
          have := no_extras hu hp hkt h he
          simp [Reading.extra] at this
        | dashes =>
          exfalso
          rw [readWords, if_neg hp] at h
          exact hsepx (no_extras hu hp hkt h he)
        | arg =>
          exfalso
          rw [readWords, if_neg hp] at h
          have := no_extras hu hp hkt h he
          revert this
          unfold Reading.word
          rw [hph]
          cases p <;> simp
        | opt o f v =>
          obtain ⟨l, u, ws', ks', ns, e1, _, e3, e4, e5, e6, e7, e8⟩ := opt_step hu hw hk hkt h
          have hl : ws'.length ≤ n := by
            have := congrArg List.length e1
            simp only [List.length_cons, List.length_append] at this
            have h2 : 0 < u.length := List.length_pos_iff.2 e3
            omega
          obtain ⟨l', i1, i2, i3, i4⟩ := ih ws' ks' (r.opted ns) r' hl e6 e8 (by show r.phase.cut = _; rw [hph]; rfl) he
          refine ⟨l ++ l', ?_, ?_, ?_, i4⟩
          · rw [e1]; exact e4 _ _ i1
          · intro g hg
            rcases List.mem_append.1 hg with hg | hg
            · exact e5 g hg
            · exact i2 g hg
          · rw [List.foldlM_append, e7]; exact i3

/-- Among the keys: further keys, then options. -/
theorem read_within {opts : List OptSpec} (hu : Usual opts) {p : Positionals} (hp : p = .many ∨ p = .one) : ∀ (ws : List String) (ks : List (String × WordKind)) (r r' : Reading),
    classifyAll opts ws = .ok ks → readWords opts p ks r = .ok r' → r.phase = .within → r'.extras = [] →
    ∃ keys kw l w2, ws = kw ++ w2 ∧ KeyWords keys kw w2 ∧ Written ArgWord l w2 ∧ (∀ g ∈ l, Fitting opts g) ∧
      l.foldlM (takeGiven opts) r.ns = .ok r'.ns ∧ r'.keys = r.keys ++ keys ∧ (p = .one → keys = []) := by
  have hpc : p ≠ .command := by rcases hp with h | h <;> rw [h] <;> simp
  intro ws
  induction ws with
  | nil =>
    intro ks r r' hc h hph he
    cases hc; cases h
    exact ⟨[], [], [], [], rfl, .inl ⟨rfl, by simp⟩, .nil, by simp, rfl, by simp, fun _ => rfl⟩
  | cons w ws ih =>
    intro ks r r' hc h hph he
    rcases classifyAll_inv hc with ⟨rfl, rfl⟩ | ⟨hw, k, kt, hk, hkt, rfl⟩
    · rw [readWords, if_neg hpc] at h
      have := read_args (opts := opts) hpc ws [] (r.separator p)
      rw [List.append_nil] at this
      rw [this] at h
      have hsep : r.separator p = r := by
        unfold Reading.separator
        rw [hph]
        rcases hp with h | h <;> rw [h]
      rw [hsep] at h
      injection h with h
      subst h
      refine ⟨ws, "--" :: ws, [], [], by simp, .inr ⟨rfl, [], ws, rfl, rfl, by simp⟩, .nil, by simp, ?_, ?_, ?_⟩
      · rw [words_ns]; rfl
      · rcases hp with rfl | rfl
        · exact (words_many ws r (by rw [hph]; simp)).2.1
        · cases ws with
          | nil => simp
          | cons a t =>
            exfalso
            have h2 := words_extras .one t (r.word .one a)
            rw [← List.foldl_cons, he] at h2
            have h3 := List.prefix_nil.1 h2
            simp [Reading.word, hph] at h3
      · rintro rfl
        cases ws with
        | nil => rfl
        | cons a t =>
          exfalso
          have h2 := words_extras .one t (r.word .one a)
          rw [← List.foldl_cons, he] at h2
          have h3 := List.prefix_nil.1 h2
          simp [Reading.word, hph] at h3
    · cases k with
      | unknown =>
        exfalso
        rw [readWords] at h
        have := no_extras hu hpc hkt h he
        simp [Reading.extra] at this
      | dashes =>
        exfalso
        exact classify_not_dashes hk
      | arg =>
        rw [readWords, if_neg hpc] at h
        rcases hp with rfl | rfl
        · have hword : r.word .many w = { r with keys := r.keys ++ [w] } := by unfold Reading.word; rw [hph]
          rw [hword] at h
          obtain ⟨keys, kw, l, w2, i1, i2, i3, i4, i5, i6, _⟩ := ih kt _ r' hkt h hph he
          refine ⟨w :: keys, w :: kw, l, w2, by rw [i1]; rfl, ?_, i3, i4, i5, by rw [i6]; simp, by simp⟩
          rcases i2 with ⟨j1, j2⟩ | ⟨j0, k1, k2, j1, j2, j3⟩
          · refine .inl ⟨by rw [j1], ?_⟩
            intro a ha
            rcases List.mem_cons.1 ha with rfl | ha
            · exact classify_arg hk
            · exact j2 a ha
          · refine .inr ⟨j0, w :: k1, k2, by rw [j1]; rfl, by rw [j2]; rfl, ?_⟩
            intro a ha
            rcases List.mem_cons.1 ha with rfl | ha
            · exact classify_arg hk
            · exact j3 a ha
        · exfalso
          have := no_extras hu hpc hkt h he
          simp [Reading.word, hph] at this
      | opt o f v =>
        obtain ⟨l, u, ws', ks', ns, e1, _, e3, e4, e5, e6, e7, e8⟩ := opt_step hu hw hk hkt h
        obtain ⟨l', i1, i2, i3, i4⟩ := read_after hu hpc _ ws' ks' (r.opted ns) r' (Nat.le_refl _) e6 e8 (by show r.phase.cut = _; rw [hph]; rfl) he
        refine ⟨[], [], l ++ l', w :: ws, rfl, .inl ⟨rfl, by simp⟩, ?_, ?_, ?_, by rw [i4]; simp [Reading.opted], fun _ => rfl⟩
        · rw [e1]; exact e4 _ _ i1
        · intro g hg
          rcases List.mem_append.1 hg with hg | hg
          · exact e5 g hg
          · exact i2 g hg
        · rw [List.foldlM_append, e7]; exact i3

/-- What the parser of a command accepts: options, keys, options. -/
theorem read_before {opts : List OptSpec} (hu : Usual opts) {p : Positionals} (hp : p ≠ .command) : ∀ (n : Nat) (ws : List String) (ks : List (String × WordKind)) (r r' : Reading),
    ws.length ≤ n → classifyAll opts ws = .ok ks → readWords opts p ks r = .ok r' → r.phase = .before → r.keys = [] → r'.extras = [] → r'.complete p = true →
    ∃ l1 w1 keys kw l2 w2, ws = w1 ++ (kw ++ w2) ∧ Written ArgWord l1 w1 ∧ Written ArgWord l2 w2 ∧ KeyWords keys kw w2 ∧
      (∀ g ∈ l1, Fitting opts g) ∧ (∀ g ∈ l2, Fitting opts g) ∧ (l1 ++ l2).foldlM (takeGiven opts) r.ns = .ok r'.ns ∧ r'.keys = keys ∧ p.admits keys := by
  have empty : ∀ (r : Reading), r.keys = [] → r.complete p = true → p.admits [] := by
    intro r hk hcmp
    cases p with
    | command => exact absurd rfl hp
    | none => rfl
    | one => simp [Reading.complete, hk] at hcmp
    | many => simp [Reading.complete, hk] at hcmp
  intro n
  induction n with
  | zero =>
    intro ws ks r r' hn hc h _ hk he hcmp
    have : ws = [] := List.eq_nil_of_length_eq_zero (by omega)
    subst this
    cases hc
    cases h
    exact ⟨[], [], [], [], [], [], rfl, .nil, .nil, .inl ⟨rfl, by simp⟩, by simp, by simp, rfl, hk, empty r hk hcmp⟩
  | succ n ih =>
    intro ws ks r r' hn hc h hph hkeys he hcmp
    cases ws with
    | nil =>
      cases hc; cases h
      exact ⟨[], [], [], [], [], [], rfl, .nil, .nil, .inl ⟨rfl, by simp⟩, by simp, by simp, rfl, hkeys, empty r hkeys hcmp⟩
    | cons w ws =>
      simp only [List.length_cons] at hn
      rcases classifyAll_inv hc with ⟨rfl, rfl⟩ | ⟨hw, k, kt, hk, hkt, rfl⟩
      · rw [readWords, if_neg hp] at h
        have := read_args (opts := opts) hp ws [] (r.separator p)
        rw [List.append_nil] at this
        rw [this] at h
        injection h with h
        have hmo : p = .many ∨ p = .one := by
          cases p with
          | command => exact absurd rfl hp
          | many => exact .inl rfl
          | one => exact .inr rfl
          | none =>
            exfalso
            have h2 := words_extras .none ws (r.separator .none)
            rw [h, he] at h2
            have h3 := List.prefix_nil.1 h2
            simp [Reading.separator] at h3
        have hsep : r.separator p = r := by
          unfold Reading.separator
          rw [hph]
          rcases hmo with h | h <;> rw [h]
        rw [hsep] at h
        subst h
        have hres : (ws.foldl (Reading.word p) r).keys = ws ∧ p.admits ws := by
          rcases hmo with rfl | rfl
          · have h4 := (words_many ws r (by rw [hph]; simp)).2.1
            rw [hkeys, List.nil_append] at h4
            refine ⟨h4, ?_⟩
            intro e
            subst e
            simp [Reading.complete, hkeys] at hcmp
          · match ws, hcmp, he with
            | [], hcmp, _ => simp [Reading.complete, hkeys] at hcmp
            | [a], _, _ => exact ⟨by simp [Reading.word, hph, hkeys], a, rfl⟩
            | a :: b :: t, _, he =>
              exfalso
              have h2 := words_extras .one t ((r.word .one a).word .one b)
              rw [← List.foldl_cons, ← List.foldl_cons, he] at h2
              have h3 := List.prefix_nil.1 h2
              simp [Reading.word, hph] at h3
        refine ⟨[], [], ws, "--" :: ws, [], [], by simp, .nil, .nil, .inr ⟨rfl, [], ws, rfl, rfl, by simp⟩, by simp, by simp, ?_, hres.1, hres.2⟩
        rw [words_ns]; rfl
      · cases k with
        | unknown =>
          exfalso
          rw [readWords] at h
          have := no_extras hu hp hkt h he
          simp [Reading.extra] at this
        | dashes => exact (classify_not_dashes hk).elim
        | arg =>
          rw [readWords, if_neg hp] at h
          have hmo : p = .many ∨ p = .one := by
            cases p with
            | command => exact absurd rfl hp
            | many => exact .inl rfl
            | one => exact .inr rfl
            | none =>
              exfalso
              have h3 := no_extras hu hp hkt h he
              simp [Reading.word] at h3
          have hword : (r.word p w).ns = r.ns ∧ (r.word p w).keys = [w] ∧ (r.word p w).phase = .within := by
            rcases hmo with rfl | rfl <;> simp [Reading.word, hph, hkeys]
          obtain ⟨keys, kw, l, w2, i1, i2, i3, i4, i5, i6, i7⟩ := read_within hu hmo ws kt _ r' hkt h hword.2.2 he
          rw [hword.1] at i5
          rw [hword.2.1] at i6
          refine ⟨[], [], w :: keys, w :: kw, l, w2, by rw [i1]; rfl, .nil, i3, ?_, by simp, i4, i5, by rw [i6]; rfl, ?_⟩
          · rcases i2 with ⟨j1, j2⟩ | ⟨j0, k1, k2, j1, j2, j3⟩
            · refine .inl ⟨by rw [j1], ?_⟩
              intro a ha
              rcases List.mem_cons.1 ha with rfl | ha
              · exact classify_arg hk
              · exact j2 a ha
            · refine .inr ⟨j0, w :: k1, k2, by rw [j1]; rfl, by rw [j2]; rfl, ?_⟩
              intro a ha
              rcases List.mem_cons.1 ha with rfl | ha
              · exact classify_arg hk
              · exact j3 a ha
          · rcases hmo with rfl | rfl
            · exact List.cons_ne_nil _ _
            · exact ⟨w, by rw [i7 rfl]⟩
        | opt o f v =>
          obtain ⟨l, u, ws', ks', ns, e1, _, e3, e4, e5, e6, e7, e8⟩ := opt_step hu hw hk hkt h
          have hl : ws'.length ≤ n := by
            have := congrArg List.length e1
            simp only [List.length_cons, List.length_append] at this
            have h2 : 0 < u.length := List.length_pos_iff.2 e3
            omega
          obtain ⟨l1, w1, keys, kw, l2, w2, i1, i2, i3, i4, i5, i6, i7, i8, i9⟩ :=
            ih ws' ks' (r.opted ns) r' hl e6 e8 (by show r.phase.cut = _; rw [hph]; rfl) hkeys he hcmp
          refine ⟨l ++ l1, u ++ w1, keys, kw, l2, w2, by rw [e1, i1]; simp, e4 _ _ i2, i3, i4, ?_, i6, ?_, i8, i9⟩
          · intro g hg
            rcases List.mem_append.1 hg with hg | hg
            · exact e5 g hg
            · exact i5 g hg
          · rw [List.append_assoc, List.foldlM_append, e7]; exact i7

/-- What the top level parser accepts: options, then the command with all words behind it. -/
theorem read_top {opts : List OptSpec} (hu : Usual opts) : ∀ (n : Nat) (ws : List String) (ks : List (String × WordKind)) (r r' : Reading),
    ws.length ≤ n → classifyAll opts ws = .ok ks → readWords opts .command ks r = .ok r' → r.rest = [] → r'.extras = [] → r'.complete .command = true →
    r.extras = [] ∧ ∃ l wb c rest, ws = wb ++ c :: rest ∧ r'.rest = c :: rest ∧ Written ArgWord l wb ∧ (∀ g ∈ l, Fitting opts g) ∧
      l.foldlM (takeGiven opts) r.ns = .ok r'.ns := by
  intro n
  induction n with
  | zero =>
    intro ws ks r r' hn hc h hr he hcmp
    have : ws = [] := List.eq_nil_of_length_eq_zero (by omega)
    subst this
    cases hc
    cases h
    simp [Reading.complete, hr] at hcmp
  | succ n ih =>
    intro ws ks r r' hn hc h hr he hcmp
    cases ws with
    | nil =>
      cases hc; cases h
      simp [Reading.complete, hr] at hcmp
    | cons w ws =>
      simp only [List.length_cons] at hn
      rcases classifyAll_inv hc with ⟨rfl, rfl⟩ | ⟨hw, k, kt, hk, hkt, rfl⟩
      · rw [readWords, if_pos rfl] at h; cases h
      · cases k with
        | unknown =>
          exfalso
          rw [readWords] at h
          have := (ih ws kt (r.extra w) r' (by omega) hkt h hr he hcmp).1
          simp [Reading.extra] at this
        | dashes => exact (classify_not_dashes hk).elim
        | arg =>
          rw [readWords, if_pos rfl] at h
          injection h with h
          subst h
          refine ⟨he, [], [], w, ws, rfl, ?_, .nil, by simp, rfl⟩
          show w :: kt.map Prod.fst = w :: ws
          rw [classifyAll_fst hkt]
        | opt o f v =>
          obtain ⟨l, u, ws', ks', ns, e1, _, e3, e4, e5, e6, e7, e8⟩ := opt_step hu hw hk hkt h
          have hl : ws'.length ≤ n := by
            have := congrArg List.length e1
            simp only [List.length_cons, List.length_append] at this
            have h2 : 0 < u.length := List.length_pos_iff.2 e3
            omega
          obtain ⟨i0, l', wb, c, rest, i1, i2, i3, i4, i5⟩ := ih ws' ks' (r.opted ns) r' hl e6 e8 hr he hcmp
          refine ⟨i0, l ++ l', u ++ wb, c, rest, by rw [e1, i1]; simp, i2, e4 _ _ i3, ?_, ?_⟩
          · intro g hg
            rcases List.mem_append.1 hg with hg | hg
            · exact e5 g hg
            · exact i4 g hg
          · rw [List.foldlM_append, e7]; exact i5

end Verif
