import Verif.Lemmas.Argv2
/-! # Lemmas about the words of the command line: the top level parser, and keys -/
namespace Verif

/-! ## The top level parser looks at all words -/

theorem all_same_le_one {l : List (String × OptSpec)} {a : String} (hn : (l.map Prod.fst).Nodup) (h : ∀ x ∈ l, x.1 = a) : l.length ≤ 1 := by
  match l, hn, h with
  | [], _, _ => simp
  | [_], _, _ => simp
  | x :: y :: t, hn, h =>
    exfalso
    simp only [List.map_cons, List.nodup_cons, List.mem_cons, not_or] at hn
    apply hn.1.1
    rw [h x (by simp), h y (by simp)]

theorem filter_le_one {l : List (String × OptSpec)} {a : String} (hn : (l.map Prod.fst).Nodup) {p : String × OptSpec → Bool}
    (h : ∀ x ∈ l, p x = true → x.1 = a) : (l.filter p).length ≤ 1 := by
  refine all_same_le_one (a := a) (hn.sublist (List.filter_sublist.map _)) ?_
  intro x hx
  rw [List.mem_filter] at hx
  exact h x hx.1 hx.2

theorem filterMap_le_one {β : Type} {l : List (String × OptSpec)} {a : String} (hn : (l.map Prod.fst).Nodup) {f : String × OptSpec → Option β}
    (h : ∀ x ∈ l, (f x).isSome = true → x.1 = a) : (l.filterMap f).length ≤ 1 := by
  have h1 : (l.filterMap f).length = (l.filter fun x => (f x).isSome).length := by
    rw [List.length_filterMap_eq_countP, List.countP_eq_length_filter]
  rw [h1]
  exact filter_le_one hn h

theorem guessed_ok (w : List Char) {l : List (String × OptSpec × Option (List Char))} (h : l.length ≤ 1) : ∃ k, guessed w l = .ok k := by
  match l, h with
  | [], _ =>
    show ∃ k, (if negativeNumber w then Except.ok WordKind.arg else if w.contains ' ' then .ok .arg else .ok .unknown) = Except.ok k
    split
    · exact ⟨_, rfl⟩
    · split <;> exact ⟨_, rfl⟩
  | [m], _ => exact ⟨_, rfl⟩

/-- A word is refused at once only if it is ambiguous. -/
theorem classify_calm {opts : List OptSpec} {w : String} (h : exactly opts w = none → (matching opts w.toList).length ≤ 1) : ∃ k, classify opts w = .ok k := by
  unfold classify
  split
  · exact ⟨_, rfl⟩
  · cases hx : exactly opts w with
    | some o => exact ⟨_, rfl⟩
    | none =>
      simp only
      split
      · exact ⟨_, rfl⟩
      · split
        · exact ⟨_, rfl⟩
        · exact guessed_ok _ (h hx)

theorem flagTable_append (a b : List OptSpec) : flagTable (a ++ b) = flagTable a ++ flagTable b := by
  unfold flagTable
  rw [List.flatMap_append]

section
variable {extra top : List OptSpec}

theorem Usual.right (h : Usual (extra ++ top)) : Usual top :=
  ⟨fun o ho => h.noEq o (List.mem_append_right _ ho), fun o ho => h.form o (List.mem_append_right _ ho),
    fun o ho => h.nodup o (List.mem_append_right _ ho)⟩

theorem FlagsApart.right (h : FlagsApart (extra ++ top)) : FlagsApart top := (List.pairwise_append.1 h).2.1

/-- The long option strings of the top level parser that begin with an option string of the command: one at most. -/
theorem long_le_one (hu : Usual (extra ++ top)) (hf : FlagsApart (extra ++ top)) (hs : NoShadow top (extra ++ top)) {f : String} {o : OptSpec}
    (h : findOption (extra ++ top) f = .ok o) (hn : f ∉ allFlags top) : ((flagTable top).filter fun g => f.toList.isPrefixOf g.1.toList).length ≤ 1 := by
  rcases findOption_cases h with h1 | ⟨_, g, h2, _, _, h4, _⟩
  · obtain ⟨h2, h3⟩ := exactly_some h1
    refine filter_le_one (a := f) (flagTable_nodup hf.right hu.right.nodup) ?_
    intro x hx hp
    obtain ⟨g, p⟩ := x
    obtain ⟨h4, h5⟩ := mem_flagTable.1 hx
    exact absurd (by simpa using hp) (hs f (List.mem_flatMap.2 ⟨o, h2, h3⟩) hn g (List.mem_flatMap.2 ⟨p, h4, h5⟩))
  · rw [abbreviated_eq h4, flagTable_append, List.filter_append] at h2
    have := congrArg List.length h2
    simp only [List.length_append, List.length_cons, List.length_nil] at this
    omega

/-- What matches a word of one dash in the top level parser: the option string of its first two characters at most. -/
theorem short_le_one (hu : Usual top) (hf : FlagsApart top) {w : List Char} {c : Char} {cs : List Char} (hc : c ≠ '-') (hw : w = '-' :: c :: cs)
    : (matching top w).length ≤ 1 := by
  unfold matching
  have : ¬ ("--".toList.isPrefixOf w = true) := by
    rw [hw]
    simp only [List.isPrefixOf_iff_prefix]
    intro hp
    have : ['-', '-'] <+: '-' :: c :: cs := hp
    simp only [List.cons_prefix_cons] at this
    exact hc this.2.1.symm
  rw [if_neg this]
  refine filterMap_le_one (a := shortFlag c) (flagTable_nodup hf hu.nodup) ?_
  intro x hx hm
  obtain ⟨g, p⟩ := x
  obtain ⟨h1, h2⟩ := mem_flagTable.1 hx
  unfold shortMatch at hm
  by_cases e : g.toList = w.take 2
  · rw [hw] at e
    exact toList_shortFlag e
  · simp only [if_neg e] at hm
    by_cases e' : w.isPrefixOf g.toList = true
    · rw [List.isPrefixOf_iff_prefix, hw] at e'
      cases cs with
      | nil =>
        rcases hu.form p h1 g h2 with ⟨a, r, e2⟩ | ⟨a, _, rfl, _⟩
        · rw [e2] at e'
          simp only [List.cons_prefix_cons] at e'
          exact absurd e'.2.1 hc
        · rw [shortFlag_toList] at e'
          simp only [List.cons_prefix_cons] at e'
          rw [e'.2.1]
      | cons d cs => exact absurd e' (hu.short_only h1 h2 hc)
    · simp [e'] at hm

theorem exactly_of_mem {opts : List OptSpec} {f : String} (h : f ∈ allFlags opts) : ∃ o, exactly opts f = some o := by
  obtain ⟨o, h1, h2⟩ := List.mem_flatMap.1 h
  have : (opts.find? fun o => o.flags.contains f).isSome = true := List.find?_isSome.2 ⟨o, h1, by simpa using h2⟩
  exact Option.isSome_iff_exists.1 this

theorem calm_found (hu : Usual (extra ++ top)) (hf : FlagsApart (extra ++ top)) (hs : NoShadow top (extra ++ top)) {f : String} {o : OptSpec}
    (h : findOption (extra ++ top) f = .ok o) : ∃ k, classify top f = .ok k := by
  obtain ⟨_, hne, c, r, hcr⟩ := hu.found h
  by_cases hn : f ∈ allFlags top
  · obtain ⟨o', ho⟩ := exactly_of_mem hn
    refine ⟨.opt o' f none, ?_⟩
    unfold classify
    rw [if_neg (by rw [hcr]; simp), ho]
  refine classify_calm fun _ => ?_
  by_cases hc : c = '-'
  · unfold matching
    have hcut : cutWord f.toList = (f.toList, none) := by unfold cutWord; rw [cutEq_none hne]
    rw [if_pos (by rw [hcr, hc]; simp), hcut, List.length_map]
    exact long_le_one hu hf hs h hn
  · exact short_le_one hu.right hf.right hc hcr

theorem calm_joined (hu : Usual (extra ++ top)) (hf : FlagsApart (extra ++ top)) (hs : NoShadow top (extra ++ top)) {f : String} {v : List Char} {o : OptSpec}
    (h : findOption (extra ++ top) f = .ok o) : ∃ k, classify top (String.ofList (f.toList ++ '=' :: v)) = .ok k := by
  obtain ⟨_, hne, c, r, hcr⟩ := hu.found h
  by_cases hn : f ∈ allFlags top
  · obtain ⟨o', ho⟩ := exactly_of_mem hn
    have hw : withEq top (f.toList ++ '=' :: v) = some (.opt o' f (some v)) := by
      unfold withEq
      rw [cutEq_append hne]
      simp only [String.ofList_toList, ho, Option.map_some]
    unfold classify
    rw [if_neg (by rw [String.toList_ofList, hcr]; simp), String.toList_ofList, hw]
    split
    · exact ⟨_, rfl⟩
    · split
      · exact ⟨_, rfl⟩
      · exact ⟨_, rfl⟩
  refine classify_calm fun _ => ?_
  rw [String.toList_ofList]
  by_cases hc : c = '-'
  · unfold matching
    have hcut : cutWord (f.toList ++ '=' :: v) = (f.toList, some v) := by unfold cutWord; rw [cutEq_append hne]
    rw [if_pos (by rw [hcr, hc]; simp), hcut, List.length_map]
    exact long_le_one hu hf hs h hn
  · exact short_le_one hu.right hf.right hc (by rw [hcr]; rfl)

/-- The top level parser does not stumble over the options of the command. -/
theorem calm_written (hu : Usual (extra ++ top)) (hf : FlagsApart (extra ++ top)) (hs : NoShadow top (extra ++ top)) {l : List Given} {ws : List String}
    (hw : Written PlainWord l ws) : (∀ g ∈ l, Fitting (extra ++ top) g) → ∀ w ∈ ws, ∃ k, classify top w = .ok k := by
  induction hw with
  | nil => intro _ w hw; simp at hw
  | @alone l ws f hne hw ih =>
    intro hk w hm
    rcases List.mem_cons.1 hm with rfl | hm
    · obtain ⟨o, h, _⟩ := hk _ List.mem_cons_self
      exact calm_found hu hf hs h
    · exact ih (fun g hg => hk g (List.mem_cons_of_mem _ hg)) w hm
  | @apart l ws f v hne hv hw ih =>
    intro hk w hm
    rcases List.mem_cons.1 hm with rfl | hm
    · obtain ⟨o, h, _⟩ := hk _ List.mem_cons_self
      exact calm_found hu hf hs h
    · rcases List.mem_cons.1 hm with rfl | hm
      · exact ⟨_, classify_plain hv⟩
      · exact ih (fun g hg => hk g (List.mem_cons_of_mem _ hg)) w hm
  | @joined l ws f v hw ih =>
    intro hk w hm
    rcases List.mem_cons.1 hm with rfl | hm
    · obtain ⟨o, h, _⟩ := hk _ List.mem_cons_self
      exact calm_joined hu hf hs h
    · exact ih (fun g hg => hk g (List.mem_cons_of_mem _ hg)) w hm
  | @bundle l ws c d cs hd hw ih =>
    intro hk w hm
    rcases List.mem_cons.1 hm with rfl | hm
    · refine classify_calm fun _ => ?_
      rw [String.toList_ofList]
      exact short_le_one hu.right hf.right (fun e => hd (by rw [e]; exact List.mem_cons_self)) rfl
    · exact ih (fun g hg => hk g (List.mem_append_right _ hg)) w hm
  | @bundleEq l ws c d cs hd hw ih =>
    intro hk w hm
    rcases List.mem_cons.1 hm with rfl | hm
    · refine classify_calm fun _ => ?_
      rw [String.toList_ofList]
      exact short_le_one hu.right hf.right (fun e => hd (by rw [e]; exact List.mem_cons_self)) rfl
    · exact ih (fun g hg => hk g (List.mem_append_right _ hg)) w hm
end

theorem classifyAll_fst {opts : List OptSpec} {ws : List String} : ∀ {ks : List (String × WordKind)}, classifyAll opts ws = .ok ks → ks.map Prod.fst = ws := by
  induction ws with
  | nil => intro ks h; cases h; rfl
  | cons w ws ih =>
    intro ks h
    rw [classifyAll] at h
    split at h
    · injection h with h; subst h
      rw [List.map_cons, List.map_map]
      exact congrArg (w :: ·) (List.map_id ws)
    · obtain ⟨k, _, h2⟩ := Except_bind_ok.1 h
      obtain ⟨kt, h3, h4⟩ := Except_bind_ok.1 h2
      cases h4
      simp [ih h3]

/-- No word is ambiguous: all words are classified. -/
theorem classifyAll_calm {opts : List OptSpec} {ws : List String} (h : ∀ w ∈ ws, ∃ k, classify opts w = .ok k) (tail : List String) :
    (∃ kt, classifyAll opts tail = .ok kt) → ∃ ks, classifyAll opts (ws ++ tail) = .ok ks := by
  intro ht
  induction ws with
  | nil => simpa using ht
  | cons w ws ih =>
    obtain ⟨k, hk⟩ := h w List.mem_cons_self
    obtain ⟨ks, hks⟩ := ih (fun v hv => h v (List.mem_cons_of_mem _ hv))
    show ∃ ks, classifyAll opts (w :: (ws ++ tail)) = .ok ks
    by_cases hw : w = "--"
    · rw [classifyAll, if_pos hw]; exact ⟨_, rfl⟩
    · rw [classifyAll_cons hw hk, hks]; exact ⟨_, rfl⟩

/-! ## Keys -/

theorem PlainWord.ne {w : String} (h : PlainWord w) : w ≠ "--" := by rintro rfl; exact h rfl

theorem classifyAll_plain {opts : List OptSpec} {keys : List String} (h : ∀ k ∈ keys, PlainWord k) (tail : List String) :
    classifyAll opts (keys ++ tail) = (classifyAll opts tail).map fun kt => keys.map (fun k => (k, WordKind.arg)) ++ kt := by
  induction keys with
  | nil => show classifyAll opts tail = _; cases classifyAll opts tail <;> rfl
  | cons k keys ih =>
    show classifyAll opts (k :: (keys ++ tail)) = _
    rw [classifyAll_cons (h k List.mem_cons_self).ne (classify_plain (h k List.mem_cons_self)), ih (fun a ha => h a (List.mem_cons_of_mem _ ha))]
    cases classifyAll opts tail <;> rfl

theorem read_args {opts : List OptSpec} {p : Positionals} (hp : p ≠ .command) (keys : List String) (kt : List (String × WordKind)) : ∀ (r : Reading),
    readWords opts p (keys.map (fun k => (k, WordKind.arg)) ++ kt) r = readWords opts p kt (keys.foldl (Reading.word p) r) := by
  induction keys with
  | nil => intro r; rfl
  | cons k keys ih =>
    intro r
    show readWords opts p ((k, .arg) :: (keys.map (fun k => (k, WordKind.arg)) ++ kt)) r = _
    rw [readWords, if_neg hp, ih]
    rfl

theorem words_many (keys : List String) : ∀ (r : Reading), r.phase ≠ .after →
    (keys.foldl (Reading.word .many) r).ns = r.ns ∧ (keys.foldl (Reading.word .many) r).keys = r.keys ++ keys ∧
    (keys.foldl (Reading.word .many) r).extras = r.extras ∧ (keys.foldl (Reading.word .many) r).phase ≠ .after ∧
    (keys ≠ [] → (keys.foldl (Reading.word .many) r).phase = .within) := by
  induction keys with
  | nil => intro r h; simp [h]
  | cons k keys ih =>
    intro r h
    have h1 : (r.word .many k).ns = r.ns ∧ (r.word .many k).keys = r.keys ++ [k] ∧ (r.word .many k).extras = r.extras ∧
        (r.word .many k).phase = .within := by
      unfold Reading.word
      cases hp : r.phase with
      | before => simp
      | within => simp
      | after => exact absurd hp h
    obtain ⟨h2, h3, h4, h5⟩ := h1
    obtain ⟨i1, i2, i3, i4, i5⟩ := ih (r.word .many k) (by rw [h5]; simp)
    show ((keys.foldl (Reading.word .many) (r.word .many k)).ns = _ ∧ _)
    refine ⟨by rw [i1, h2], by rw [List.foldl_cons, i2, h3]; simp, by rw [List.foldl_cons, i3, h4], i4, fun _ => ?_⟩
    rw [List.foldl_cons]
    by_cases hk : keys = []
    · subst hk; exact h5
    · exact i5 hk

theorem words_ns (p : Positionals) (keys : List String) : ∀ (r : Reading), (keys.foldl (Reading.word p) r).ns = r.ns := by
  induction keys with
  | nil => intro r; rfl
  | cons k keys ih =>
    intro r
    rw [List.foldl_cons, ih]
    unfold Reading.word
    split <;> rfl

/-- Words nobody has use for are not forgotten. -/
theorem words_extras (p : Positionals) (keys : List String) : ∀ (r : Reading), r.extras <+: (keys.foldl (Reading.word p) r).extras := by
  induction keys with
  | nil => intro r; exact List.prefix_rfl
  | cons k keys ih =>
    intro r
    rw [List.foldl_cons]
    refine List.IsPrefix.trans ?_ (ih _)
    unfold Reading.word
    split <;> simp

theorem after_extras (r : Reading) (l : List Given) (ns : ArgSpace) : (r.after l ns).extras = r.extras := by
  unfold Reading.after; split <;> rfl

theorem after_keys (r : Reading) (l : List Given) (ns : ArgSpace) : (r.after l ns).keys = r.keys := by
  unfold Reading.after; split <;> rfl

theorem after_ns (r : Reading) (l : List Given) (ns : ArgSpace) (h : l = [] → r.ns = ns) : (r.after l ns).ns = ns := by
  unfold Reading.after; split
  · rename_i e; exact h e
  · rfl

theorem after_before (r : Reading) (l : List Given) (ns : ArgSpace) (h : r.phase = .before) : (r.after l ns).phase = .before := by
  unfold Reading.after; split
  · exact h
  · show r.phase.cut = _; rw [h]; rfl

end Verif
