import Verif.Spec.Argv
import Verif.Lemmas.CommandLine
import Verif.Props.CommandLine
/-! # Lemmas about the words of the command line -/
namespace Verif

/-! ## Cutting words at `=` -/

theorem cutEq_none {l : List Char} (h : '=' ∉ l) : cutEq l = none := by
  induction l with
  | nil => rfl
  | cons c t ih =>
    have h1 : c ≠ '=' := fun e => h (by rw [e]; exact List.mem_cons_self)
    have h2 : '=' ∉ t := fun e => h (List.mem_cons_of_mem _ e)
    simp [cutEq, h1, ih h2]

theorem cutEq_append {l t : List Char} (h : '=' ∉ l) : cutEq (l ++ '=' :: t) = some (l, t) := by
  induction l with
  | nil => simp [cutEq]
  | cons c l ih =>
    have h1 : c ≠ '=' := fun e => h (by rw [e]; exact List.mem_cons_self)
    have h2 : '=' ∉ l := fun e => h (List.mem_cons_of_mem _ e)
    simp [cutEq, h1, ih h2]

theorem cutEq_some {l : List Char} {a b : List Char} (h : cutEq l = some (a, b)) : l = a ++ '=' :: b ∧ '=' ∉ a := by
  induction l generalizing a b with
  | nil => simp [cutEq] at h
  | cons c t ih =>
    by_cases hc : c = '='
    · simp [cutEq, hc] at h; simp [hc, h.1, h.2]
    · simp only [cutEq, if_neg hc, Option.map_eq_some_iff, Prod.mk.injEq] at h
      obtain ⟨⟨x, y⟩, hx, rfl, rfl⟩ := h
      obtain ⟨h1, h2⟩ := ih hx
      refine ⟨by simpa using h1, ?_⟩
      simp only [List.mem_cons, not_or]
      exact ⟨fun e => hc e.symm, h2⟩

theorem cutEq_none_iff {l : List Char} : cutEq l = none ↔ '=' ∉ l := by
  refine ⟨fun h hm => ?_, cutEq_none⟩
  obtain ⟨a, b, rfl, hn⟩ : ∃ a b, l = a ++ '=' :: b ∧ '=' ∉ a := by
    obtain ⟨a, b, h1, h2⟩ := List.eq_append_cons_of_mem hm
    exact ⟨a, b, h1, h2⟩
  rw [cutEq_append hn] at h
  cases h

/-! ## Finding options -/

theorem findOption_eq (opts : List OptSpec) (f : String) : findOption opts f =
    match exactly opts f with
    | some o => .ok o
    | none =>
      match abbreviated opts f with
      | [(_, o)] => .ok o
      | _ => .error (.systemExit 2) := rfl

theorem exactly_some {opts : List OptSpec} {f : String} {o : OptSpec} (h : exactly opts f = some o) : o ∈ opts ∧ f ∈ o.flags :=
  ⟨List.mem_of_find?_eq_some h, by simpa using List.find?_some h⟩

theorem exactly_none {opts : List OptSpec} {f : String} : exactly opts f = none ↔ ∀ o ∈ opts, f ∉ o.flags := by
  unfold exactly
  rw [List.find?_eq_none]
  simp

/-- What `findOption` finds: an option with that very option string, or the only one it abbreviates. -/
theorem findOption_cases {opts : List OptSpec} {f : String} {o : OptSpec} (h : findOption opts f = .ok o) :
    exactly opts f = some o ∨ (exactly opts f = none ∧ ∃ g, abbreviated opts f = [(g, o)] ∧ g ∈ o.flags ∧ o ∈ opts ∧ ['-', '-'] <+: f.toList ∧ f.toList <+: g.toList) := by
  rw [findOption_eq] at h
  cases hx : exactly opts f with
  | some p => rw [hx] at h; injection h with h; exact .inl (by rw [h])
  | none =>
    rw [hx] at h
    refine .inr ⟨rfl, ?_⟩
    cases ha : abbreviated opts f with
    | nil => rw [ha] at h; simp at h
    | cons g t =>
      cases t with
      | cons a b => rw [ha] at h; simp at h
      | nil =>
        obtain ⟨g, p⟩ := g
        rw [ha] at h
        injection h with h
        subst h
        have hm : (g, p) ∈ abbreviated opts f := by rw [ha]; exact List.mem_cons_self
        unfold abbreviated at hm
        split at hm
        · rename_i hp
          rw [List.mem_filter] at hm
          obtain ⟨h1, h2⟩ := mem_flagTable.1 hm.1
          refine ⟨g, rfl, h2, h1, ?_, ?_⟩
          · simpa using hp
          · simpa using hm.2
        · simp at hm

theorem Usual.flag_dash {opts : List OptSpec} (h : Usual opts) {o : OptSpec} (ho : o ∈ opts) {f : String} (hf : f ∈ o.flags) :
    ∃ c r, f.toList = '-' :: c :: r := by
  rcases h.form o ho f hf with ⟨c, r, e⟩ | ⟨c, _, rfl, _⟩
  · exact ⟨'-', c :: r, e⟩
  · exact ⟨c, [], by simp [shortFlag]⟩

/-- The option string of an option found begins with a dash and has no `=`. -/
theorem Usual.found {opts : List OptSpec} (h : Usual opts) {f : String} {o : OptSpec} (hf : findOption opts f = .ok o) :
    o ∈ opts ∧ '=' ∉ f.toList ∧ ∃ c r, f.toList = '-' :: c :: r := by
  rcases findOption_cases hf with h1 | ⟨_, g, _, h2, h3, h4, h5⟩
  · obtain ⟨h2, h3⟩ := exactly_some h1
    exact ⟨h2, h.noEq o h2 f h3, h.flag_dash h2 h3⟩
  · refine ⟨h3, fun e => h.noEq o h3 g h2 (h5.subset e), ?_⟩
    obtain ⟨t, ht⟩ := h4
    exact ⟨'-', t, by rw [← ht]; rfl⟩

theorem abbreviated_eq {opts : List OptSpec} {f : String} (h : ['-', '-'] <+: f.toList) :
    abbreviated opts f = (flagTable opts).filter fun g => f.toList.isPrefixOf g.1.toList := by
  unfold abbreviated
  rw [if_pos]
  simpa using h

/-! ## What a word is -/

theorem classify_plain {opts : List OptSpec} {w : String} (h : PlainWord w) : classify opts w = .ok .arg := by
  unfold classify
  rw [if_pos (show w.toList.head? ≠ some '-' from h)]

/-- The word is read as the option, with that value attached. -/
theorem classify_found {opts : List OptSpec} (hu : Usual opts) {f : String} {o : OptSpec} (hf : findOption opts f = .ok o) :
    ∃ g, classify opts f = .ok (.opt o g none) := by
  obtain ⟨_, hne, c, r, hcr⟩ := hu.found hf
  have hd : ¬ (f.toList.head? ≠ some '-') := by rw [hcr]; simp
  unfold classify
  rw [if_neg hd]
  rcases findOption_cases hf with h1 | ⟨h1, g, h2, _, _, h4, _⟩
  · rw [h1]; exact ⟨f, rfl⟩
  · rw [h1]
    have h5 : ¬ (f.toList = ['-']) := by rw [hcr]; simp
    have h6 : withEq opts f.toList = none := by unfold withEq; rw [cutEq_none hne]
    have h7 : cutWord f.toList = (f.toList, none) := by unfold cutWord; rw [cutEq_none hne]
    have h8 : matching opts f.toList = [(g, o, none)] := by
      unfold matching
      rw [if_pos (by simpa using h4), h7]
      rw [abbreviated_eq h4] at h2
      simp only [h2, List.map_cons, List.map_nil]
    simp only [if_neg h5, h6, h8]
    exact ⟨g, rfl⟩

theorem classify_joined {opts : List OptSpec} (hu : Usual opts) {f v : String} {o : OptSpec} (hf : findOption opts f = .ok o)
    {w : String} (hw : w.toList = f.toList ++ '=' :: v.toList) : ∃ g, classify opts w = .ok (.opt o g (some v.toList)) := by
  obtain ⟨_, hne, c, r, hcr⟩ := hu.found hf
  have hd : ¬ (w.toList.head? ≠ some '-') := by rw [hw, hcr]; simp
  have hx : exactly opts w = none := by
    rw [exactly_none]
    intro p hp hm
    exact hu.noEq p hp w hm (by rw [hw]; simp)
  have h5 : ¬ (w.toList = ['-']) := by rw [hw, hcr]; simp
  have hcut : cutEq w.toList = some (f.toList, v.toList) := by rw [hw]; exact cutEq_append hne
  unfold classify
  rw [if_neg hd, hx]
  simp only [if_neg h5]
  rcases findOption_cases hf with h1 | ⟨h1, g, h2, _, _, h4, _⟩
  · have h6 : withEq opts w.toList = some (.opt o f (some v.toList)) := by
      unfold withEq; rw [hcut]; simp [h1]
    rw [h6]; exact ⟨f, rfl⟩
  · have h6 : withEq opts w.toList = none := by
      unfold withEq; rw [hcut]; simp [h1]
    have h7 : cutWord w.toList = (f.toList, some v.toList) := by unfold cutWord; rw [hcut]
    have h8 : matching opts w.toList = [(g, o, some v.toList)] := by
      have hp : ['-', '-'] <+: w.toList := by rw [hw]; exact h4.trans (List.prefix_append _ _)
      unfold matching
      rw [if_pos (by simpa using hp), h7]
      rw [abbreviated_eq h4] at h2
      simp only [h2, List.map_cons, List.map_nil]
    rw [h6, h8]
    exact ⟨g, rfl⟩

/-- A filtered list in which at most one element passes. -/
theorem filterMap_single {α β : Type} {f : α → Option β} {l : List α} (hn : l.Nodup) {a : α} {b : β} (ha : a ∈ l) (hb : f a = some b)
    (h : ∀ x ∈ l, x ≠ a → f x = none) : l.filterMap f = [b] := by
  induction l with
  | nil => simp at ha
  | cons x t ih =>
    rw [List.nodup_cons] at hn
    rcases List.mem_cons.1 ha with e | ha'
    · subst e
      rw [List.filterMap_cons, hb]
      have : t.filterMap f = [] := by
        rw [List.filterMap_eq_nil_iff]
        intro y hy
        exact h y (List.mem_cons_of_mem _ hy) (fun e => hn.1 (e ▸ hy))
      simp [this]
    · have hx : f x = none := h x List.mem_cons_self (fun e => hn.1 (e ▸ ha'))
      rw [List.filterMap_cons, hx]
      exact ih hn.2 ha' (fun y hy => h y (List.mem_cons_of_mem _ hy))

theorem shortFlag_toList (c : Char) : (shortFlag c).toList = ['-', c] := by simp [shortFlag]

theorem toList_shortFlag {f : String} {c : Char} (h : f.toList = ['-', c]) : f = shortFlag c := by
  apply String.toList_inj.1; rw [h, shortFlag_toList]

/-- A word with one dash does not begin a usual option string that is longer. -/
theorem Usual.short_only {opts : List OptSpec} (hu : Usual opts) {o : OptSpec} (ho : o ∈ opts) {g : String} (hg : g ∈ o.flags) {c d : Char} (hc : c ≠ '-')
    {cs : List Char} : ¬ ('-' :: c :: d :: cs) <+: g.toList := by
  intro hp
  rcases hu.form o ho g hg with ⟨a, r, e⟩ | ⟨a, _, rfl, _⟩
  · rw [e] at hp
    simp only [List.cons_prefix_cons] at hp
    exact hc hp.2.1
  · rw [shortFlag_toList] at hp
    have := hp.length_le
    simp at this

theorem classify_bundle {opts : List OptSpec} (hu : Usual opts) (hf : FlagsApart opts) {c d : Char} {cs : List Char} {o : OptSpec}
    (hd : d ≠ '=') (hx : exactly opts (shortFlag c) = some o) {w : String} (hw : w.toList = '-' :: c :: d :: cs) :
    classify opts w = .ok (.opt o (shortFlag c) (some (d :: cs))) := by
  obtain ⟨ho, hm⟩ := exactly_some hx
  have hc : c ≠ '-' := by
    rcases hu.form o ho _ hm with ⟨a, r, e⟩ | ⟨a, h1, h2, _⟩
    · rw [shortFlag_toList] at e; simp at e
    · have : c = a := by have := congrArg String.toList h2; simpa [shortFlag_toList] using this
      rw [this]; exact h1
  have hex : exactly opts w = none := by
    rw [exactly_none]
    intro p hp hm
    exact hu.short_only hp hm hc (by rw [hw]; exact List.prefix_rfl)
  have heq : withEq opts w.toList = none := by
    unfold withEq
    cases hcut : cutEq w.toList with
    | none => rfl
    | some r =>
      obtain ⟨a, b⟩ := r
      obtain ⟨h1, h2⟩ := cutEq_some hcut
      simp only [Option.map_eq_none_iff]
      rw [exactly_none]
      intro p hp hm
      rw [hw] at h1
      obtain ⟨x, y, e⟩ := hu.flag_dash hp hm
      have ha : a = '-' :: x :: y := by simpa using e
      rw [ha] at h1
      simp only [List.cons_append, List.cons.injEq, true_and] at h1
      obtain ⟨rfl, h3⟩ := h1
      cases y with
      | nil => simp at h3; exact hd h3.1
      | cons z y =>
        simp only [List.cons_append, List.cons.injEq] at h3
        obtain ⟨rfl, h4⟩ := h3
        exact hu.short_only hp hm hc (by rw [e]; exact List.prefix_rfl)
  have hmatch : matching opts w.toList = [(shortFlag c, o, some (d :: cs))] := by
    unfold matching
    have : ¬ ("--".toList.isPrefixOf w.toList = true) := by
      rw [hw]
      simp only [List.isPrefixOf_iff_prefix]
      intro hp
      have : ['-', '-'] <+: '-' :: c :: d :: cs := hp
      simp only [List.cons_prefix_cons] at this
      exact hc this.2.1.symm
    rw [if_neg this]
    refine filterMap_single (flagTable_nodup hf hu.nodup).of_map (a := (shortFlag c, o)) (mem_flagTable.2 ⟨ho, hm⟩) ?_ ?_
    · unfold shortMatch
      rw [if_pos (by rw [shortFlag_toList, hw]; rfl), hw]
      rfl
    · intro x hx hne
      obtain ⟨g, p⟩ := x
      obtain ⟨hp, hg⟩ := mem_flagTable.1 hx
      unfold shortMatch
      rw [if_neg, if_neg]
      · rw [hw]; simp only [List.isPrefixOf_iff_prefix]; exact hu.short_only hp hg hc
      · intro e
        rw [hw] at e
        have e' : g = shortFlag c := toList_shortFlag e
        subst e'
        exact hne (by rw [apart_unique hf hp ho hg hm])
  unfold classify
  rw [if_neg (by rw [hw]; simp), hex]
  simp only [if_neg (show ¬ (w.toList = ['-']) by rw [hw]; simp), heq, hmatch]
  rfl

theorem classify_bundleEq {opts : List OptSpec} (hu : Usual opts) {c d : Char} {cs : List Char} {o : OptSpec}
    (hx : exactly opts (shortFlag c) = some o) {w : String} (hw : w.toList = '-' :: c :: '=' :: d :: cs) :
    classify opts w = .ok (.opt o (shortFlag c) (some (d :: cs))) := by
  obtain ⟨ho, hm⟩ := exactly_some hx
  have hc : c ≠ '=' := fun e => hu.noEq o ho _ hm (by rw [shortFlag_toList, e]; simp)
  have hex : exactly opts w = none := by
    rw [exactly_none]
    intro p hp hm
    exact hu.noEq p hp w hm (by rw [hw]; simp)
  have hcut : cutEq w.toList = some (['-', c], d :: cs) := by
    rw [hw]
    exact cutEq_append (l := ['-', c]) (by simpa using fun e => hc e.symm)
  have heq : withEq opts w.toList = some (.opt o (shortFlag c) (some (d :: cs))) := by
    unfold withEq
    rw [hcut]
    show (exactly opts (shortFlag c)).map _ = _
    rw [hx]; rfl
  unfold classify
  rw [if_neg (by rw [hw]; simp), hex]
  simp only [if_neg (show ¬ (w.toList = ['-']) by rw [hw]; simp), heq]

end Verif
