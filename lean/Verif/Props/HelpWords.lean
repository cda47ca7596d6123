import Verif.Spec.HelpWords
import Verif.Props.Help
/-!
# C126: words of help texts stay words
-/
namespace Verif

theorem textWordsFrom_sep {sp : Char → Bool} {c : Char} (hc : sp c = true) (t : List Char) : ∀ (s cur : List Char),
    textWordsFrom sp cur (s ++ c :: t) = textWordsFrom sp cur s ++ textWordsFrom sp [] t := by
  intro s
  induction s with
  | nil =>
    intro cur
    show textWordsFrom sp cur (c :: t) = _
    by_cases h : cur = [] <;> simp [textWordsFrom, hc, h]
  | cons a s ih =>
    intro cur
    show textWordsFrom sp cur (a :: (s ++ c :: t)) = _
    by_cases ha : sp a = true
    · by_cases h : cur = [] <;> simp [textWordsFrom, ha, h, ih]
    · simp [textWordsFrom, ha, ih]

theorem textWords_white {sp : Char → Bool} : ∀ {w : List Char}, (∀ c ∈ w, sp c = true) → ∀ s, textWords sp (w ++ s) = textWords sp s := by
  intro w
  induction w with
  | nil => intro _ s; rfl
  | cons a w ih =>
    intro h s
    show textWordsFrom sp [] (a :: (w ++ s)) = _
    have := ih (fun c hc => h c (List.mem_cons_of_mem _ hc)) s
    simp only [textWordsFrom, h a (by simp), if_true]
    exact this

theorem textWords_white_end {sp : Char → Bool} {w : List Char} (h : ∀ c ∈ w, sp c = true) (s : List Char) : textWords sp (s ++ w) = textWords sp s := by
  cases w with
  | nil => rw [List.append_nil]
  | cons a w =>
    unfold textWords
    rw [textWordsFrom_sep (h a (by simp))]
    have := textWords_white (sp := sp) (w := w) (fun c hc => h c (List.mem_cons_of_mem _ hc)) []
    rw [List.append_nil] at this
    show _ ++ textWords sp w = _
    rw [this]
    show _ ++ [] = _
    rw [List.append_nil]

theorem textWords_dropWhile (sp : Char → Bool) (s : List Char) : textWords sp (s.dropWhile sp) = textWords sp s := by
  conv => rhs; rw [← List.takeWhile_append_dropWhile (p := sp) (l := s)]
  rw [textWords_white fun c hc => List.all_eq_true.1 List.all_takeWhile c hc]

theorem textWords_dropEnd (sp : Char → Bool) (s : List Char) : textWords sp (s.reverse.dropWhile sp).reverse = textWords sp s := by
  have e : s = (s.reverse.dropWhile sp).reverse ++ (s.reverse.takeWhile sp).reverse := by
    rw [← List.reverse_append, List.takeWhile_append_dropWhile, List.reverse_reverse]
  conv => rhs; rw [e]
  rw [textWords_white_end fun c hc => List.all_eq_true.1 List.all_takeWhile c (List.mem_reverse.1 hc)]

theorem textWords_strip (sp : Char → Bool) (s : List Char) : textWords sp (pyStrip sp s) = textWords sp s := by
  rw [pyStrip, textWords_dropEnd, textWords_dropWhile]

theorem textWords_collapse {sp : Char → Bool} (h : ∀ c, reSpace c = true → sp c = true) (s : List Char) :
    (∀ cur, textWordsFrom sp cur (collapse false s) = textWordsFrom sp cur s) ∧ textWordsFrom sp [] (collapse true s) = textWordsFrom sp [] s := by
  have hb : sp ' ' = true := h _ rfl
  induction s with
  | nil => exact ⟨fun _ => rfl, rfl⟩
  | cons c t ih =>
    constructor
    · intro cur
      by_cases hc : reSpace c = true
      · by_cases hn : cur = [] <;> simp [collapse, hc, textWordsFrom, hb, h c hc, ih.2, hn]
      · by_cases hs : sp c = true
        · by_cases hn : cur = [] <;> simp [collapse, hc, textWordsFrom, hs, ih.1, hn]
        · simp [collapse, hc, textWordsFrom, hs, ih.1]
    · by_cases hc : reSpace c = true
      · simp [collapse, hc, textWordsFrom, h c hc, ih.2]
      · by_cases hs : sp c = true
        · simp [collapse, hc, textWordsFrom, hs, ih.1]
        · simp [collapse, hc, textWordsFrom, hs, ih.1]

theorem Pieces.textWords {n : Nat} {sep : Nat → Prop} {sp : Char → Bool} (hnl : sp '\n' = true) (hpos : ∀ k, sep k → 0 < k) {s : List Char}
    {ps : List (List Char)} (h : Pieces n sep s ps) : ps.flatMap (textWords sp) = textWords sp s := by
  induction h with
  | last _ => simp
  | @more p k t ps _ _ hk _ _ ih =>
    rw [List.flatMap_cons, ih]
    obtain ⟨m, rfl⟩ : ∃ m, k = m + 1 := ⟨k - 1, by have := hpos k hk; omega⟩
    rw [List.replicate_succ]
    show _ = textWordsFrom sp [] (p ++ '\n' :: (List.replicate m '\n' ++ t))
    rw [textWordsFrom_sep hnl]
    show _ = _ ++ Verif.textWords sp (List.replicate m '\n' ++ t)
    rw [textWords_white fun c hc => by rw [List.eq_of_mem_replicate hc]; exact hnl]
    rfl

theorem textWords_intercalate (sp : Char → Bool) (rs : List (List (List Char))) :
    (([[]] : List (List Char)).intercalate rs).flatMap (textWords sp) = rs.flatMap fun r => r.flatMap (textWords sp) := by
  induction rs with
  | nil => rfl
  | cons a t ih =>
    cases t with
    | nil => simp [List.intercalate]
    | cons b t =>
      have e : ([[]] : List (List Char)).intercalate (a :: b :: t) = a ++ [[]] ++ ([[]] : List (List Char)).intercalate (b :: t) := by
        simp [List.intercalate, List.intersperse]
      rw [e, List.flatMap_append, List.flatMap_append, ih]
      simp [textWords, textWordsFrom]

/-- **C126** Words stay words: in a text without raw paragraphs, if `textwrap.wrap` does not break any of its words (it breaks those longer than the
width, and some after a hyphen), the words on the lines shown are those of the text, in order: none is split and no two are run together. -/
theorem C126_words_stay_apart (lib : WrapLib) (hl : ∀ c, reSpace c = true → lib.space c = true) (text : List Char) (width : Int) (indent : List Char)
    (whole : List Char → Prop)
    (hk : ∀ block ls, (∀ w ∈ textWords lib.space block, whole w) → lib.wrap block width indent = .ok ls →
      ls.flatMap (textWords lib.space) = textWords lib.space block)
    (ht : ∀ w ∈ textWords lib.space text, whole w) (out : List (List Char)) (h : wrapParagraphs lib text width indent = .ok out)
    (hraw : ∀ ps, Paragraphs text ps → ∀ p ∈ ps, ∀ rest, ¬ MarkedRaw reSpace p rest) :
    out.flatMap (textWords lib.space) = textWords lib.space text := by
  obtain ⟨ps, rs, h1, -, h2, -, rfl⟩ := C126_layout lib text width indent out h
  have hn := hraw ps h1
  have hnl : lib.space '\n' = true := hl _ rfl
  have e := h1.textWords hnl (fun k hk => by omega)
  rw [textWords_intercalate, ← e]
  rw [← e] at ht
  clear e h1 h hraw
  induction h2 with
  | nil => rfl
  | @cons p r ps rs hpr _ ih =>
    rw [List.flatMap_cons, List.flatMap_cons,
      ih (fun w hw => ht w (by rw [List.flatMap_cons]; exact List.mem_append_right _ hw)) fun p hp => hn p (List.mem_cons_of_mem _ hp)]
    congr 1
    have hp : ∀ w ∈ textWords lib.space p, whole w := fun w hw => ht w (by rw [List.flatMap_cons]; exact List.mem_append_left _ hw)
    rcases hpr with ⟨w, rest, hw', hpe, _⟩ | ⟨_, bs, xs, hbs, rfl, hf⟩
    · exact absurd ⟨w, hw', hpe⟩ (hn p (by simp) rest)
    · have e := hbs.textWords hnl (fun k hk => by omega)
      rw [← e] at hp ⊢
      clear e hbs ih ht hn
      induction hf with
      | nil => rfl
      | @cons b x bs xs hx _ ih =>
        have eb : textWords lib.space (pyStrip lib.space (collapse false b)) = textWords lib.space b := by
          rw [textWords_strip]; exact (textWords_collapse hl b).1 []
        rw [List.flatten_cons, List.flatMap_append, List.flatMap_cons,
          ih fun w hw => hp w (by rw [List.flatMap_cons]; exact List.mem_append_right _ hw), hk _ _ (by
            rw [eb]; exact fun w hw => hp w (by rw [List.flatMap_cons]; exact List.mem_append_left _ hw)) hx, eb]

/-- A `textwrap` for very wide terminals: each block is one line. -/
def exWideWrap : WrapLib where
  space := reSpace
  wrap block _ indent := .ok [indent ++ block]

/-- Non-vacuity for C126: words separated by various whitespace, two blocks and two paragraphs. -/
example (out : List (List Char)) (h : wrapParagraphs exWideWrap "one\t two\n three\n\nfour\n\n\n\nfive".toList 80 [] = .ok out) :
    out.flatMap (textWords reSpace) = ["one".toList, "two".toList, "three".toList, "four".toList, "five".toList] := by
  have hp : Paragraphs "one\t two\n three\n\nfour\n\n\n\nfive".toList ["one\t two\n three\n\nfour".toList, "five".toList] := by
    have := splitParas_pieces "one\t two\n three\n\nfour\n\n\n\nfive".toList
    have e : splitParas "one\t two\n three\n\nfour\n\n\n\nfive".toList = ["one\t two\n three\n\nfour".toList, "five".toList] := by decide +kernel
    rwa [e] at this
  have := C126_words_stay_apart exWideWrap (fun c h => h) _ 80 [] (fun _ => True)
    (fun block ls _ h => by
      have e : ls = [[] ++ block] := by injection h with h; exact h.symm
      subst e; simp [exWideWrap]) (fun _ _ => trivial) out h ?_
  · refine this.trans ?_
    show textWords reSpace _ = _
    decide +kernel
  · intro ps h p hps rest hm
    rw [h.unique hp] at hps
    have hr : rawPara p = none := by
      rcases List.mem_cons.1 hps with rfl | hps
      · decide +kernel
      · rw [List.mem_singleton.1 hps]; decide +kernel
    obtain ⟨w, hw, rfl⟩ := hm
    have := (rawPara_iff (p := w ++ ('R' :: '|' :: rest))).2 ⟨w, rest, hw, rfl, rfl⟩
    rw [hr] at this
    cases this

end Verif
