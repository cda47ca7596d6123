import Verif.Spec.Text
import Verif.Lemmas.Text
/-! # Properties C57, C63: coloured messages and rendered exceptions -/
namespace Verif

/-! ## C57 -/

theorem substGo_step (a : AnsiTable) (n : Nat) {c : Char} (t : List Char) (h : c ≠ '@') :
    substGo a (n + 1) (c :: t) = (substGo a n t).map (c :: ·) := by
  simp only [substGo, if_neg h, bind, Except.bind, pure, Except.pure]
  cases substGo a n t <;> rfl

/-- With the ansi table of `enable_ANSI_colors` a mark shows as itself. -/
theorem showGo_on (m : List Char) :
    showGo (markTexts "@!".toList "@/".toList "@_".toList "@|".toList) false m = doubleBraces m := by
  have hT : ∀ x r, markTexts "@!".toList "@/".toList "@_".toList "@|".toList x = some r →
      r = ['@', x] ∧ x ≠ '{' ∧ x ≠ '}' := by
    intro x r h
    unfold markTexts at h
    repeat (split at h; · (rename_i hx; subst hx; simp at h; subst h; decide))
    simp at h
  generalize hn : m.length = n
  induction n using Nat.strongRecOn generalizing m with
  | ind n ih =>
    cases m with
    | nil => rfl
    | cons c t =>
      have iht : ∀ t' : List Char, t'.length < n →
          showGo (markTexts "@!".toList "@/".toList "@_".toList "@|".toList) false t' = doubleBraces t' :=
        fun t' h => ih _ h t' rfl
      simp only [List.length_cons] at hn
      by_cases hc : c = '@'
      · subst hc
        simp only [showGo, if_true]
        cases hd : t.head?.bind (markTexts "@!".toList "@/".toList "@_".toList "@|".toList) with
        | none => simp only; rw [iht t (by omega)]; rfl
        | some r =>
          cases t with
          | nil => simp at hd
          | cons x t =>
            obtain ⟨rfl, h1, h2⟩ := hT x r (by simpa using hd)
            simp only [List.length_cons] at hn
            simp only [showGo, iht t (by omega)]
            simp [doubleBraces, h1, h2]
      · simp only [showGo, if_neg hc, doubleBraces, iht t (by omega)]

/-- With the ansi table of `disable_ANSI_colors` a mark vanishes. -/
theorem showGo_off (b : Bool) (m : List Char) :
    showGo (markTexts [] [] [] []) b m = doubleBraces (stripMarkup b m) := by
  have hT : ∀ x, markTexts [] [] [] [] x = if isMark x then some [] else none := by
    intro x
    unfold markTexts isMark
    by_cases h1 : x = '|' <;> by_cases h2 : x = '_' <;> by_cases h3 : x = '/' <;> by_cases h4 : x = '!' <;> simp_all
  induction m generalizing b with
  | nil => cases b <;> rfl
  | cons c t ih =>
    cases b with
    | true => simpa [showGo, stripMarkup] using ih false
    | false =>
      by_cases hc : c = '@'
      · subst hc
        cases t with
        | nil => rfl
        | cons d t =>
          by_cases hd : isMark d = true
          · have := ih true
            simp_all [showGo, stripMarkup]
          · have := ih false
            have e1 : showGo (markTexts [] [] [] []) false ('@' :: d :: t) = '@' :: showGo (markTexts [] [] [] []) false (d :: t) := by
              rw [showGo]; simp [hT, hd]
            have e2 : stripMarkup false ('@' :: d :: t) = '@' :: stripMarkup false (d :: t) := by
              rw [stripMarkup]; simp [hd]
            rw [e1, e2, this]; simp [doubleBraces]
      · have := ih false
        have e2 : stripMarkup false (c :: t) = c :: stripMarkup false t := by simp [stripMarkup, hc]
        rw [e2]
        simp only [showGo, if_neg hc, doubleBraces, this]

/-- **C57 (what holds)** With colours on, formatting a sanitised message shows the message with every brace doubled, then the reset
code, whatever the message. -/
theorem C57_sanitized_shown (m : List Char) :
    fmt ansiOn (sanitize m) = .ok (doubleBraces m ++ "\x1b[0m".toList) := by
  rw [fmt_sanitized (a := ansiOn) (t1 := "@!".toList) (t2 := "@/".toList) (t3 := "@_".toList) (t4 := "@|".toList)
    (reset := "\x1b[0m".toList) rfl rfl rfl rfl rfl, showGo_on m]

theorem doubleBraces_eq_self {m : List Char} : doubleBraces m = m ↔ '{' ∉ m ∧ '}' ∉ m := by
  have hlen : ∀ m : List Char, m.length ≤ (doubleBraces m).length := by
    intro m
    induction m with
    | nil => simp
    | cons c t ih => unfold doubleBraces; split <;> simp <;> omega
  induction m with
  | nil => simp [doubleBraces]
  | cons c t ih =>
    unfold doubleBraces
    split
    · rename_i h
      constructor
      · intro he
        have := congrArg List.length he
        have := hlen t
        simp at *; omega
      · rintro ⟨h1, h2⟩; rcases h with rfl | rfl <;> simp_all
    · rename_i h
      simp only [not_or] at h
      constructor
      · intro he; simp only [List.cons.injEq, true_and] at he
        have := ih.1 he
        simp [this, Ne.symm h.1, Ne.symm h.2]
      · rintro ⟨h1, h2⟩; simp only [List.mem_cons, not_or] at h1 h2
        rw [ih.2 ⟨h1.2, h2.2⟩]

/-- **C57 (partial)** With colours on, formatting a sanitised message reproduces the message followed by the reset code exactly if the
message has no brace. Missing for the full claim: braces come out doubled (so it is false for them), and colours off. -/
theorem C57_sanitized_reproduced_partial (m : List Char) :
    fmt ansiOn (sanitize m) = .ok (m ++ "\x1b[0m".toList) ↔ '{' ∉ m ∧ '}' ∉ m := by
  rw [C57_sanitized_shown, Except.ok.injEq, List.append_cancel_right_eq, doubleBraces_eq_self]

/-- **C57 refuted with `--no-color`** With colours off, the pairs `@!`, `@/`, `@_`, `@|` of the message disappear (and braces are doubled). -/
theorem C57_no_color_drops_marks (m : List Char) :
    fmt ansiOff (sanitize m) = .ok (doubleBraces (stripMarkup false m)) := by
  rw [fmt_sanitized (a := ansiOff) (t1 := []) (t2 := []) (t3 := []) (t4 := [])
    (reset := []) rfl rfl rfl rfl rfl, showGo_off, List.append_nil]

/-- A text without `@` shows as itself. -/
theorem substGo_plain (a : AnsiTable) (s r : List Char) (hs : '@' ∉ s) (n : Nat) (hn : s.length ≤ n) :
    substGo a n (s ++ r) = (substGo a (n - s.length) r).map (s ++ ·) := by
  induction s generalizing n with
  | nil => simp; cases substGo a n r <;> rfl
  | cons c t ih =>
    simp only [List.mem_cons, not_or] at hs
    cases n with
    | zero => simp at hn
    | succ n =>
      rw [List.cons_append, substGo_step _ _ _ (Ne.symm hs.1), ih hs.2 n (by simp at hn; omega)]
      simp only [List.length_cons, Nat.add_sub_add_right]
      cases substGo a (n - t.length) r <;> rfl

theorem pyReplace_at_free (x : Char) (rep s r : List Char) (hs : '@' ∉ s) :
    pyReplace (s ++ r) ['@', x] rep = s ++ pyReplace r ['@', x] rep := by
  induction s with
  | nil => rfl
  | cons d t ih =>
    simp only [List.mem_cons, not_or] at hs
    rw [List.cons_append, pyReplace_step rep (by simp [List.prefix_cons_iff]; exact fun h => absurd h hs.1), ih hs.2]; rfl

theorem idStart_eq (c : Char) : idStart c = true ↔ c.isAlpha = true ∨ c = '_' := by
  unfold idStart Char.isAlpha Char.isUpper Char.isLower
  simp only [Bool.or_eq_true, Bool.and_eq_true, beq_iff_eq, decide_eq_true_eq, Char.le_def, UInt32.le_iff_toNat_le]
  simp only [show ('a').val.toNat = 97 from rfl, show ('z').val.toNat = 122 from rfl, show ('A').val.toNat = 65 from rfl, show ('Z').val.toNat = 90 from rfl,
    ge_iff_le, UInt32.le_iff_toNat_le]
  simp
  tauto

theorem idChar_eq (c : Char) : idChar c = true ↔ MarkupChar c := by
  unfold idChar MarkupChar Char.isAlphanum Char.isDigit
  rw [Bool.or_eq_true, idStart_eq, Bool.or_eq_true]
  simp only [Bool.and_eq_true, decide_eq_true_eq, Char.le_def, ge_iff_le, UInt32.le_iff_toNat_le]
  simp
  tauto

theorem idChar_false {c : Char} (h : ¬ MarkupChar c) : idChar c = false := by
  cases hc : idChar c with
  | false => rfl
  | true => exact absurd ((idChar_eq c).1 hc) h

/-- **C57** A placeholder `@name` in a text without other `@` stands for the entry of the table with that name (the longest possible name; names begin
with a letter and go on with letters, digits and underscores); without such an entry formatting raises KeyError, so text must be sanitised. -/
theorem C57_placeholder (a : AnsiTable) (pre name post reset : List Char) (hpre : '@' ∉ pre) (hname : ∃ c, name.head? = some c ∧ c.isAlpha = true)
    (hall : ∀ c ∈ name, MarkupChar c) (hpost : ∀ c, post.head? = some c → ¬ MarkupChar c) (hpost' : '@' ∉ post) (hr : a "reset".toList = some reset) :
    fmt a (pre ++ '@' :: name ++ post) = match a name with
      | some v => .ok (pre ++ v ++ post ++ reset)
      | none => .error .keyError := by
  obtain ⟨c, hc, hal⟩ := hname
  have hs := (idStart_eq c).2 (.inl hal)
  have hcu : c ≠ '_' := by rintro rfl; revert hal; decide
  replace hall : ∀ c ∈ name, idChar c = true := fun c h => (idChar_eq c).2 (hall c h)
  replace hpost : ∀ c, post.head? = some c → idChar c = false := fun c h => idChar_false (hpost c h)
  cases name with
  | nil => simp at hc
  | cons c' w =>
    simp only [List.head?_cons, Option.some.injEq] at hc; subst hc
    have hid : ∀ d, idChar d = true → d ≠ '@' ∧ d ≠ '!' ∧ d ≠ '/' ∧ d ≠ '|' := by
      intro d hd
      refine ⟨?_, ?_, ?_, ?_⟩ <;> (rintro rfl; revert hd; decide)
    have hwat : '@' ∉ w ++ post := by
      rw [List.mem_append, not_or]
      exact ⟨fun h => (hid _ (hall _ (List.mem_cons_of_mem _ h))).1 rfl, hpost'⟩
    have hfree : ∀ (x : Char) (rep s : List Char), '@' ∉ s → pyReplace s ['@', x] rep = s := by
      intro x rep s hs
      induction s with
      | nil => rfl
      | cons d t ih =>
        simp only [List.mem_cons, not_or] at hs
        rw [pyReplace_step rep (by simp [List.prefix_cons_iff]; exact fun h => absurd h hs.1), ih hs.2]
    have hrep : ∀ (x : Char) (rep : List Char), x ≠ c' →
        pyReplace (pre ++ '@' :: (c' :: w ++ post)) ['@', x] rep = pre ++ '@' :: (c' :: w ++ post) := by
      intro x rep hx
      have hc'at : c' ≠ '@' := (hid c' (hall c' (by simp))).1
      induction pre with
      | nil =>
        simp only [List.nil_append]
        rw [pyReplace_step rep (by simp [List.prefix_cons_iff]; exact hx),
          hfree _ _ _ (by simpa [Ne.symm hc'at] using hwat)]
      | cons d t ih =>
        simp only [List.mem_cons, not_or] at hpre
        rw [List.cons_append, pyReplace_step rep (by simp [List.prefix_cons_iff]; exact fun h => absurd h hpre.1), ih hpre.2]
    have hf : fmtReplace (pre ++ '@' :: (c' :: w) ++ post) = pre ++ '@' :: (c' :: w ++ post) := by
      have hc' := hid c' (hall c' (by simp))
      unfold fmtReplace
      simp only [show "@!".toList = ['@', '!'] from rfl, show "@/".toList = ['@', '/'] from rfl,
        show "@_".toList = ['@', '_'] from rfl, show "@|".toList = ['@', '|'] from rfl, List.append_assoc, List.cons_append]
      simp only [List.append_assoc, List.cons_append] at hrep
      rw [hrep _ _ (Ne.symm hc'.2.1), hrep _ _ (Ne.symm hc'.2.2.1), hrep _ _ (Ne.symm hcu), hrep _ _ (Ne.symm hc'.2.2.2)]
    unfold fmt subst
    rw [hf]
    have hgo : ∀ n, (w ++ post).length < n → substGo a n ('@' :: (c' :: w ++ post)) = match a (c' :: w) with
        | some v => .ok (v ++ post)
        | none => .error .keyError := by
      intro n hn
      cases n with
      | zero => simp at hn
      | succ n =>
        have hw : ∀ d ∈ w, idChar d = true := fun d h => hall d (List.mem_cons_of_mem _ h)
        have t1 : (w ++ post).takeWhile idChar = w := by
          rw [List.takeWhile_append_of_pos hw]
          cases post with
          | nil => simp
          | cons d t => simp [hpost d rfl]
        have t2 : (w ++ post).dropWhile idChar = post := by
          rw [List.dropWhile_append_of_pos hw]
          cases post with
          | nil => simp
          | cons d t => simp [hpost d rfl]
        have t3 : substGo a n post = .ok post := by
          have := substGo_plain a post [] hpost' n (by simp at hn; omega)
          rw [List.append_nil] at this
          rw [this]
          cases hk : n - post.length <;> simp [substGo, Except.map]
        simp only [substGo, if_true, List.cons_append, if_neg (hid c' (hall c' (by simp))).1, hs, t1, t2, t3, ansiGet, bind, Except.bind]
        cases a (c' :: w) <;> rfl
    rw [substGo_plain a pre _ hpre _ (by simp), hgo _ (by simp; omega)]
    have hreset : ansiGet a "reset".toList = .ok reset := by unfold ansiGet; rw [hr]
    cases a (c' :: w) with
    | none => rfl
    | some v => simp only [Except.map, bind, Except.bind, hreset, pure, Except.pure, List.append_assoc]

theorem replace_braced (x : Char) (rep pre r : List Char) (hpre : '@' ∉ pre) (hr : '@' ∉ r) (hx : ∀ c, r.head? = some c → x ≠ c) :
    pyReplace (pre ++ '@' :: r) ['@', x] rep = pre ++ '@' :: r := by
  rw [pyReplace_at_free _ _ _ _ hpre]
  congr 1
  rw [pyReplace_step rep]
  · have := pyReplace_at_free x rep r [] hr
    rw [List.append_nil] at this
    rw [this]
    simp [pyReplace, replaceGo]
  · cases r with
    | nil => simp [List.prefix_cons_iff]
    | cons c t => simp [List.prefix_cons_iff]; exact hx c rfl

theorem fmtReplace_one (pre r : List Char) (hpre : '@' ∉ pre) (hr : '@' ∉ r)
    (hx : ∀ c, r.head? = some c → c ≠ '!' ∧ c ≠ '/' ∧ c ≠ '_' ∧ c ≠ '|') : fmtReplace (pre ++ '@' :: r) = pre ++ '@' :: r := by
  unfold fmtReplace
  simp only [show "@!".toList = ['@', '!'] from rfl, show "@/".toList = ['@', '/'] from rfl,
    show "@_".toList = ['@', '_'] from rfl, show "@|".toList = ['@', '|'] from rfl]
  rw [replace_braced _ _ _ _ hpre hr fun c h => (hx c h).1.symm, replace_braced _ _ _ _ hpre hr fun c h => (hx c h).2.1.symm,
    replace_braced _ _ _ _ hpre hr fun c h => (hx c h).2.2.1.symm, replace_braced _ _ _ _ hpre hr fun c h => (hx c h).2.2.2.symm]

/-- **C57** A placeholder `@{name}` in a text without other `@` stands for the entry of the table with that name, whatever follows; without such an
entry formatting raises KeyError. -/
theorem C57_braced_placeholder (a : AnsiTable) (pre name post reset : List Char) (hpre : '@' ∉ pre)
    (hname : ∃ c, name.head? = some c ∧ (c.isAlpha = true ∨ c = '_')) (hall : ∀ c ∈ name, MarkupChar c) (hpost : '@' ∉ post)
    (hr : a "reset".toList = some reset) :
    fmt a (pre ++ '@' :: '{' :: name ++ '}' :: post) = match a name with
      | some v => .ok (pre ++ v ++ post ++ reset)
      | none => .error .keyError := by
  obtain ⟨c, hc, hal⟩ := hname
  cases name with
  | nil => cases hc
  | cons c' w =>
    injection hc with hc
    subst hc
    have hs := (idStart_eq c').2 hal
    have hall' : ∀ d ∈ c' :: w, idChar d = true := fun d h => (idChar_eq d).2 (hall d h)
    have hat : '@' ∉ '{' :: (c' :: w ++ '}' :: post) := by
      have hno : '@' ∉ c' :: w := fun h => by have := hall' _ h; revert this; decide
      intro h
      rcases List.mem_cons.1 h with h | h
      · exact absurd h (by decide)
      · rcases List.mem_append.1 h with h | h
        · exact hno h
        · rcases List.mem_cons.1 h with h | h
          · exact absurd h (by decide)
          · exact hpost h
    have hf : fmtReplace (pre ++ '@' :: '{' :: (c' :: w) ++ '}' :: post) = pre ++ '@' :: '{' :: (c' :: w ++ '}' :: post) := by
      rw [show pre ++ '@' :: '{' :: (c' :: w) ++ '}' :: post = pre ++ '@' :: ('{' :: (c' :: w ++ '}' :: post)) by simp]
      apply fmtReplace_one _ _ hpre hat
      intro d hd
      injection hd with hd
      subst hd
      decide
    unfold fmt subst
    rw [hf]
    have hw : ∀ d ∈ w, idChar d = true := fun d h => hall' d (List.mem_cons_of_mem _ h)
    have hb : idChar '}' = false := by decide
    have hgo : ∀ n, post.length < n → substGo a n ('@' :: '{' :: (c' :: w ++ '}' :: post)) = match a (c' :: w) with
        | some v => .ok (v ++ post)
        | none => .error .keyError := by
      intro n hn
      cases n with
      | zero => simp at hn
      | succ n =>
        have t1 : (w ++ '}' :: post).takeWhile idChar = w := by
          rw [List.takeWhile_append_of_pos hw]; simp [hb]
        have t2 : (w ++ '}' :: post).dropWhile idChar = '}' :: post := by
          rw [List.dropWhile_append_of_pos hw]; simp [hb]
        have t3 : substGo a n post = .ok post := by
          have := substGo_plain a post [] hpost n (by omega)
          rw [List.append_nil] at this
          rw [this]
          cases hk : n - post.length <;> simp [substGo, Except.map]
        have n1 : ¬ ('{' : Char) = '@' := by decide
        have n2 : idStart '{' = false := by decide
        simp only [substGo, if_true, List.cons_append, if_neg n1, n2, hs, t1, t2, t3, ansiGet, bind, Except.bind, Bool.false_eq_true, if_false]
        cases a (c' :: w) <;> rfl
    rw [substGo_plain a pre _ hpre _ (by simp), hgo _ (by simp; omega)]
    have hreset : ansiGet a "reset".toList = .ok reset := by unfold ansiGet; rw [hr]
    cases a (c' :: w) with
    | none => rfl
    | some v => simp only [Except.map, bind, Except.bind, hreset, pure, Except.pure, List.append_assoc]

/-- **C57** An `@` that begins none of the forms of markup (at the end of the text, or before any other character) cannot be formatted: ValueError. -/
theorem C57_malformed (a : AnsiTable) (pre post : List Char) (hpre : '@' ∉ pre) (hpost : '@' ∉ post)
    (hc : ∀ c, post.head? = some c → ¬ MarkupChar c ∧ c ≠ '{' ∧ c ≠ '!' ∧ c ≠ '/' ∧ c ≠ '|') :
    fmt a (pre ++ '@' :: post) = .error .valueError := by
  have hf : fmtReplace (pre ++ '@' :: post) = pre ++ '@' :: post := by
    apply fmtReplace_one _ _ hpre hpost
    intro c h
    obtain ⟨h1, h2, h3, h4, h5⟩ := hc c h
    exact ⟨h3, h4, fun e => h1 (.inr e), h5⟩
  unfold fmt subst
  rw [hf, substGo_plain a pre _ hpre _ (by simp)]
  have hgo : ∀ n, 0 < n → substGo a n ('@' :: post) = .error .valueError := by
    intro n hn
    cases n with
    | zero => omega
    | succ n =>
      cases post with
      | nil => simp [substGo]
      | cons c t =>
        obtain ⟨h1, h2, -⟩ := hc c rfl
        have n1 : ¬ c = '@' := by rintro rfl; exact hpost (by simp)
        have n2 : idStart c = false := by
          cases hs : idStart c with
          | false => rfl
          | true =>
            exfalso; apply h1
            rcases (idStart_eq c).1 hs with h | h
            · left; unfold Char.isAlphanum; rw [h]; rfl
            · exact .inr h
        simp only [substGo, if_true, if_neg n1, n2, if_neg h2, Bool.false_eq_true, if_false]
  rw [hgo _ (by simp)]
  rfl

/-- **C57** A markup message around text without `@` (sanitised or not) is always formatted: bold text shows between the bold and the
reset codes. This is the form of the `executing command` line of an installation. -/
theorem C57_bold_text (a : AnsiTable) (bold reset s : List Char) (hs : '@' ∉ s) (hb : a "boldon".toList = some bold)
    (hr : a "reset".toList = some reset) :
    fmt a ("@!".toList ++ s ++ "@|".toList) = .ok (bold ++ s ++ reset ++ reset) := by
  have e : fmtReplace ("@!".toList ++ s ++ "@|".toList) = "@{boldon}".toList ++ (s ++ "@{reset}".toList) := by
    unfold fmtReplace
    simp only [show "@!".toList = ['@', '!'] from rfl, show "@/".toList = ['@', '/'] from rfl,
      show "@_".toList = ['@', '_'] from rfl, show "@|".toList = ['@', '|'] from rfl, List.append_assoc]
    rw [pyReplace_match (by simp)]
    have hat : '@' ∉ "{boldon}".toList ++ s := by
      rw [List.mem_append, not_or]; exact ⟨by decide, hs⟩
    rw [pyReplace_at_free _ _ _ _ hs]
    rw [show pyReplace ['@', '|'] ['@', '!'] "@{boldon}".toList = ['@', '|'] from rfl]
    have stp : ∀ (x : Char) (rep r : List Char), x ≠ '{' →
        pyReplace ("@{boldon}".toList ++ (s ++ r)) ['@', x] rep = "@{boldon}".toList ++ (s ++ pyReplace r ['@', x] rep) := by
      intro x rep r hx
      have : "@{boldon}".toList ++ (s ++ r) = '@' :: (("{boldon}".toList ++ s) ++ r) := by simp
      rw [this, pyReplace_step rep (by
        rw [show "{boldon}".toList = '{' :: "boldon}".toList from rfl]
        simp [List.prefix_cons_iff]; exact hx), pyReplace_at_free _ _ _ _ hat]
      simp
    rw [stp _ _ _ (by decide), show pyReplace ['@', '|'] ['@', '/'] "@{italicson}".toList = ['@', '|'] from rfl,
      stp _ _ _ (by decide), show pyReplace ['@', '|'] ['@', '_'] "@{ulon}".toList = ['@', '|'] from rfl,
      stp _ _ _ (by decide), show pyReplace ['@', '|'] ['@', '|'] "@{reset}".toList = "@{reset}".toList from rfl]
  unfold fmt subst
  rw [e]
  have e2 : ∀ n, 1 ≤ n → substGo a n "@{reset}".toList = .ok reset := by
    intro n hn
    cases n with
    | zero => omega
    | succ n =>
      rw [show "@{reset}".toList = '@' :: '{' :: 'r' :: "eset".toList ++ '}' :: [] from rfl,
        substGo_braced (e := 'r') (w := "eset".toList) (v := reset) (by decide) (by decide) hr]
      cases n <;> simp [substGo, Except.map]
  have e3 : ("@{boldon}".toList ++ (s ++ "@{reset}".toList)).length = (8 + s.length + 8) + 1 := by
    simp; omega
  rw [e3, show "@{boldon}".toList ++ (s ++ "@{reset}".toList) = '@' :: '{' :: 'b' :: "oldon".toList ++ '}' :: (s ++ "@{reset}".toList) from rfl,
    substGo_braced (e := 'b') (w := "oldon".toList) (v := bold) (by decide) (by decide) hb, substGo_plain a s _ hs _ (by omega), e2 _ (by omega)]
  have : ansiGet a "reset".toList = .ok reset := by unfold ansiGet; rw [hr]
  simp only [Except.map, bind, Except.bind, this, pure, Except.pure, List.append_assoc]

example : fmt ansiOn (sanitize "50% of {x} @! me@here".toList) = .ok ("50% of {{x}} @! me@here".toList ++ "\x1b[0m".toList) :=
  C57_sanitized_shown _
example : fmt ansiOn (sanitize "plain @! me@here".toList) = .ok ("plain @! me@here".toList ++ "\x1b[0m".toList) :=
  (C57_sanitized_reproduced_partial _).2 (by decide)
example : fmt ansiOff (sanitize "a@!b".toList) = .ok "ab".toList := C57_no_color_drops_marks _
example : fmt ansiOn "git clone git@github.com".toList = .error .keyError :=
  C57_placeholder ansiOn "git clone git".toList "github".toList ".com".toList "\x1b[0m".toList (by decide) ⟨'g', by decide⟩
    (by unfold MarkupChar; decide) (by intro c hc; cases hc; unfold MarkupChar; decide) (by decide) rfl
example : fmt ansiOn "a @redf b".toList = .ok "a \x1b[31m b\x1b[0m".toList :=
  C57_placeholder ansiOn "a ".toList "redf".toList " b".toList "\x1b[0m".toList (by decide) ⟨'r', by decide⟩
    (by unfold MarkupChar; decide) (by intro c hc; cases hc; unfold MarkupChar; decide) (by decide) rfl
example : fmt ansiOn "a @{redf}b".toList = .ok "a \x1b[31mb\x1b[0m".toList :=
  C57_braced_placeholder ansiOn "a ".toList "redf".toList "b".toList "\x1b[0m".toList (by decide) ⟨'r', by decide⟩
    (by unfold MarkupChar; decide) (by decide) rfl
example : fmt ansiOn "me @ home".toList = .error .valueError :=
  C57_malformed ansiOn "me ".toList " home".toList (by decide) (by decide) (by intro c hc; cases hc; unfold MarkupChar; decide)
example : fmt ansiOn ("@!".toList ++ "executing command: touch x".toList ++ "@|".toList) =
    .ok ("\x1b[1m".toList ++ "executing command: touch x".toList ++ "\x1b[0m".toList ++ "\x1b[0m".toList) :=
  C57_bold_text ansiOn _ _ _ (by decide) rfl rfl

/-! ## C63 -/

/-- How an exception is to be rendered: with its traceback, or without. -/
def renderedWith (traceback : Bool) (e : ExcInfo) : List Char := if traceback = true then e.renderTb else e.render

/-- The line between an exception and the one it caused. -/
def causeLine (traceback : Bool) : List Char :=
  if traceback = true then "\nThe above error was the direct cause of the following:\n\n".toList
  else " --- The above error was the direct cause of the following:\n".toList

/-- `t` is `s` without the newlines at its end. -/
def WithoutFinalNewlines (s t : List Char) : Prop := (∃ k, s = t ++ List.replicate k '\n') ∧ t.getLast? ≠ some '\n'

theorem excLoop_eq (tb next : Bool) (acc : List (List Char)) (e : ExcInfo) (l : List ExcInfo) :
    excLoop tb next acc (e :: l) = (l.reverse.map fun c => renderedWith (tb && c.stored) c) ++ renderedWith next e :: acc := by
  induction l generalizing acc e next with
  | nil => rfl
  | cons c t ih =>
    rw [excLoop, ih]
    simp [ExcInfo.text, renderedWith]

theorem pyJoin_intercalate (link : List Char) (l : List (List Char)) : pyJoin link l = link.intercalate l := by
  induction l with
  | nil => rfl
  | cons x t ih =>
    cases t with
    | nil => simp [pyJoin, List.intercalate]
    | cons y t => rw [pyJoin, ih]; simp [List.intercalate]

theorem pyJoin_snoc (link : List Char) (l : List (List Char)) (hl : l ≠ []) (x : List Char) :
    pyJoin link (l ++ [x]) = pyJoin link l ++ link ++ x := by
  induction l with
  | nil => exact absurd rfl hl
  | cons y t ih =>
    cases t with
    | nil => rfl
    | cons z t => simp only [List.cons_append, pyJoin]; rw [← List.cons_append, ih (by simp)]; simp

theorem rstripNewline_append {s r : List Char} (h : ∃ c, r.getLast? = some c ∧ c ≠ '\n') : rstripNewline (s ++ r) = s ++ r := by
  obtain ⟨c, hc, hn⟩ := h
  obtain ⟨r', rfl⟩ := List.getLast?_eq_some_iff.1 hc
  unfold rstripNewline
  simp [hn]

theorem rstripNewline_prefix (s : List Char) : ∃ k, s = rstripNewline s ++ List.replicate k '\n' := by
  unfold rstripNewline
  refine ⟨(s.reverse.takeWhile (· == '\n')).length, ?_⟩
  have h := List.takeWhile_append_dropWhile (p := (· == '\n')) (l := s.reverse)
  have h2 : s.reverse.takeWhile (· == '\n') = List.replicate (s.reverse.takeWhile (· == '\n')).length '\n' := by
    rw [List.eq_replicate_iff]
    exact ⟨rfl, fun b hb => by simpa using List.all_eq_true.1 List.all_takeWhile b hb⟩
  calc s = s.reverse.reverse := by simp
    _ = (s.reverse.takeWhile (· == '\n') ++ s.reverse.dropWhile (· == '\n')).reverse := by rw [h]
    _ = _ := by rw [List.reverse_append]; conv_lhs => rw [h2]
                simp

theorem rstripNewline_without (s : List Char) : WithoutFinalNewlines s (rstripNewline s) := by
  refine ⟨?_, ?_⟩
  · obtain ⟨k, hk⟩ := rstripNewline_prefix s
    exact ⟨k, hk⟩
  · unfold rstripNewline
    rw [List.getLast?_reverse]
    intro h
    have := List.head?_dropWhile_not (p := fun c : Char => c == '\n') (l := s.reverse)
    rw [h] at this
    simp at this

/-- **C63** Rendering a chained exception gives the texts of all exceptions of the chain, each once, root cause first and the exception itself last,
separated by a line saying so, without newlines at the end; without chaining just the exception. The tracebacks are shown iff they were asked for and
the exception is the one being handled, those of causes if they were stored. -/
theorem C63_root_cause_first (handled tb : Bool) (exc : ExcInfo) (causes : List ExcInfo) :
    let withTb := tb && handled
    WithoutFinalNewlines ((causeLine withTb).intercalate
        ((causes.reverse.map fun c => renderedWith (withTb && c.stored) c) ++ [renderedWith withTb exc]))
      (excToStr handled tb true exc causes) ∧
    excToStr handled tb false exc causes = renderedWith withTb exc := by
  intro withTb
  constructor
  · have h := rstripNewline_without (pyJoin (excLink withTb) (excLoop withTb withTb [] (exc :: causes)))
    rw [excLoop_eq, pyJoin_intercalate] at h
    have hl : excLink withTb = causeLine withTb := by unfold excLink causeLine; rfl
    rw [hl] at h
    show WithoutFinalNewlines _ (rstripNewline (pyJoin (excLink withTb) (excLoop withTb withTb [] (exc :: causes))))
    rw [excLoop_eq, pyJoin_intercalate, hl]
    exact h
  · rfl

/-- **C63** Raising from another exception keeps that exception and all its causes: the rendering of the new one is that of the old one (with its trailing
newlines), the line between them, and the new one's own text, less trailing newlines of the whole. With tracebacks: that of the old one is shown if it
was being handled when the new one was made. -/
theorem C63_raise_from_keeps_cause (handled tb : Bool) (new fromExc : ExcInfo) (fromCauses : List ExcInfo) :
    let raised := chainException true new fromExc fromCauses
    ∃ k, WithoutFinalNewlines (excToStr (tb && handled) tb true fromExc fromCauses ++ List.replicate k '\n' ++ causeLine (tb && handled) ++
        renderedWith (tb && handled) new) (excToStr handled tb true raised.1 raised.2) := by
  intro raised
  have htb : (tb && (tb && handled)) = (tb && handled) := by cases tb <;> rfl
  obtain ⟨⟨k, hk⟩, _⟩ := (C63_root_cause_first (tb && handled) tb fromExc fromCauses).1
  refine ⟨k, ?_⟩
  have h := (C63_root_cause_first handled tb raised.1 raised.2).1
  rw [htb] at hk
  simp only [raised, chainException, Bool.true_or, List.reverse_cons, List.map_append, List.map_singleton, Bool.and_true] at h ⊢
  rw [← hk, ← pyJoin_intercalate]
  rw [← pyJoin_intercalate, pyJoin_snoc _ _ (by simp)] at h
  exact h

example : excToStr true false true ⟨"InstallerError: b\n".toList, [], false⟩ [⟨"KeyError: a\n".toList, [], false⟩] =
    "KeyError: a\n --- The above error was the direct cause of the following:\nInstallerError: b".toList := by decide

example : excToStr true true true ⟨"b\n".toList, "at b\n".toList, false⟩ [⟨"a\n".toList, "at a\n".toList, false⟩, ⟨"r\n".toList, "at r\n".toList, true⟩] =
    "at r\n\nThe above error was the direct cause of the following:\n\na\n\nThe above error was the direct cause of the following:\n\nat b".toList := by
  decide +kernel

end Verif
