import Verif.Lemmas.Help
import Verif.Props.ConfigNames
/-!
# C126, C127: help texts

C126: the layout of help texts: paragraphs, blocks, raw paragraphs; nothing visible is lost.
C127: the help entry of a config option tells which entry of the config file it stands for.
-/
namespace Verif

/-- What is assumed about python's whitespace and `textwrap.wrap`: what separates lines and words is whitespace; wrapping keeps the visible characters. -/
structure WrapWorks (lib : WrapLib) : Prop where
  white : ∀ c, reSpace c = true → lib.space c = true
  ends : ∀ c, endsLine c = true → lib.space c = true
  keeps : ∀ block width indent ls, lib.wrap block width indent = .ok ls → (∀ c ∈ indent, lib.space c = true) →
    ink lib.space ls.flatten = ink lib.space block

/-- How a paragraph is shown. A raw one: its lines, the mark being replaced by blanks, are dedented and indented. Another one: each of its blocks is wrapped
(as one line, without whitespace at its ends). -/
def ShownAs (lib : WrapLib) (width : Int) (indent para : List Char) (lines : List (List Char)) : Prop :=
  (∃ w rest, (∀ c ∈ w, reSpace c = true) ∧ para = w ++ ('R' :: '|' :: rest) ∧
    lines = (splitlines (dedent (List.replicate (w.length + 2) ' ' ++ rest))).map (indent ++ ·)) ∨
  ((∀ rest, ¬ MarkedRaw reSpace para rest) ∧ ∃ bs rs, Blocks para bs ∧ lines = rs.flatten ∧
    List.Forall₂ (fun b r => lib.wrap (pyStrip lib.space (collapse false b)) width indent = .ok r) bs rs)

theorem forall₂_imp_left {α β : Type} {R S : α → β → Prop} {l : List α} {m : List β} (hi : ∀ a b, a ∈ l → R a b → S a b) (h : List.Forall₂ R l m) :
    List.Forall₂ S l m := by
  induction h with
  | nil => exact .nil
  | cons hr _ ih => exact .cons (hi _ _ (by simp) hr) (ih fun a b ha => hi a b (List.mem_cons_of_mem _ ha))

theorem between_dropLast (rs : List (List (List Char))) (h : rs ≠ []) :
    (rs.flatMap (· ++ [[]])).dropLast = ([[]] : List (List Char)).intercalate rs := by
  induction rs with
  | nil => exact absurd rfl h
  | cons a t ih =>
    cases t with
    | nil => simp [List.intercalate]
    | cons b t =>
      rw [List.flatMap_cons, List.dropLast_append_of_ne_nil (by simp), ih (by simp)]
      simp [List.intercalate, List.intersperse]

theorem Pieces.ne_nil {n : Nat} {sep : Nat → Prop} {s : List Char} {ps : List (List Char)} (h : Pieces n sep s ps) : ps ≠ [] := by cases h <;> simp

/-- **C126** The text shown consists of its paragraphs in order — the text has only one division into paragraphs —, with exactly one empty line between
them, each shown as described (a paragraph has only one division into blocks). -/
theorem C126_layout (lib : WrapLib) (text : List Char) (width : Int) (indent : List Char) (out : List (List Char))
    (h : wrapParagraphs lib text width indent = .ok out) :
    ∃ ps rs, Paragraphs text ps ∧ (∀ qs, Paragraphs text qs → qs = ps) ∧ List.Forall₂ (ShownAs lib width indent) ps rs ∧
      (∀ p ∈ ps, ∃ bs, Blocks p bs ∧ ∀ cs, Blocks p cs → cs = bs) ∧ out = ([[]] : List (List Char)).intercalate rs := by
  obtain ⟨ls, h1, h⟩ := Except_bind_ok.1 h
  injection h with h; subst h
  obtain ⟨rs, h2, rfl⟩ := parasLines_ok h1
  have hp := splitParas_pieces text
  have hn := hp.noRun
  refine ⟨splitParas text, rs, hp, fun qs hq => Paragraphs.unique hq hp, ?_, ?_, between_dropLast rs ?_⟩
  · refine forall₂_imp_left ?_ h2
    intro p r hpm hr
    unfold paraLines at hr
    cases hraw : rawPara p with
    | some body =>
      rw [hraw] at hr
      injection hr with hr
      obtain ⟨w, rest, hw, hpe, rfl⟩ := rawPara_iff.1 hraw
      exact .inl ⟨w, rest, hw, hpe, hr.symm⟩
    | none =>
      rw [hraw] at hr
      obtain ⟨bs', hb, rfl⟩ := blockLines_ok hr
      refine .inr ⟨?_, _, bs', splitBlocks_pieces (hn p hpm), rfl, hb⟩
      rintro rest ⟨w, hw, rfl⟩
      rw [rawPara_iff.2 ⟨w, rest, hw, rfl, rfl⟩] at hraw
      simp at hraw
  · intro p hpm
    exact ⟨_, splitBlocks_pieces (hn p hpm), fun cs hc => Blocks.unique hc (splitBlocks_pieces (hn p hpm))⟩
  · intro e; subst e
    generalize hq : splitParas text = q at h2 hp
    cases h2
    exact hp.ne_nil rfl

/-- What is to be read of a paragraph: all of it, without the mark of a raw paragraph. -/
def ToRead (space : Char → Bool) (para readable : List Char) : Prop :=
  (∃ rest, MarkedRaw reSpace para rest ∧ readable = ink space rest) ∨ ((∀ rest, ¬ MarkedRaw reSpace para rest) ∧ readable = ink space para)

theorem ink_map_indent {sp : Char → Bool} {indent : List Char} (h : ∀ c ∈ indent, sp c = true) (ls : List (List Char)) :
    ink sp (ls.map (indent ++ ·)).flatten = ink sp ls.flatten :=
  ink_flatten_map (fun l => by rw [ink_append, ink_white h, List.nil_append]) ls

theorem shownAs_ink {lib : WrapLib} (hl : WrapWorks lib) {width : Int} {indent : List Char} (hi : ∀ c ∈ indent, lib.space c = true) {p : List Char}
    {r : List (List Char)} (h : ShownAs lib width indent p r) : ToRead lib.space p (ink lib.space r.flatten) := by
  rcases h with ⟨w, rest, hw, rfl, rfl⟩ | ⟨hn, bs, rs, hb, rfl, hf⟩
  · refine .inl ⟨rest, ⟨w, hw, rfl⟩, ?_⟩
    rw [ink_map_indent hi, ink_splitlines hl.ends, ink_dedent hl.white, ink_append, ink_white, List.nil_append]
    intro c hc
    rw [List.eq_of_mem_replicate hc]; exact hl.white _ rfl
  · refine .inr ⟨hn, ?_⟩
    rw [← hb.ink (hl.white _ rfl)]
    clear hb
    induction hf with
    | nil => rfl
    | cons h1 _ ih =>
      rw [List.flatten_cons, List.flatten_append, ink_append, ih, List.flatten_cons, ink_append, hl.keeps _ _ _ _ h1 hi, ink_strip,
        ink_collapse hl.white]

theorem ink_intercalate (sp : Char → Bool) (rs : List (List (List Char))) :
    ink sp (([[]] : List (List Char)).intercalate rs).flatten = (rs.map fun r => ink sp r.flatten).flatten := by
  induction rs with
  | nil => rfl
  | cons a t ih =>
    cases t with
    | nil => simp [List.intercalate]
    | cons b t =>
      have e : ([[]] : List (List Char)).intercalate (a :: b :: t) = a ++ [[]] ++ ([[]] : List (List Char)).intercalate (b :: t) := by
        simp [List.intercalate, List.intersperse]
      rw [e, List.flatten_append, List.flatten_append, ink_append, ink_append, ih]
      simp [ink]

/-- **C126** Nothing is lost: the visible characters of the output are those of the paragraphs, in order, except for the marks of raw paragraphs. -/
theorem C126_nothing_lost (lib : WrapLib) (hl : WrapWorks lib) (text : List Char) (width : Int) (indent : List Char)
    (hi : ∀ c ∈ indent, lib.space c = true) (out : List (List Char)) (h : wrapParagraphs lib text width indent = .ok out) :
    ∃ ps rs, Paragraphs text ps ∧ List.Forall₂ (ToRead lib.space) ps rs ∧ ink lib.space out.flatten = rs.flatten ∧
      ((∀ p ∈ ps, ∀ rest, ¬ MarkedRaw reSpace p rest) → ink lib.space out.flatten = ink lib.space text) := by
  obtain ⟨ps, rs, h1, -, h2, -, rfl⟩ := C126_layout lib text width indent out h
  have h3 : List.Forall₂ (ToRead lib.space) ps (rs.map fun r => ink lib.space r.flatten) := by
    rw [List.forall₂_map_right_iff]
    exact h2.imp fun p r hr => shownAs_ink hl hi hr
  refine ⟨ps, rs.map fun r => ink lib.space r.flatten, h1, h3, ink_intercalate _ _, fun hn => ?_⟩
  rw [ink_intercalate, ← h1.ink (hl.white _ rfl)]
  clear h1 h h2
  generalize (rs.map fun r => ink lib.space r.flatten) = xs at h3
  induction h3 with
  | nil => rfl
  | @cons p x ps xs hx _ ih =>
    rw [List.flatten_cons, List.flatten_cons, ink_append, ih fun p hp => hn p (List.mem_cons_of_mem _ hp)]
    rcases hx with ⟨rest, hm, _⟩ | ⟨_, rfl⟩
    · exact absurd hm (hn p (by simp) rest)
    · rfl

/-- **C126** If `textwrap.wrap` keeps the width, only raw paragraphs can exceed it. -/
theorem C126_width (lib : WrapLib) (text : List Char) (width : Int) (indent : List Char)
    (hw : ∀ block ls, lib.wrap block width indent = .ok ls → ∀ l ∈ ls, (l.length : Int) ≤ width) (hpos : 0 ≤ width)
    (out : List (List Char)) (h : wrapParagraphs lib text width indent = .ok out)
    (hraw : ∀ ps, Paragraphs text ps → ∀ p ∈ ps, ∀ rest, ¬ MarkedRaw reSpace p rest) : ∀ l ∈ out, (l.length : Int) ≤ width := by
  obtain ⟨ps, rs, h1, -, h2, -, rfl⟩ := C126_layout lib text width indent out h
  have hn := hraw ps h1
  clear h1 h hraw
  have each : ∀ r ∈ rs, ∀ l ∈ r, (l.length : Int) ≤ width := by
    induction h2 with
    | nil => intro r hr; simp at hr
    | @cons p r ps rs hpr _ ih =>
      intro r' hr'
      rcases List.mem_cons.1 hr' with rfl | hr'
      · rcases hpr with ⟨w, rest, hw', hpe, _⟩ | ⟨_, bs, xs, hbs, rfl, hf⟩
        · exact absurd ⟨w, hw', hpe⟩ (hn p (by simp) rest)
        · intro l hl
          obtain ⟨x, hx, hlx⟩ := List.mem_flatten.1 hl
          clear ih hr' hn hl hbs
          induction hf with
          | nil => simp at hx
          | cons h1 _ ih =>
            rcases List.mem_cons.1 hx with rfl | hx
            · exact hw _ _ h1 l hlx
            · exact ih hx
      · exact ih (fun p hp => hn p (List.mem_cons_of_mem _ hp)) r' hr'
  clear hn h2
  induction rs with
  | nil => intro l hl; simp [List.intercalate] at hl
  | cons a t ih =>
    cases t with
    | nil => intro l hl; simp [List.intercalate] at hl; exact each a (by simp) l hl
    | cons b t =>
      have e : ([[]] : List (List Char)).intercalate (a :: b :: t) = a ++ [[]] ++ ([[]] : List (List Char)).intercalate (b :: t) := by
        simp [List.intercalate, List.intersperse]
      intro l hl
      rw [e] at hl
      rcases List.mem_append.1 hl with hl | hl
      · rcases List.mem_append.1 hl with hl | hl
        · exact each a (by simp) l hl
        · rw [List.mem_singleton] at hl; subst hl; simpa using hpos
      · exact ih (fun r hr => each r (List.mem_cons_of_mem _ hr)) l hl

/-! ## Raw paragraphs -/

theorem splitlinesGo_line {l : List Char} (h : ∀ c ∈ l, endsLine c = false) : ∀ (cur : List Char) (t : List Char),
    splitlinesGo cur false (l ++ t) = splitlinesGo (l.reverse ++ cur) false t := by
  induction l with
  | nil => intro cur t; rfl
  | cons c l ih =>
    intro cur t
    rw [List.cons_append, splitlinesGo]
    simp only [Bool.false_and, Bool.false_eq_true, if_false, h c (by simp)]
    rw [ih fun c hc => h c (List.mem_cons_of_mem _ hc)]
    simp

theorem splitlines_join : ∀ (ls : List (List Char)), (∀ l ∈ ls, ∀ c ∈ l, endsLine c = false) → ls ≠ [] →
    splitlines (pyJoin ['\n'] ls) = ls ∨ ls = splitlines (pyJoin ['\n'] ls) ++ [[]]
  | [], _, h => absurd rfl h
  | [l], h, _ => by
    have := splitlinesGo_line (h l (by simp)) [] []
    simp only [List.append_nil] at this
    rw [pyJoin, splitlines, this, splitlinesGo]
    by_cases e : l = []
    · subst e; right; rfl
    · left; simp [e]
  | a :: b :: t, h, _ => by
    have e : splitlines (pyJoin ['\n'] (a :: b :: t)) = a :: splitlines (pyJoin ['\n'] (b :: t)) := by
      rw [pyJoin, splitlines, List.append_assoc, splitlinesGo_line (h a (by simp))]
      show splitlinesGo (a.reverse ++ []) false ('\n' :: pyJoin ['\n'] (b :: t)) = _
      rw [splitlinesGo]
      simp [endsLine, splitlines]
    rcases splitlines_join (b :: t) (fun l hl => h l (List.mem_cons_of_mem _ hl)) (by simp) with h' | h'
    · left; rw [e, h']
    · right
      rw [e, List.cons_append]
      exact congrArg (a :: ·) h'

theorem joinWith_pyJoin (c : Char) (l : List (List Char)) : joinWith c l = pyJoin [c] l := by
  induction l with
  | nil => rfl
  | cons a t ih =>
    cases t with
    | nil => rfl
    | cons b t =>
      show a ++ c :: joinWith c (b :: t) = a ++ [c] ++ pyJoin [c] (b :: t)
      rw [ih]; simp

/-- **C126** (partial: what happens at the beginning of the text is refuted below) A raw paragraph with nothing but blanks before its mark is
only re-indented: taking the mark as blanks, the lines lose their common indentation — the longest there is — and get the wanted one instead; blank lines
become empty (one at the end is dropped). -/
theorem C126_raw_partial (lib : WrapLib) (width : Int) (indent w first : List Char) (more : List (List Char))
    (hw : ∀ c ∈ w, c = ' ') (hf : ∀ c ∈ first, endsLine c = false) (hm : ∀ l ∈ more, ∀ c ∈ l, endsLine c = false) :
    ∃ ls margin,
      Dedented indenting margin ((w ++ "  ".toList ++ first) :: more) ls ∧
      (∀ m', (∃ l ∈ (w ++ "  ".toList ++ first) :: more, l.all indenting = false) → (∀ c ∈ m', indenting c = true) →
        (∀ l ∈ (w ++ "  ".toList ++ first) :: more, l.all indenting = false → m' <+: l) → m' <+: margin) ∧
      (paraLines lib width indent (pyJoin ['\n'] ((w ++ "R|".toList ++ first) :: more)) = .ok (ls.map (indent ++ ·)) ∨
        ∃ ls', ls = ls' ++ [[]] ∧
          paraLines lib width indent (pyJoin ['\n'] ((w ++ "R|".toList ++ first) :: more)) = .ok (ls'.map (indent ++ ·))) := by
  obtain ⟨margin, h1, h2⟩ := dedentLines_dedented ((w ++ "  ".toList ++ first) :: more)
  have hjoin : ∀ (x : List Char) (l : List Char), pyJoin ['\n'] ((x ++ l) :: more) = x ++ pyJoin ['\n'] (l :: more) := by
    intro x l
    cases more with
    | nil => rfl
    | cons b t => simp [pyJoin]
  have hw' : w = List.replicate w.length ' ' := List.eq_replicate_of_mem hw
  have hraw : rawPara (pyJoin ['\n'] ((w ++ "R|".toList ++ first) :: more)) = some (pyJoin ['\n'] ((w ++ "  ".toList ++ first) :: more)) := by
    refine rawPara_iff.2 ⟨w, pyJoin ['\n'] (first :: more), fun c hc => by rw [hw c hc]; rfl, ?_, ?_⟩
    · rw [hjoin, List.append_assoc]; rfl
    · rw [hjoin, List.replicate_add, ← hw']; rfl
  have hends : ∀ c, endsLine c = false → c ≠ '\n' := by rintro c h rfl; simp [endsLine] at h
  have hlines : ∀ l ∈ (w ++ "  ".toList ++ first) :: more, ∀ c ∈ l, endsLine c = false := by
    intro l hl c hc
    rcases List.mem_cons.1 hl with rfl | hl
    · rcases List.mem_append.1 hc with hc | hc
      · rcases List.mem_append.1 hc with hc | hc
        · rw [hw c hc]; rfl
        · have : c = ' ' := by simpa using hc
          rw [this]; rfl
      · exact hf c hc
    · exact hm l hl c hc
  have hsplit : pySplit '\n' (pyJoin ['\n'] ((w ++ "  ".toList ++ first) :: more)) = (w ++ "  ".toList ++ first) :: more := by
    rw [← joinWith_pyJoin]
    exact pySplit_join (by simp) fun l hl hc => hends _ (hlines l hl _ hc) rfl
  have hdl : ∀ l ∈ dedentLines ((w ++ "  ".toList ++ first) :: more), ∀ c ∈ l, endsLine c = false := by
    intro l' hl' c hc
    obtain ⟨l, hl, hr⟩ := forall₂_mem_right h1.2 hl'
    rcases hr with ⟨_, rfl⟩ | ⟨_, rfl⟩
    · simp at hc
    · exact hlines _ hl c (List.mem_append_right _ hc)
  have hne : dedentLines ((w ++ "  ".toList ++ first) :: more) ≠ [] := by simp [dedentLines]
  have hpl : paraLines lib width indent (pyJoin ['\n'] ((w ++ "R|".toList ++ first) :: more)) =
      .ok ((splitlines (pyJoin ['\n'] (dedentLines ((w ++ "  ".toList ++ first) :: more)))).map (indent ++ ·)) := by
    unfold paraLines
    rw [hraw]
    show Except.ok ((splitlines (dedent _)).map _) = _
    rw [dedent, hsplit]
  refine ⟨_, margin, h1, h2, ?_⟩
  rcases splitlines_join _ hdl hne with h | h
  · left; rw [hpl, h]
  · right; exact ⟨_, h, hpl⟩

/-- Lists of lines without line breaks that are the same when joined are the same. -/
theorem joined_inj : ∀ {a b : List (List Char)}, (∀ l ∈ a, '\n' ∉ l) → (∀ l ∈ b, '\n' ∉ l) → a ≠ [] → b ≠ [] →
    ['\n'].intercalate a = ['\n'].intercalate b → a = b := by
  have split : ∀ {x y u v : List Char}, '\n' ∉ x → '\n' ∉ y → x ++ '\n' :: u = y ++ '\n' :: v → x = y ∧ u = v := by
    intro x
    induction x with
    | nil =>
      intro y u v _ hy h
      cases y with
      | nil => simpa using h
      | cons c y => simp at h; exact absurd (by rw [← h.1]; simp) hy
    | cons c x ih =>
      intro y u v hx hy h
      cases y with
      | nil => simp at h; exact absurd (by rw [h.1]; simp) hx
      | cons d y =>
        simp at h hx hy
        obtain ⟨h1, h2⟩ := ih hx.2 hy.2 h.2
        exact ⟨by rw [h.1, h1], h2⟩
  have one : ∀ {x y : List Char} {u : List Char}, '\n' ∉ x → x ≠ y ++ '\n' :: u := by
    intro x y u hx e; subst e; simp at hx
  have cc : ∀ (x y : List Char) (t : List (List Char)), ['\n'].intercalate (x :: y :: t) = x ++ '\n' :: ['\n'].intercalate (y :: t) := by
    intro x y t; simp [List.intercalate, List.intersperse]
  have c1 : ∀ x : List Char, ['\n'].intercalate [x] = x := by intro x; simp [List.intercalate, List.intersperse]
  intro a
  induction a with
  | nil => intro b _ _ h; exact absurd rfl h
  | cons x a ih =>
    intro b ha hb _ hn h
    cases b with
    | nil => exact absurd rfl hn
    | cons y b =>
      have hx := ha x (by simp)
      have hy := hb y (by simp)
      cases a with
      | nil =>
        cases b with
        | nil => rw [c1, c1] at h; rw [h]
        | cons z b => rw [c1, cc] at h; exact absurd h (one hx)
      | cons w a =>
        cases b with
        | nil => rw [c1, cc] at h; exact absurd h.symm (one hy)
        | cons z b =>
          rw [cc, cc] at h
          obtain ⟨h1, h2⟩ := split hx hy h
          rw [h1, ih (fun l hl => ha l (List.mem_cons_of_mem _ hl)) (fun l hl => hb l (List.mem_cons_of_mem _ hl)) (by simp) (by simp) h2]

theorem joined_eq (link : List Char) : ∀ l : List (List Char), pyJoin link l = link.intercalate l
  | [] => rfl
  | [x] => by simp [pyJoin, List.intercalate, List.intersperse]
  | x :: y :: t => by
    have := joined_eq link (y :: t)
    simp only [pyJoin, this]
    simp [List.intercalate, List.intersperse]

/-- **C126** The text is the lines of `C126_layout` joined with line breaks, no more and no less; and if no line contains a line break, the lines can
be read off it. -/
theorem C126_joined (lib : WrapLib) (text : List Char) (width : Int) (indent t : List Char) :
    (fillText lib text width indent = .ok t ↔
      ∃ ls, wrapParagraphs lib text width indent = .ok ls ∧ t = ['\n'].intercalate ls) ∧
    (∀ ls ls', wrapParagraphs lib text width indent = .ok ls → fillText lib text width indent = .ok t →
      (∀ l ∈ ls, '\n' ∉ l) → (∀ l ∈ ls', '\n' ∉ l) → ls ≠ [] → ls' ≠ [] → t = ['\n'].intercalate ls' → ls' = ls) := by
  have key : fillText lib text width indent = .ok t ↔
      ∃ ls, wrapParagraphs lib text width indent = .ok ls ∧ t = ['\n'].intercalate ls := by
    unfold fillText
    cases h : wrapParagraphs lib text width indent with
    | error e => simp [bind, Except.bind]
    | ok ls => simp [bind, Except.bind, pure, Except.pure, joined_eq, eq_comm]
  refine ⟨key, fun ls ls' h1 h2 hl hl' hn hn' ht => ?_⟩
  obtain ⟨ls₀, h3, h4⟩ := key.1 h2
  rw [h1] at h3
  injection h3 with h3
  subst h3
  exact joined_inj hl' hl hn' hn (ht.symm.trans h4)

example : fillText ⟨(· == ' '), fun b _ _ => .ok [b]⟩ "one\n\ntwo".toList 20 "".toList = .ok "one\ntwo".toList := rfl

/-- **C126** (refuted: a raw paragraph is only re-indented) If a text starts with a line break before the mark — as texts in triple quotes do — the line
break counts as a blank: the first line is shown one column further to the right than it was written. -/
theorem C126_raw_after_newline_refuted (lib : WrapLib) (width : Int) (indent : List Char) :
    wrapParagraphs lib "R|usage:\n  xylem".toList width indent = .ok [indent ++ "usage:".toList, indent ++ "xylem".toList] ∧
    wrapParagraphs lib "\nR|usage:\n  xylem".toList width indent = .ok [indent ++ " usage:".toList, indent ++ "xylem".toList] := ⟨rfl, rfl⟩

/-! ## The entries of config options -/

/-- The description written by the author of the option, followed by a line break, if there is one. -/
def describedBy : Option (List Char) → List Char
  | some [] => []
  | some (c :: t) => c :: t ++ "\n\n".toList
  | none => []

/-- **C127** Whoever reads the help entry of an option knows the entry of the config file it stands for: it is named in the entry, or it is the name
of the option with underscores for dashes (provided names of config entries contain no dashes, as is the case for those of xylem). -/
theorem C127_config_entry (name arg : List Char) (help : Option (List Char)) (type : List Char) (default : Option (List Char)) (hn : '-' ∉ name) :
    (∃ more, helpString name arg help type default = describedBy help ++ "(config: `".toList ++ name ++ "`, type: ".toList ++ more) ∨
    (name = arg.map (fun c => if c = '-' then '_' else c) ∧ ∃ more, helpString name arg help type default = describedBy help ++ "(type: ".toList ++ more) := by
  have hd : helpHead help = describedBy help := by
    cases help with
    | none => rfl
    | some h => cases h <;> rfl
  unfold helpString
  rw [hd]
  by_cases hg : (isGroupName name || arg != dashify name) = true
  · left
    rw [if_pos hg]
    cases default with
    | none => exact ⟨type ++ ")".toList, by simp [pyJoin, helpDefault]⟩
    | some d => exact ⟨type ++ ", default: ".toList ++ d ++ ")".toList, by simp [pyJoin, helpDefault]⟩
  · right
    rw [if_neg hg]
    simp only [Bool.or_eq_true, not_or, bne_iff_ne, ne_eq, Decidable.not_not] at hg
    refine ⟨?_, ?_⟩
    · obtain ⟨h1, rfl⟩ := hg
      have h1 : '/' ∉ name := by simpa [isGroupName] using h1
      rw [dashify_eq, List.map_map]
      refine (List.map_id name).symm.trans (List.map_congr_left ?_)
      intro c hc
      have h2 : c ≠ '/' := by rintro rfl; exact h1 hc
      have h3 : c ≠ '-' := by rintro rfl; exact hn hc
      by_cases h4 : c = '_'
      · subst h4; rfl
      · simp [Function.comp, h2, h3, h4]
    · cases default with
      | none => exact ⟨type ++ ")".toList, by simp [pyJoin, helpDefault]⟩
      | some d => exact ⟨type ++ ", default: ".toList ++ d ++ ")".toList, by simp [pyJoin, helpDefault]⟩

/-- **C127** The entry starts with the description and ends with the type and — exactly if there is one — the default. -/
theorem C127_type_and_default (name arg : List Char) (help : Option (List Char)) (type : List Char) (default : Option (List Char)) :
    ∃ info, (info = [] ∨ info = "config: `".toList ++ name ++ "`, ".toList) ∧
      helpString name arg help type default = describedBy help ++ "(".toList ++ info ++ "type: ".toList ++ type ++
        ((default.map fun d => ", default: ".toList ++ d).getD []) ++ ")".toList := by
  have hd : helpHead help = describedBy help := by
    cases help with
    | none => rfl
    | some h => cases h <;> rfl
  unfold helpString
  rw [hd]
  by_cases hg : (isGroupName name || arg != dashify name) = true
  · rw [if_pos hg]
    refine ⟨_, .inr rfl, ?_⟩
    cases default <;> simp [pyJoin, helpDefault]
  · rw [if_neg hg]
    refine ⟨_, .inl rfl, ?_⟩
    cases default <;> simp [pyJoin, helpDefault]

/-- The entries of the config of xylem have no dashes in their names. -/
theorem C127_xylem_names : ∀ i ∈ xylemDescription.itemlist, '-' ∉ i.name.toList := by decide +kernel

/-! ## Non-vacuity -/

/-- A toy `textwrap`: the words of the block on one line each. -/
def exWrap : WrapLib where
  space c := reSpace c || endsLine c
  wrap block width indent := if width ≤ 0 then .error .valueError else .ok (((pySplit ' ' block).filter fun w => !w.isEmpty).map (indent ++ ·))

theorem exWrap_works : WrapWorks exWrap := by
  refine ⟨fun c h => by simp [exWrap, h], fun c h => by simp [exWrap, h], ?_⟩
  intro block width indent ls h hi
  simp only [exWrap] at h
  split at h
  · simp at h
  · injection h with h; subst h
    rw [ink_map_indent hi]
    have : ∀ ws : List (List Char), (ws.filter fun w => !w.isEmpty).flatten = ws.flatten := by
      intro ws
      induction ws with
      | nil => rfl
      | cons w t ih => cases w <;> simp_all
    rw [this]
    generalize hsp : exWrap.space = sp
    have hb : sp ' ' = true := by rw [← hsp]; rfl
    clear this
    induction block with
    | nil => rfl
    | cons x t ih =>
      rw [pySplit]
      split
      · rename_i e; subst e
        rw [List.flatten_cons, List.nil_append, ih]; simp [ink, hb]
      · split
        · rename_i h; rw [h] at ih; simp at ih
          simp only [ink, List.flatten_cons, List.flatten_nil, List.append_nil, List.filter_cons, List.filter_nil] at ih ⊢
          rw [← ih]
        · rename_i a r h
          rw [h] at ih
          simp only [ink, List.flatten_cons, List.cons_append, List.filter_cons] at ih ⊢
          rw [ih]

/-- Three paragraphs, the first with two blocks, the second raw. -/
example : wrapParagraphs exWrap "one\n two\n\nthree\n\n\n  R|a\n      b\n\n\n\nend".toList 10 ">".toList =
    .ok [">one".toList, ">two".toList, ">three".toList, [], ">a".toList, ">  b".toList, [], ">end".toList] := by decide +kernel
example : wrapParagraphs exWrap "x".toList 0 [] = .error .valueError := by decide +kernel
example : helpString "os_override".toList "os".toList (some "what".toList) "String".toList none =
    "what\n\n(config: `os_override`, type: String)".toList := by decide +kernel
example : helpString "core_installers".toList "core-installers".toList (some "what".toList) "List".toList (some "[]".toList) =
    "what\n\n(type: List, default: [])".toList := by decide +kernel

end Verif
