import Verif.Model.Help
import Verif.Spec.Help
import Verif.Lemmas.Expand
/-! # Lemmas on the layout of help texts -/
namespace Verif

/-! ## Splitting -/

theorem NoRun.snoc {n : Nat} {s : List Char} {c : Char} (h : NoRun n s) (hc : c ≠ '\n') (hn : 0 < n) : NoRun n (s ++ [c]) := by
  intro hi
  rcases List.infix_concat_iff.1 hi with hi | hi
  · obtain ⟨x, hx⟩ := hi
    obtain ⟨m, rfl⟩ : ∃ m, n = m + 1 := ⟨n - 1, by omega⟩
    rw [List.replicate_succ', ← List.append_assoc] at hx
    have := List.append_inj_right' hx rfl
    injection this with this
    exact hc this.symm
  · exact h hi

theorem NoRun.pre {n : Nat} {s t : List Char} (h : NoRun n (s ++ t)) : NoRun n s := fun hi => h (hi.trans (List.prefix_append s t).isInfix)
theorem NoRun.suf {n : Nat} {s t : List Char} (h : NoRun n (s ++ t)) : NoRun n t := fun hi => h (hi.trans (List.suffix_append s t).isInfix)

/-- Newlines appended to a text that does not end with one. -/
theorem NoRun.newlines {n : Nat} {s : List Char} (h : NoRun n s) (he : s.getLast? ≠ some '\n') (hn : 0 < n) :
    ∀ {r : Nat}, r < n → NoRun n (s ++ List.replicate r '\n')
  | 0, _ => by simpa using h
  | r + 1, hr => by
    intro hi
    rw [List.replicate_succ', ← List.append_assoc] at hi
    rcases List.infix_concat_iff.1 hi with hi | hi
    · rw [List.append_assoc, ← List.replicate_succ'] at hi
      obtain ⟨x, hx⟩ := hi
      obtain ⟨m, rfl⟩ : ∃ m, n = m + 1 + (r + 1) := ⟨n - (r + 1) - 1, by omega⟩
      rw [List.replicate_add, ← List.append_assoc] at hx
      have := List.append_inj_left' hx rfl
      apply he
      rw [← this, List.replicate_succ', ← List.append_assoc, List.getLast?_append]
      rfl
    · exact NoRun.newlines h he hn (by omega) hi

theorem noRun_nil {n : Nat} (hn : 0 < n) : NoRun n [] := by
  intro h
  have := h.length_le
  simp at this; omega

theorem splitParasGo_pieces (s : List Char) : ∀ (cur : List Char) (r : Nat), NoRun 3 cur.reverse → cur.head? ≠ some '\n' →
    Paragraphs (cur.reverse ++ (List.replicate r '\n' ++ s)) (splitParasGo cur r s) := by
  induction s with
  | nil =>
    intro cur r h1 h2
    rw [splitParasGo]
    by_cases hr : 3 ≤ r
    · rw [if_pos hr]
      exact .more h1 (by simpa [List.getLast?_reverse] using h2) hr (by simp) (.last (noRun_nil (by decide)))
    · rw [if_neg hr, List.append_nil]
      exact .last (h1.newlines (by simpa [List.getLast?_reverse] using h2) (by decide) (by omega))
  | cons c t ih =>
    intro cur r h1 h2
    rw [splitParasGo]
    by_cases hc : c = '\n'
    · subst hc
      rw [if_pos rfl]
      have := ih cur (r + 1) h1 h2
      rw [List.replicate_succ'] at this
      simpa using this
    · rw [if_neg hc]
      by_cases hr : 3 ≤ r
      · rw [if_pos hr]
        refine .more h1 (by simpa [List.getLast?_reverse] using h2) hr (by simpa using hc) ?_
        have := ih [c] 0 ((noRun_nil (by decide)).snoc hc (by decide)) (by simpa using hc)
        simpa using this
      · rw [if_neg hr]
        have h3 := (h1.newlines (by simpa [List.getLast?_reverse] using h2) (by decide) (show r < 3 by omega)).snoc hc (by decide)
        have := ih (c :: (List.replicate r '\n' ++ cur)) 0 (by simpa using h3) (by simpa using hc)
        simpa using this

/-- The paragraphs the formatter finds are the paragraphs of the text. -/
theorem splitParas_pieces (s : List Char) : Paragraphs s (splitParas s) := by
  have := splitParasGo_pieces s [] 0 (noRun_nil (by decide)) (by simp)
  simpa [splitParas] using this

theorem splitBlocksGo_pieces (s : List Char) : ∀ (cur : List Char) (nl : Bool), NoRun 2 cur.reverse → cur.head? ≠ some '\n' →
    NoRun 3 ((if nl then ['\n'] else []) ++ s) →
    Blocks (cur.reverse ++ ((if nl then ['\n'] else []) ++ s)) (splitBlocksGo cur nl s) := by
  induction s with
  | nil =>
    intro cur nl h1 h2 _
    rw [splitBlocksGo]
    have h2' : cur.reverse.getLast? ≠ some '\n' := by simpa [List.getLast?_reverse] using h2
    cases nl with
    | false => simpa using Pieces.last h1
    | true => simpa using Pieces.last (h1.newlines h2' (by decide) (show 1 < 2 by decide))
  | cons c t ih =>
    intro cur nl h1 h2 h3
    have h2' : cur.reverse.getLast? ≠ some '\n' := by simpa [List.getLast?_reverse] using h2
    rw [splitBlocksGo]
    by_cases hc : c = '\n'
    · subst hc
      rw [if_pos rfl]
      cases nl with
      | false => simpa using ih cur true h1 h2 (by simpa using h3)
      | true =>
        have ht : t.head? ≠ some '\n' := by
          intro h
          cases t with
          | nil => simp at h
          | cons d t =>
            simp at h; subst h
            exact h3 ⟨[], t, by simp [List.replicate]⟩
        have := ih [] false (noRun_nil (by decide)) (by simp)
          (by
            have h4 : NoRun 3 (['\n', '\n'] ++ t) := by simpa using h3
            simpa using h4.suf)
        have this : Blocks t (splitBlocksGo [] false t) := by simpa using this
        exact Pieces.more (k := 2) h1 h2' rfl ht this
    · rw [if_neg hc]
      have h4 : NoRun 3 t := by
        have : NoRun 3 (((if nl then ['\n'] else []) ++ [c]) ++ t) := by simpa using h3
        exact this.suf
      cases nl with
      | false =>
        have := ih (c :: cur) false (by simpa using h1.snoc hc (by decide)) (by simpa using hc) (by simpa using h4)
        simpa using this
      | true =>
        have h5 := (h1.newlines h2' (by decide) (show 1 < 2 by decide)).snoc hc (by decide)
        have := ih (c :: '\n' :: cur) false (by simpa using h5) (by simpa using hc) (by simpa using h4)
        simpa using this

/-- The blocks the formatter finds in a paragraph are its blocks. -/
theorem splitBlocks_pieces {s : List Char} (h : NoRun 3 s) : Blocks s (splitBlocks s) := by
  have := splitBlocksGo_pieces s [] false (noRun_nil (by decide)) (by simp) (by simpa using h)
  simpa [splitBlocks] using this

theorem Pieces.noRun {n : Nat} {sep : Nat → Prop} {s : List Char} {ps : List (List Char)} (h : Pieces n sep s ps) : ∀ p ∈ ps, NoRun n p := by
  induction h with
  | last h => intro p hp; rw [List.mem_singleton] at hp; subst hp; exact h
  | more h1 _ _ _ _ ih =>
    intro p hp
    rcases List.mem_cons.1 hp with rfl | hp
    · exact h1
    · exact ih p hp

/-- Two ways to cut a text at the first long run of newlines are the same. -/
theorem cut_unique {n : Nat} : ∀ {p q : List Char} {k l : Nat} {t u : List Char}, NoRun n p → NoRun n q → p.getLast? ≠ some '\n' →
    q.getLast? ≠ some '\n' → n ≤ k → n ≤ l → 0 < n → t.head? ≠ some '\n' → u.head? ≠ some '\n' →
    p ++ (List.replicate k '\n' ++ t) = q ++ (List.replicate l '\n' ++ u) → p = q ∧ k = l ∧ t = u := by
  have one : ∀ {p q : List Char} {k l : Nat} {t u : List Char}, NoRun n q → p.getLast? ≠ some '\n' → q.getLast? ≠ some '\n' →
      n ≤ k → 0 < n → p ++ (List.replicate k '\n' ++ t) = q ++ (List.replicate l '\n' ++ u) → q.length ≤ p.length := by
    intro p q k l t u hq hp' hq' hk hn h
    by_contra hlt
    have hlt : p.length < q.length := Nat.lt_of_not_le hlt
    have hpre : p <+: q := by
      refine List.prefix_of_prefix_length_le (l₃ := p ++ (List.replicate k '\n' ++ t)) (List.prefix_append _ _) ?_ (by omega)
      rw [h]; exact List.prefix_append _ _
    obtain ⟨q', rfl⟩ := hpre
    have hne : q' ≠ [] := by intro e; subst e; simp at hlt
    rw [List.append_assoc] at h
    have h := List.append_cancel_left h
    -- q' starts inside the run; it does not contain the whole run, so it is newlines only
    by_cases hl : q'.length ≤ k
    · have : q' <+: List.replicate k '\n' := by
        refine List.prefix_of_prefix_length_le (l₃ := List.replicate k '\n' ++ t) ?_ (List.prefix_append _ _) (by simpa using hl)
        rw [h]; exact List.prefix_append _ _
      obtain ⟨w, hw⟩ := this
      have hall : ∀ c ∈ q', c = '\n' := fun c hc => List.eq_of_mem_replicate (n := k) (by rw [← hw]; exact List.mem_append_left _ hc)
      obtain ⟨q'', c, rfl⟩ : ∃ q'' c, q' = q'' ++ [c] := ⟨q'.dropLast, q'.getLast hne, (List.dropLast_append_getLast hne).symm⟩
      have := hall c (by simp)
      subst this
      apply hq'
      rw [← List.append_assoc, List.getLast?_append]; rfl
    · have : List.replicate k '\n' <+: q' := by
        refine List.prefix_of_prefix_length_le (l₃ := List.replicate k '\n' ++ t) (List.prefix_append _ _) ?_ (by simp; omega)
        rw [h]; exact List.prefix_append _ _
      apply hq
      refine List.IsInfix.trans ?_ (List.suffix_append p q').isInfix
      refine List.IsInfix.trans ?_ this.isInfix
      exact ⟨[], List.replicate (k - n) '\n', by rw [List.nil_append, ← List.replicate_add]; congr 1; omega⟩
  have runs : ∀ {k l : Nat} {t u : List Char}, t.head? ≠ some '\n' → u.head? ≠ some '\n' →
      List.replicate k '\n' ++ t = List.replicate l '\n' ++ u → k = l ∧ t = u := by
    intro k
    induction k with
    | zero =>
      intro l t u ht hu h
      cases l with
      | zero => exact ⟨rfl, by simpa using h⟩
      | succ l => rw [List.replicate_succ] at h; simp at h; subst h; simp at ht
    | succ k ih =>
      intro l t u ht hu h
      cases l with
      | zero => rw [List.replicate_succ] at h; simp at h; subst h; simp at hu
      | succ l =>
        rw [List.replicate_succ, List.replicate_succ] at h
        injection h with _ h
        obtain ⟨rfl, e⟩ := ih ht hu h
        exact ⟨rfl, e⟩
  intro p q k l t u hp hq hp' hq' hk hl hn ht hu h
  have l1 := one hq hp' hq' hk hn h
  have l2 := one hp hq' hp' hl hn h.symm
  have e := List.append_inj h (by omega)
  obtain ⟨rfl, e⟩ := e
  obtain ⟨rfl, rfl⟩ := runs ht hu e
  exact ⟨rfl, rfl, rfl⟩

/-- A text has only one division into pieces. -/
theorem Pieces.unique {n : Nat} (hn : 0 < n) {sep : Nat → Prop} (hs : ∀ k, sep k → n ≤ k) {s : List Char} {ps : List (List Char)}
    (h : Pieces n sep s ps) : ∀ {qs : List (List Char)}, Pieces n sep s qs → ps = qs := by
  have long : ∀ {p : List Char} {k : Nat} {t : List Char}, sep k → ¬ NoRun n (p ++ (List.replicate k '\n' ++ t)) := by
    intro p k t hk h
    apply h
    refine ⟨p, List.replicate (k - n) '\n' ++ t, ?_⟩
    have : k = n + (k - n) := by have := hs k hk; omega
    have e : List.replicate k '\n' = List.replicate n '\n' ++ List.replicate (k - n) '\n' := by rw [← List.replicate_add, ← this]
    rw [e]; simp only [List.append_assoc]
  induction h with
  | last h1 =>
    intro qs h'
    cases h' with
    | last => rfl
    | more _ _ hk => exact absurd h1 (long hk)
  | @more p k t ps h1 h2 h3 h4 h5 ih =>
    intro qs h'
    generalize he : p ++ (List.replicate k '\n' ++ t) = s at h'
    cases h' with
    | last h6 => rw [← he] at h6; exact absurd h6 (long h3)
    | more g1 g2 g3 g4 g5 =>
      obtain ⟨rfl, rfl, rfl⟩ := cut_unique h1 g1 h2 g2 (hs _ h3) (hs _ g3) hn h4 g4 he
      rw [ih g5]

theorem Paragraphs.unique {s : List Char} {ps qs : List (List Char)} (h : Paragraphs s ps) (h' : Paragraphs s qs) : ps = qs :=
  Pieces.unique (by decide) (fun _ h => h) h h'
theorem Blocks.unique {s : List Char} {ps qs : List (List Char)} (h : Blocks s ps) (h' : Blocks s qs) : ps = qs :=
  Pieces.unique (by decide) (fun _ h => by omega) h h'

/-! ## Visible characters -/

theorem ink_append (sp : Char → Bool) (s t : List Char) : ink sp (s ++ t) = ink sp s ++ ink sp t := List.filter_append ..
theorem ink_white {sp : Char → Bool} {s : List Char} (h : ∀ c ∈ s, sp c = true) : ink sp s = [] := by
  apply List.filter_eq_nil_iff.2
  intro c hc; simp [h c hc]

theorem Pieces.ink {n : Nat} {sep : Nat → Prop} {sp : Char → Bool} (hnl : sp '\n' = true) {s : List Char} {ps : List (List Char)} (h : Pieces n sep s ps) :
    ink sp ps.flatten = ink sp s := by
  induction h with
  | last => simp
  | more _ _ _ _ _ ih =>
    rw [List.flatten_cons, ink_append, ih, ink_append, ink_append, ink_white (s := List.replicate _ '\n'), List.nil_append]
    intro c hc
    rw [List.eq_of_mem_replicate hc]; exact hnl

theorem ink_dropWhile (sp : Char → Bool) (s : List Char) : ink sp (s.dropWhile sp) = ink sp s := by
  induction s with
  | nil => rfl
  | cons c t ih =>
    rw [List.dropWhile_cons]
    split
    · rename_i h; rw [ih]; simp [ink, h]
    · rfl

theorem ink_reverse (sp : Char → Bool) (s : List Char) : ink sp s.reverse = (ink sp s).reverse := List.filter_reverse ..

theorem ink_strip (sp : Char → Bool) (s : List Char) : ink sp (pyStrip sp s) = ink sp s := by
  rw [pyStrip, ink_reverse, ink_dropWhile, ink_reverse, List.reverse_reverse, ink_dropWhile]

theorem ink_collapse {sp : Char → Bool} (h : ∀ c, reSpace c = true → sp c = true) (s : List Char) : ∀ r, ink sp (collapse r s) = ink sp s := by
  have hb : sp ' ' = true := h _ rfl
  induction s with
  | nil => intro r; rfl
  | cons c t ih =>
    intro r
    rw [collapse]
    split
    · rename_i hc
      split
      · rw [ih]; simp [ink, h c hc]
      · have := ih true
        simp only [ink, List.filter_cons, hb, h c hc] at this ⊢
        simpa using this
    · have := ih false
      simp only [ink, List.filter_cons] at this ⊢
      rw [this]

theorem ink_pyJoin {sp : Char → Bool} (hnl : sp '\n' = true) (ls : List (List Char)) : ink sp (pyJoin ['\n'] ls) = ink sp ls.flatten := by
  induction ls with
  | nil => rfl
  | cons a t ih =>
    cases t with
    | nil => simp [pyJoin]
    | cons b t =>
      have e : ink sp ['\n'] = [] := by simp [ink, hnl]
      rw [pyJoin, ink_append, ink_append, ih, e, List.append_nil, ← ink_append, ← List.flatten_cons]

theorem ink_pySplit {sp : Char → Bool} (hnl : sp '\n' = true) (s : List Char) : ink sp (pySplit '\n' s).flatten = ink sp s := by
  induction s with
  | nil => rfl
  | cons x t ih =>
    rw [pySplit]
    split
    · rename_i h; subst h
      rw [List.flatten_cons, List.nil_append, ih]; simp [ink, hnl]
    · split
      · rename_i h; rw [h] at ih; simp at ih
        simp only [ink, List.flatten_cons, List.flatten_nil, List.append_nil, List.filter_cons, List.filter_nil] at ih ⊢
        rw [← ih]
      · rename_i a r h
        rw [h] at ih
        simp only [ink, List.flatten_cons, List.cons_append, List.filter_cons] at ih ⊢
        rw [ih]

theorem ink_splitlinesGo {sp : Char → Bool} (h : ∀ c, endsLine c = true → sp c = true) (s : List Char) : ∀ cur cr,
    ink sp (splitlinesGo cur cr s).flatten = (if cr && s.head? == some '\n' then [] else ink sp cur.reverse) ++ ink sp s := by
  induction s with
  | nil =>
    intro cur cr
    rw [splitlinesGo]
    split
    · rename_i hc; subst hc; simp [ink]
    · simp [ink]
  | cons c t ih =>
    intro cur cr
    rw [splitlinesGo]
    by_cases h1 : (cr && c == '\n') = true
    · rw [if_pos h1]
      have hc : c = '\n' := by simp at h1; exact h1.2
      subst hc
      have hcr : cr = true := by simp at h1; exact h1
      rw [ih]
      simp [hcr, ink, h '\n' rfl]
    · rw [if_neg h1]
      have h1' : ¬ (cr && (c :: t).head? == some '\n') = true := by simpa using h1
      rw [if_neg h1']
      split
      · rename_i h2
        rw [List.flatten_cons, ink_append, ih]
        simp [ink, h c h2]
      · rw [ih]
        simp [ink, List.filter_cons]
        split <;> simp

theorem ink_splitlines {sp : Char → Bool} (h : ∀ c, endsLine c = true → sp c = true) (s : List Char) : ink sp (splitlines s).flatten = ink sp s := by
  rw [splitlines, ink_splitlinesGo h]; simp [ink]

/-! ## Removing the common indentation -/

theorem commonPrefix_left (s : List Char) : ∀ t, commonPrefix s t <+: s := by
  induction s with
  | nil => intro t; cases t <;> exact List.nil_prefix
  | cons a s ih =>
    intro t
    cases t with
    | nil => exact List.nil_prefix
    | cons b t =>
      rw [commonPrefix]
      split
      · exact List.cons_prefix_cons.2 ⟨rfl, ih t⟩
      · exact List.nil_prefix

theorem commonPrefix_right (s : List Char) : ∀ t, commonPrefix s t <+: t := by
  induction s with
  | nil => intro t; cases t <;> exact List.nil_prefix
  | cons a s ih =>
    intro t
    cases t with
    | nil => exact List.nil_prefix
    | cons b t =>
      rw [commonPrefix]
      split
      · rename_i e; exact List.cons_prefix_cons.2 ⟨e, ih t⟩
      · exact List.nil_prefix

theorem commonPrefix_greatest {m : List Char} : ∀ {s t : List Char}, m <+: s → m <+: t → m <+: commonPrefix s t := by
  induction m with
  | nil => intros; exact List.nil_prefix
  | cons a m ih =>
    intro s t hs ht
    cases s with
    | nil => simp at hs
    | cons b s =>
      cases t with
      | nil => simp at ht
      | cons c t =>
        obtain ⟨e1, hs'⟩ := List.cons_prefix_cons.1 hs
        obtain ⟨e2, ht'⟩ := List.cons_prefix_cons.1 ht
        rw [commonPrefix, if_pos (e1.symm.trans e2)]
        exact List.cons_prefix_cons.2 ⟨e1, ih hs' ht'⟩

theorem marginOf_prefix : ∀ (ls : List (List Char)) (l : List Char), l ∈ ls → marginOf ls <+: l.takeWhile indenting
  | [], _, h => by simp at h
  | [l], l', h => by rw [List.mem_singleton] at h; subst h; exact List.prefix_refl _
  | l :: m :: t, l', h => by
    rw [marginOf]
    rcases List.mem_cons.1 h with rfl | h
    · exact commonPrefix_left _ _
    · exact (commonPrefix_right _ _).trans (marginOf_prefix (m :: t) l' h)

theorem marginOf_greatest {m : List Char} : ∀ (ls : List (List Char)), ls ≠ [] → (∀ l ∈ ls, m <+: l.takeWhile indenting) → m <+: marginOf ls
  | [], h, _ => absurd rfl h
  | [l], _, h => h l (by simp)
  | l :: l' :: t, _, h => by
    rw [marginOf]
    exact commonPrefix_greatest (h l (by simp)) (marginOf_greatest (l' :: t) (by simp) fun x hx => h x (List.mem_cons_of_mem _ hx))

theorem marginOf_blank (ls : List (List Char)) : ∀ c ∈ marginOf ls, indenting c = true := by
  intro c hc
  cases ls with
  | nil => simp [marginOf] at hc
  | cons l t =>
    have := (marginOf_prefix (l :: t) l (by simp)).subset hc
    have hh := List.all_takeWhile (p := indenting) (l := l)
    rw [List.all_eq_true] at hh
    exact hh c this

theorem ink_cutMargin {sp : Char → Bool} {m : List Char} (h : ∀ c ∈ m, sp c = true) (l : List Char) : ink sp (cutMargin m l) = ink sp l := by
  rw [cutMargin]
  split
  · rename_i hp
    obtain ⟨x, rfl⟩ := List.isPrefixOf_iff_prefix.1 hp
    rw [List.drop_left, ink_append, ink_white h, List.nil_append]
  · rfl

theorem ink_blankOut {sp : Char → Bool} (h : ∀ c, indenting c = true → sp c = true) (l : List Char) : ink sp (blankOut l) = ink sp l := by
  rw [blankOut]
  split
  · rename_i ha
    rw [List.all_eq_true] at ha
    rw [ink_white fun c hc => h c (ha c hc)]; rfl
  · rfl

theorem ink_flatten_map {sp : Char → Bool} {f : List Char → List Char} (h : ∀ l, ink sp (f l) = ink sp l) (ls : List (List Char)) :
    ink sp (ls.map f).flatten = ink sp ls.flatten := by
  induction ls with
  | nil => rfl
  | cons a t ih => rw [List.map_cons, List.flatten_cons, ink_append, ih, h, ← ink_append, ← List.flatten_cons]

theorem indenting_reSpace {c : Char} (h : indenting c = true) : reSpace c = true := by
  simp only [indenting, Bool.or_eq_true, beq_iff_eq] at h
  rcases h with rfl | rfl <;> rfl

theorem ink_dedent {sp : Char → Bool} (h : ∀ c, reSpace c = true → sp c = true) (s : List Char) : ink sp (dedent s) = ink sp s := by
  have hnl : sp '\n' = true := h _ rfl
  have hi : ∀ c, indenting c = true → sp c = true := fun c hc => h c (indenting_reSpace hc)
  rw [dedent, ink_pyJoin hnl, dedentLines, ink_flatten_map (ink_cutMargin fun c hc => hi c (marginOf_blank _ c hc)), ink_flatten_map (ink_blankOut hi),
    ink_pySplit hnl]

/-- The lines of a dedented text: the common indentation is removed. -/
theorem dedentLines_dedented (ls : List (List Char)) : ∃ m, Dedented indenting m ls (dedentLines ls) ∧
    ∀ m', (∃ l ∈ ls, l.all indenting = false) → (∀ c ∈ m', indenting c = true) → (∀ l ∈ ls, l.all indenting = false → m' <+: l) → m' <+: m := by
  generalize hm : marginOf ((ls.map blankOut).filter fun l => !l.isEmpty) = m
  have key : ∀ l, l.all indenting = false → blankOut l = l := by intro l h; rw [blankOut, if_neg (by simp [h])]
  have mem : ∀ l ∈ ls, l.all indenting = false → l ∈ (ls.map blankOut).filter fun l => !l.isEmpty := by
    intro l hl h
    refine List.mem_filter.2 ⟨List.mem_map.2 ⟨l, hl, key l h⟩, ?_⟩
    cases l with
    | nil => simp at h
    | cons => rfl
  refine ⟨m, ⟨by rw [← hm]; exact marginOf_blank _, ?_⟩, ?_⟩
  · rw [dedentLines, hm, List.map_map]
    rw [List.forall₂_map_right_iff]
    refine List.forall₂_same.2 ?_
    intro l hl
    show (_ ∧ cutMargin m (blankOut l) = []) ∨ (_ ∧ l = m ++ cutMargin m (blankOut l))
    cases hb : l.all indenting with
    | true =>
      refine .inl ⟨rfl, ?_⟩
      rw [blankOut, if_pos hb, cutMargin]
      split <;> simp
    | false =>
      refine .inr ⟨rfl, ?_⟩
      rw [key l hb]
      have hp : m <+: l := by
        rw [← hm]
        exact (marginOf_prefix _ l (mem l hl hb)).trans (List.takeWhile_prefix _)
      obtain ⟨x, rfl⟩ := hp
      rw [cutMargin, if_pos (List.isPrefixOf_iff_prefix.2 (List.prefix_append _ _)), List.drop_left]
  · rintro m' ⟨l, hl, hb⟩ hbl hpre
    rw [← hm]
    refine marginOf_greatest _ (List.ne_nil_of_mem (mem l hl hb)) ?_
    intro x hx
    obtain ⟨hx, hne⟩ := List.mem_filter.1 hx
    obtain ⟨y, hy, rfl⟩ := List.mem_map.1 hx
    have hby : y.all indenting = false := by
      cases hb : y.all indenting with
      | true => rw [blankOut, if_pos hb] at hne; simp at hne
      | false => rfl
    rw [key y hby]
    obtain ⟨z, rfl⟩ := hpre y hy hby
    rw [List.takeWhile_append_of_pos hbl]
    exact List.prefix_append _ _

/-! ## Paragraphs -/

theorem rawPara_iff {p body : List Char} : rawPara p = some body ↔
    ∃ w rest, (∀ c ∈ w, reSpace c = true) ∧ p = w ++ ('R' :: '|' :: rest) ∧ body = List.replicate (w.length + 2) ' ' ++ rest := by
  constructor
  · intro h
    unfold rawPara at h
    split at h
    · rename_i t ht
      injection h with h
      refine ⟨p.takeWhile reSpace, t, ?_, ?_, h.symm⟩
      · have := List.all_takeWhile (p := reSpace) (l := p)
        rwa [List.all_eq_true] at this
      · rw [← ht, List.takeWhile_append_dropWhile]
    · simp at h
  · rintro ⟨w, rest, hw, rfl, rfl⟩
    unfold rawPara
    have h1 : (w ++ ('R' :: '|' :: rest)).dropWhile reSpace = 'R' :: '|' :: rest := by
      rw [List.dropWhile_append_of_pos hw]
      rw [List.dropWhile_cons_of_neg (by decide)]
    have h2 : (w ++ ('R' :: '|' :: rest)).takeWhile reSpace = w := by
      rw [List.takeWhile_append_of_pos hw]
      rw [List.takeWhile_cons_of_neg (by decide), List.append_nil]
    rw [h1, h2]
    rfl

theorem blockLines_ok {lib : WrapLib} {width : Int} {indent : List Char} : ∀ {bs : List (List Char)} {ls : List (List Char)},
    blockLines lib width indent bs = .ok ls → ∃ rs, List.Forall₂ (fun b r => lib.wrap (pyStrip lib.space (collapse false b)) width indent = .ok r) bs rs ∧
      ls = rs.flatten := by
  intro bs
  induction bs with
  | nil => intro ls h; injection h with h; subst h; exact ⟨[], .nil, rfl⟩
  | cons b t ih =>
    intro ls h
    obtain ⟨r, h1, h⟩ := Except_bind_ok.1 h
    obtain ⟨rest, h2, h⟩ := Except_bind_ok.1 h
    injection h with h; subst h
    obtain ⟨rs, h3, rfl⟩ := ih h2
    exact ⟨r :: rs, .cons h1 h3, rfl⟩

theorem parasLines_ok {lib : WrapLib} {width : Int} {indent : List Char} : ∀ {ps : List (List Char)} {ls : List (List Char)},
    parasLines lib width indent ps = .ok ls → ∃ rs, List.Forall₂ (fun p r => paraLines lib width indent p = .ok r) ps rs ∧
      ls = rs.flatMap (· ++ [[]]) := by
  intro ps
  induction ps with
  | nil => intro ls h; injection h with h; subst h; exact ⟨[], .nil, rfl⟩
  | cons b t ih =>
    intro ls h
    obtain ⟨r, h1, h⟩ := Except_bind_ok.1 h
    obtain ⟨rest, h2, h⟩ := Except_bind_ok.1 h
    injection h with h; subst h
    obtain ⟨rs, h3, rfl⟩ := ih h2
    exact ⟨r :: rs, .cons h1 h3, by simp⟩

end Verif
