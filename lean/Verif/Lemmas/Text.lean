import Verif.Spec.Text
import Mathlib.Tactic.Common
/-! # Lemmas about `sanitize` and `fmt` -/
namespace Verif

theorem replaceGo_skip (pat rep u s : List Char) : replaceGo pat rep u.length (u ++ s) = replaceGo pat rep 0 s := by
  induction u with
  | nil => rfl
  | cons c u ih => simpa [replaceGo] using ih

theorem pyReplace_match {pat : List Char} (hp : pat ≠ []) (rep s : List Char) :
    pyReplace (pat ++ s) pat rep = rep ++ pyReplace s pat rep := by
  cases pat with
  | nil => exact absurd rfl hp
  | cons c p =>
    unfold pyReplace
    have h : (c :: p).isPrefixOf (c :: (p ++ s)) = true := by
      rw [List.isPrefixOf_iff_prefix]; exact ⟨s, rfl⟩
    rw [List.cons_append, replaceGo, if_pos h]
    simp only [List.length_cons, Nat.add_sub_cancel, replaceGo_skip]

theorem pyReplace_step {pat : List Char} {c : Char} {s : List Char} (rep : List Char) (h : ¬ pat <+: c :: s) :
    pyReplace (c :: s) pat rep = c :: pyReplace s pat rep := by
  unfold pyReplace
  rw [replaceGo, if_neg]
  rwa [List.isPrefixOf_iff_prefix]

theorem pyReplace_nil (pat rep : List Char) : pyReplace [] pat rep = [] := rfl

/-- Replacing a single character. -/
theorem pyReplace_single (x : Char) (rep s : List Char) :
    pyReplace s [x] rep = s.flatMap fun c => if c = x then rep else [c] := by
  induction s with
  | nil => rfl
  | cons c s ih =>
    by_cases h : c = x
    · subst h
      rw [show c :: s = [c] ++ s from rfl, pyReplace_match (by simp), ih]
      simp
    · rw [pyReplace_step rep (by simp [List.prefix_cons_iff]; exact fun h' => h h'.symm), ih]
      simp [h]

/-- The form of a message after some of the marks have been replaced: `M x = some r` if `@x` has become `r`. -/
def sanGo (M : Char → Option (List Char)) : Bool → List Char → List Char
  | _, [] => []
  | true, _ :: t => sanGo M false t
  | false, c :: t =>
    if c = '@' then
      match t.head?.bind M with
      | some r => r ++ sanGo M true t
      | none => '@' :: '@' :: sanGo M false t
    else if c = '{' ∨ c = '}' then c :: c :: sanGo M false t
    else c :: sanGo M false t

/-- The replacements look like `@{...}` without further `@`. -/
def MarkForm (M : Char → Option (List Char)) : Prop := ∀ c r, M c = some r → ∃ w, r = '@' :: '{' :: w ∧ '@' ∉ w

theorem sanGo_no_mark {M : Char → Option (List Char)} (hM : MarkForm M) {x : Char} (hx : x ≠ '@') (hx' : x ≠ '{') (m : List Char) :
    ¬ ['@', x] <+: sanGo M false m := by
  cases m with
  | nil => simp [sanGo]
  | cons c t =>
    unfold sanGo
    split
    · split
      · rename_i r h
        obtain ⟨d, _, hd⟩ := Option.bind_eq_some_iff.1 h
        obtain ⟨w, rfl, _⟩ := hM _ _ hd
        simp [List.cons_prefix_cons, hx']
      · simp [List.cons_prefix_cons, hx]
    · rename_i hc
      split <;> simp [List.cons_prefix_cons, Ne.symm hc]

theorem sanGo_head {M : Char → Option (List Char)} (hM : MarkForm M) {x : Char} (hx : x ≠ '@') {m : List Char}
    (h : m.head? ≠ some x) : (sanGo M false m).head? ≠ some x := by
  cases m with
  | nil => simp [sanGo]
  | cons c t =>
    unfold sanGo
    split
    · split
      · rename_i r h
        obtain ⟨d, _, hd⟩ := Option.bind_eq_some_iff.1 h
        obtain ⟨w, rfl, _⟩ := hM _ _ hd
        simp [Ne.symm hx]
      · simp [Ne.symm hx]
    · split <;> simpa using h

theorem pyReplace_free {pat : List Char} (rep : List Char) {w : List Char} (s : List Char) (hp : pat.head? = some '@')
    (hw : '@' ∉ w) : pyReplace (w ++ s) pat rep = w ++ pyReplace s pat rep := by
  induction w with
  | nil => rfl
  | cons c w ih =>
    simp only [List.mem_cons, not_or] at hw
    rw [List.cons_append, pyReplace_step, ih hw.2, List.cons_append]
    cases pat with
    | nil => simp at hp
    | cons d p => simp at hp; subst hp; simp [List.cons_prefix_cons, hw.1]

theorem sanGo_replace {M : Char → Option (List Char)} (hM : MarkForm M) {x : Char} (hx : x ≠ '@') (hx' : x ≠ '{') (hx2 : x ≠ '}')
    (hMx : M x = none) (r : List Char) (skip : Bool) (m : List Char) :
    pyReplace (sanGo M skip m) ['@', '@', x] r = sanGo (fun c => if c = x then some r else M c) skip m := by
  induction m generalizing skip with
  | nil => cases skip <;> rfl
  | cons c t ih =>
    cases skip with
    | true => simpa [sanGo] using ih false
    | false =>
      by_cases hc : c = '@'
      · subst hc
        cases t with
        | nil =>
          have e : ∀ M', sanGo M' false ['@'] = ['@', '@'] := by intro M'; simp [sanGo]
          rw [e, e, pyReplace_step, pyReplace_step, pyReplace_nil] <;> simp [List.cons_prefix_cons]
        | cons d t =>
          by_cases hd : d = x
          · subst hd
            have e1 : sanGo M false ('@' :: d :: t) = '@' :: '@' :: d :: sanGo M false t := by
              simp [sanGo, hMx, hx, hx', hx2]
            have e2 : sanGo (fun c => if c = d then some r else M c) false ('@' :: d :: t) =
                r ++ sanGo (fun c => if c = d then some r else M c) false t := by
              simp [sanGo]
            rw [e1, e2, show '@' :: '@' :: d :: sanGo M false t = ['@', '@', d] ++ sanGo M false t from rfl,
              pyReplace_match (by simp)]
            have := ih true
            simp only [sanGo] at this
            rw [this]
          · cases hMd : M d with
            | some r' =>
              have e1 : sanGo M false ('@' :: d :: t) = r' ++ sanGo M true (d :: t) := by simp [sanGo, hMd]
              have e2 : sanGo (fun c => if c = x then some r else M c) false ('@' :: d :: t) =
                  r' ++ sanGo (fun c => if c = x then some r else M c) true (d :: t) := by
                simp [sanGo, hMd, hd]
              obtain ⟨w, rfl, hw⟩ := hM _ _ hMd
              rw [e1, e2, List.cons_append, List.cons_append, pyReplace_step _ (by simp [List.cons_prefix_cons]),
                pyReplace_step _ (by simp [List.cons_prefix_cons]), pyReplace_free _ _ rfl hw, ih true]
              simp
            | none =>
              have e1 : sanGo M false ('@' :: d :: t) = '@' :: '@' :: sanGo M false (d :: t) := by simp [sanGo, hMd]
              have e2 : sanGo (fun c => if c = x then some r else M c) false ('@' :: d :: t) =
                  '@' :: '@' :: sanGo (fun c => if c = x then some r else M c) false (d :: t) := by
                simp [sanGo, hMd, hd]
              have hh := sanGo_head hM hx (m := d :: t) (by simpa using hd)
              have hn := sanGo_no_mark hM hx hx' (d :: t)
              rw [e1, e2, pyReplace_step, pyReplace_step, ih false]
              · intro h
                apply hn
                rw [List.cons_prefix_cons] at h
                exact h.2
              · intro h
                rw [List.cons_prefix_cons, List.cons_prefix_cons] at h
                apply hh
                obtain ⟨w, hw⟩ := h.2.2
                rw [← hw]; rfl
      · have e1 : ∀ M', sanGo M' false (c :: t) = (if c = '{' ∨ c = '}' then [c, c] else [c]) ++ sanGo M' false t := by
          intro M'
          by_cases hb : c = '{' ∨ c = '}' <;> simp [sanGo, hc, hb]
        rw [e1, e1, pyReplace_free _ _ rfl, ih false]
        split <;> simp [Ne.symm hc]

theorem sanGo_fmt {M : Char → Option (List Char)} (hM : MarkForm M) {x : Char} (hx : x ≠ '@') (hx' : x ≠ '{')
    (hMx : ∀ c r, M c = some r → True) (hdef : ∃ r, M x = some r) (rep : List Char) (skip : Bool) (m : List Char) :
    pyReplace (sanGo M skip m) ['@', x] rep = sanGo M skip m := by
  induction m generalizing skip with
  | nil => cases skip <;> rfl
  | cons c t ih =>
    cases skip with
    | true => simpa [sanGo] using ih false
    | false =>
      by_cases hc : c = '@'
      · subst hc
        cases hr : t.head?.bind M with
        | some r' =>
          have e1 : sanGo M false ('@' :: t) = r' ++ sanGo M true t := by simp [sanGo, hr]
          obtain ⟨d, _, hd⟩ := Option.bind_eq_some_iff.1 hr
          obtain ⟨w, rfl, hw⟩ := hM _ _ hd
          rw [e1, List.cons_append, List.cons_append, pyReplace_step _ (by simp [List.cons_prefix_cons, hx']),
            pyReplace_step _ (by simp [List.cons_prefix_cons]), pyReplace_free _ _ rfl hw, ih true]
        | none =>
          have e1 : sanGo M false ('@' :: t) = '@' :: '@' :: sanGo M false t := by simp [sanGo, hr]
          have hne : t.head? ≠ some x := by
            intro h
            obtain ⟨r, hr'⟩ := hdef
            rw [h] at hr; simp [hr'] at hr
          have hh := sanGo_head hM hx hne
          rw [e1, pyReplace_step, pyReplace_step, ih false]
          · intro h
            rw [List.cons_prefix_cons] at h
            obtain ⟨w, hw⟩ := h.2
            apply hh; rw [← hw]; rfl
          · simp [List.cons_prefix_cons, hx]
      · have e1 : sanGo M false (c :: t) = (if c = '{' ∨ c = '}' then [c, c] else [c]) ++ sanGo M false t := by
          by_cases hb : c = '{' ∨ c = '}' <;> simp [sanGo, hc, hb]
        rw [e1, pyReplace_free _ _ rfl, ih false]
        split <;> simp [Ne.symm hc]

/-- The final marks. -/
def marks : Char → Option (List Char) := fun c =>
  if c = '|' then some "@{atbar}".toList else if c = '_' then some "@{atunderscore}".toList
  else if c = '/' then some "@{atfwdslash}".toList else if c = '!' then some "@{atexclimation}".toList else none

theorem marks_form : MarkForm marks := by
  intro c r h
  unfold marks at h
  split at h
  · simp at h; subst h; exact ⟨_, rfl, by decide⟩
  split at h
  · simp at h; subst h; exact ⟨_, rfl, by decide⟩
  split at h
  · simp at h; subst h; exact ⟨_, rfl, by decide⟩
  split at h
  · simp at h; subst h; exact ⟨_, rfl, by decide⟩
  · simp at h

theorem sanitize_eq (m : List Char) : sanitize m = sanGo marks false m := by
  unfold sanitize
  have h0 : pyReplace (pyReplace (pyReplace m "@".toList "@@".toList) "{".toList "{{".toList) "}".toList "}}".toList =
      sanGo (fun _ => none) false m := by
    rw [show "@".toList = ['@'] from rfl, show "{".toList = ['{'] from rfl, show "}".toList = ['}'] from rfl,
      pyReplace_single, pyReplace_single, pyReplace_single]
    induction m with
    | nil => rfl
    | cons c t ih =>
      simp only [List.flatMap_cons, List.flatMap_append, ih]
      by_cases h1 : c = '@'
      · subst h1; simp [sanGo]
      · by_cases h2 : c = '{'
        · subst h2; simp [sanGo]
        · by_cases h3 : c = '}'
          · subst h3; simp [sanGo]
          · simp [sanGo, h1, h2, h3]
  simp only [h0]
  rw [show "@@!".toList = ['@', '@', '!'] from rfl, show "@@/".toList = ['@', '@', '/'] from rfl,
    show "@@_".toList = ['@', '@', '_'] from rfl, show "@@|".toList = ['@', '@', '|'] from rfl]
  have f0 : MarkForm (fun _ => none) := by intro c r h; simp at h
  rw [sanGo_replace f0 (by decide) (by decide) (by decide) rfl]
  have f1 : ∀ M x r, MarkForm M → (∃ w, r = '@' :: '{' :: w ∧ '@' ∉ w) → MarkForm (fun c => if c = x then some r else M c) := by
    intro M x r hM hr c r' h
    simp only at h
    split at h
    · simp at h; subst h; exact hr
    · exact hM c r' h
  have g1 := f1 _ '!' "@{atexclimation}".toList f0 ⟨_, rfl, by decide⟩
  rw [sanGo_replace g1 (by decide) (by decide) (by decide) (by simp)]
  have g2 := f1 _ '/' "@{atfwdslash}".toList g1 ⟨_, rfl, by decide⟩
  rw [sanGo_replace g2 (by decide) (by decide) (by decide) (by simp)]
  have g3 := f1 _ '_' "@{atunderscore}".toList g2 ⟨_, rfl, by decide⟩
  rw [sanGo_replace g3 (by decide) (by decide) (by decide) (by simp)]
  rfl

theorem fmtReplace_sanitized (m : List Char) : fmtReplace (sanitize m) = sanitize m := by
  unfold fmtReplace
  rw [sanitize_eq]
  rw [show "@!".toList = ['@', '!'] from rfl, show "@/".toList = ['@', '/'] from rfl,
    show "@_".toList = ['@', '_'] from rfl, show "@|".toList = ['@', '|'] from rfl]
  simp only
  rw [sanGo_fmt marks_form (by decide) (by decide) (fun _ _ _ => trivial) ⟨_, rfl⟩,
    sanGo_fmt marks_form (by decide) (by decide) (fun _ _ _ => trivial) ⟨_, rfl⟩,
    sanGo_fmt marks_form (by decide) (by decide) (fun _ _ _ => trivial) ⟨_, rfl⟩,
    sanGo_fmt marks_form (by decide) (by decide) (fun _ _ _ => trivial) ⟨_, rfl⟩]

/-- What a sanitised message shows, when the table has text `T x` for the mark `@x`. -/
def showGo (T : Char → Option (List Char)) : Bool → List Char → List Char
  | _, [] => []
  | true, _ :: t => showGo T false t
  | false, c :: t =>
    if c = '@' then
      match t.head?.bind T with
      | some r => r ++ showGo T true t
      | none => '@' :: showGo T false t
    else if c = '{' ∨ c = '}' then c :: c :: showGo T false t
    else c :: showGo T false t

/-- The texts a table has for the four marks. -/
def markTexts (t1 t2 t3 t4 : List Char) : Char → Option (List Char) := fun c =>
  if c = '|' then some t4 else if c = '_' then some t3 else if c = '/' then some t2 else if c = '!' then some t1 else none

theorem substGo_braced {a : AnsiTable} {n : Nat} {e : Char} {w v s : List Char} (he : idStart e = true)
    (hw : ∀ c ∈ w, idChar c = true) (ha : a (e :: w) = some v) :
    substGo a (n + 1) ('@' :: '{' :: e :: w ++ '}' :: s) = (substGo a n s).map (v ++ ·) := by
  have h1 : idChar '}' = false := by decide
  have t1 : (w ++ '}' :: s).takeWhile idChar = w := by
    rw [List.takeWhile_append_of_pos hw]; simp [h1]
  have t2 : (w ++ '}' :: s).dropWhile idChar = '}' :: s := by
    rw [List.dropWhile_append_of_pos hw]; simp [h1]
  simp only [List.cons_append, substGo, if_true, show ('{' = '@') = False by decide, show idStart '{' = false by decide, if_false, he,
    t1, t2, ansiGet, ha, bind, Except.bind, pure, Except.pure, Bool.false_eq_true]
  cases substGo a n s <;> rfl

theorem subst_sanitized {a : AnsiTable} {t1 t2 t3 t4 : List Char} (h1 : a "atexclimation".toList = some t1)
    (h2 : a "atfwdslash".toList = some t2) (h3 : a "atunderscore".toList = some t3) (h4 : a "atbar".toList = some t4)
    (skip : Bool) (m : List Char) (n : Nat) (hn : (sanGo marks skip m).length ≤ n) :
    substGo a n (sanGo marks skip m) = .ok (showGo (markTexts t1 t2 t3 t4) skip m) := by
  induction m generalizing skip n with
  | nil => cases skip <;> cases n <;> rfl
  | cons c t ih =>
    cases skip with
    | true => simpa [sanGo, showGo] using ih false n (by simpa [sanGo] using hn)
    | false =>
      by_cases hc : c = '@'
      · subst hc
        cases t with
        | nil =>
          have e1 : sanGo marks false ['@'] = ['@', '@'] := by simp [sanGo]
          rw [e1] at hn ⊢
          cases n with
          | zero => simp at hn
          | succ n => cases n <;> rfl
        | cons d t =>
          cases hd : marks d with
          | none =>
            have hT : markTexts t1 t2 t3 t4 d = none := by
              unfold marks at hd; unfold markTexts
              repeat' split at hd
              all_goals simp_all
            have e1 : sanGo marks false ('@' :: d :: t) = '@' :: '@' :: sanGo marks false (d :: t) := by simp [sanGo, hd]
            have e2 : showGo (markTexts t1 t2 t3 t4) false ('@' :: d :: t) = '@' :: showGo (markTexts t1 t2 t3 t4) false (d :: t) := by
              simp [showGo, hT]
            rw [e1] at hn ⊢
            rw [e2]
            cases n with
            | zero => simp at hn
            | succ n =>
              have := ih false n (by simp at hn; omega)
              simp only [substGo, if_true, this, bind, Except.bind, pure, Except.pure]
          | some r =>
            have e1 : sanGo marks false ('@' :: d :: t) = r ++ sanGo marks true (d :: t) := by simp [sanGo, hd]
            rw [e1] at hn ⊢
            cases n with
            | zero => 
              obtain ⟨w, rfl, _⟩ := marks_form _ _ hd
              simp at hn
            | succ n =>
              have hrec := ih true n (by
                obtain ⟨w, rfl, _⟩ := marks_form _ _ hd
                simp at hn; simp [sanGo] at hn ⊢; omega)
              have fin : ∀ v, markTexts t1 t2 t3 t4 d = some v →
                  substGo a (n + 1) (r ++ sanGo marks true (d :: t)) =
                    (substGo a n (sanGo marks true (d :: t))).map (v ++ ·) →
                  substGo a (n + 1) (r ++ sanGo marks true (d :: t)) = .ok (showGo (markTexts t1 t2 t3 t4) false ('@' :: d :: t)) := by
                intro v hv h
                rw [h, hrec]
                simp [Except.map, showGo, hv]
              unfold marks at hd
              split at hd
              · rename_i hdd
                simp only [Option.some.injEq] at hd; subst hd
                refine fin t4 (by simp [markTexts, hdd]) ?_
                exact substGo_braced (e := 'a') (w := "tbar".toList) (by decide) (by decide) h4
              split at hd
              · rename_i hdd
                simp only [Option.some.injEq] at hd; subst hd
                refine fin t3 (by simp [markTexts, hdd]) ?_
                exact substGo_braced (e := 'a') (w := "tunderscore".toList) (by decide) (by decide) h3
              split at hd
              · rename_i hdd
                simp only [Option.some.injEq] at hd; subst hd
                refine fin t2 (by simp [markTexts, hdd]) ?_
                exact substGo_braced (e := 'a') (w := "tfwdslash".toList) (by decide) (by decide) h2
              split at hd
              · rename_i hdd
                simp only [Option.some.injEq] at hd; subst hd
                refine fin t1 (by simp [markTexts, hdd]) ?_
                exact substGo_braced (e := 'a') (w := "texclimation".toList) (by decide) (by decide) h1
              · simp at hd
      · have step : ∀ (n : Nat) (c : Char) (s : List Char), c ≠ '@' → substGo a (n + 1) (c :: s) = (substGo a n s).map (c :: ·) := by
          intro n c s hc
          simp only [substGo, if_neg hc, bind, Except.bind, pure, Except.pure]
          cases substGo a n s <;> rfl
        by_cases hb : c = '{' ∨ c = '}'
        · have e1 : sanGo marks false (c :: t) = c :: c :: sanGo marks false t := by simp [sanGo, hc, hb]
          have e2 : showGo (markTexts t1 t2 t3 t4) false (c :: t) = c :: c :: showGo (markTexts t1 t2 t3 t4) false t := by
            simp [showGo, hc, hb]
          rw [e1] at hn ⊢; rw [e2]
          match n with
          | 0 => simp at hn
          | 1 => simp at hn
          | n + 2 =>
            rw [step _ _ _ hc, step _ _ _ hc, ih false n (by simp at hn; omega)]; rfl
        · have e1 : sanGo marks false (c :: t) = c :: sanGo marks false t := by simp [sanGo, hc, hb]
          have e2 : showGo (markTexts t1 t2 t3 t4) false (c :: t) = c :: showGo (markTexts t1 t2 t3 t4) false t := by
            simp [showGo, hc, hb]
          rw [e1] at hn ⊢; rw [e2]
          match n with
          | 0 => simp at hn
          | n + 1 => rw [step _ _ _ hc, ih false n (by simp at hn; omega)]; rfl

/-- `fmt` of a sanitised message, for any table with the four mark entries. -/
theorem fmt_sanitized {a : AnsiTable} {t1 t2 t3 t4 reset : List Char} (h1 : a "atexclimation".toList = some t1)
    (h2 : a "atfwdslash".toList = some t2) (h3 : a "atunderscore".toList = some t3) (h4 : a "atbar".toList = some t4)
    (hr : a "reset".toList = some reset) (m : List Char) :
    fmt a (sanitize m) = .ok (showGo (markTexts t1 t2 t3 t4) false m ++ reset) := by
  unfold fmt subst
  rw [fmtReplace_sanitized, sanitize_eq, subst_sanitized h1 h2 h3 h4 false m _ (Nat.le_refl _)]
  have : ansiGet a "reset".toList = .ok reset := by unfold ansiGet; rw [hr]
  simp only [bind, Except.bind, this, pure, Except.pure]

end Verif
