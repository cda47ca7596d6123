import Verif.Props.Commands
import Verif.Props.Setup
/-! # C80: what `xylem resolve` and `xylem install` print -/
namespace Verif

variable {σ : Type}

/-! ## Joined and indented texts -/

theorem splitLines_isLines (t : List Char) : IsLines t (splitLines t) := by
  induction t with
  | nil => exact ⟨by simp [splitLines], by simp [splitLines], rfl⟩
  | cons c t ih =>
    obtain ⟨h1, h2, h3⟩ := ih
    unfold splitLines
    by_cases hc : c = '\n'
    · subst hc
      rw [if_pos rfl]
      refine ⟨by simp, ?_, ?_⟩
      · intro l hl
        rcases List.mem_cons.1 hl with rfl | hl
        · simp
        · exact h2 l hl
      · cases hs : splitLines t with
        | nil => exact absurd hs h1
        | cons l ls => rw [hs] at h3; simp [pyJoin, h3]
    · rw [if_neg hc]
      cases hs : splitLines t with
      | nil => exact absurd hs h1
      | cons l ls =>
        rw [hs] at h2 h3
        refine ⟨by simp, ?_, ?_⟩
        · intro l' hl'
          rcases List.mem_cons.1 hl' with rfl | hl'
          · intro hm
            rcases List.mem_cons.1 hm with hm | hm
            · exact hc hm.symm
            · exact h2 l (by simp) hm
          · exact h2 l' (by simp [hl'])
        · cases ls with
          | nil => simp [pyJoin] at h3 ⊢; exact h3
          | cons a b => simp [pyJoin] at h3 ⊢; exact h3

theorem pyJoin_cons_cons (sep a b : List Char) (t : List (List Char)) : pyJoin sep (a :: b :: t) = a ++ sep ++ pyJoin sep (b :: t) := rfl

theorem isLines_unique {t : List Char} {a b : List (List Char)} (ha : IsLines t a) (hb : IsLines t b) : a = b := by
  obtain ⟨a1, a2, a3⟩ := ha
  obtain ⟨b1, b2, b3⟩ := hb
  have key : ∀ (a b : List (List Char)), a ≠ [] → b ≠ [] → (∀ l ∈ a, '\n' ∉ l) → (∀ l ∈ b, '\n' ∉ l) → pyJoin ['\n'] a = pyJoin ['\n'] b → a = b := by
    have nl : ∀ (x y r s : List Char), '\n' ∉ x → '\n' ∉ y → x ++ '\n' :: r = y ++ '\n' :: s → x = y ∧ r = s := by
      intro x
      induction x with
      | nil =>
        intro y r s _ hy h
        cases y with
        | nil => simpa using h
        | cons c y => simp only [List.nil_append, List.cons_append, List.cons.injEq] at h; exact absurd (by rw [← h.1]; simp) hy
      | cons c x ih =>
        intro y r s hx hy h
        cases y with
        | nil => simp only [List.nil_append, List.cons_append, List.cons.injEq] at h; exact absurd (by rw [h.1]; simp) hx
        | cons d y =>
          simp only [List.cons_append, List.cons.injEq] at h
          obtain ⟨e1, e2⟩ := ih y r s (fun h' => hx (by simp [h'])) (fun h' => hy (by simp [h'])) h.2
          exact ⟨by rw [h.1, e1], e2⟩
    intro a
    induction a with
    | nil => intro b h; exact absurd rfl h
    | cons x a ih =>
      intro b _ hb ha' hb' h
      cases b with
      | nil => exact absurd rfl hb
      | cons y b =>
        have hx := ha' x (by simp)
        have hy := hb' y (by simp)
        cases a with
        | nil =>
          cases b with
          | nil => simpa [pyJoin] using h
          | cons z b =>
            rw [pyJoin_cons_cons] at h
            exact absurd (by rw [show x = _ from h]; simp) hx
        | cons w a =>
          cases b with
          | nil =>
            rw [pyJoin_cons_cons] at h
            exact absurd (by rw [show y = _ from h.symm]; simp) hy
          | cons z b =>
            rw [pyJoin_cons_cons, pyJoin_cons_cons, List.append_assoc, List.append_assoc] at h
            obtain ⟨e1, e2⟩ := nl _ _ _ _ hx hy h
            rw [e1, ih (z :: b) (by simp) (by simp) (fun l hl => ha' l (by simp [hl])) (fun l hl => hb' l (by simp [hl])) e2]
  exact key a b a1 b1 a2 b2 (by rw [← a3, ← b3])

/-- The lines of a text after its first one are indented by `n` blanks. -/
def indentRest (n : Nat) : List (List Char) → List (List Char)
  | [] => []
  | l :: ls => l :: ls.map (List.replicate n ' ' ++ ·)

theorem indent_lines (t : List Char) (n : Nat) (ls : List (List Char)) (h : IsLines t ls) :
    IsLines (indent t n true) (indentRest n ls) ∧ IsLines (indent t n false) (ls.map (List.replicate n ' ' ++ ·)) := by
  have e : splitLines t = ls := isLines_unique (splitLines_isLines t) h
  obtain ⟨h1, h2, h3⟩ := h
  have hrep : '\n' ∉ List.replicate n ' ' := by simp [List.mem_replicate]
  have hj : ∀ (l : List Char) (ls : List (List Char)), pyJoin ('\n' :: List.replicate n ' ') (l :: ls) =
      pyJoin ['\n'] (l :: ls.map (List.replicate n ' ' ++ ·)) := by
    intro l ls
    induction ls generalizing l with
    | nil => rfl
    | cons a b ih =>
      rw [pyJoin_cons_cons, ih, List.map_cons, pyJoin_cons_cons]
      cases b with
      | nil => simp [pyJoin]
      | cons c d => simp [pyJoin]
  cases ls with
  | nil => exact absurd rfl h1
  | cons l ls =>
    have hm : ∀ x ∈ ls.map (List.replicate n ' ' ++ ·), '\n' ∉ x := by
      intro x hx
      obtain ⟨y, hy, rfl⟩ := List.mem_map.1 hx
      rw [List.mem_append, not_or]; exact ⟨hrep, h2 y (by simp [hy])⟩
    refine ⟨⟨by simp [indentRest], ?_, ?_⟩, ⟨by simp, ?_, ?_⟩⟩
    · intro x hx
      rcases List.mem_cons.1 hx with rfl | hx
      · exact h2 _ (by simp)
      · exact hm x hx
    · simp only [indent, e, if_true, List.nil_append, indentRest]; exact hj l ls
    · intro x hx
      rcases List.mem_cons.1 hx with rfl | hx
      · rw [List.mem_append, not_or]; exact ⟨hrep, h2 l (by simp)⟩
      · exact hm x hx
    · simp only [indent, e, Bool.false_eq_true, if_false, List.map_cons, hj]
      cases ls with
      | nil => simp [pyJoin]
      | cons a b => simp [pyJoin]

/-- **C80** A reported error keeps its lines; all lines but its first are indented by two blanks, and the errors follow each other. So the
lines of the whole message are the lines of the errors, in order. -/
theorem C80_error_message_lines (texts : List (List Char)) (lines : List (List (List Char))) (hne : texts ≠ [])
    (h : List.Forall₂ IsLines texts lines) : IsLines (joinErrors texts) (lines.map (indentRest 2)).flatten := by
  have hj : ∀ (a b : List (List Char)), a ≠ [] → b ≠ [] → pyJoin ['\n'] (a ++ b) = pyJoin ['\n'] a ++ '\n' :: pyJoin ['\n'] b := by
    intro a
    induction a with
    | nil => intro b h; exact absurd rfl h
    | cons x a ih =>
      intro b _ hb
      cases a with
      | nil => cases b with
        | nil => exact absurd rfl hb
        | cons y b => simp [pyJoin]
      | cons y a =>
        rw [List.cons_append, List.cons_append, pyJoin_cons_cons, ← List.cons_append, ih b (by simp) hb, pyJoin_cons_cons]
        simp
  induction h with
  | nil => exact absurd rfl hne
  | @cons t ls ts lss h1 h2 ih =>
    obtain ⟨g1, g2, g3⟩ := (indent_lines t 2 ls h1).1
    cases h2 with
    | nil =>
      refine ⟨by simpa using g1, by simpa using g2, ?_⟩
      simp only [joinErrors, List.map_cons, List.map_nil, List.flatten_cons, List.flatten_nil, List.append_nil]
      rw [← g3]; rfl
    | @cons t' ls' ts' lss' h1' h2' =>
      obtain ⟨k1, k2, k3⟩ := ih (by simp)
      rw [List.map_cons, List.flatten_cons]
      refine ⟨by simp [g1], ?_, ?_⟩
      · intro l hl
        rcases List.mem_append.1 hl with hl | hl
        · exact g2 l hl
        · exact k2 l hl
      · rw [hj _ _ g1 k1, ← k3, ← g3]
        simp [joinErrors, pyJoin]

example : joinErrors ["one\ntwo".toList, "three".toList] = "one\n  two\nthree".toList := by decide

/-! ## The output -/

theorem resolutionString_ok {rs : List Resolution} {ts : List (List Char)} (h : List.Forall₂ (fun x t => Resolution.str x = .ok t) rs ts) :
    resolutionString rs = .ok (pyJoin ", ".toList ts) := by
  unfold resolutionString
  rw [mapM_ok_iff.2 h]; rfl

/-- The installer that is shown: none if it is the default one and was not asked for. -/
def shownInstaller (dflt : Option String) (showDefault : Bool) (inst : String) : Option String :=
  if showDefault = false ∧ dflt = some inst then none else some inst

theorem printResults_plain (d : Option String) (sd : Bool) (l : List (String × (String × List Resolution))) (texts : List (List (List Char)))
    (h : Rendered l texts) : printResults false d sd l =
      ⟨List.zipWith (fun r ts => .out (plainLine r.1 (shownInstaller d sd r.2.1) ts)) l texts, .ok ()⟩ := by
  induction h with
  | nil => rfl
  | @cons r ts l texts h1 h2 ih =>
    have hp : printResult false d sd r = ⟨[.out (plainLine r.1 (shownInstaller d sd r.2.1) ts)], .ok ()⟩ := by
      unfold printResult
      rw [resolutionString_ok h1, run_lift_ok]
      unfold info installerString plainLine shownInstaller
      rw [ansi_off (by simp), ansi_off (by simp), ansi_off (by simp), ansi_off (by simp)]
      by_cases hs : sd = false ∧ d = some r.2.1
      · rw [if_pos hs, if_neg (by simp [hs.1, hs.2])]
        simp
      · rw [if_neg hs, if_pos]
        · simp
        · by_cases hd : d = some r.2.1
          · right; cases sd <;> simp_all
          · left; exact fun h => hd h.symm
    rw [printResults, hp, run_bind_ok (a := ()) rfl, ih]
    rfl

/-- **C80** What `xylem resolve` prints with colours off, if it resolves the keys and can show every resolution: on stderr nothing if there are
no errors, else one message with all errors; on stdout one line per resolved key, in the order of the results. The installer is shown iff it
is not the default one or was asked for. -/
theorem C80_resolve_output (text : String × ResErr → List Char) (ic : InstallerCtx σ) (dn : Option String) (d : Database)
    (installFrom : Dict String (List String)) (a : ResolveArgs) (r : Resolved) (texts : List (List (List Char)))
    (hr : resolve ic d installFrom a.keys a.all = .ok r) (ht : Rendered r.results texts) :
    (resolveCommand false text (.ok ic) (.ok dn) (.ok d) installFrom a).lines.filterMap onStderr =
      (if r.errors = [] then [] else [joinErrors (r.errors.map text)]) ∧
    (resolveCommand false text (.ok ic) (.ok dn) (.ok d) installFrom a).lines.filterMap onStdout =
      List.zipWith (fun r ts => plainLine r.1 (if a.showDefault = false ∧ dn = some r.2.1 then none else some r.2.1) ts) r.results texts := by
  have e1 : (resolveCommand false text (.ok ic) (.ok dn) (.ok d) installFrom a).lines = (printResolved false text dn a.showDefault r).lines := by
    unfold resolveCommand
    rw [run_lift_ok, run_lift_ok, show resolveApi ic (.ok d) installFrom a.keys a.all = resolve ic d installFrom a.keys a.all from rfl, hr, run_lift_ok]
    cases hp : (printResolved false text dn a.showDefault r).res with
    | ok u => rw [interruptible_ok hp]
    | error e =>
      rw [interruptible_error hp, if_neg]
      rw [printResolved_eq, printResults_plain _ _ _ _ ht] at hp
      simp only at hp
      by_cases he : r.errors = []
      · simp [he] at hp
      · simp only [he, if_false, Except.error.injEq] at hp; subst hp; simp
  rw [e1, printResolved_eq, printResults_plain _ _ _ _ ht]
  simp only [List.filterMap_append]
  have z1 : ∀ (l : List (String × (String × List Resolution))) (texts : List (List (List Char))),
      (List.zipWith (fun r ts => Line.out (plainLine r.1 (shownInstaller dn a.showDefault r.2.1) ts)) l texts).filterMap onStderr = [] := by
    intro l
    induction l with
    | nil => intro t; rfl
    | cons x l ih => intro t; cases t with
      | nil => rfl
      | cons y t => rw [List.zipWith_cons_cons, List.filterMap_cons_none rfl, ih]
  have z2 : ∀ (l : List (String × (String × List Resolution))) (texts : List (List (List Char))),
      (List.zipWith (fun r ts => Line.out (plainLine r.1 (shownInstaller dn a.showDefault r.2.1) ts)) l texts).filterMap onStdout =
        List.zipWith (fun r ts => plainLine r.1 (if a.showDefault = false ∧ dn = some r.2.1 then none else some r.2.1) ts) l texts := by
    intro l
    induction l with
    | nil => intro t; rfl
    | cons x l ih => intro t; cases t with
      | nil => rfl
      | cons y t => rw [List.zipWith_cons_cons, List.filterMap_cons_some (f := onStdout) (b := plainLine x.1 (shownInstaller dn a.showDefault x.2.1) y) rfl, ih]; rfl
  rw [z1, z2]
  by_cases he : r.errors = []
  · simp [he]
  · simp only [he, if_false, error]
    rw [ansi_off (by simp), ansi_off (by simp), ansi_off (by simp)]
    simp [onStderr, onStdout]

/-- **C80** A line tells which key it is about: the text before the first blank (keys have no blanks). -/
theorem C80_line_tells_key (k k' : String) (i i' : Option String) (ts ts' : List (List Char)) (hk : ' ' ∉ k.toList) (hk' : ' ' ∉ k'.toList)
    (h : plainLine k i ts = plainLine k' i' ts') : k = k' := by
  have key : ∀ (x y r s : List Char), ' ' ∉ x → ' ' ∉ y → x ++ ' ' :: r = y ++ ' ' :: s → x = y := by
    intro x
    induction x with
    | nil =>
      intro y r s _ hy h
      cases y with
      | nil => rfl
      | cons c y => simp only [List.nil_append, List.cons_append, List.cons.injEq] at h; exact absurd (by rw [← h.1]; simp) hy
    | cons c x ih =>
      intro y r s hx hy h
      cases y with
      | nil => simp only [List.nil_append, List.cons_append, List.cons.injEq] at h; exact absurd (by rw [h.1]; simp) hx
      | cons d y =>
        simp only [List.cons_append, List.cons.injEq] at h
        rw [h.1, ih y r s (fun h' => hx (by simp [h'])) (fun h' => hy (by simp [h'])) h.2]
  unfold plainLine at h
  rw [show " --> ".toList = ' ' :: "--> ".toList from rfl] at h
  simp only [List.append_assoc, List.cons_append] at h
  have := key _ _ _ _ hk hk' h
  exact String.toList_inj.1 this

theorem baseResolve_packages (expand : String → String) (rule : Rule) (rs : List Resolution)
    (h : baseResolve expand (describe ruleItems) rule = .ok rs) :
    TextList (dget rule "packages") ∧ rs = (packagesOf rule).map fun p => [("_to_list_keys", .list [.str "package"]), ("package", p)] := by
  have hp : TextList (dget rule "packages") := by
    by_cases hp : TextList (dget rule "packages")
    · exact hp
    · rw [((C68_one_resolution_per_package expand rule).2 (.inl hp)).1] at h; simp at h
  have hd : TextList (dget rule "depends") := by
    by_cases hd : TextList (dget rule "depends")
    · exact hd
    · rw [((C68_one_resolution_per_package expand rule).2 (.inr hd)).1] at h; simp at h
  refine ⟨hp, ?_⟩
  rw [baseResolve_textList expand rule hp hd] at h
  injection h with h
  rw [← h]
  apply List.map_congr_left
  intro p _
  simp [packageResolution, mkResolution, dset]

theorem str_package (p : PVal) : Resolution.str [("_to_list_keys", .list [.str "package"]), ("package", p)] =
    match p with
    | .str n => .ok n.toList
    | .list l => (do let ts ← joinTexts l; pure (pyJoin [' '] ts))
    | _ => .error .typeError := by
  have hne : ("_to_list_keys" : String) ≠ "package" := by decide
  cases p <;> simp [Resolution.str, Resolution.toList, resAttr, dget, iterVal, toListLoop, hne, bind, Except.bind, joinTexts, pure, Except.pure, pyJoin]

/-- The words an attribute of a resolution contributes to its text: those of a list, or a single one. -/
inductive Words (r : Resolution) (k : String) : List String → Prop
  | list {ws : List String} (h : dget r k = some (.list (ws.map .str))) : Words r k ws
  | one {w : String} (h : dget r k = some (.str w)) : Words r k [w]

theorem joinTexts_str (ws : List String) : joinTexts (ws.map .str) = .ok (ws.map String.toList) := by
  induction ws with
  | nil => rfl
  | cons w t ih => simp [joinTexts, ih, bind, Except.bind, pure, Except.pure]

/-- **C80** How any resolution (also of other installers) shows: the words of the attributes it names in `_to_list_keys`, in that order, joined by
blanks. -/
theorem C80_resolution_text (r : Resolution) (keys : List String) (words : List (List String))
    (hk : dget r "_to_list_keys" = some (.list (keys.map .str))) (hw : List.Forall₂ (Words r) keys words) :
    Resolution.toList r = .ok (words.flatten.map .str) ∧ Resolution.str r = .ok (pyJoin [' '] (words.flatten.map String.toList)) := by
  have key : ∀ (keys : List String) (words : List (List String)) acc, List.Forall₂ (Words r) keys words →
      toListLoop r acc (keys.map .str) = .ok (acc ++ words.flatten.map .str) := by
    intro keys words acc h
    induction h generalizing acc with
    | nil => simp [toListLoop]
    | @cons k ws ks wss hk _ ih =>
      rw [List.map_cons, toListLoop]
      cases hk with
      | list h => rw [h]; simp only; rw [ih]; simp
      | one h => rw [h]; simp only; rw [ih]; simp
  have h1 : Resolution.toList r = .ok (words.flatten.map .str) := by
    simp only [Resolution.toList, resAttr, hk, bind, Except.bind, iterVal]
    rw [key keys words [] hw, List.nil_append]
  refine ⟨h1, ?_⟩
  simp only [Resolution.str, h1, bind, Except.bind, joinTexts_str, pure, Except.pure]

/-- Non-vacuity: a resolution of a hypothetical installer with two attributes, one of them a list. -/
example : Resolution.str [("name", .str "x"), ("flags", .list [.str "-a", .str "-b"]), ("_to_list_keys", .list [.str "flags", .str "name"])] =
    .ok "-a -b x".toList :=
  (C80_resolution_text _ ["flags", "name"] [["-a", "-b"], ["x"]] rfl (.cons (.list rfl) (.cons (.one rfl) .nil))).2

/-- **C80** The resolutions of the builtin installers can be shown unless there is a null in the package list: each shows as its package. -/
theorem C80_builtin_resolutions_shown (expand : String → String) (rule : Rule) (rs : List Resolution)
    (h : baseResolve expand (describe ruleItems) rule = .ok rs) (hn : ∀ p ∈ packagesOf rule, p ≠ .none) :
    ∃ names : List String, packagesOf rule = names.map PVal.str ∧
      List.Forall₂ (fun r t => Resolution.str r = .ok t) rs (names.map String.toList) := by
  obtain ⟨hp, rfl⟩ := baseResolve_packages expand rule rs h
  have hall : ∀ p ∈ packagesOf rule, ∃ n, p = .str n := by
    intro p hm
    unfold packagesOf at hm hn
    rcases hp with hp | hp | ⟨l, hp, hl⟩ <;> rw [hp] at hm hn
    · simp at hm
    · simp at hm
    · rcases hl p hm with h | h
      · exact absurd h (hn p hm)
      · exact h
  clear hn h hp
  generalize packagesOf rule = ps at hall
  induction ps with
  | nil => exact ⟨[], rfl, .nil⟩
  | cons p t ih =>
    obtain ⟨names, h1, h2⟩ := ih fun q hq => hall q (by simp [hq])
    obtain ⟨n, rfl⟩ := hall p (by simp)
    exact ⟨n :: names, by simp [h1], .cons (by rw [str_package]) h2⟩

/-- **C80 refuted for nulls**: a null in a package list is accepted when the rule is resolved, but `xylem resolve` cannot show it: it ends with a
TypeError that nobody handles, after the lines of the keys before. -/
theorem C80_null_package_crashes_refuted (on debug : Bool) (text : Bool → Exc → List Char) (etext : String × ResErr → List Char)
    (expand : String → String) (ic : InstallerCtx σ) (dn : Option String) (d : Database) (installFrom : Dict String (List String))
    (a : ResolveArgs) (r : Resolved) (hr : resolve ic d installFrom a.keys a.all = .ok r)
    (hall : ∀ x ∈ r.results, ∃ rule, baseResolve expand (describe ruleItems) rule = .ok x.2.2)
    (key inst : String) (rs : List Resolution) (rule : Rule) (hm : (key, (inst, rs)) ∈ r.results)
    (hb : baseResolve expand (describe ruleItems) rule = .ok rs) (hnull : .none ∈ packagesOf rule) :
    (mainTry on debug text (resolveCommand on etext (.ok ic) (.ok dn) (.ok d) installFrom a).returnsNone).ending = .traceback .typeError := by
  have typ : ∀ (rule : Rule) rs e, baseResolve expand (describe ruleItems) rule = .ok rs → resolutionString rs = .error e → e = .typeError := by
    intro rule rs e hb he
    obtain ⟨hp, rfl⟩ := baseResolve_packages expand rule rs hb
    unfold resolutionString at he
    simp only [bind, Except.bind] at he
    split at he
    · rename_i e' he'
      simp only [Except.error.injEq] at he; subst he
      obtain ⟨x, hx, hs⟩ := mapM_error_cases he'
      obtain ⟨p, hp', rfl⟩ := List.mem_map.1 hx
      have : p = .none ∨ ∃ n, p = .str n := by
        unfold packagesOf at hp'
        rcases hp with hp | hp | ⟨l, hp, hl⟩ <;> rw [hp] at hp'
        · simp at hp'
        · simp at hp'
        · exact hl p hp'
      rw [str_package] at hs
      rcases this with rfl | ⟨n, rfl⟩
      · simp only [Except.error.injEq] at hs; exact hs.symm
      · simp at hs
    · simp [pure, Except.pure] at he
  have bad : ∃ e, resolutionString rs = .error e := by
    obtain ⟨hp, rfl⟩ := baseResolve_packages expand rule rs hb
    cases hs : resolutionString ((packagesOf rule).map fun p => [("_to_list_keys", .list [.str "package"]), ("package", p)]) with
    | error e => exact ⟨e, rfl⟩
    | ok t =>
      unfold resolutionString at hs
      simp only [bind, Except.bind] at hs
      split at hs
      · simp at hs
      · rename_i ts hts
        obtain ⟨t', _, ht'⟩ := forall₂_mem_left (mapM_ok_iff.1 hts) (List.mem_map.2 ⟨_, hnull, rfl⟩)
        rw [str_package] at ht'
        simp at ht'
  have hpr : ∀ l : List (String × (String × List Resolution)), (∀ x ∈ l, ∃ rule, baseResolve expand (describe ruleItems) rule = .ok x.2.2) →
      (∃ x ∈ l, ∃ e, resolutionString x.2.2 = .error e) → (printResults on dn a.showDefault l).res = .error .typeError := by
    intro l
    induction l with
    | nil => rintro _ ⟨x, hx, _⟩; simp at hx
    | cons x l ih =>
      intro h1 h2
      cases hs : resolutionString x.2.2 with
      | error e =>
        obtain ⟨rule', hb'⟩ := h1 x (by simp)
        have hp : (printResult on dn a.showDefault x).res = .error .typeError := by
          unfold printResult; rw [hs, run_lift_error, typ rule' _ _ hb' hs]
        rw [printResults, run_bind_error hp]
      | ok t =>
        have hp : (printResult on dn a.showDefault x).res = .ok () := by unfold printResult; rw [hs, run_lift_ok]; rfl
        rw [printResults, run_bind_ok hp]
        refine ih (fun y hy => h1 y (by simp [hy])) ?_
        obtain ⟨y, hy, e, he⟩ := h2
        rcases List.mem_cons.1 hy with rfl | hy
        · rw [hs] at he; simp at he
        · exact ⟨y, hy, e, he⟩
  have e1 : (resolveCommand on etext (.ok ic) (.ok dn) (.ok d) installFrom a).res = .error .typeError := by
    unfold resolveCommand
    rw [run_lift_ok, run_lift_ok, show resolveApi ic (.ok d) installFrom a.keys a.all = resolve ic d installFrom a.keys a.all from rfl, hr, run_lift_ok]
    have : (printResolved on etext dn a.showDefault r).res = .error .typeError := by
      rw [printResolved_eq, hpr r.results hall ⟨_, hm, bad⟩]
    rw [interruptible_error this, if_neg (by simp), this]
  rw [mainTry_cases, (returnsNone_res _).2, e1]
  rfl

/-- **C80** What `xylem install` prints with colours off, if the installation returns: first, on stdout, the headings, commands shown and announcements
of commands, in the order of what is done (see C118), then one message on stderr with all resolve errors (if any), then one with all installation errors
(if any). -/
theorem C80_install_output (text : String × ResErr → List Char) (itext : InstErr → List Char) (m : Machine σ) (ic : InstallerCtx σ) (d : Database)
    (installFrom : Dict String (List String)) (a : InstallArgs) (s : σ) (rep : InstallReport)
    (h : (install m ic d installFrom a.opts a.keys a.all s).res = .ok rep) :
    (installCommand false text itext m (.ok ic) (.ok d) installFrom a s).lines =
      (install m ic d installFrom a.opts a.keys a.all s).ev.flatMap (eventLines false m.ansi) ++
      ((if rep.resolveErrors = [] then [] else [.err (joinErrors (rep.resolveErrors.map text))]) ++
      (if rep.installErrors = [] then [] else [.err (joinErrors (rep.installErrors.map itext))])) := by
  have e0 : installApi m (.ok ic) (.ok d) installFrom a.opts a.keys a.all s = install m ic d installFrom a.opts a.keys a.all s := by
    unfold installApi; rw [lift_ok_run, lift_ok_run]
  have e2 : ∀ x, (error false x).lines = [.err x] := by
    intro x; unfold error; rw [ansi_off (by simp), ansi_off (by simp), ansi_off (by simp)]; simp
  have e3 : (printReport false text itext rep).lines =
      (if rep.resolveErrors = [] then [] else [.err (joinErrors (rep.resolveErrors.map text))]) ++
      (if rep.installErrors = [] then [] else [.err (joinErrors (rep.installErrors.map itext))]) := by
    unfold printReport
    rw [run_bind_ok (a := ()) (by rw [reportErrors_eq]), run_bind_ok (a := ()) (by rw [reportErrors_eq]), reportErrors_eq, reportErrors_eq]
    have : (exitIf (decide (rep.resolveErrors ≠ [] ∨ rep.installErrors ≠ []))).lines = [] := by unfold exitIf; split <;> rfl
    rw [this, e2, e2]
    simp
  have e4 := printReport_res false text itext rep
  unfold installCommand
  rw [e0, said_ok h]
  by_cases hn : rep.resolveErrors = [] ∧ rep.installErrors = []
  · rw [if_pos hn] at e4; rw [e4, interruptible_ok rfl, e3]
  · rw [if_neg hn] at e4; rw [e4, interruptible_error rfl, if_neg (by simp), e3]

/-! ## Examples -/

/-- An installer whose resolutions are those of the builtin ones. -/
def packageInstaller (name : String) : Installer Unit :=
  { exInst name with resolve := baseResolve id (describe ruleItems) }

/-- A database for the examples. -/
def outDb : Database where
  lookup key :=
    if key = "boost" then .ok [("apt", [("packages", .list [.str "libboost-dev", .str "libboost-python"])])]
    else if key = "broken" then .ok [("apt", [("packages", .list [.none])])]
    else if key = "pil" then .ok [("pip", [("packages", .list [.str "Pillow"])])]
    else .ok []
  keys := .ok ["boost", "pil"]

/-- An installer context for the examples. -/
def outIc : InstallerCtx Unit :=
  ⟨[packageInstaller "apt", packageInstaller "pip"], [packageInstaller "apt"], [packageInstaller "pip"], .ok ("ubuntu", "trusty")⟩

/-- Non-vacuity: two keys resolved, one unknown. -/
example : (mainTry false false (fun _ _ => []) (resolveCommand false (fun p => "no rule for ".toList ++ p.1.toList) (.ok outIc) (.ok (some "apt"))
      (.ok outDb) [] ⟨["boost", "nope", "pil"], false, false⟩).returnsNone) =
    ⟨[.err "no rule for nope".toList, .out "boost --> libboost-dev, libboost-python".toList, .out "pil --> pip: Pillow".toList], .exit 1⟩ := rfl

/-- Non-vacuity: a null in a package list. -/
example : (mainTry false false (fun _ _ => []) (resolveCommand false (fun _ => []) (.ok outIc) (.ok (some "apt")) (.ok outDb) []
      ⟨["boost", "broken", "pil"], false, true⟩).returnsNone) =
    ⟨[.out "boost --> apt: libboost-dev, libboost-python".toList], .traceback .typeError⟩ := rfl

end Verif
