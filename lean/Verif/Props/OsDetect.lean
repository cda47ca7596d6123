import Verif.Spec.OsDetect
import Verif.Props.ConfigNames
/-! # The module `os_detect` (C87 – C91) -/
namespace Verif

/-! ## Words -/

theorem wordsGo_space {ws : Char → Bool} {s t : List Char} (h : ∀ c ∈ s, ws c = true) : wordsGo ws [] (s ++ t) = wordsGo ws [] t := by
  induction s with
  | nil => rfl
  | cons c s ih =>
    rw [List.cons_append, wordsGo, if_pos (h c (by simp))]
    exact ih fun x hx => h x (by simp [hx])

theorem wordsGo_word {ws : Char → Bool} {w : List Char} (hw : ∀ c ∈ w, ws c = false) :
    ∀ (acc t : List Char), acc ≠ [] → wordsGo ws acc (w ++ t) = wordsGo ws (w.reverse ++ acc) t := by
  induction w with
  | nil => intro acc t _; rfl
  | cons c w ih =>
    intro acc t hne
    cases acc with
    | nil => exact absurd rfl hne
    | cons a acc =>
      rw [List.cons_append, wordsGo, if_neg (by rw [hw c (by simp)]; simp), ih (fun x hx => hw x (by simp [hx])) _ _ (by simp)]
      simp

theorem wordsGo_first {ws : Char → Bool} {w t : List Char} (hne : w ≠ []) (hw : ∀ c ∈ w, ws c = false) :
    wordsGo ws [] (w ++ t) = wordsGo ws w.reverse t := by
  cases w with
  | nil => exact absurd rfl hne
  | cons c w =>
    rw [List.cons_append, wordsGo, if_neg (by rw [hw c (by simp)]; simp), wordsGo_word (fun x hx => hw x (by simp [hx])) _ _ (by simp)]
    simp

theorem pyWords_of {ws : Char → Bool} {t : List Char} {words : List (List Char)} (h : HasWords ws t words) : pyWords ws t = words := by
  unfold pyWords
  induction h with
  | nil h => have := wordsGo_space (t := []) h; rw [List.append_nil] at this; rw [this]; rfl
  | @last space word h hne hw =>
    rw [wordsGo_space h]
    have := wordsGo_first (t := []) hne hw
    rw [List.append_nil] at this
    rw [this]
    cases hr : word.reverse with
    | nil => exact absurd (List.reverse_eq_nil_iff.1 hr) hne
    | cons a l => rw [wordsGo, ← hr, List.reverse_reverse]; simp
  | @cons space word rest sep words h hne hw hs hr ih =>
    rw [List.append_assoc, wordsGo_space h, wordsGo_first hne hw]
    cases hr : word.reverse with
    | nil => exact absurd (List.reverse_eq_nil_iff.1 hr) hne
    | cons a l => rw [wordsGo, if_pos hs, ih, ← hr, List.reverse_reverse]

theorem readIssue_of {sys : System} {path : String} {words : List (List Char)} (h : FileWith sys path words) : readIssue sys path = some words := by
  obtain ⟨t, ht, hw⟩ := h
  simp [readIssue, ht, pyWords_of hw]

/-! ## C87: detectors -/

theorem whenOs_false {α : Type} {i : Except Exc Bool} {b : Except Exc α} (h : i = .ok false) : whenOs i b = .error .osNotDetected := by
  subst h; rfl
theorem whenOs_true {α : Type} {i : Except Exc Bool} {b : Except Exc α} (h : i = .ok true) : whenOs i b = b := by
  subst h; rfl

/-- **C87**: on another os, asking any of the detectors for version or codename raises OsNotDetected. -/
theorem C87_wrong_os (sys : System) : ∀ p ∈ defaultRegistrations sys, p.2.isOs = .ok false →
    p.2.getVersion = .error .osNotDetected ∧ p.2.getCodename = .error .osNotDetected := by
  intro p hp
  simp only [defaultRegistrations, List.mem_cons, List.not_mem_nil, or_false] at hp
  rcases hp with h | h | h | h | h | h | h | h | h | h | h | h | h | h <;> subst h <;> intro h <;> exact ⟨whenOs_false h, whenOs_false h⟩

theorem pyIndex_of {x : List Char} {a b : List (List Char)} (h : x ∉ a) : pyIndex x (a ++ x :: b) = .ok a.length := by
  unfold pyIndex
  rw [if_pos (by simp)]
  congr 1
  induction a with
  | nil => simp
  | cons y a ih =>
    rw [List.cons_append, List.idxOf_cons_ne (h := fun e => h (by simp [e])), ih (fun hm => h (by simp [hm]))]
    rfl

theorem pyAt_append {α : Type} {a b : List α} {x : α} {n : Nat} (h : n = a.length) : pyAt (a ++ x :: b) n = .ok x := by
  subst h; simp [pyAt]

/-- **C87**: Red Hat Enterprise Linux: the word after the first `release` is the version. -/
theorem C87_rhel_version (sys : System) (a b : List (List Char)) (v : List Char) (h3 : 3 ≤ a.length)
    (hpre : a.take 3 = ["Red".toList, "Hat".toList, "Enterprise".toList]) (hrel : "release".toList ∉ a)
    (h : FileWith sys "/etc/redhat-release" (a ++ "release".toList :: v :: b)) :
    (rhelDetector sys).isOs = .ok true ∧ (rhelDetector sys).getVersion = .ok (some v) := by
  have hr := readIssue_of h
  have hi : rhelIsOs sys = .ok true := by
    rw [rhelIsOs, hr]
    simp only [List.take_append_of_le_length h3, hpre, beq_self_eq_true]
  refine ⟨hi, ?_⟩
  show whenOs _ _ = _
  rw [whenOs_true hi]
  simp only [rhelVersion, issueOrFail, hr, bind, Except.bind, pyIndex_of hrel]
  have : a ++ "release".toList :: v :: b = (a ++ ["release".toList]) ++ v :: b := by simp
  rw [this, pyAt_append (by simp)]
  rfl

theorem dropParen_closed (c : List Char) : dropParen (c ++ [')']) = .ok c := by
  simp [dropParen]

theorem parenCodename_of (sys : System) {a b : List (List Char)} {c : List Char} (hrel : "release".toList ∈ a ++ ('(' :: c ++ [')']) :: b)
    (ha : ∀ w ∈ a, w.head? ≠ some '(') : parenCodename sys (a ++ ('(' :: c ++ [')']) :: b) = .ok (some (sys.lower c)) := by
  have hf : (a ++ ('(' :: c ++ [')']) :: b).filter (fun x => x.head? == some '(') =
      ('(' :: c ++ [')']) :: b.filter (fun x => x.head? == some '(') := by
    rw [List.filter_append, List.filter_eq_nil_iff.2 (fun w hw => by simpa using ha w hw)]
    simp
  simp only [parenCodename, pyIndex, if_pos hrel, bind, Except.bind, hf, pyAt, List.getElem?_cons_zero]
  have : ('(' :: c ++ [')']).drop 1 = c ++ [')'] := by simp
  rw [this, dropParen_closed]
  rfl

/-- **C87**: Fedora and Red Hat Enterprise Linux: the first word in parentheses is the codename (in lower case). -/
theorem C87_redhat_codename (sys : System) (a b : List (List Char)) (c : List Char) (hrel : "release".toList ∈ a)
    (ha : ∀ w ∈ a, w.head? ≠ some '(') (h : FileWith sys "/etc/redhat-release" (a ++ ('(' :: c ++ [')']) :: b)) :
    (a.head? = some "Fedora".toList → (fedoraDetector sys).getCodename = .ok (some (sys.lower c))) ∧
    (3 ≤ a.length → a.take 3 = ["Red".toList, "Hat".toList, "Enterprise".toList] → (rhelDetector sys).getCodename = .ok (some (sys.lower c))) := by
  have hr := readIssue_of h
  have hc : redhatCodename sys = .ok (some (sys.lower c)) := by
    simp only [redhatCodename, issueOrFail, hr, bind, Except.bind]
    exact parenCodename_of sys (List.mem_append_left _ hrel) ha
  constructor
  · intro hh
    show whenOs _ _ = _
    rw [whenOs_true ?_, hc]
    cases a with
    | nil => simp at hh
    | cons x a =>
      rw [fedoraIsOs, hr]
      simp only [List.head?_cons, Option.some.injEq] at hh
      simp [hh]
  · intro h3 hpre
    show whenOs _ _ = _
    rw [whenOs_true ?_, hc]
    rw [rhelIsOs, hr]
    simp only [List.take_append_of_le_length h3, hpre, beq_self_eq_true]

/-- **C87**: Fedora: the version is the word after the first `release` of `/etc/issue`, provided this is not the first word. -/
theorem C87_fedora_version (sys : System) (w : List Char) (ws a b : List (List Char)) (v : List Char) (hw : w = "Fedora".toList)
    (h : FileWith sys "/etc/redhat-release" (w :: ws)) (ha : a ≠ []) (hrel : "release".toList ∉ a)
    (hi : FileWith sys "/etc/issue" (a ++ "release".toList :: v :: b)) :
    (fedoraDetector sys).isOs = .ok true ∧ (fedoraDetector sys).getVersion = .ok (some v) := by
  have hr := readIssue_of h
  have ho : fedoraIsOs sys = .ok true := by rw [fedoraIsOs, hr]; simp [hw]
  refine ⟨ho, ?_⟩
  show whenOs _ _ = _
  rw [whenOs_true ho]
  simp only [fedoraVersion, issueOrFail, readIssue_of hi, bind, Except.bind, pyIndex_of hrel]
  rw [if_pos (List.length_pos_iff.2 ha)]
  have : a ++ "release".toList :: v :: b = (a ++ ["release".toList]) ++ v :: b := by simp
  rw [this, pyAt_append (by simp)]
  rfl

/-- **C87**: Gentoo: `Gentoo Base System release VERSION`. -/
theorem C87_gentoo_version (sys : System) (x y v : List Char) (b : List (List Char))
    (h : FileWith sys "/etc/gentoo-release" ("Gentoo".toList :: "Base".toList :: x :: y :: v :: b)) :
    (gentooDetector sys).isOs = .ok true ∧ (gentooDetector sys).getVersion = .ok (some v) ∧ (gentooDetector sys).getCodename = .ok (some []) := by
  have hr := readIssue_of h
  have ho : gentooIsOs sys = .ok true := by rw [gentooIsOs, hr]; rfl
  refine ⟨ho, ?_, ?_⟩
  · show whenOs _ _ = _
    rw [whenOs_true ho]
    simp only [gentooVersion, issueOrFail, hr, bind, Except.bind]
    rfl
  · show whenOs _ _ = _
    rw [whenOs_true ho]

theorem splitStrGo_free {sep : List Char} {v : List Char} (h : ' ' ∉ v) :
    ∀ acc, splitStrGo (' ' :: sep) 0 acc v = [acc.reverse ++ v] := by
  induction v with
  | nil => intro acc; simp [splitStrGo]
  | cons c v ih =>
    intro acc
    have hc : ' ' ≠ c := fun e => h (List.mem_cons.2 (.inl e))
    have : (' ' :: sep).isPrefixOf (c :: v) = false := by
      simp [List.isPrefixOf, hc]
    rw [splitStrGo, this, if_neg (by simp), ih (fun hm => h (by simp [hm]))]
    simp

theorem suse_line {v : List Char} (h : ' ' ∉ v) : pySplitStr " = ".toList ("VERSION = ".toList ++ v) = ["VERSION".toList, v] := by
  have : pySplitStr " = ".toList ("VERSION = ".toList ++ v) = "VERSION".toList :: splitStrGo [' ', '=', ' '] 0 [] v := by rfl
  rw [this, splitStrGo_free h]
  rfl

theorem strip_tail {ws : Char → Bool} {c : Char} {a v trail : List Char} (hc : ws c = false) (hne : v ≠ []) (hv : ∀ x ∈ v, ws x = false)
    (ht : ∀ x ∈ trail, ws x = true) : pyStrip ws (c :: a ++ v ++ trail) = c :: a ++ v := by
  unfold pyStrip
  have h1 : (c :: a ++ v ++ trail).dropWhile ws = c :: a ++ v ++ trail := by
    simp only [List.cons_append]
    rw [List.dropWhile_cons, hc]
    simp
  rw [h1, List.reverse_append, List.dropWhile_append_of_pos (by simpa using ht), List.reverse_append]
  cases hr : v.reverse with
  | nil => exact absurd (List.reverse_eq_nil_iff.1 hr) hne
  | cons x l =>
    have hx : ws x = false := hv x (by rw [← List.mem_reverse, hr]; simp)
    rw [List.cons_append, List.dropWhile_cons, hx]
    simp only [Bool.false_eq_true, if_false]
    rw [← List.cons_append, ← hr, ← List.reverse_append, List.reverse_reverse]

/-- **C87**: openSUSE: a brand file with the line `openSUSE ..` and the line `VERSION = ..`. -/
theorem C87_opensuse_version (sys : System) (r v trail : List Char) (words : List (List Char))
    (ht : sys.text "/etc/SuSE-brand" = some ("openSUSE".toList ++ r ++ '\n' :: "VERSION = ".toList ++ v ++ trail))
    (hw : HasWords sys.ws ("openSUSE".toList ++ r ++ '\n' :: "VERSION = ".toList ++ v ++ trail) ("openSUSE".toList :: words))
    (hr : '\n' ∉ r) (hne : v ≠ []) (hv : ∀ x ∈ v, sys.ws x = false) (hn : sys.ws '\n' = true) (hs : sys.ws ' ' = true)
    (ho : sys.ws 'o' = false) (htr : ∀ x ∈ trail, sys.ws x = true) :
    (suseDetector sys).isOs = .ok true ∧ (suseDetector sys).getVersion = .ok (some v) := by
  have hi : suseIsOs sys = .ok true := by
    rw [suseIsOs, readIssue_of ⟨_, ht, hw⟩]
    simp
  refine ⟨hi, ?_⟩
  show whenOs _ _ = _
  rw [whenOs_true hi]
  have hl : fileLines sys ("openSUSE".toList ++ r ++ '\n' :: "VERSION = ".toList ++ v ++ trail) =
      ["openSUSE".toList ++ r, "VERSION = ".toList ++ v] := by
    have e : "openSUSE".toList ++ r ++ '\n' :: "VERSION = ".toList ++ v ++ trail =
        'o' :: ("penSUSE".toList ++ r ++ '\n' :: "VERSION = ".toList) ++ v ++ trail := rfl
    rw [fileLines, e, strip_tail ho hne hv htr]
    have e2 : 'o' :: ("penSUSE".toList ++ r ++ '\n' :: "VERSION = ".toList) ++ v = ("openSUSE".toList ++ r) ++ '\n' :: ("VERSION = ".toList ++ v) := by
      simp
    rw [e2, pySplit_append (by simp [hr]), pySplit_free]
    intro hm
    rcases List.mem_append.1 hm with h | h
    · simp at h
    · have := hv _ h; rw [hn] at this; cases this
  have hsp : ' ' ∉ v := fun hm => by have := hv _ hm; rw [hs] at this; cases this
  simp only [suseVersion, ht, hl, suse_line hsp]
  rfl

/-- **C87**: the lsb based detectors answer with what `platform` says. -/
theorem C87_lsb (sys : System) (name : String) (n v c : String) (h : sys.lsbInfo = some (n, v, c)) :
    ((lsbDetector sys name).isOs = .ok true ↔ n = name) ∧
    (n = name → (lsbDetector sys name).getVersion = .ok (some v.toList) ∧ (lsbDetector sys name).getCodename = .ok (some c.toList)) := by
  simp [lsbDetector, h, whenOs, bind, Except.bind]

/-- A machine without anything. -/
def bareSystem : System where
  text := fun _ => none
  stdout := fun _ => none
  lsbInfo := none
  platformSystem := "Linux"
  platformVersion := ""
  platformRelease := ""
  strictVersion := fun _ => none
  ws := fun c => c == ' ' || c == '\n'
  lower := fun s => s.map Char.toLower

/-- The bare machine with some files. -/
def systemWith (files : List (String × String)) : System := { bareSystem with text := fun p => (dget files p).map String.toList }

/-- **C87** fails for exceptions: a release file consisting of the word `Gentoo` makes `is_os` itself raise IndexError, and Fedora without
`/etc/issue` raises AttributeError. -/
theorem C87_other_exceptions_refuted :
    (gentooDetector (systemWith [("/etc/gentoo-release", "Gentoo\n")])).isOs = .error .indexError ∧
    (fedoraDetector (systemWith [("/etc/redhat-release", "Fedora release 20 (Heisenbug)\n")])).isOs = .ok true ∧
    (fedoraDetector (systemWith [("/etc/redhat-release", "Fedora release 20 (Heisenbug)\n")])).getVersion = .error .attributeError := by
  refine ⟨by rfl, by rfl, by rfl⟩

example : (fedoraDetector (systemWith [("/etc/redhat-release", "Fedora release 20 (Heisenbug)\n"), ("/etc/issue", "Fedora release 20\n")])).getVersion
    = .ok (some "20".toList) := by rfl
example : (rhelDetector (systemWith [("/etc/redhat-release", "Red Hat Enterprise Linux AS release 3 (Taroon)\n")])).getCodename
    = .ok (some "taroon".toList) := by rfl
example : (suseDetector (systemWith [("/etc/SuSE-brand", "openSUSE\nVERSION = 13.1\n"), ("/etc/SuSE-release", "openSUSE 13.1\nVERSION = 13.1\nCODENAME = Bottle\n")])).getVersion
    = .ok (some "13.1".toList) := by rfl

/-! ## C88: override -/

/-- **C88**: with `ROS_OS_OVERRIDE=name:version:codename` (missing parts are empty, further parts ignored) `detect_os` answers with these
parts, whatever the object did before and whatever the detectors say. -/
theorem C88_override (o : DetectObj) (shared : DetectorList) (name : List Char) (parts : List (List Char)) (hne : name ≠ [])
    (hc : ∀ p ∈ name :: parts, ':' ∉ p) :
    (o.detect shared (some (joinWith ':' (name :: parts)))).2 = .ok (some name, some (parts[0]?.getD []), some (parts[1]?.getD [])) := by
  have h0 : (pySplit ':' (joinWith ':' (name :: parts))) = name :: parts := pySplit_join (by simp) hc
  have : name.isEmpty = false := by cases name with | nil => exact absurd rfl hne | cons _ _ => rfl
  simp only [DetectObj.detect, detectedTuple, useOverride, h0, List.headD_cons, truthyText, this, Bool.not_false, if_true]
  cases parts with
  | nil => rfl
  | cons a t => cases t <;> rfl

/-- **C88**: an empty name is no os, whatever was detected before. -/
theorem C88_empty_override (o : DetectObj) (shared : DetectorList) (parts : List (List Char)) (hc : ∀ p ∈ parts, ':' ∉ p) :
    (o.detect shared (some (joinWith ':' ([] :: parts)))).2 = .error .osNotDetected := by
  have h0 : (pySplit ':' (joinWith ':' ([] :: parts))) = [] :: parts := pySplit_join (by simp) (by
    intro p hp
    rcases List.mem_cons.1 hp with e | e
    · subst e; simp
    · exact hc p e)
  simp [DetectObj.detect, detectedTuple, useOverride, h0, truthyText]

example : ((mkDetectObj none).detect (defaultOsList bareSystem) (some "ubuntu:12.04:precise".toList)).2 =
    .ok (some "ubuntu".toList, some "12.04".toList, some "precise".toList) := by rfl

/-! ## C89: precedence -/

theorem detectAll_append (o : DetectObj) (a b : DetectorList) :
    detectAll o (a ++ b) = match detectAll o a with | (o', .error e) => (o', .error e) | (o', .ok ()) => detectAll o' b := by
  induction a generalizing o with
  | nil => rfl
  | cons p a ih =>
    obtain ⟨n, d⟩ := p
    rw [List.cons_append, detectAll, detectAll]
    cases hd : d.isOs with
    | error e => rfl
    | ok x =>
      cases x with
      | false => exact ih o
      | true =>
        simp only
        cases hu : useDetector o n d with
        | mk o' r =>
          cases r with
          | error e => rfl
          | ok u => exact ih o'

/-- A quiet list never makes detection raise. -/
theorem detectAll_quiet (o : DetectObj) (l : DetectorList) (h : ∀ p ∈ l, Answers p.2) : (detectAll o l).2 = .ok () := by
  induction l generalizing o with
  | nil => rfl
  | cons p l ih =>
    obtain ⟨n, d⟩ := p
    rw [detectAll]
    have hh : Answers d := h (n, d) (by simp)
    rcases hh with hf | ⟨ht, v, c, hv, hc⟩
    · simp only [hf]; exact ih _ fun p hp => h p (by simp [hp])
    · have : useDetector o n d = ({ o with name := some n.toList, version := v, codename := c, detector := some d }, .ok ()) := by
        simp only [useDetector, hv, hc]
      simp only [ht, this]
      exact ih _ fun p hp => h p (by simp [hp])

/-- Detectors that do not detect change nothing. -/
theorem detectAll_none (o : DetectObj) (l : DetectorList) (h : ∀ p ∈ l, p.2.isOs = .ok false) : detectAll o l = (o, .ok ()) := by
  induction l with
  | nil => rfl
  | cons p l ih =>
    obtain ⟨n, d⟩ := p
    have : d.isOs = .ok false := h (n, d) (by simp)
    rw [detectAll]
    simp only [this]
    exact ih fun p hp => h p (by simp [hp])

theorem detectAll_last (o : DetectObj) (pre post : DetectorList) (n : String) (d : SysDetector) (v c : Option (List Char))
    (hpre : ∀ p ∈ pre, Answers p.2) (hd : SaysIs d v c) (hpost : ∀ p ∈ post, p.2.isOs = .ok false) :
    ∃ o' : DetectObj, detectAll o (pre ++ (n, d) :: post) =
      ({ o' with name := some n.toList, version := v, codename := c, detector := some d }, .ok ()) ∧ o'.own = o.own ∧ o'.override = o.override := by
  rw [detectAll_append]
  have hq := detectAll_quiet o pre hpre
  have hown : ∀ (l : DetectorList) (o : DetectObj), (detectAll o l).1.own = o.own ∧ (detectAll o l).1.override = o.override := by
    intro l
    induction l with
    | nil => intro o; exact ⟨rfl, rfl⟩
    | cons p l ih =>
      intro o
      obtain ⟨n, d⟩ := p
      rw [detectAll]
      cases hd : d.isOs with
      | error e => exact ⟨rfl, rfl⟩
      | ok x =>
        cases x with
        | false => exact ih o
        | true =>
          simp only
          have hu : (useDetector o n d).1.own = o.own ∧ (useDetector o n d).1.override = o.override := by
            unfold useDetector
            cases d.getVersion with
            | error e => exact ⟨rfl, rfl⟩
            | ok v =>
              simp only
              cases d.getCodename with
              | error e => exact ⟨rfl, rfl⟩
              | ok c => exact ⟨rfl, rfl⟩
          cases hr : useDetector o n d with
          | mk o' r =>
            rw [hr] at hu
            cases r with
            | error e => exact hu
            | ok u => exact ⟨(ih o').1.trans hu.1, (ih o').2.trans hu.2⟩
  have ho := hown pre o
  cases hr : detectAll o pre with
  | mk o' r =>
    rw [hr] at hq ho
    simp only at hq
    subst hq
    refine ⟨o', ?_, ho⟩
    simp only
    rw [detectAll]
    have : useDetector o' n d = ({ o' with name := some n.toList, version := v, codename := c, detector := some d }, .ok ()) := by
      simp only [useDetector, hd.2.1, hd.2.2]
    simp only [hd.1, this]
    exact detectAll_none _ _ hpost

theorem toList_isEmpty {n : String} (hn : n ≠ "") : n.toList.isEmpty = false := by
  cases h : n.toList with
  | nil => exact absurd (by rw [← String.ofList_toList (s := n), h]) hn
  | cons a l => rfl

/-- **C89** (what happens): among the detectors of an object that detect their os, the *last* in the list wins, i.e. the one registered
first. -/
theorem C89_last_listed_wins_partial (o : DetectObj) (shared : DetectorList) (pre post : DetectorList) (n : String) (d : SysDetector)
    (v c : Option (List Char)) (hn : n ≠ "") (hl : o.osList shared = pre ++ (n, d) :: post)
    (hpre : ∀ p ∈ pre, Answers p.2) (hd : SaysIs d v c) (hpost : ∀ p ∈ post, p.2.isOs = .ok false) :
    (o.detect shared none).2 = .ok (some n.toList, v, c) := by
  obtain ⟨o', h, -, -⟩ := detectAll_last o pre post n d v c hpre hd hpost
  simp only [DetectObj.detect, hl, h]
  simp [detectedTuple, truthyText, toList_isEmpty hn]

/-- The list an object uses after `add_detector`. -/
theorem osList_add (o : DetectObj) (shared : DetectorList) (n : String) (d : SysDetector) :
    (o.addDetector shared n d).1.osList (o.addDetector shared n d).2 = (n, d) :: o.osList shared := by
  unfold DetectObj.addDetector DetectObj.osList
  cases h : o.own with
  | none => simp [h]
  | some l => simp

/-- The last of the detecting detectors exists. -/
theorem last_with {α : Type} (P : α → Prop) (l : List α) (h : ∃ x ∈ l, P x) : ∃ a x b, l = a ++ x :: b ∧ P x ∧ ∀ y ∈ b, ¬ P y := by
  induction l with
  | nil => simp at h
  | cons y l ih =>
    by_cases hl : ∃ x ∈ l, P x
    · obtain ⟨a, x, b, e, hx, hb⟩ := ih hl
      exact ⟨y :: a, x, b, by simp [e], hx, hb⟩
    · obtain ⟨x, hx, hp⟩ := h
      rcases List.mem_cons.1 hx with e | e
      · subst e; exact ⟨[], x, l, rfl, hp, fun z hz hp => hl ⟨z, hz, hp⟩⟩
      · exact absurd ⟨x, e, hp⟩ hl

/-- **C89** (the claim fails): an added detector never takes precedence over the detectors the object had before: if one of these
detects its os, the answer is the same as without the new one, even if the new one has the same name. -/
theorem C89_added_detector_never_wins_refuted (o : DetectObj) (shared : DetectorList) (n : String) (d : SysDetector)
    (hd : Answers d) (hl : ∀ p ∈ o.osList shared, p.1 ≠ "" ∧ Answers p.2) (hx : ∃ p ∈ o.osList shared, p.2.isOs = .ok true) :
    ((o.addDetector shared n d).1.detect (o.addDetector shared n d).2 none).2 = (o.detect shared none).2 := by
  obtain ⟨a, x, b, e, hx, hb⟩ := last_with (fun p : String × SysDetector => p.2.isOs = .ok true) _ hx
  obtain ⟨xn, xd⟩ := x
  have hxa := hl (xn, xd) (by rw [e]; simp)
  have hdet : ∃ v c, SaysIs xd v c := by
    rcases hxa.2 with hf | ⟨ht, v, c, hv, hc⟩
    · simp only at hf hx; rw [hf] at hx; cases hx
    · exact ⟨v, c, ht, hv, hc⟩
  obtain ⟨v, c, hdet⟩ := hdet
  have hpost : ∀ p ∈ b, p.2.isOs = .ok false := by
    intro p hp
    rcases (hl p (by rw [e]; simp [hp])).2 with hf | ⟨ht, _⟩
    · exact hf
    · exact absurd ht (hb p hp)
  rw [C89_last_listed_wins_partial o shared a b xn xd v c hxa.1 e (fun p hp => (hl p (by rw [e]; simp [hp])).2) hdet hpost]
  refine C89_last_listed_wins_partial _ _ ((n, d) :: a) b xn xd v c hxa.1 (by rw [osList_add, e]; rfl) ?_ hdet hpost
  intro p hp
  rcases List.mem_cons.1 hp with e' | e'
  · subst e'; exact hd
  · exact (hl p (by rw [e]; simp [e'])).2

/-- **C89**: `get_detector` however finds the detector added last. -/
theorem C89_get_detector (o : DetectObj) (shared : DetectorList) (n : String) (d : SysDetector) :
    (o.addDetector shared n d).1.getDetector (o.addDetector shared n d).2 n = .ok d := by
  simp [DetectObj.getDetector, osList_add]

/-- **C89**: the builtin detectors are all there, and those of the lsb kind exclude each other. -/
theorem C89_default_list (sys : System) : defaultOsList sys = (defaultRegistrations sys).reverse := by rfl

/-- A detector for tests. -/
def yes (v : String) : SysDetector := ⟨.ok true, .ok (some v.toList), .ok (some [])⟩

example : ((mkDetectObj (some [("a", yes "1")])).addDetector [] "a" (yes "2")).1.osList [] = [("a", yes "2"), ("a", yes "1")] := by rfl
example : (((mkDetectObj (some [("a", yes "1")])).addDetector [] "a" (yes "2")).1.detect [] none).2 = .ok (some "a".toList, some "1".toList, some []) := by rfl

/-! ## C90: independence of objects -/

/-- **C90** (proved part): a detector added to an object with its own list concerns only this object. -/
theorem C90_own_list_partial (l : DetectorList) (o p : DetectObj) (shared : DetectorList) (n : String) (d : SysDetector) (env : Option (List Char))
    (h : o.own = some l) : p.detect (o.addDetector shared n d).2 env = p.detect shared env := by
  simp [DetectObj.addDetector, h]

/-- **C90** (proved part): an object with its own list uses this list only: whatever detectors are registered for the class or added to other
objects, it detects the same os and answers the same. A detector added to it is the one it gives for the name, and its other detectors stay. -/
theorem C90_own_list_only_partial (l : DetectorList) (o : DetectObj) (shared shared' : DetectorList) (env : Option (List Char)) (h : o.own = some l) :
    o.detect shared env = o.detect shared' env ∧
    (∀ field, DetectObj.get field o shared env = DetectObj.get field o shared' env) ∧
    (∀ n, o.getDetector shared n = o.getDetector shared' n) ∧
    ∀ n d, ((o.addDetector shared n d).1.getDetector shared' n).toOption = some d ∧
      ∀ n', n' ≠ n → (o.addDetector shared n d).1.getDetector shared' n' = o.getDetector shared n' := by
  have hd : o.detect shared env = o.detect shared' env := by
    unfold DetectObj.detect DetectObj.osList
    rw [h]
    rfl
  refine ⟨hd, fun field => ?_, fun n => ?_, fun n d => ⟨?_, fun n' hn => ?_⟩⟩
  · unfold DetectObj.get
    rw [hd]
  · unfold DetectObj.getDetector DetectObj.osList
    rw [h]
    rfl
  · simp [DetectObj.addDetector, h, DetectObj.getDetector, DetectObj.osList, Except.toOption]
  · have hb : (n == n') = false := by simpa using Ne.symm hn
    simp [DetectObj.addDetector, h, DetectObj.getDetector, DetectObj.osList, List.find?_cons, hb]

theorem useDetector_own (o : DetectObj) (own : Option DetectorList) (name : String) (d : SysDetector) :
    useDetector { o with own := own } name d = ({ (useDetector o name d).1 with own := own }, (useDetector o name d).2) := by
  unfold useDetector
  cases d.getVersion with
  | error e => rfl
  | ok v => cases d.getCodename <;> rfl

theorem detectAll_own (l : DetectorList) (own : Option DetectorList) : ∀ o : DetectObj,
    detectAll { o with own := own } l = ({ (detectAll o l).1 with own := own }, (detectAll o l).2) := by
  induction l with
  | nil => intro o; rfl
  | cons x t ih =>
    intro o
    obtain ⟨n, d⟩ := x
    unfold detectAll
    cases d.isOs with
    | error e => rfl
    | ok b =>
      cases b with
      | false => exact ih o
      | true =>
        simp only [useDetector_own]
        rcases useDetector o n d with ⟨o', r⟩
        cases r with
        | error e => rfl
        | ok u => exact ih o'

theorem detect_own (l : DetectorList) (o : DetectObj) (shared : DetectorList) (env : Option (List Char)) (h : o.own = none) :
    (({ o with own := some l } : DetectObj).detect shared env).2 = (o.detect l env).2 := by
  cases env with
  | some v => rfl
  | none =>
    have e : o.osList l = l := by simp [DetectObj.osList, h]
    have e' : ({ o with own := some l } : DetectObj).osList shared = l := rfl
    simp only [DetectObj.detect, e, e', detectAll_own]
    rcases detectAll o l with ⟨o', r⟩
    cases r <;> rfl

/-- **C90** (proved part): the same for objects as they are made: an object made with a list detects with this list, the detectors added to it in
front, whatever is registered for the class; adding a detector to it changes nothing for any other object. -/
theorem C90_made_with_list_partial (l : DetectorList) (p : DetectObj) (shared shared' : DetectorList) (n : String) (d : SysDetector)
    (env : Option (List Char)) :
    (mkDetectObj (some l)).detect shared env = (mkDetectObj (some l)).detect shared' env ∧
    (∀ n', (mkDetectObj (some l)).getDetector shared n' = (mkDetectObj none).getDetector l n') ∧
    ((mkDetectObj (some l)).detect shared env).2 = ((mkDetectObj none).detect l env).2 ∧
    (((mkDetectObj (some l)).addDetector shared n d).1.detect shared' env).2 = ((mkDetectObj none).detect ((n, d) :: l) env).2 ∧
    p.detect ((mkDetectObj (some l)).addDetector shared n d).2 env = p.detect shared env := by
  refine ⟨rfl, fun n' => rfl, ?_, ?_, rfl⟩
  · exact detect_own l (mkDetectObj none) shared env rfl
  · exact detect_own ((n, d) :: l) (mkDetectObj none) shared' env rfl

example : ((mkDetectObj (some [("a", yes "1")])).detect [("b", yes "2")] none).2 = .ok (some "a".toList, some "1".toList, some []) := by rfl

/-- **C90** (the claim fails): a detector added to an object made without a list is used by all other such objects, also by existing ones. -/
theorem C90_shared_list_refuted (n : String) (d : SysDetector) (v c : Option (List Char)) (hn : n ≠ "") (hd : SaysIs d v c)
    (shared : DetectorList) (hs : ∀ p ∈ shared, p.2.isOs = .ok false) :
    ((mkDetectObj none).detect shared none).2 = .error .osNotDetected ∧
    ((mkDetectObj none).detect ((mkDetectObj none).addDetector shared n d).2 none).2 = .ok (some n.toList, v, c) := by
  constructor
  · simp only [DetectObj.detect, DetectObj.osList, mkDetectObj, Option.getD_none, detectAll_none _ _ hs]
    rfl
  · exact C89_last_listed_wins_partial _ _ [] shared n d v c hn rfl (by simp) hd hs

example : ∀ p ∈ defaultOsList bareSystem, p.2.isOs = .ok false := by
  intro p hp
  simp only [C89_default_list, defaultRegistrations, List.reverse_cons, List.reverse_nil, List.nil_append, List.cons_append, List.mem_cons, List.not_mem_nil, or_false] at hp
  rcases hp with h | h | h | h | h | h | h | h | h | h | h | h | h | h <;> subst h <;> rfl

/-! ## C91: asking again -/

/-- **C91**: a new object finds an os if and only if one of its detectors detects its os (all of them answering). -/
theorem C91_detected_iff (own : Option DetectorList) (shared : DetectorList) (h : ∀ p ∈ own.getD shared, p.1 ≠ "" ∧ Answers p.2) :
    ((∃ p ∈ own.getD shared, p.2.isOs = .ok true) → ∃ t, ((mkDetectObj own).detect shared none).2 = .ok t) ∧
    ((¬ ∃ p ∈ own.getD shared, p.2.isOs = .ok true) → ((mkDetectObj own).detect shared none).2 = .error .osNotDetected) := by
  constructor
  · intro hx
    obtain ⟨a, x, b, e, hx, hb⟩ := last_with (fun p : String × SysDetector => p.2.isOs = .ok true) _ hx
    obtain ⟨xn, xd⟩ := x
    have hxa := h (xn, xd) (by rw [e]; simp)
    have hdet : ∃ v c, SaysIs xd v c := by
      rcases hxa.2 with hf | ⟨ht, v, c, hv, hc⟩
      · simp only at hf hx; rw [hf] at hx; cases hx
      · exact ⟨v, c, ht, hv, hc⟩
    obtain ⟨v, c, hdet⟩ := hdet
    refine ⟨_, C89_last_listed_wins_partial _ _ a b xn xd v c hxa.1 e (fun p hp => (h p (by rw [e]; simp [hp])).2) hdet ?_⟩
    intro p hp
    rcases (h p (by rw [e]; simp [hp])).2 with hf | ⟨ht, _⟩
    · exact hf
    · exact absurd ht (hb p hp)
  · intro hx
    have hn : ∀ p ∈ own.getD shared, p.2.isOs = .ok false := by
      intro p hp
      rcases (h p hp).2 with hf | ⟨ht, _⟩
      · exact hf
      · exact absurd ⟨p, hp, ht⟩ hx
    simp only [DetectObj.detect, DetectObj.osList, mkDetectObj, detectAll_none _ _ hn]
    rfl

/-- **C91**: once something was detected, the name stays the same, without detecting again: whatever the environment and the detectors. -/
theorem C91_name_kept (o o' : DetectObj) (shared : DetectorList) (env : Option (List Char)) (t : Detected)
    (h : o.detect shared env = (o', .ok t)) (shared' : DetectorList) (env' : Option (List Char)) :
    o'.get DetectObj.name shared' env' = (o', .ok t.1) := by
  have key : ∀ x : DetectObj, detectedTuple x = .ok t → truthyText x.name = true ∧ t.1 = x.name := by
    intro x hx
    unfold detectedTuple at hx
    split at hx
    · rename_i hc; cases hx; exact ⟨hc, rfl⟩
    · cases hx
  have : truthyText o'.name = true ∧ t.1 = o'.name := by
    unfold DetectObj.detect at h
    cases env with
    | some v =>
      simp only [Prod.mk.injEq] at h
      rw [← h.1]; exact key _ h.2
    | none =>
      simp only at h
      cases hr : detectAll o (o.osList shared) with
      | mk a r =>
        rw [hr] at h
        cases r with
        | error e => simp at h
        | ok u =>
          simp only [Prod.mk.injEq] at h
          rw [← h.1]; exact key _ h.2
  unfold DetectObj.get
  rw [if_pos this.1, this.2]

/-- **C91** (the claim fails): an object that answered with an override once keeps answering with it, although the override is gone and
nothing is detected. -/
theorem C91_stale_override_refuted (own : Option DetectorList) (shared : DetectorList) (hs : ∀ p ∈ own.getD shared, p.2.isOs = .ok false)
    (value : List Char) (t : Detected) (h : ((mkDetectObj own).detect shared (some value)).2 = .ok t) :
    (((mkDetectObj own).detect shared (some value)).1.detect shared none).2 = .ok t := by
  have ho : (useOverride (mkDetectObj own) value).osList shared = own.getD shared := rfl
  simp only [DetectObj.detect] at h ⊢
  simp only [ho, detectAll_none _ _ hs]
  exact h

example : (((mkDetectObj none).detect (defaultOsList bareSystem) (some "ubuntu".toList)).1.detect (defaultOsList bareSystem) none).2 =
    .ok (some "ubuntu".toList, some [], some []) := by rfl

end Verif
