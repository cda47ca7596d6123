import Verif.Props.OsDetect
/-! # C87: the other detectors, and when exactly a detector says it is its os -/
namespace Verif

/-- The detector registered under the name is `d`. -/
def Registered (sys : System) (name : String) (d : SysDetector) : Prop := dget (defaultRegistrations sys) name = some d

/-- **C87** Arch and Cygwin: there is a certain file. Arch has no version and no codename; the version of Cygwin is what `uname -r` says. -/
theorem C87_marker_files (sys : System) : ∃ arch cygwin, Registered sys "arch" arch ∧ Registered sys "cygwin" cygwin ∧
    (arch.isOs = .ok true ↔ ∃ t, sys.text "/etc/arch-release" = some t) ∧
    (arch.isOs = .ok true → arch.getVersion = .ok (some []) ∧ arch.getCodename = .ok (some [])) ∧
    (cygwin.isOs = .ok true ↔ ∃ t, sys.text "/usr/bin/cygwin1.dll" = some t) ∧
    (cygwin.isOs = .ok true → (∀ v, sys.stdout ["uname", "-r"] = some v → cygwin.getVersion = .ok (some v.toList)) ∧
      cygwin.getCodename = .ok (some [])) := by
  refine ⟨_, _, rfl, rfl, ?_, ?_, ?_, ?_⟩
  · show Except.ok (sys.text "/etc/arch-release").isSome = .ok true ↔ _
    cases sys.text "/etc/arch-release" <;> simp
  · exact fun h => ⟨whenOs_true h, whenOs_true h⟩
  · show Except.ok (sys.text "/usr/bin/cygwin1.dll").isSome = .ok true ↔ _
    cases sys.text "/usr/bin/cygwin1.dll" <;> simp
  · refine fun h => ⟨fun v hv => ?_, whenOs_true h⟩
    refine (whenOs_true h).trans ?_
    rw [hv]; rfl

/-- `t` is `s` with white space around. -/
def Around (ws : Char → Bool) (s t : List Char) : Prop :=
  ∃ a b, t = a ++ s ++ b ∧ (∀ c ∈ a, ws c = true) ∧ ∀ c ∈ b, ws c = true

theorem mem_takeWhile_ws {ws : Char → Bool} {s : List Char} {c : Char} (h : c ∈ s.takeWhile ws) : ws c = true := by
  induction s with
  | nil => cases h
  | cons a t ih =>
    rw [List.takeWhile_cons] at h
    by_cases e : ws a = true
    · rw [if_pos e] at h
      rcases List.mem_cons.1 h with rfl | h
      · exact e
      · exact ih h
    · rw [if_neg e] at h; cases h

theorem around_strip {ws : Char → Bool} {s t : List Char} (h : pyStrip ws t = s) : Around ws s t := by
  refine ⟨t.takeWhile ws, ((t.dropWhile ws).reverse.takeWhile ws).reverse, ?_, ?_, ?_⟩
  · rw [← h]
    unfold pyStrip
    rw [List.append_assoc, ← List.reverse_append, List.takeWhile_append_dropWhile, List.reverse_reverse, List.takeWhile_append_dropWhile]
  · exact fun c hc => mem_takeWhile_ws hc
  · exact fun c hc => mem_takeWhile_ws (List.mem_reverse.1 hc)

theorem strip_around {ws : Char → Bool} {s t : List Char} (h : Around ws s t) (hs : ∀ c ∈ s, ws c = false) : pyStrip ws t = s := by
  obtain ⟨a, b, rfl, ha, hb⟩ := h
  have k : ∀ (x y : List Char), (∀ c ∈ x, ws c = true) → (∀ c ∈ y, ws c = false) → ∀ z, (∀ c ∈ z, ws c = true) →
      (x ++ y ++ z).dropWhile ws = if y = [] then [] else y ++ z := by
    intro x y hx hy z hz
    rw [List.append_assoc, List.dropWhile_append_of_pos hx]
    cases y with
    | nil =>
      have := List.dropWhile_append_of_pos (l₂ := []) hz
      rw [List.append_nil] at this
      rw [List.nil_append, this]; rfl
    | cons c y => simp [hy c (List.mem_cons_self ..)]
  unfold pyStrip
  rw [k a s ha hs b hb]
  by_cases e : s = []
  · simp [e]
  · rw [if_neg e, List.reverse_append, List.dropWhile_append_of_pos (fun c hc => hb c (List.mem_reverse.1 hc))]
    cases hr : s.reverse with
    | nil => exact absurd (List.reverse_eq_nil_iff.1 hr) e
    | cons x l =>
      rw [List.dropWhile_cons, hs x (List.mem_reverse.1 (hr ▸ List.mem_cons_self ..))]
      simp only [Bool.false_eq_true, if_false]
      rw [← hr, List.reverse_reverse]

/-- **C87** FreeBSD and QNX: there is a program `uname` in a certain place, which prints a certain name; called with `-r` it prints the version. -/
theorem C87_uname (sys : System) (name file os : String)
    (hn : (name, file, os) = ("freebsd", "/usr/bin/uname", "FreeBSD") ∨ (name, file, os) = ("qnx", "/bin/uname", "QNX")) :
    ∃ d, Registered sys name d ∧
      (sys.text file = none → d.isOs = .ok false) ∧
      ((sys.text file).isSome → ∀ s, sys.stdout [file] = some s →
        (Around sys.ws os.toList s.toList → (∀ c ∈ os.toList, sys.ws c = false) → d.isOs = .ok true) ∧
        (d.isOs = .ok true → Around sys.ws os.toList s.toList)) ∧
      (d.isOs = .ok true → (∀ v, sys.stdout [file, "-r"] = some v → d.getVersion = .ok (some v.toList)) ∧ d.getCodename = .ok (some [])) := by
  have hreg : Registered sys name (unameDetector sys file os) := by
    rcases hn with h | h <;> (injection h with h1 h2; injection h2 with h2 h3; subst h1 h2 h3; rfl)
  refine ⟨_, hreg, ?_, ?_, ?_⟩
  · intro h
    show unameIsOs sys file os = _
    unfold unameIsOs System.pathExists
    rw [h]; rfl
  · intro hx s hs
    have e : unameIsOs sys file os = .ok (pyStrip sys.ws s.toList == os.toList) := by
      unfold unameIsOs System.pathExists
      rw [if_pos hx, hs]
    show (_ → _ → unameIsOs sys file os = _) ∧ (unameIsOs sys file os = _ → _)
    rw [e]
    constructor
    · intro h hw
      rw [strip_around h hw, beq_self_eq_true]
    · intro h
      injection h with h
      exact around_strip (eq_of_beq h)
  · intro h
    refine ⟨fun v hv => ?_, whenOs_true h⟩
    refine (whenOs_true h).trans ?_
    rw [hv]; rfl

/-- **C87** Windows: what the module `platform` says. -/
theorem C87_windows (sys : System) : ∃ d, Registered sys "windows" d ∧ (d.isOs = .ok true ↔ sys.platformSystem = "Windows") ∧
    (d.isOs = .ok true → d.getVersion = .ok (some sys.platformVersion.toList) ∧ d.getCodename = .ok (some sys.platformRelease.toList)) := by
  refine ⟨_, rfl, ?_, fun h => ⟨whenOs_true h, whenOs_true h⟩⟩
  show Except.ok (sys.platformSystem == "Windows") = .ok true ↔ _
  simp

/-- **C87** The detectors using `lsb` and the distributions they look for. -/
theorem C87_lsb_registered (sys : System) (name id : String)
    (h : (name, id) ∈ [("debian", "debian"), ("mint", "LinuxMint"), ("ubuntu", "Ubuntu"), ("xubuntu", "Xubuntu")]) :
    ∃ d, Registered sys name d ∧ (d.isOs = .ok true ↔ ∃ v c, sys.lsbInfo = some (id, v, c)) ∧ (d.isOs = .ok false ↔ ¬ ∃ v c, sys.lsbInfo = some (id, v, c)) ∧
      ∀ v c, sys.lsbInfo = some (id, v, c) → d.getVersion = .ok (some v.toList) ∧ d.getCodename = .ok (some c.toList) := by
  have hreg : Registered sys name (lsbDetector sys id) := by
    simp only [List.mem_cons, List.not_mem_nil, or_false] at h
    rcases h with h | h | h | h <;> (injection h with h1 h2; subst h1 h2; rfl)
  refine ⟨_, hreg, ?_, ?_, fun v c hi => (C87_lsb sys id id v c hi).2 rfl⟩
  · unfold lsbDetector
    cases hi : sys.lsbInfo with
    | none => simp
    | some i => obtain ⟨n, v, c⟩ := i; simp
  · unfold lsbDetector
    cases hi : sys.lsbInfo with
    | none => simp
    | some i => obtain ⟨n, v, c⟩ := i; simp

/-- The releases `10.minor` of Mac OS X and their names. -/
def osxReleases : List (Int × String) :=
  [(4, "tiger"), (5, "leopard"), (6, "snow"), (7, "lion"), (8, "mountain lion"), (9, "mavericks"), (10, "yosemite")]

/-- **C87** Mac OS X: there is the program `sw_vers`; what it prints is the version, and the codename is that of the release `10.minor`; a version that cannot be parsed,
or another release: OsNotDetected. -/
theorem C87_osx (sys : System) : ∃ d, Registered sys "osx" d ∧ (d.isOs = .ok true ↔ ∃ t, sys.text "/usr/bin/sw_vers" = some t) ∧
    (d.isOs = .ok true → ∀ v, sys.stdout ["/usr/bin/sw_vers", "-productVersion"] = some v →
      d.getVersion = .ok (some v.toList) ∧
      (v ≠ "" → (∀ minor name, (minor, name) ∈ osxReleases → sys.strictVersion v = some (10, minor) → d.getCodename = .ok (some name.toList)) ∧
        ((∀ r ∈ osxReleases, sys.strictVersion v ≠ some (10, r.1)) → d.getCodename = .error .osNotDetected))) := by
  refine ⟨_, rfl, ?_, ?_⟩
  · show Except.ok (sys.text "/usr/bin/sw_vers").isSome = .ok true ↔ _
    cases sys.text "/usr/bin/sw_vers" <;> simp
  · intro h v hv
    refine ⟨(whenOs_true h).trans (by rw [hv]; rfl), fun hne => ?_⟩
    have e : (osxDetector sys).getCodename = match sys.strictVersion v with
        | some x => (osxCodename x.1 x.2).map fun c => some c.toList
        | none => .error .osNotDetected := by
      refine (whenOs_true h).trans ?_
      unfold osxCodenameOf
      rw [hv]
      simp only [if_neg hne]
      cases sys.strictVersion v <;> rfl
    constructor
    · intro minor name hm hs
      refine e.trans ?_
      rw [hs]
      simp only [osxReleases, List.mem_cons, List.not_mem_nil, or_false] at hm
      rcases hm with hm | hm | hm | hm | hm | hm | hm <;> (injection hm with h1 h2; subst h1 h2; rfl)
    · intro hno
      refine e.trans ?_
      cases hs : sys.strictVersion v with
      | none => rfl
      | some x =>
        obtain ⟨a, b⟩ := x
        show (osxCodename a b).map _ = _
        unfold osxCodename
        cases hd : dget osxCodenameMap b with
        | none => rfl
        | some c =>
          have hm : (b, c) ∈ osxReleases := dget_some_mem hd
          have : a ≠ 10 := by
            rintro rfl
            exact hno _ hm hs
          simp only [if_neg this]
          rfl

/-- **C87** Red Hat, Fedora, openSUSE and Gentoo: a release file beginning with certain words; without the file it is another os. -/
theorem C87_release_files (sys : System) : ∃ rhel fedora suse gentoo, Registered sys "rhel" rhel ∧ Registered sys "fedora" fedora ∧
    Registered sys "opensuse" suse ∧ Registered sys "gentoo" gentoo ∧
    (∀ words, FileWith sys "/etc/redhat-release" words →
      (rhel.isOs = .ok true ↔ ∃ r, words = "Red".toList :: "Hat".toList :: "Enterprise".toList :: r) ∧
      (fedora.isOs = .ok true ↔ ∃ r, words = "Fedora".toList :: r)) ∧
    (∀ words, FileWith sys "/etc/SuSE-brand" words → (suse.isOs = .ok true ↔ ∃ r, words = "openSUSE".toList :: r)) ∧
    (∀ words, FileWith sys "/etc/gentoo-release" words → (gentoo.isOs = .ok true ↔ ∃ r, words = "Gentoo".toList :: "Base".toList :: r)) ∧
    (sys.text "/etc/redhat-release" = none → rhel.isOs = .ok false ∧ fedora.isOs = .ok false) ∧
    (sys.text "/etc/SuSE-brand" = none → suse.isOs = .ok false) ∧ (sys.text "/etc/gentoo-release" = none → gentoo.isOs = .ok false) := by
  refine ⟨_, _, _, _, rfl, rfl, rfl, rfl, ?_, ?_, ?_, ?_, ?_, ?_⟩
  · intro words h
    have hr := readIssue_of h
    refine ⟨?_, ?_⟩
    · show rhelIsOs sys = _ ↔ _
      rw [rhelIsOs, hr]
      simp only [Except.ok.injEq, beq_iff_eq]
      constructor
      · intro e
        match words, e with
        | a :: b :: c :: r, e =>
          simp only [List.take_succ_cons, List.take_zero, List.cons.injEq, and_true] at e
          obtain ⟨rfl, rfl, rfl⟩ := e
          exact ⟨r, rfl⟩
        | [], e => cases e
        | [a], e => simp at e
        | [a, b], e => simp at e
      · rintro ⟨r, rfl⟩; rfl
    · show fedoraIsOs sys = _ ↔ _
      rw [fedoraIsOs, hr]
      cases words with
      | nil => simp
      | cons w r => simp
  · intro words h
    show suseIsOs sys = _ ↔ _
    rw [suseIsOs, readIssue_of h]
    cases words with
    | nil => simp
    | cons w r => simp
  · intro words h
    show gentooIsOs sys = _ ↔ _
    rw [gentooIsOs, readIssue_of h]
    match words with
    | [] => simp
    | [w] =>
      by_cases e : w = "Gentoo".toList
      · simp only [if_pos e, pyAt]; simp [Except.map]
      · simp only [if_neg e]; simp
    | w :: x :: r =>
      by_cases e : w = "Gentoo".toList
      · simp only [if_pos e, pyAt, List.getElem?_cons_zero, Except.map]; simp [e]
      · simp only [if_neg e]
        constructor
        · intro h; cases h
        · rintro ⟨r, h⟩; injection h with h _; exact absurd h e
  · intro h
    exact ⟨by show rhelIsOs sys = _; rw [rhelIsOs, readIssue, h]; rfl, by show fedoraIsOs sys = _; rw [fedoraIsOs, readIssue, h]; rfl⟩
  · intro h; show suseIsOs sys = _; rw [suseIsOs, readIssue, h]; rfl
  · intro h; show gentooIsOs sys = _; rw [gentooIsOs, readIssue, h]; rfl

/-- The first part of a split text is the text, or is followed by the separator. -/
theorem splitStr_head {sep : List Char} {l acc h : List Char} {r : List (List Char)} (hs : sep ≠ [])
    (e : splitStrGo sep 0 acc l = h :: r) : acc.reverse ++ l = h ∨ ∃ x, acc.reverse ++ l = h ++ (sep ++ x) := by
  induction l generalizing acc with
  | nil =>
    rw [splitStrGo] at e
    injection e with e _
    exact .inl (by rw [List.append_nil]; exact e)
  | cons c t ih =>
    rw [splitStrGo] at e
    by_cases hp : sep.isPrefixOf (c :: t) = true
    · rw [if_pos hp] at e
      injection e with e _
      obtain ⟨x, hx⟩ := List.isPrefixOf_iff_prefix.1 hp
      exact .inr ⟨x, by rw [hx, e]⟩
    · rw [if_neg hp] at e
      have := ih e
      rw [List.reverse_cons, List.append_assoc] at this
      exact this

theorem suse_codename_line {v : List Char} (h : ' ' ∉ v) : pySplitStr " = ".toList ("CODENAME = ".toList ++ v) = ["CODENAME".toList, v] := by
  have : pySplitStr " = ".toList ("CODENAME = ".toList ++ v) = "CODENAME".toList :: splitStrGo [' ', '=', ' '] 0 [] v := by rfl
  rw [this, splitStrGo_free h]
  rfl

/-- **C87** openSUSE: the codename is in the line `CODENAME = ..` of the release file, the first such line if there are more. -/
theorem C87_opensuse_codename (sys : System) (hi : (suseDetector sys).isOs = .ok true) (t v : List Char) (pre post : List (List Char))
    (ht : sys.text "/etc/SuSE-release" = some t) (hl : pySplit '\n' (pyStrip sys.ws t) = pre ++ ("CODENAME = ".toList ++ v) :: post) (hv : ' ' ∉ v)
    (hpre : ∀ l ∈ pre, ∀ r, l ≠ "CODENAME".toList ∧ l ≠ "CODENAME = ".toList ++ r) :
    (suseDetector sys).getCodename = .ok (some v) := by
  refine (whenOs_true hi).trans ?_
  unfold suseCodename
  rw [ht]
  show suseCodenameLoop (fileLines sys t) = _
  unfold fileLines
  rw [hl]
  clear hl
  induction pre with
  | nil =>
    show suseCodenameLoop (("CODENAME = ".toList ++ v) :: post) = _
    rw [suseCodenameLoop, suse_codename_line hv]
    rfl
  | cons l pre ih =>
    have hl := hpre l (List.mem_cons_self ..)
    rw [List.cons_append, suseCodenameLoop]
    have ih := ih fun x hx => hpre x (List.mem_cons_of_mem _ hx)
    cases hp : pySplitStr " = ".toList l with
    | nil => exact ih
    | cons k r =>
      simp only
      rw [if_neg ?_]
      · exact ih
      · rintro rfl
        rcases splitStr_head (by decide) hp with e | ⟨x, e⟩
        · exact (hl []).1 e
        · exact (hl x).2 e

/-! ### Examples -/

/-- The machine with some files and some programs. -/
def systemRunning (files : List (String × String)) (out : List (Cmd × String)) : System :=
  { bareSystem with
    text := fun p => (dget files p).map String.toList
    stdout := fun c => dget out c
    strictVersion := fun s => if s = "10.9.2" then some (10, 9) else none }

def exMac : System := systemRunning [("/usr/bin/sw_vers", "")] [(["/usr/bin/sw_vers", "-productVersion"], "10.9.2")]
def exBsd : System := systemRunning [("/usr/bin/uname", "")] [(["/usr/bin/uname"], "FreeBSD\n"), (["/usr/bin/uname", "-r"], "10.0")]

example : (osxDetector exMac).isOs = .ok true ∧ (osxDetector exMac).getCodename = .ok (some "mavericks".toList) := ⟨rfl, rfl⟩
example : (unameDetector exBsd "/usr/bin/uname" "FreeBSD").isOs = .ok true ∧ Around exBsd.ws "FreeBSD".toList "FreeBSD\n".toList ∧
    (unameDetector exBsd "/usr/bin/uname" "FreeBSD").getVersion = .ok (some "10.0".toList) :=
  ⟨rfl, ⟨[], ['\n'], rfl, by simp, by intro c hc; rw [List.mem_singleton.1 hc]; rfl⟩, rfl⟩
example : pySplit '\n' (pyStrip exMac.ws "openSUSE 12.3\nVERSION = 12.3\nCODENAME = Dartmouth\n".toList) =
    ["openSUSE 12.3".toList, "VERSION = 12.3".toList] ++ ("CODENAME = ".toList ++ "Dartmouth".toList) :: [] := rfl

end Verif
