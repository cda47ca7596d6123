import Verif.Lemmas.InstallOutput
import Verif.Props.InstallOutput
import Verif.Spec.PmOutput
import Verif.Props.SetupMessages
import Verif.Props.Installers
import Verif.Props.ProgramOutputExamples
/-! # C133: what the check of a package manager says -/
namespace Verif
variable {σ α β : Type}

/-- What a program that says things prints. -/
def Told.shown (t : Told σ α) : List Line := t.log.flatMap (LogItem.lines false fun _ => none)

/-! ## The same check -/

theorem print_run (ls : List Line) (s : σ) : (Tale.print ls : Tale σ Unit) s = ⟨.ok (), s, ls.map fun l => .said (.line l)⟩ := rfl

theorem print_bind (ls : List Line) (f : Unit → Tale σ β) (s : σ) :
    ((Tale.print ls : Tale σ Unit) >>= f) s = ⟨(f () s).res, (f () s).st, (ls.map fun l => .said (.line l)) ++ (f () s).log⟩ := rfl

/-- **C133** With everything it says, the check of a package manager has the same outcome: it passes, or raises the same error, and leaves the machine in
the same state. -/
theorem C133_same_check (c : Console) (p : PackageManager σ) (exe : String) (os : OsTuple) (fix interactive : Bool) (s : σ) :
    ((checkPmTelling c p exe os fix interactive s).res, (checkPmTelling c p exe os fix interactive s).st) = checkGeneralPm p os fix interactive s := by
  have hu : ∀ s, ((checkUpdatedTelling c p fix interactive s).res, (checkUpdatedTelling c p fix interactive s).st) = checkPmUpdated p fix interactive s := by
    intro s
    unfold checkUpdatedTelling checkPmUpdated
    rw [print_bind]
    simp only
    rw [tale_bind]
    simp only [Tale.attempt]
    rcases hp : p.isPmUpdated s with ⟨r, s1⟩
    cases r with
    | error e =>
      cases e <;> rfl
    | ok b =>
      cases b with
      | true => rfl
      | false =>
        simp only [updatedTelling]
        rw [print_bind]
        unfold fixUpdatedTelling
        cases fix with
        | false => rfl
        | true =>
          simp only [if_true]
          rw [print_bind]
          simp only
          rw [tale_bind]
          simp only [Tale.attempt, updateAndCheck]
          rcases hq : p.updatePm interactive s1 with ⟨r, s2⟩
          cases r with
          | error e => cases e <;> rfl
          | ok u =>
            simp only
            rcases hr : p.isPmUpdated s2 with ⟨r, s3⟩
            cases r with
            | error e => cases e <;> rfl
            | ok b => cases b <;> rfl
  have hi : ∀ s, ((checkInstalledTelling c p exe os fix interactive s).res, (checkInstalledTelling c p exe os fix interactive s).st) =
      checkPmInstalled p os fix interactive s := by
    intro s
    unfold checkInstalledTelling checkPmInstalled
    rw [print_bind]
    simp only
    rw [tale_bind]
    simp only [Tale.call]
    rcases hp : p.isPmInstalled s with ⟨r, s1⟩
    cases r with
    | error e => rfl
    | ok b =>
      cases b with
      | true => rfl
      | false =>
        simp only [Bool.false_eq_true, if_false]
        rw [print_bind]
        unfold fixInstalledTelling
        cases fix with
        | false => rfl
        | true =>
          simp only [if_true]
          rw [print_bind]
          simp only
          rw [tale_bind]
          simp only [Tale.attempt, installAndCheck]
          rcases hq : p.installPm os interactive s1 with ⟨r, s2⟩
          cases r with
          | error e => cases e <;> rfl
          | ok u =>
            simp only
            rcases hr : p.isPmInstalled s2 with ⟨r, s3⟩
            cases r with
            | error e => cases e <;> rfl
            | ok b => cases b <;> rfl
  unfold checkPmTelling checkGeneralPm
  rw [print_bind]
  simp only
  have h1 := hi s
  rcases hc : checkPmInstalled p os fix interactive s with ⟨r, s1⟩
  rw [hc] at h1
  cases r with
  | error e =>
    rw [tale_bind_error (congrArg Prod.fst h1)]
    exact congrArg (Prod.mk _) (congrArg Prod.snd h1)
  | ok u =>
    rw [tale_bind_ok (congrArg Prod.fst h1)]
    have h2 : (checkInstalledTelling c p exe os fix interactive s).st = s1 := congrArg Prod.snd h1
    simp only [h2]
    exact hu s1

/-! ## The messages -/

/-- Run in `s`, the program shows `notes`, and ends with `r` in `s'`. -/
def Utters (v : Bool) (t : Tale σ α) (s : σ) (notes : List Note) (r : Except Exc α) (s' : σ) : Prop :=
  (t s).res = r ∧ (t s).st = s' ∧ (t s).shown = shownNotes v notes

theorem said_shown (ls : List Line) (r : Except Exc α) (s : σ) : (⟨r, s, ls.map fun l => .said (.line l)⟩ : Told σ α).shown = ls := by
  unfold Told.shown
  rw [List.flatMap_map]
  exact List.flatMap_singleton' ls

theorem Utters.chat {c : Console} (hc : c.on = false) (m : List Char) (s : σ) :
    Utters c.verbose (Tale.print (infoV c m).lines) s [.chat m] (.ok ()) s := by
  refine ⟨rfl, rfl, ?_⟩
  rw [print_run, said_shown]
  have : ansi c.on "reset" = [] := by rw [hc]; exact ansi_off (by simp)
  unfold infoV
  cases c.verbose
  · rfl
  · simp [shownNotes, this]

theorem Utters.error {c : Console} (hc : c.on = false) (m : List Char) (s : σ) :
    Utters c.verbose (Tale.print (error c.on m).lines) s [.problem m] (.ok ()) s := by
  refine ⟨rfl, rfl, ?_⟩
  rw [print_run, said_shown, hc]
  unfold Verif.error
  rw [ansi_off (by simp), ansi_off (by simp), ansi_off (by simp)]
  simp [shownNotes]

theorem Utters.warning {c : Console} (hc : c.on = false) (m : List Char) (s : σ) :
    Utters c.verbose (Tale.print (warning c.on m).lines) s [.problem m] (.ok ()) s := by
  refine ⟨rfl, rfl, ?_⟩
  rw [print_run, said_shown, hc]
  unfold Verif.warning
  rw [ansi_off (by simp), ansi_off (by simp)]
  simp [shownNotes]

theorem Utters.bind {v : Bool} {t : Tale σ α} {f : α → Tale σ β} {s s1 s2 : σ} {n1 n2 : List Note} {a : α} {r : Except Exc β}
    (h : Utters v t s n1 (.ok a) s1) (hf : Utters v (f a) s1 n2 r s2) : Utters v (t >>= f) s (n1 ++ n2) r s2 := by
  obtain ⟨h1, h2, h3⟩ := h
  obtain ⟨k1, k2, k3⟩ := hf
  unfold Utters
  rw [tale_bind_ok h1]
  simp only [h2]
  refine ⟨k1, k2, ?_⟩
  rw [shown_append, ← h3, ← k3]
  simp [Told.shown]

theorem Utters.bind_error {v : Bool} {t : Tale σ α} {f : α → Tale σ β} {s s1 : σ} {n : List Note} {e : Exc}
    (h : Utters v t s n (.error e) s1) : Utters v (t >>= f) s n (.error e) s1 := by
  obtain ⟨h1, h2, h3⟩ := h
  unfold Utters
  rw [tale_bind_error h1]
  exact ⟨rfl, h2, h3⟩

theorem Utters.raise (v : Bool) (e : Exc) (s : σ) : Utters v (Tale.quiet (Prog.raise e) : Tale σ α) s [] (.error e) s := ⟨rfl, rfl, rfl⟩

theorem Utters.ret (v : Bool) (a : α) (s : σ) : Utters v (Tale.ret a : Tale σ α) s [] (.ok a) s := ⟨rfl, rfl, rfl⟩

theorem Utters.call {v : Bool} {f : σ → Except Exc α × σ} {s s' : σ} {r : Except Exc α} (h : f s = (r, s')) : Utters v (Tale.call f) s [] r s' := by
  unfold Utters Tale.call
  rw [h]
  exact ⟨rfl, rfl, rfl⟩

theorem Utters.attempt {v : Bool} {f : σ → Except Exc α × σ} {s s' : σ} {r : Except Exc α} (h : f s = (r, s')) :
    Utters v (Tale.attempt f) s [] (.ok r) s' := by
  unfold Utters Tale.attempt
  rw [h]
  exact ⟨rfl, rfl, rfl⟩

theorem Utters.congr {v : Bool} {t : Tale σ α} {s s' : σ} {n n' : List Note} {r : Except Exc α} (h : Utters v t s n r s') (e : n = n') :
    Utters v t s n' r s' := e ▸ h

theorem naming_words (pre : String) (name : String) (post : String) : naming pre name post = words [pre.toList, quoted name.toList, post.toList] := by
  simp [naming, words, quoted]

theorem presence_said {c : Console} (hc : c.on = false) {p : PackageManager σ} (exe : String) {os : OsTuple} {fix interactive : Bool} {x : Presence} {s s' : σ}
    (h : x.Happens p os interactive fix s s') :
    Utters c.verbose (checkInstalledTelling c p exe os fix interactive) s (x.notes p.name exe)
      (if x.good then .ok () else .error .installerPrerequisiteError) s' := by
  have hcomb : words ["Package manager ".toList, quoted p.name.toList, " not installed (".toList] ++ words ["".toList, quoted exe.toList, " not found).".toList] =
      words ["Package manager ".toList, quoted p.name.toList, " not installed (".toList, quoted exe.toList, " not found).".toList] := by
    simp [words, quoted]
  unfold checkInstalledTelling
  cases h with
  | present h1 =>
    refine Utters.congr (Utters.bind (Utters.chat hc _ _) (Utters.bind (Utters.call h1) (Utters.chat hc _ _))) ?_
    simp only [naming_words, Presence.notes, List.nil_append, List.cons_append]
  | missing h1 =>
    refine Utters.congr (Utters.bind (Utters.chat hc _ _) (Utters.bind (Utters.call h1) (Utters.bind (Utters.chat hc _ _) (Utters.raise _ _ _)))) ?_
    simp only [naming_words, hcomb, Presence.notes, List.nil_append, List.cons_append]
  | unsupported h1 h2 =>
    refine Utters.congr (Utters.bind (Utters.chat hc _ _) (Utters.bind (Utters.call h1) (Utters.bind (Utters.chat hc _ _)
      (Utters.bind (Utters.chat hc _ _) (Utters.bind (Utters.attempt (r := .error .notImplementedError) ?_)
        (Utters.bind (Utters.error hc _ _) (Utters.raise _ _ _))))))) ?_
    · simp only [installAndCheck, h2]
    · simp only [naming_words, hcomb, Presence.notes, List.nil_append, List.cons_append]
  | supplied h1 h2 h3 =>
    refine Utters.congr (Utters.bind (Utters.chat hc _ _) (Utters.bind (Utters.call h1) (Utters.bind (Utters.chat hc _ _)
      (Utters.bind (Utters.chat hc _ _) (Utters.bind (Utters.attempt (r := .ok true) ?_) (Utters.ret _ _ _)))))) ?_
    · simp only [installAndCheck, h2, h3]
    · simp only [naming_words, hcomb, Presence.notes, List.nil_append, List.cons_append, List.append_nil]
  | stillMissing h1 h2 h3 =>
    refine Utters.congr (Utters.bind (Utters.chat hc _ _) (Utters.bind (Utters.call h1) (Utters.bind (Utters.chat hc _ _)
      (Utters.bind (Utters.chat hc _ _) (Utters.bind (Utters.attempt (r := .ok false) ?_)
        (Utters.bind (Utters.error hc _ _) (Utters.raise _ _ _))))))) ?_
    · simp only [installAndCheck, h2, h3]
    · simp only [naming_words, hcomb, Presence.notes, List.nil_append, List.cons_append]

theorem currency_said {c : Console} (hc : c.on = false) {p : PackageManager σ} {fix interactive : Bool} {x : Currency} {s s' : σ}
    (h : x.Happens p interactive fix s s') : Utters c.verbose (checkUpdatedTelling c p fix interactive) s (x.notes p.name) (.ok ()) s' := by
  unfold checkUpdatedTelling
  cases h with
  | unchecked h1 =>
    refine Utters.congr (Utters.bind (Utters.chat hc _ _) (Utters.bind (Utters.attempt h1) (Utters.chat hc _ _))) ?_
    simp only [naming_words, Currency.notes, List.nil_append, List.cons_append]
  | current h1 =>
    refine Utters.congr (Utters.bind (Utters.chat hc _ _) (Utters.bind (Utters.attempt h1) (Utters.chat hc _ _))) ?_
    simp only [naming_words, Currency.notes, List.nil_append, List.cons_append]
  | outdated h1 =>
    refine Utters.congr (Utters.bind (Utters.chat hc _ _) (Utters.bind (Utters.attempt h1) (Utters.bind (Utters.chat hc _ _) (Utters.warning hc _ _)))) ?_
    simp only [naming_words, Currency.notes, outdatedNote, List.nil_append, List.cons_append]
  | unsupported h1 h2 =>
    refine Utters.congr (Utters.bind (Utters.chat hc _ _) (Utters.bind (Utters.attempt h1) (Utters.bind (Utters.chat hc _ _)
      (Utters.bind (Utters.chat hc _ _) (Utters.bind (Utters.attempt (r := .error .notImplementedError) ?_)
        (Utters.bind (Utters.error hc _ _) (Utters.warning hc _ _))))))) ?_
    · simp only [updateAndCheck, h2]
    · simp only [naming_words, Currency.notes, outdatedNote, List.nil_append, List.cons_append]
  | updated h1 h2 h3 =>
    refine Utters.congr (Utters.bind (Utters.chat hc _ _) (Utters.bind (Utters.attempt h1) (Utters.bind (Utters.chat hc _ _)
      (Utters.bind (Utters.chat hc _ _) (Utters.bind (Utters.attempt (r := .ok true) ?_) (Utters.ret _ _ _)))))) ?_
    · simp only [updateAndCheck, h2, h3]
    · simp only [naming_words, Currency.notes, List.nil_append, List.cons_append, List.append_nil]
  | stillOutdated h1 h2 h3 =>
    refine Utters.congr (Utters.bind (Utters.chat hc _ _) (Utters.bind (Utters.attempt h1) (Utters.bind (Utters.chat hc _ _)
      (Utters.bind (Utters.chat hc _ _) (Utters.bind (Utters.attempt (r := .ok false) ?_)
        (Utters.bind (Utters.error hc _ _) (Utters.warning hc _ _))))))) ?_
    · simp only [updateAndCheck, h2, h3]
    · simp only [naming_words, Currency.notes, outdatedNote, List.nil_append, List.cons_append]

/-- **C133** Everything the check of a package manager says (colours off), if the package manager is not there in the end: the messages about that, then
the check raises. -/
theorem C133_missing {c : Console} (hc : c.on = false) {p : PackageManager σ} (exe : String) {os : OsTuple} {fix interactive : Bool} {x : Presence} {s s1 : σ}
    (h : x.Happens p os interactive fix s s1) (hx : x.good = false) :
    (checkPmTelling c p exe os fix interactive s).res = .error .installerPrerequisiteError ∧
    (checkPmTelling c p exe os fix interactive s).shown = shownNotes c.verbose (checkingNote p.name :: x.notes p.name exe) := by
  have h1 := presence_said hc exe h
  simp only [hx, Bool.false_eq_true, if_false] at h1
  have := Utters.congr (Utters.bind (f := fun _ => checkInstalledTelling c p exe os fix interactive >>= fun _ => checkUpdatedTelling c p fix interactive)
    (Utters.chat hc (naming "Checking general prerequisites of installer " p.name "...") s) (Utters.bind_error (f := fun _ => checkUpdatedTelling c p fix interactive) h1)) (n' := checkingNote p.name :: x.notes p.name exe) (by
      simp only [naming_words, checkingNote, List.cons_append, List.nil_append])
  exact ⟨this.1, this.2.2⟩

/-- **C133** Everything the check of a package manager says (colours off), if the package manager is there in the end: the messages about that and those
about whether it is up to date; the check passes, whether it is or not. -/
theorem C133_present {c : Console} (hc : c.on = false) {p : PackageManager σ} (exe : String) {os : OsTuple} {fix interactive : Bool} {x : Presence}
    {y : Currency} {s s1 s2 : σ} (h : x.Happens p os interactive fix s s1) (hx : x.good = true) (hy : y.Happens p interactive fix s1 s2) :
    (checkPmTelling c p exe os fix interactive s).res = .ok () ∧
    (checkPmTelling c p exe os fix interactive s).shown = shownNotes c.verbose (checkingNote p.name :: (x.notes p.name exe ++ y.notes p.name)) := by
  have h1 := presence_said hc exe h
  simp only [hx, if_true] at h1
  have := Utters.congr (Utters.bind (f := fun _ => checkInstalledTelling c p exe os fix interactive >>= fun _ => checkUpdatedTelling c p fix interactive)
    (Utters.chat hc (naming "Checking general prerequisites of installer " p.name "...") s) (Utters.bind (f := fun _ => checkUpdatedTelling c p fix interactive) h1 (currency_said hc hy)))
    (n' := checkingNote p.name :: (x.notes p.name exe ++ y.notes p.name)) (by
      simp only [naming_words, checkingNote, List.cons_append, List.nil_append])
  exact ⟨this.1, this.2.2⟩

/-- **C133** If it is not verbose, the check says nothing about a package manager that is there and not known to be out of date. -/
theorem C133_nothing_to_say {c : Console} (hc : c.on = false) (hv : c.verbose = false) {p : PackageManager σ} (exe : String) {os : OsTuple}
    {fix interactive : Bool} {x : Presence} {y : Currency} {s s1 s2 : σ} (h : x.Happens p os interactive fix s s1) (hx : x.good = true)
    (hy : y.Happens p interactive fix s1 s2) (hk : y = .unchecked ∨ y = .current ∨ y = .updated) :
    (checkPmTelling c p exe os fix interactive s).shown = [] := by
  rw [(C133_present hc exe h hx hy).2, hv]
  cases x <;> simp only [Presence.good, Bool.false_eq_true] at hx <;> rcases hk with rfl | rfl | rfl <;> rfl

/-- **C133** If the check of a package manager was to fix what is missing and could not, that is said, naming the installer, even if not verbose. -/
theorem C133_failure_is_said {c : Console} (hc : c.on = false) {p : PackageManager σ} (exe : String) {os : OsTuple} {interactive : Bool} {x : Presence}
    {s s1 : σ} (h : x.Happens p os interactive true s s1) (hx : x.good = false) :
    ∃ why, (x = .unsupported ∧ why = " does not support installing itself." ∨ x = .stillMissing ∧ why = " failed to install itself.") ∧
      Line.err (words ["Installer plugin ".toList, quoted p.name.toList, why.toList]) ∈ (checkPmTelling c p exe os true interactive s).shown := by
  rw [(C133_missing hc exe h hx).2]
  cases h with
  | present h1 => cases hx
  | supplied h1 h2 h3 => cases hx
  | unsupported h1 h2 => exact ⟨_, .inl ⟨rfl, rfl⟩, by cases c.verbose <;> simp [shownNotes, Presence.notes, checkingNote]⟩
  | stillMissing h1 h2 h3 => exact ⟨_, .inr ⟨rfl, rfl⟩, by cases c.verbose <;> simp [shownNotes, Presence.notes, checkingNote]⟩

/-- **C133 (refuted part)** The warning that a package manager is out of date does not say which: what is shown about two package managers of which both
are out of date is the same. -/
theorem C133_outdated_which_refuted {c : Console} (hc : c.on = false) (hv : c.verbose = false) {p q : PackageManager σ} (exe exe' : String) {os : OsTuple}
    {interactive : Bool} {s s1 s2 t1 t2 : σ} (hp : Presence.present.Happens p os interactive false s s1) (hq : Presence.present.Happens q os interactive false s t1)
    (hp' : Currency.outdated.Happens p interactive false s1 s2) (hq' : Currency.outdated.Happens q interactive false t1 t2) :
    (checkPmTelling c p exe os false interactive s).shown = (checkPmTelling c q exe' os false interactive s).shown ∧
    (checkPmTelling c p exe os false interactive s).shown =
      [.err "Package manager '{}' seems to be out-of-date. Please consider updating for best results.".toList] := by
  rw [(C133_present hc exe hp rfl hp').2, (C133_present hc exe' hq rfl hq').2, hv]
  exact ⟨rfl, rfl⟩

/-! ## On stderr only -/

/-- What the checks of package managers say, as the voice of installers. -/
def pmVoice (c : Console) (pm : String → Option (PackageManager σ × String)) : Voice σ where
  general n os fix inter s :=
    match pm n with
    | some (p, exe) => (checkPmTelling c p exe os fix inter s).log.filterMap LogItem.remark |>.flatMap (Remark.lines c.on)
    | none => []
  prereq n _ _ _ _ s :=
    match pm n with
    | some (p, _) => (checkInstallPmTelling c p s).log.filterMap LogItem.remark |>.flatMap (Remark.lines c.on)
    | none => []

theorem Tells.print {P : Remark → Prop} {ls : List Line} (h : ∀ l ∈ ls, P (.line l)) : Tells P (Tale.print ls : Tale σ Unit) := by
  intro s r hr
  simp only [Tale.print, List.mem_map] at hr
  obtain ⟨l, hl, e⟩ := hr
  cases e
  exact h l hl

theorem Tells.call {P : Remark → Prop} (f : σ → Except Exc α × σ) : Tells P (Tale.call f) := by
  intro s r hr
  simp [Tale.call] at hr

theorem Tells.attempt {P : Remark → Prop} (f : σ → Except Exc α × σ) : Tells P (Tale.attempt f) := by
  intro s r hr
  simp [Tale.attempt] at hr

theorem Tells.chat {P : Remark → Prop} (hP : ∀ t, P (.line (.err t))) (c : Console) (m : List Char) : Tells P (Tale.print (infoV c m).lines : Tale σ Unit) := by
  refine .print fun l hl => ?_
  unfold infoV at hl
  split at hl
  · simp only [List.mem_singleton] at hl
    subst hl
    exact hP _
  · cases hl

theorem tells_pm {P : Remark → Prop} (hP : ∀ t, P (.line (.err t))) (c : Console) (p : PackageManager σ) (exe : String) (os : OsTuple) (fix interactive : Bool) :
    Tells P (checkPmTelling c p exe os fix interactive) := by
  have he : ∀ m, Tells P (Tale.print (error c.on m).lines : Tale σ Unit) := fun m => .print fun l hl => by
    simp only [error, List.mem_singleton] at hl; subst hl; exact hP _
  have hw : Tells P (warnOutdated c : Tale σ Unit) := .print fun l hl => by
    simp only [warning, List.mem_singleton] at hl; subst hl; exact hP _
  have h1 : Tells P (checkInstalledTelling c p exe os fix interactive) := by
    unfold checkInstalledTelling
    refine .bind (.chat hP _ _) fun _ => .bind (.call _) fun b => .ite (.chat hP _ _) (.bind (.chat hP _ _) fun _ => ?_)
    unfold fixInstalledTelling
    refine .ite (.bind (.chat hP _ _) fun _ => .bind (.attempt _) fun r => ?_) (.quiet _)
    unfold installedAfterFix
    split
    · exact .ret _
    · exact .bind (he _) fun _ => .quiet _
    · exact .bind (he _) fun _ => .quiet _
    · exact .quiet _
  have h2 : Tells P (checkUpdatedTelling c p fix interactive) := by
    unfold checkUpdatedTelling
    refine .bind (.chat hP _ _) fun _ => .bind (.attempt _) fun r => ?_
    unfold updatedTelling
    split
    · exact .chat hP _ _
    · refine .bind (.chat hP _ _) fun _ => ?_
      unfold fixUpdatedTelling
      refine .ite (.bind (.chat hP _ _) fun _ => .bind (.attempt _) fun r => ?_) hw
      unfold updatedAfterFix
      split
      · exact .ret _
      · exact .bind (he _) fun _ => hw
      · exact .bind (he _) fun _ => hw
      · exact .quiet _
    · exact .chat hP _ _
    · exact .quiet _
  exact .bind (.chat hP _ _) fun _ => .bind h1 fun _ => h2

/-- **C133** The checks of package managers print on stderr only: what `C131_stderr_only` and `C131_program` ask of installers. -/
theorem C133_on_stderr (c : Console) (pm : String → Option (PackageManager σ × String)) : (pmVoice c pm).OnStderr := by
  have key : ∀ {α : Type} {t : Tale σ α} (s : σ), Tells (fun r => ∃ x, r = .line (.err x)) t →
      ∀ l ∈ ((t s).log.filterMap LogItem.remark).flatMap (Remark.lines c.on), ∃ x, l = .err x := by
    intro α t s ht l hl
    obtain ⟨r, hr, hl⟩ := List.mem_flatMap.1 hl
    obtain ⟨i, hi, he⟩ := List.mem_filterMap.1 hr
    cases i with
    | did e => cases he
    | said r' =>
      simp only [remark_said, Option.some.injEq] at he
      subst he
      obtain ⟨x, rfl⟩ := ht s _ hi
      simp only [Remark.lines, List.mem_singleton] at hl
      exact ⟨x, hl⟩
  refine ⟨fun n os fix inter s l hl => ?_, fun n rs os fix inter s l hl => ?_⟩
  · simp only [pmVoice] at hl
    split at hl
    · exact key s (tells_pm (fun t => ⟨t, rfl⟩) c _ _ os fix inter) l hl
    · cases hl
  · simp only [pmVoice] at hl
    split at hl
    · exact key s (Tells.chat (fun t => ⟨t, rfl⟩) c _) l hl
    · cases hl

/-! ## Examples -/

/-- A package manager on a machine that says whether it is installed and whether it is up to date; it cannot be installed. -/
def exManager (name : String) : PackageManager (Bool × Bool) where
  name := name
  commandsNoRoot _ _ _ := .ok []
  filterUninstalled l s := (.ok l, s)
  isPmInstalled s := (.ok s.1, s)
  installPm _ _ s := (.error .notImplementedError, s)
  isPmUpdated s := (.ok s.2, s)

example : (checkPmTelling ⟨exTexts, false, true⟩ (exManager "apt") "apt-get" ("debian", "7") true false (false, false)).shown =
    [.err "Checking general prerequisites of installer 'apt'...".toList,
     .err "Checking if package manager 'apt' is installed.".toList,
     .err "Package manager 'apt' not installed ('apt-get' not found).".toList,
     .err "Trying to install 'apt'.".toList,
     .err "Installer plugin 'apt' does not support installing itself.".toList] :=
  (C133_missing (c := ⟨exTexts, false, true⟩) rfl "apt-get" (.unsupported (p := exManager "apt") rfl rfl) rfl).2.trans rfl

example : (checkPmTelling ⟨exTexts, false, false⟩ (exManager "apt") "apt-get" ("debian", "7") false false (true, false)).shown =
    (checkPmTelling ⟨exTexts, false, false⟩ (exManager "pip") "pip" ("debian", "7") false false (true, false)).shown :=
  (C133_outdated_which_refuted rfl rfl _ _ (.present rfl) (.present rfl) (.outdated rfl) (.outdated rfl)).1

end Verif
