import Verif.Props.Installers
/-! # Privileges, prerequisites and the plugins: C56, C61, C62 -/
namespace Verif
variable {σ : Type}

/-! ## C56 -/

theorem elevate_ok {c : Cmd} (h : c ≠ []) : ∃ c', elevatePrivileges c = .ok c' ∧ Elevated c c' := by
  cases c with
  | nil => exact absurd rfl h
  | cons a t =>
    by_cases ha : a = "sudo"
    · exact ⟨a :: t, by simp [elevatePrivileges, ha], .inl ⟨by simp [ha], rfl⟩⟩
    · exact ⟨"sudo" :: a :: t, by simp [elevatePrivileges, ha], .inr ⟨by simpa using ha, rfl⟩⟩

theorem elevate_all {cmds : List Cmd} (h : ∀ c ∈ cmds, c ≠ []) : ∃ out, cmds.mapM elevatePrivileges = .ok out ∧ List.Forall₂ Elevated cmds out := by
  induction cmds with
  | nil => exact ⟨[], rfl, .nil⟩
  | cons a t ih =>
    obtain ⟨a', h1, h2⟩ := elevate_ok (h a (by simp))
    obtain ⟨t', h3, h4⟩ := ih fun c hc => h c (List.mem_cons_of_mem _ hc)
    exact ⟨a' :: t', by simp [List.mapM_cons, h1, h3, bind, Except.bind, pure, Except.pure], .cons h2 h4⟩

/-- **C56** If the installer needs root (`as_root`) and the process is not root every command is elevated, in order and with nothing else
changed; otherwise the commands are what the plugin gives. -/
theorem C56_elevated_iff_needed (isRoot : Bool) (options : Config) (cmds : List Cmd) (hne : ∀ c ∈ cmds, c ≠ []) (asRoot : Bool)
    (ho : readOpt options "as_root" = .ok (.bool asRoot)) :
    ∃ out, baseInstallCommands isRoot options (.ok cmds) = .ok out ∧
      (asRoot = true ∧ isRoot = false → List.Forall₂ Elevated cmds out) ∧ (¬ (asRoot = true ∧ isRoot = false) → out = cmds) := by
  obtain ⟨out, h1, h2⟩ := elevate_all hne
  unfold baseInstallCommands
  simp only [bind, Except.bind, ho, pyTruthy]
  cases asRoot <;> cases isRoot <;> simp [h1, h2, pure, Except.pure]

/-- **C56** Elevating an elevated command changes nothing, and an elevated command starts with `sudo` exactly once more than needed: its words
are those of the command, after at most one added `sudo`. -/
theorem C56_idempotent (c c' : Cmd) (h : elevatePrivileges c = .ok c') :
    Elevated c c' ∧ c'.head? = some (some "sudo") ∧ elevatePrivileges c' = .ok c' := by
  cases c with
  | nil => simp [elevatePrivileges] at h
  | cons a t =>
    by_cases ha : a = "sudo"
    · simp only [elevatePrivileges, ha, ne_eq, not_true_eq_false, if_false] at h
      injection h with h
      subst h; subst ha
      exact ⟨.inl ⟨rfl, rfl⟩, rfl, by simp [elevatePrivileges]⟩
    · simp only [elevatePrivileges, ne_eq, ha, not_false_eq_true, if_true] at h
      injection h with h
      subst h
      exact ⟨.inr ⟨by simpa using ha, rfl⟩, rfl, by simp [elevatePrivileges]⟩

/-- **C56** The exception: a plugin that gives an empty command makes elevation fail with IndexError. -/
theorem C56_empty_command_crashes (options : Config) (cmds : List Cmd) (h : [] ∈ cmds) (ho : readOpt options "as_root" = .ok (.bool true)) :
    baseInstallCommands false options (.ok cmds) = .error .indexError := by
  unfold baseInstallCommands
  simp only [bind, Except.bind, ho, pyTruthy, Bool.not_false, Bool.and_true, if_true]
  induction cmds with
  | nil => cases h
  | cons a t ih =>
    cases a with
    | nil => rfl
    | cons b u =>
      have := ih (by simpa using h)
      simp [List.mapM_cons, elevatePrivileges, this, bind, Except.bind]

theorem options_spec (expand : String → String) (dflt : Bool) (data : Dict PKey PVal) :
    setOptions expand (describe (baseOptions dflt)) (.dict data) = (do
      let p ← CType.boolean.fromYaml expand ((dget data (.str "as_root")).getD .none)
      pure [("as_root", .val (if p.isNone then .bool dflt else p))]) := by
  have g : groupOf "as_root" = none := by rfl
  have hg : (describe (baseOptions dflt)).groups = [] := by cases dflt <;> rfl
  have hi : (describe (baseOptions dflt)).items = [("as_root", mkItem { name := "as_root", type := .boolean, default := .bool dflt })] := by cases dflt <;> rfl
  have hd : configFromDefaults (describe (baseOptions dflt)) = .ok [("as_root", .val (.bool dflt))] := by cases dflt <;> rfl
  simp only [setOptions, configFromParsedYaml, hg, fillGroups, bind, Except.bind, hi, fillItems, g, yamlValue, if_true, hd]
  cases h1 : CType.boolean.fromYaml expand ((dget data (.str "as_root")).getD .none) with
  | error e => rw [show (mkItem { name := "as_root", type := .boolean, default := .bool dflt }).type = .boolean from rfl, h1]
  | ok p =>
    rw [show (mkItem { name := "as_root", type := .boolean, default := .bool dflt }).type = .boolean from rfl, h1]
    cases p <;> cases dflt <;> rfl

/-- **C56** The `as_root` option is the configured truth value, the plugin's default if there is none (or null); anything else is rejected. -/
theorem C56_as_root_option (expand : String → String) (dflt : Bool) (data : Dict PKey PVal) :
    (∀ b, dget data (.str "as_root") = some (.bool b) →
      ∃ c, setOptions expand (describe (baseOptions dflt)) (.dict data) = .ok c ∧ readOpt c "as_root" = .ok (.bool b)) ∧
    (dget data (.str "as_root") = none ∨ dget data (.str "as_root") = some .none →
      ∃ c, setOptions expand (describe (baseOptions dflt)) (.dict data) = .ok c ∧ readOpt c "as_root" = .ok (.bool dflt)) ∧
    (∀ v, dget data (.str "as_root") = some v → v ≠ .none → (∀ b, v ≠ .bool b) →
      setOptions expand (describe (baseOptions dflt)) (.dict data) = .error .configValueError) := by
  rw [options_spec]
  refine ⟨fun b h => ?_, fun h => ?_, fun v h h1 h2 => ?_⟩
  · rw [h]; exact ⟨_, rfl, rfl⟩
  · rcases h with h | h <;> rw [h] <;> exact ⟨_, rfl, rfl⟩
  · rw [h]
    cases v with
    | none => exact absurd rfl h1
    | bool b => exact absurd rfl (h2 b)
    | _ => rfl

theorem packageOf_names {r : Resolution} {w : Option String} (h : Names r w) : packageOf r = .ok w := by
  unfold packageOf
  rcases h with ⟨s, h, rfl⟩ | ⟨h, rfl⟩ <;> rw [h]

theorem packageCommands_ok {pre : Cmd} {rs : List Resolution} {ps : List (Option String)}
    (h : List.Forall₂ Names rs ps) : packageCommands pre rs = .ok (ps.map fun p => pre ++ [p]) := by
  induction h with
  | nil => rfl
  | cons h1 _ ih =>
    unfold packageCommands at ih ⊢
    rw [List.mapM_cons, ih, packageOf_names h1]
    rfl

/-- **C56** What the package manager plugins run, for resolutions naming the packages `ps` (null included): one command per package in order, with
`sudo` iff `as_root` is set and the process is not root. -/
theorem C56_plugin_commands (h : Host σ) (options : Config) (b : Bool) (ho : readOpt options "as_root" = .ok (.bool b)) (rs : List Resolution)
    (ps : List (Option String)) (hp : List.Forall₂ Names rs ps) (inter re : Bool) (s : σ) :
    let pre : Cmd := if b = true ∧ h.isRoot = false then [some "sudo"] else []
    ((aptPlugin h).installer h options).getInstallCommands rs inter re s = (.ok (ps.map fun p => pre ++ [some "apt-get", some "install", p]), s) ∧
    ((homebrewPlugin h).installer h options).getInstallCommands rs inter re s = (.ok (ps.map fun p => pre ++ [some "brew", some "install", p]), s) ∧
    ((macportsPlugin h).installer h options).getInstallCommands rs inter re s = (.ok (ps.map fun p => pre ++ [some "port", some "install", p]), s) ∧
    ((pipPlugin h).installer h options).getInstallCommands rs inter re s = (.ok (ps.map fun p => pre ++ [some "pip", some "install", some "-U", p]), s) := by
  have key : ∀ (c : Option String) (pre : Cmd), c ≠ some "sudo" → baseInstallCommands h.isRoot options (packageCommands (c :: pre) rs)
      = .ok (ps.map fun p => (if b = true ∧ h.isRoot = false then [some "sudo"] else []) ++ c :: (pre ++ [p])) := by
    intro c pre hc
    unfold baseInstallCommands
    rw [packageCommands_ok hp]
    simp only [bind, Except.bind, ho, pyTruthy]
    have el : ∀ l : List (Option String), (l.map fun p => c :: pre ++ [p]).mapM elevatePrivileges = .ok (l.map fun p => some "sudo" :: c :: (pre ++ [p])) := by
      intro l
      induction l with
      | nil => rfl
      | cons a t ih => simp [List.mapM_cons, elevatePrivileges, hc, bind, Except.bind, pure, Except.pure] at ih ⊢; rw [ih]
    cases b <;> cases h.isRoot <;> simp only [pure, Except.pure, Bool.not_true, Bool.not_false, Bool.and_true, Bool.and_false, if_true,
      Bool.false_eq_true, if_false, false_and, and_false, and_self, List.nil_append, List.cons_append, reduceCtorEq]
    exact el ps
  refine ⟨?_, ?_, ?_, ?_⟩
  · exact congrArg (·, s) (key (some "apt-get") [some "install"] (by decide))
  · exact congrArg (·, s) (key (some "brew") [some "install"] (by decide))
  · exact congrArg (·, s) (key (some "port") [some "install"] (by decide))
  · exact congrArg (·, s) (key (some "pip") [some "install", some "-U"] (by decide))

example : baseInstallCommands false [("as_root", .val (.bool true))] (.ok [["sudo", "x"], ["y", "z"]]) = .ok [["sudo", "x"], ["sudo", "y", "z"]] := by rfl
example : baseInstallCommands true [("as_root", .val (.bool true))] (.ok [["y", "z"]]) = .ok [["y", "z"]] := by rfl
example : Elevated ["y", "z"] ["sudo", "y", "z"] := .inr ⟨by decide, rfl⟩

/-! ## C61 -/

/-- **C61** The check of the package manager passes iff it is found installed, or fixing was requested, the plugin's fix returned, and the
package manager was then found installed. -/
theorem C61_continues_iff (p : PackageManager σ) (os : OsTuple) (fix interactive : Bool) (s s' : σ) :
    checkPmInstalled p os fix interactive s = (.ok (), s') ↔
      p.isPmInstalled s = (.ok true, s') ∨
      ∃ s1 s2, p.isPmInstalled s = (.ok false, s1) ∧ fix = true ∧ p.installPm os interactive s1 = (.ok (), s2) ∧
        p.isPmInstalled s2 = (.ok true, s') := by
  unfold checkPmInstalled
  rcases h1 : p.isPmInstalled s with ⟨e | b, s1⟩
  · simp
  · cases b with
    | true => simp
    | false =>
      cases fix with
      | false => simp
      | true =>
        simp only [if_true]
        rcases h2 : p.installPm os interactive s1 with ⟨e | u, s2⟩
        · simp [h2]
        · rcases h3 : p.isPmInstalled s2 with ⟨e | b, s3⟩
          · simp [h2, h3]
          · cases b <;> simp [h2, h3]

/-- **C61 (partial)** If the package manager is not installed and the check does not pass then an InstallerPrerequisiteError is raised, unless
the plugin's own fix or its second check raised something else than NotImplementedError, which is passed on. Without fixing nothing but the
plugin's installed-check is run. -/
theorem C61_otherwise_prerequisite_error_partial (p : PackageManager σ) (os : OsTuple) (fix interactive : Bool) (s s1 : σ)
    (h : p.isPmInstalled s = (.ok false, s1)) (hf : ∀ s', checkPmInstalled p os fix interactive s ≠ (.ok (), s')) :
    (fix = false → checkPmInstalled p os fix interactive s = (.error .installerPrerequisiteError, s1)) ∧
    (fix = true →
      ((checkPmInstalled p os fix interactive s).1 = .error .installerPrerequisiteError ∨
       ∃ e, e ≠ .notImplementedError ∧ (checkPmInstalled p os fix interactive s).1 = .error e ∧
        ((p.installPm os interactive s1).1 = .error e ∨
          (p.installPm os interactive s1).1 = .ok () ∧ (p.isPmInstalled (p.installPm os interactive s1).2).1 = .error e))) := by
  revert hf
  unfold checkPmInstalled
  rw [h]
  intro hf
  constructor
  · rintro rfl; rfl
  · rintro rfl
    simp only [if_true] at hf ⊢
    rcases h2 : p.installPm os interactive s1 with ⟨e | u, s2⟩
    · simp only [prerequisiteFailure]
      by_cases he : e = .notImplementedError
      · left; simp [he]
      · right; exact ⟨e, he, by simp [he], by simp⟩
    · simp only [h2] at hf
      cases u
      simp only
      rcases h3 : p.isPmInstalled s2 with ⟨e | b, s3⟩
      · simp only [prerequisiteFailure]
        by_cases he : e = .notImplementedError
        · left; simp [he]
        · right; exact ⟨e, he, by simp [he], .inr ⟨trivial, rfl⟩⟩
      · cases b with
        | true => simp only [h3] at hf; exact absurd rfl (hf s3)
        | false => left; rfl

/-- **C61** The check of an installer passes only if the check of its package manager does, and then only a failure of the up-to-date check
can stop it; not being up to date, or not knowing, never does. -/
theorem C61_general_check (p : PackageManager σ) (h : Host σ) (options : Config) (os : OsTuple) (fix interactive : Bool) (s : σ) :
    (∀ s1 e, checkPmInstalled p os fix interactive s = (.error e, s1) → (p.installer h options).checkGeneral os fix interactive s = (.error e, s1)) ∧
    (∀ s1, checkPmInstalled p os fix interactive s = (.ok (), s1) →
      ((p.isPmUpdated s1).1 = .error .notImplementedError ∨ (∃ b, (p.isPmUpdated s1).1 = .ok b ∧ (b = true ∨ fix = false)) →
        ((p.installer h options).checkGeneral os fix interactive s) = (.ok (), (p.isPmUpdated s1).2))) := by
  constructor
  · intro s1 e h1
    simp only [PackageManager.installer, checkGeneralPm, h1]
  · intro s1 h1 h2
    simp only [PackageManager.installer, checkGeneralPm, h1, checkPmUpdated]
    rcases h3 : p.isPmUpdated s1 with ⟨e | b, s2⟩
    · rw [h3] at h2
      rcases h2 with h2 | ⟨b, h2, _⟩
      · injection h2 with h2; subst h2; rfl
      · cases h2
    · rw [h3] at h2
      rcases h2 with h2 | ⟨b', h2, h4⟩
      · cases h2
      · injection h2 with h2; subst h2
        cases b with
        | true => rfl
        | false =>
          have : fix = false := h4.resolve_left (by decide)
          subst this; rfl

/-- **C61 refuted** for apt, homebrew, macports and pip: when the package manager is missing and fixing was requested, the check ends with
a TypeError (the plugins' fix cannot be called with the arguments given). -/
theorem C61_fix_crashes (h : Host σ) (os : OsTuple) (interactive : Bool) (s s1 : σ) :
    ∀ pm ∈ [("apt-get", aptPlugin h), ("brew", homebrewPlugin h), ("port", macportsPlugin h), ("pip", pipPlugin h)],
      h.popen [pm.1] s = (.error .osError, s1) → checkGeneralPm pm.2 os true interactive s = (.error .typeError, s1) ∧
        checkGeneralPm pm.2 os false interactive s = (.error .installerPrerequisiteError, s1) := by
  intro pm hpm hs
  simp only [List.mem_cons, List.not_mem_nil, or_false] at hpm
  rcases hpm with rfl | rfl | rfl | rfl <;>
    simp [checkGeneralPm, checkPmInstalled, aptPlugin, homebrewPlugin, macportsPlugin, pipPlugin, isProgramInstalled, hs, installPmWrongArity, prerequisiteFailure]

/-- **C61** If the program of the package manager of apt, homebrew, macports or pip can be started, the check passes, whatever the program prints and
whether or not fixing was requested, and nothing else is done. -/
theorem C61_present_passes (h : Host σ) (os : OsTuple) (fix interactive : Bool) (s s1 : σ) (out : String) :
    ∀ pm ∈ [("apt-get", aptPlugin h), ("brew", homebrewPlugin h), ("port", macportsPlugin h), ("pip", pipPlugin h)],
      h.popen [pm.1] s = (.ok out, s1) → checkGeneralPm pm.2 os fix interactive s = (.ok (), s1) := by
  intro pm hpm hs
  simp only [List.mem_cons, List.not_mem_nil, or_false] at hpm
  rcases hpm with rfl | rfl | rfl | rfl <;>
    simp [checkGeneralPm, checkPmInstalled, aptPlugin, homebrewPlugin, macportsPlugin, pipPlugin, isProgramInstalled, hs, checkPmUpdated, ignoreNotImplemented]

/-- **C61** The fake installer's fix works: if its directory does not exist and can be made, the check passes. -/
theorem C61_fake_fix (h : Host σ) (options : Config) (os : OsTuple) (interactive : Bool) (s s1 : σ) (d : String)
    (hd : d = textOption options "install_dir") (h1 : h.isdir d s = false) (h2 : h.pathExists d s = false) (h3 : h.makedirs d s = (.ok (), s1))
    (h4 : h.isdir d s1 = true) :
    checkGeneralPm (fakePlugin h options) os true interactive s = (.ok (), s1) ∧
    checkGeneralPm (fakePlugin h options) os false interactive s = (.error .installerPrerequisiteError, s) := by
  subst hd
  constructor <;> simp [checkGeneralPm, checkPmInstalled, fakePlugin, fakeInstallPm, h1, h2, h3, h4, checkPmUpdated, ignoreNotImplemented]

/-! ## C62 -/

/-- A field of a text: delimited by the separator or the ends. -/
def IsField (c : Char) (s l : List Char) : Prop :=
  ∃ pre post, s = pre ++ l ++ post ∧ c ∉ l ∧ (pre = [] ∨ ∃ p, pre = p ++ [c]) ∧ (post = [] ∨ ∃ p, post = c :: p)

/-- The first separator is at the same place. -/
theorem first_sep {c : Char} {a b x y : List Char} (ha : c ∉ a) (h : a ++ c :: b = x ++ c :: y) :
    (x = a ∧ y = b) ∨ ∃ z, x = a ++ c :: z ∧ z ++ c :: y = b := by
  rcases List.append_eq_append_iff.1 h with ⟨z, h1, h2⟩ | ⟨z, h1, h2⟩
  · cases z with
    | nil => simp at h1 h2; exact .inl ⟨h1, h2.symm⟩
    | cons d z =>
      simp only [List.cons_append, List.cons.injEq] at h2
      exact .inr ⟨z, by rw [h1, h2.1], h2.2.symm⟩
  · cases z with
    | nil => simp at h1 h2; exact .inl ⟨h1.symm, h2⟩
    | cons d z =>
      simp only [List.cons_append, List.cons.injEq] at h2
      exact absurd (by rw [h1, ← h2.1]; simp) ha

theorem isField_append {c : Char} {a b l : List Char} (ha : c ∉ a) : IsField c (a ++ c :: b) l ↔ l = a ∨ IsField c b l := by
  constructor
  · rintro ⟨pre, post, h1, h2, h3, h4⟩
    rcases h3 with rfl | ⟨p, rfl⟩
    · rcases h4 with rfl | ⟨p, rfl⟩
      · exact absurd (by simp at h1; rw [← h1]; simp) h2
      · rw [List.nil_append] at h1
        rcases first_sep ha h1 with ⟨h, _⟩ | ⟨z, h, _⟩
        · exact .inl h
        · exact absurd (by rw [h]; simp) h2
    · simp only [List.append_assoc, List.cons_append, List.nil_append] at h1
      right
      rcases first_sep ha h1 with ⟨h, h'⟩ | ⟨z, h, h'⟩
      · exact ⟨[], post, by simp [h'], h2, .inl rfl, h4⟩
      · exact ⟨z ++ [c], post, by simp [← h'], h2, .inr ⟨z, rfl⟩, h4⟩
  · rintro (rfl | ⟨pre, post, h1, h2, h3, h4⟩)
    · exact ⟨[], c :: b, by simp, ha, .inl rfl, .inr ⟨b, rfl⟩⟩
    · refine ⟨a ++ c :: pre, post, by simp [h1], h2, .inr ?_, h4⟩
      rcases h3 with rfl | ⟨p, rfl⟩
      · exact ⟨a, rfl⟩
      · exact ⟨a ++ c :: p, by simp⟩

theorem isField_free {c : Char} {s l : List Char} (hs : c ∉ s) : IsField c s l ↔ l = s := by
  constructor
  · rintro ⟨pre, post, h1, _, h3, h4⟩
    rcases h3 with rfl | ⟨p, rfl⟩
    · rcases h4 with rfl | ⟨p, rfl⟩
      · simpa using h1.symm
      · exact absurd (by rw [h1]; simp) hs
    · exact absurd (by rw [h1]; simp) hs
  · rintro rfl; exact ⟨[], [], by simp, hs, .inl rfl, .inl rfl⟩

theorem mem_split_first {c : Char} {s : List Char} (h : c ∈ s) : ∃ a b, s = a ++ c :: b ∧ c ∉ a := by
  obtain ⟨a, b, h1, h2⟩ := List.append_of_mem h |>.elim fun a h => h.elim fun b h => (⟨a, b, h, trivial⟩ : ∃ a b, s = a ++ c :: b ∧ True)
  clear h1 h2
  induction s with
  | nil => cases h
  | cons x s ih =>
    by_cases hx : x = c
    · exact ⟨[], s, by simp [hx], by simp⟩
    · obtain ⟨a, b, h1, h2⟩ := ih (by simpa [Ne.symm hx] using h)
      exact ⟨x :: a, b, by simp [h1], by simp [h2, Ne.symm hx]⟩

theorem mem_pySplit {c : Char} {s l : List Char} : l ∈ pySplit c s ↔ IsField c s l := by
  generalize hn : s.length = n
  induction n using Nat.strongRecOn generalizing s with
  | _ n ih =>
    by_cases h : c ∈ s
    · obtain ⟨a, b, rfl, ha⟩ := mem_split_first h
      rw [pySplit_append ha, isField_append ha, List.mem_cons, ih b.length (by simp [← hn]; omega) rfl]
    · rw [pySplit_free h, isField_free h, List.mem_singleton]

theorem namePart_before (l : List Char) : NamePart l (beforeEqEq l) := by
  induction l with
  | nil => exact .inl ⟨rfl, by decide⟩
  | cons c t ih =>
    unfold beforeEqEq
    split
    · next h =>
      obtain ⟨r, hr⟩ := List.isPrefixOf_iff_prefix.1 h
      exact .inr ⟨r, by simpa using hr.symm, by decide⟩
    · next h =>
      have hpre : ¬ "==".toList <+: c :: t := fun hh => h (List.isPrefixOf_iff_prefix.2 hh)
      rcases ih with ⟨h1, h2⟩ | ⟨r, h1, h2⟩
      · left
        refine ⟨by rw [← h1], fun hi => ?_⟩
        rcases List.infix_cons_iff.1 hi with hi | hi
        · exact hpre hi
        · exact h2 hi
      · right
        refine ⟨r, ?_, fun hi => ?_⟩
        · simpa using h1
        · rw [List.cons_append] at hi
          rcases List.infix_cons_iff.1 hi with hi | hi
          · apply hpre
            rw [h1]
            obtain ⟨q, hq⟩ := hi
            cases hb : beforeEqEq t with
            | nil =>
              rw [hb] at hq
              have : c = '=' := by
                have := congrArg List.head? hq
                simpa using this.symm
              subst this
              exact ⟨'=' :: r, rfl⟩
            | cons d u =>
              rw [hb] at hq
              have h3 : "==".toList ++ q = '=' :: '=' :: q := rfl
              rw [h3, List.cons_append] at hq
              simp only [List.cons.injEq] at hq
              obtain ⟨rfl, rfl, hq⟩ := hq
              exact ⟨u ++ "==".toList ++ r, by simp⟩
          · exact h2 hi

theorem namePart_unique {l a b : List Char} (ha : NamePart l a) (hb : NamePart l b) : a = b := by
  have key : ∀ {a b r1 r2 : List Char}, a ++ "==".toList ++ r1 = b ++ "==".toList ++ r2 → ¬ "==".toList <:+: b ++ ['='] → b.length ≤ a.length := by
    intro a b r1 r2 h hn
    by_contra hlt
    have hlt : a.length < b.length := by omega
    apply hn
    have h' : a ++ ("==".toList ++ r1) = (b ++ ['=']) ++ (['='] ++ r2) := by
      simpa using h
    rcases List.append_eq_append_iff.1 h' with ⟨z, h1, h2⟩ | ⟨z, h1, h2⟩
    · cases z with
      | nil => simp at h1; have := congrArg List.length h1; simp at this; omega
      | cons x z =>
        cases z with
        | nil => have := congrArg List.length h1; simp at this; omega
        | cons y z =>
          have h3 : "==".toList ++ r1 = '=' :: '=' :: r1 := rfl
          rw [h3, List.cons_append, List.cons_append] at h2
          simp only [List.cons.injEq] at h2
          obtain ⟨rfl, rfl, _⟩ := h2
          exact ⟨a, z, by rw [h1]; simp⟩
    · have := congrArg List.length h1; simp at this; omega
  rcases ha with ⟨h1, h2⟩ | ⟨r1, h1, h2⟩ <;> rcases hb with ⟨h3, h4⟩ | ⟨r2, h3, h4⟩
  · rw [← h1, h3]
  · exact absurd ⟨b, r2, h3.symm⟩ h2
  · exact absurd ⟨a, r1, h1.symm⟩ h4
  · have e1 := key (h1.symm.trans h3) h4
    have e2 := key (h3.symm.trans h1) h2
    have := h1.symm.trans h3
    rw [List.append_assoc, List.append_assoc] at this
    exact (List.append_inj this (by omega)).1

theorem mem_frozenNames (out name : String) : name ∈ frozenNames out ↔ FrozenName out name := by
  unfold frozenNames FrozenName
  rw [List.mem_map]
  constructor
  · rintro ⟨l, hl, rfl⟩
    exact ⟨l, mem_pySplit.1 hl, by simpa using namePart_before l⟩
  · rintro ⟨l, hl, hn⟩
    exact ⟨l, mem_pySplit.2 hl, by rw [namePart_unique (namePart_before l) hn]; simp⟩

theorem filterE_ok {α : Type} {cond : α → Except Exc Bool} {f : α → Bool} {l : List α} (h : ∀ x ∈ l, cond x = .ok (f x)) :
    filterE cond l = .ok (l.filter f) := by
  induction l with
  | nil => rfl
  | cons a t ih =>
    simp only [filterE, h a (by simp), ih fun x hx => h x (List.mem_cons_of_mem _ hx), bind, Except.bind, pure, Except.pure]
    cases hf : f a <;> simp [hf]

open Classical in
/-- **C62** What pip considers uninstalled is, in order, exactly the resolutions whose package is not named by the output of `pip freeze`. -/
theorem C62_pip_filter (h : Host σ) (options : Config) (rs : List Resolution) (s s' : σ) (out : String)
    (hf : h.popen ["pip", "freeze"] s = (.ok out, s')) (hp : ∀ r ∈ rs, dget r "package" ≠ none) :
    ((pipPlugin h).installer h options).filterUninstalled rs s =
      (.ok (rs.filter fun r => decide (¬ ∃ n, dget r "package" = some (.str n) ∧ FrozenName out n)), s') := by
  show pipFilter h rs s = _
  unfold pipFilter
  rw [hf]
  simp only
  rw [filterE_ok]
  intro r hr
  unfold notFrozen
  cases hd : dget r "package" with
  | none => exact absurd hd (hp r hr)
  | some v =>
    cases v with
    | str n =>
      have := mem_frozenNames out n
      by_cases hm : n ∈ frozenNames out
      · simp [hm, this.1 hm]
      · simp [hm, show ¬ FrozenName out n from fun hh => hm (this.2 hh)]
    | _ => simp

/-- **C62** A package is considered installed by pip iff the output of `pip freeze` names it. -/
theorem C62_pip_installed (h : Host σ) (options : Config) (r : Resolution) (s s' : σ) (out n : String)
    (hf : h.popen ["pip", "freeze"] s = (.ok out, s')) (hp : dget r "package" = some (.str n)) :
    ∃ b, ((pipPlugin h).installer h options).isInstalled r s = (.ok b, s') ∧ (b = true ↔ FrozenName out n) := by
  have := C62_pip_filter h options [r] s s' out hf (by simp [hp])
  simp only [PackageManager.installer, baseIsInstalled] at this ⊢
  rw [this]
  refine ⟨_, rfl, ?_⟩
  by_cases hn : FrozenName out n <;> simp [hp, hn]

/-- A host on which `pip freeze` prints two lines. -/
def pipHost : Host Unit where
  isRoot := false
  popen _ s := (.ok "six==1.4\nPyYAML==3.10\n", s)
  pathExists _ _ := false
  isdir _ _ := false
  makedirs _ s := (.ok (), s)
  expand := id

example : ((pipPlugin pipHost).installer pipHost []).filterUninstalled [[("package", .str "six")], [("package", .str "siz")], [("package", .str "PyYAML")]] () =
    (.ok [[("package", .str "siz")]], ()) := by rfl
example : FrozenName "six==1.4\nPyYAML==3.10\n" "PyYAML" := (mem_frozenNames _ _).1 (by decide)

end Verif
