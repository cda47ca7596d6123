import Verif.Props.CompactFile
import Verif.Props.SetupBuiltin
import Verif.Props.Plugins
/-!
# Default installers by os name (C77, C82), and the update check of a package manager (C61)
-/
namespace Verif
variable {σ : Type}

/-! ## The table of default installers -/

theorem defaults_foldl (plugins : List OsPlugin) (d : Dict String (Option String)) (name : String) :
    dget (plugins.foldl (fun d p => dset d p.name p.defaultInstaller) d) name =
      match plugins.reverse.find? (fun p => p.name == name) with
      | some p => some p.defaultInstaller
      | none => dget d name := by
  induction plugins generalizing d with
  | nil => rfl
  | cons p t ih =>
    rw [List.foldl_cons, ih, List.reverse_cons, List.find?_append]
    cases h : t.reverse.find? (fun p => p.name == name) with
    | some q => rfl
    | none =>
      rw [dget_set]
      by_cases hn : p.name = name
      · simp [hn]
      · simp [hn, fun h : name = p.name => hn h.symm]

/-- **C77** The table of default installers has exactly the loaded oses, each with the default installer of its own plugin, whatever the
order in which the plugins were loaded. -/
theorem C77_default_table (plugins : List OsPlugin) (hn : (plugins.map OsPlugin.name).Nodup) :
    (∀ p ∈ plugins, dget (getDefaultInstallerNames plugins) p.name = some p.defaultInstaller) ∧
    ∀ name, name ∉ plugins.map OsPlugin.name → dget (getDefaultInstallerNames plugins) name = none := by
  unfold getDefaultInstallerNames
  refine ⟨fun p hp => ?_, fun name h => ?_⟩
  · rw [defaults_foldl]
    have hn' : (plugins.reverse.map OsPlugin.name).Nodup := by rw [List.map_reverse]; exact List.nodup_reverse.2 hn
    have := C45_lookup_os plugins.reverse hn' p (List.mem_reverse.2 hp)
    unfold lookupOs at this
    rw [this]
  · rw [defaults_foldl]
    have : plugins.reverse.find? (fun p => p.name == name) = none := by
      rw [List.find?_eq_none]
      intro p hp he
      exact h (List.mem_map.2 ⟨p, List.mem_reverse.1 hp, by simpa using he⟩)
    rw [this]; rfl

/-- **C77** With the builtin plugins, loaded in any order, rules of Debian, Ubuntu and Xubuntu are by default for apt, and those of OS X for
homebrew. -/
theorem C77_default_installers (p : Platform) (l : List OsPlugin) (hl : Builtins p l) (name : String) :
    dget (getDefaultInstallerNames l) name =
      if name = "debian" ∨ name = "ubuntu" ∨ name = "xubuntu" then some (some "apt")
      else if name = "osx" then some (some "homebrew") else none := by
  have hnames : (l.map OsPlugin.name).Perm ["debian", "ubuntu", "xubuntu", "osx"] := hl.map _
  have hn : (l.map OsPlugin.name).Nodup := hnames.nodup_iff.2 (by decide)
  obtain ⟨h1, h2⟩ := C77_default_table l hn
  have hd : (debianOs p).plugin ∈ l := hl.mem_iff.2 (by simp [builtinPlugins])
  have hu : (ubuntuOs p).plugin ∈ l := hl.mem_iff.2 (by simp [builtinPlugins])
  have hx : (xubuntuOs p).plugin ∈ l := hl.mem_iff.2 (by simp [builtinPlugins])
  have ho : (osxOs p).plugin ∈ l := hl.mem_iff.2 (by simp [builtinPlugins])
  by_cases e1 : name = "debian"
  · subst e1; exact h1 _ hd
  by_cases e2 : name = "ubuntu"
  · subst e2; exact h1 _ hu
  by_cases e3 : name = "xubuntu"
  · subst e3; exact h1 _ hx
  by_cases e4 : name = "osx"
  · subst e4; exact h1 _ ho
  · rw [if_neg (by simp [e1, e2, e3]), if_neg e4]
    exact h2 _ (fun hm => by
      have := hnames.mem_iff.1 hm
      simp [e1, e2, e3, e4] at this)

/-! ## The os at hand and the table -/

theorem detectLoop_mem {l : List OsPlugin} {r : Option OsPlugin} {p : OsPlugin} (h : detectLoop r l = .ok (some p)) : p ∈ l ∨ r = some p := by
  induction l generalizing r with
  | nil => rw [detectLoop] at h; injection h with h; exact .inr h
  | cons q t ih =>
    rw [detectLoop_cons] at h
    cases hb : q.isOs with
    | error e => rw [hb] at h; simp at h
    | ok b =>
      rw [hb] at h
      cases b with
      | false => exact (ih h).imp (List.mem_cons_of_mem _) id
      | true =>
        rcases ih h with h | h
        · exact .inl (List.mem_cons_of_mem _ h)
        · injection h with h
          cases r with
          | none => exact .inl (by simp [← h])
          | some r =>
            rcases moreSpecific_or r q with e | e
            · simp only [e] at h; exact .inr (by rw [h])
            · simp only [e] at h; exact .inl (by simp [← h])

theorem chosen_is_loaded {plugins : List OsPlugin} {o : OverrideVal} {c : CurrentOs} (h : chooseOs plugins o = .ok c) : c.plugin ∈ plugins := by
  unfold chooseOs at h
  cases o with
  | none =>
    unfold detectOs at h
    cases hd : detectLoop none plugins with
    | error e => simp [hd] at h
    | ok r =>
      cases r with
      | none => simp [hd] at h
      | some p =>
        simp only [hd, currentOs] at h
        obtain ⟨c', h1, h⟩ := Except_bind_ok.1 h
        injection h1 with h1; subst h1
        obtain ⟨_, _, h⟩ := Except_bind_ok.1 h
        rw [pure_ok] at h; subst h
        rcases detectLoop_mem hd with h | h
        · exact h
        · simp at h
  | text s => simp at h
  | pair name version =>
    unfold overrideOs at h
    cases hl : lookupOs plugins name with
    | none => simp [hl] at h
    | some p =>
      have hp : p ∈ plugins := List.mem_of_find?_eq_some hl
      simp only [hl] at h
      cases hm : mkOverride p version with
      | error e => simp [hm] at h
      | ok c' =>
        simp only [hm, currentOs] at h
        injection h with h; subst h
        unfold mkOverride at hm
        cases version with
        | none =>
          obtain ⟨v, _, hm⟩ := Except_bind_ok.1 hm
          rw [pure_ok] at hm; subst hm; exact hp
        | some v =>
          simp only at hm
          split at hm
          · injection hm with hm; subst hm; exact hp
          · simp at hm

/-- **C82** End to end: after a successful `_compact_rules_file --write` with the default installers of the loaded os plugins, the os at
hand — detected or overridden — finds in the new file what it found in the old one, looking up with its own default installer. -/
theorem C82_current_os (on : Bool) (uni : Char → Bool) (y : Yaml) (hy : YamlWorks y) (plugins : List OsPlugin)
    (hn : (plugins.map OsPlugin.name).Nodup) (hd : ∀ p ∈ plugins, ∀ i, p.defaultInstaller = some i → i ≠ "" → ValidName uni none (.str i))
    (w : TextWrite) (hw : ∀ t, (w.pieces t).flatten = t) (text : List Char) (v : PVal) (hv : y.load text = .ok v)
    (hres : (compactCommand on true uni y (.ok (getDefaultInstallerNames plugins)) w (some text)).run.res = .ok ())
    (o : OverrideVal) (c : CurrentOs) (hc : chooseOs plugins o = .ok c) (hany : c.plugin.name ≠ "any_os") :
    ∃ (r r' : Rules) (t : List Char) (v' : PVal), loadRulesData uni v = .ok r.toVal ∧
      applyText (some text) (compactCommand on true uni y (.ok (getDefaultInstallerNames plugins)) w (some text)).steps = some t ∧
      y.load t = .ok v' ∧ loadRulesData uni v' = .ok r'.toVal ∧
      ∀ key ver, SameLookup (lookupRules r key c.plugin.name ver c.plugin.defaultInstaller)
        (lookupRules r' key c.plugin.name ver c.plugin.defaultInstaller) := by
  obtain ⟨t1, t2⟩ := C77_default_table plugins hn
  have hdn : DefaultsNamed uni (getDefaultInstallerNames plugins) := by
    intro os name hg hne
    by_cases hm : os ∈ plugins.map OsPlugin.name
    · obtain ⟨p, hp, rfl⟩ := List.mem_map.1 hm
      rw [t1 p hp] at hg
      injection hg with hg
      exact hd p hp name hg hne
    · rw [t2 os hm] at hg; simp at hg
  obtain ⟨r, r', t, v', h1, h2, h3, h4, h5⟩ := C82_written on uni y hy _ hdn w hw text v hv hres
  refine ⟨r, r', t, v', h1, h2, h3, h4, fun key ver => ?_⟩
  have := h5 key c.plugin.name ver hany
  rwa [t1 _ (chosen_is_loaded hc)] at this

/-! ## The update check -/

/-- **C61** The update check, once the package manager is known to be installed: an outdated package manager never fails the check; an
update is attempted exactly if the package manager says it is outdated and fixing was requested; and a failure of the queries or of the update
surfaces as it is, except for a missing implementation, which is ignored. -/
theorem C61_update_check (p : PackageManager σ) (os : OsTuple) (fix interactive : Bool) (s s1 : σ) (h : Host σ) (options : Config)
    (hi : checkPmInstalled p os fix interactive s = (.ok (), s1)) :
    (∀ e s2, p.isPmUpdated s1 = (.error e, s2) →
      (p.installer h options).checkGeneral os fix interactive s = (if e = .notImplementedError then .ok () else .error e, s2)) ∧
    (∀ b s2, p.isPmUpdated s1 = (.ok b, s2) → b = true ∨ fix = false →
      (p.installer h options).checkGeneral os fix interactive s = (.ok (), s2)) ∧
    (∀ s2, p.isPmUpdated s1 = (.ok false, s2) → fix = true →
      (∀ e s3, p.updatePm interactive s2 = (.error e, s3) →
        (p.installer h options).checkGeneral os fix interactive s = (if e = .notImplementedError then .ok () else .error e, s3)) ∧
      (∀ s3, p.updatePm interactive s2 = (.ok (), s3) →
        (∀ e s4, p.isPmUpdated s3 = (.error e, s4) →
          (p.installer h options).checkGeneral os fix interactive s = (if e = .notImplementedError then .ok () else .error e, s4)) ∧
        (∀ b s4, p.isPmUpdated s3 = (.ok b, s4) → (p.installer h options).checkGeneral os fix interactive s = (.ok (), s4)))) := by
  simp only [PackageManager.installer, checkGeneralPm, hi, checkPmUpdated]
  refine ⟨fun e s2 h => ?_, fun b s2 h hb => ?_, fun s2 h hf => ⟨fun e s3 h3 => ?_, fun s3 h3 => ⟨fun e s4 h4 => ?_, fun b s4 h4 => ?_⟩⟩⟩
  · rw [h]; rfl
  · rw [h]
    cases b with
    | true => rfl
    | false => rcases hb with hb | hb
               · simp at hb
               · rw [hb]; rfl
  · rw [h, hf]; simp only [if_true, h3]; rfl
  · rw [h, hf]; simp only [if_true, h3, h4]; rfl
  · rw [h, hf]; simp only [if_true, h3, h4]

/-- A package manager that is installed and outdated, and whose update fails for want of the network: the check raises. -/
example (h : Host Unit) (options : Config) (p : PackageManager Unit) (hp : p.isPmInstalled () = (.ok true, ()))
    (hu : p.isPmUpdated () = (.ok false, ())) (hf : p.updatePm false () = (.error .osError, ())) :
    (p.installer h options).checkGeneral ("ubuntu", "trusty") true false () = (.error .osError, ()) := by
  have := ((C61_update_check p ("ubuntu", "trusty") true false () () h options (by simp [checkPmInstalled, hp])).2.2 () hu rfl).1 _ _ hf
  simpa using this

example (p : Platform) : dget (getDefaultInstallerNames (builtinPlugins p)) "xubuntu" = some (some "apt") :=
  (C77_default_installers p _ (List.Perm.refl _) "xubuntu").trans rfl

end Verif
