import Verif.Props.Setup
import Verif.Props.ConfigFiles
/-!
# Setting up with the builtin plugins, and from a loaded config (C77, C42)
-/
namespace Verif
variable {α σ : Type}

/-! ## Loading builtin plugins -/

theorem addPlugin_new {s : LoadState α} {n : String} (hn : n ∉ s.loaded.map Prod.fst) (pn : PVal) (a : α) :
    addPlugin s pn n a = ⟨s.loaded ++ [(n, a)], s.reports ++ [.loaded pn n]⟩ := by
  unfold addPlugin
  rw [if_neg (by simpa using hn)]

/-- Entry points with distinct valid names, none of them disabled, are all loaded. -/
theorem load_all {uni : Char → Bool} {disabled : List PVal} (l : List (String × α)) (hn : (l.map Prod.fst).Nodup)
    (hv : ∀ x ∈ l, PluginName uni x.1) (hd : ∀ x ∈ l, PVal.str x.1 ∉ disabled) :
    ∃ s, loadPlugins uni disabled (l.map fun x => builtinEntry x.1 x.1 x.2) = .ok s ∧ s.loaded = l := by
  have key : ∀ (l : List (String × α)) (s : LoadState α), ((s.loaded ++ l).map Prod.fst).Nodup → (∀ x ∈ l, PluginName uni x.1) →
      (∀ x ∈ l, PVal.str x.1 ∉ disabled) →
      ∃ s', (l.map fun x => builtinEntry x.1 x.1 x.2).foldlM (loadStep uni disabled) s = .ok s' ∧ s'.loaded = s.loaded ++ l := by
    intro l
    induction l with
    | nil => intro s _ _ _; exact ⟨s, rfl, by simp⟩
    | cons x t ih =>
      intro s hn hv hd
      have hprov : Provides uni disabled (builtinEntry x.1 x.1 x.2) x.1 x.1 x.2 :=
        ⟨_, "", rfl, rfl, rfl, rfl, hd x (by simp), hv x (by simp)⟩
      have hharm : Harmless disabled (builtinEntry x.1 x.1 x.2 : EntryPoint α) :=
        ⟨_, rfl, .inr ⟨x.1, _, ⟨"", rfl, rfl, rfl⟩, .inr ⟨_, _, rfl⟩⟩⟩
      have hnew : x.1 ∉ s.loaded.map Prod.fst := by
        rw [List.map_append, List.map_cons] at hn
        have := (List.nodup_append.1 hn).2.2
        intro hmem
        exact this _ hmem _ (by simp) rfl
      obtain ⟨r, hr, hc⟩ := loadStep_harmless (uni := uni) s hharm
      rcases hc with ⟨pn, n, a, rfl, hp, hs⟩ | ⟨hno, -⟩
      · have hna : n = x.1 ∧ a = x.2 := by
          obtain ⟨d, t', g1, -, -, g4, -⟩ := hp
          cases g1
          simp at g4
          exact ⟨g4.1.symm, g4.2.symm⟩
        obtain ⟨rfl, rfl⟩ := hna
        obtain ⟨s', h1, h2⟩ := ih ⟨s.loaded ++ [(x.1, x.2)], s.reports ++ [.loaded (.str pn) x.1]⟩ (by simpa using hn)
          (fun y hy => hv y (List.mem_cons_of_mem _ hy)) (fun y hy => hd y (List.mem_cons_of_mem _ hy))
        refine ⟨s', ?_, by simpa using h2⟩
        rw [List.map_cons, List.foldlM_cons, hs]
        exact h1
      · exact absurd (hno _ _ _ hprov) hnew
  obtain ⟨s, h1, h2⟩ := key l ⟨[], []⟩ (by simpa using hn) hv hd
  exact ⟨s, h1, by simpa using h2⟩

theorem pluginName_iff {uni : Char → Bool} {n : String} : PluginName uni n ↔ verifyIdentifier uni (.str n) [] = .ok () := by
  rw [verifyIdentifier_iff]
  constructor
  · rintro ⟨h1, h2⟩; exact ⟨n, rfl, h1, fun hr => absurd hr h2⟩
  · rintro ⟨s, h1, h2, h3⟩
    injection h1 with h1; subst h1
    exact ⟨h2, fun hr => by simpa using h3 hr⟩

/-- Names made of ASCII letters are valid whatever the other characters. -/
theorem builtin_names_valid (uni : Char → Bool) :
    ∀ n ∈ ["debian", "ubuntu", "xubuntu", "osx", "fake", "apt", "homebrew", "macports", "pip"], PluginName uni n := by
  intro n hn
  rw [pluginName_iff]
  simp only [List.mem_cons, List.not_mem_nil, or_false] at hn
  rcases hn with rfl | rfl | rfl | rfl | rfl | rfl | rfl | rfl | rfl <;> rfl

/-! ## The builtin installers -/

/-- The names of the builtin installers. -/
def builtinNames : List String := ["fake", "apt", "homebrew", "macports", "pip"]

/-- The builtin installer of a name with its default options. -/
def builtinDefault (h : Host σ) (fakeDir : String) (n : String) : Installer σ :=
  let asRoot (b : Bool) : Config := [("as_root", .val (.bool b))]
  let fakeOpts : Config := [("as_root", .val (.bool false)), ("fake_name", .val (.str "fake")), ("install_dir", .val (.str fakeDir))]
  if n = "fake" then (fakePlugin h fakeOpts).installer h fakeOpts
  else if n = "apt" then (aptPlugin h).installer h (asRoot true)
  else if n = "homebrew" then (homebrewPlugin h).installer h (asRoot false)
  else if n = "macports" then (macportsPlugin h).installer h (asRoot true)
  else (pipPlugin h).installer h (asRoot true)

theorem fake_described (d : String) : (describe (fakeOptions d)).groups = [] ∧
    (describe (fakeOptions d)).items = (fakeOptions d).map fun s => (s.name, mkItem s) := by
  have g1 : groupOf "as_root" = none := by rfl
  have g2 : groupOf "fake_name" = none := by rfl
  have g3 : groupOf "install_dir" = none := by rfl
  simp [describe, fakeOptions, baseOptions, Desc.add, g1, g2, g3, dhas, dget, dset, Desc.addItem, mkItem, PVal.isNone]

/-- The fake installer without options has the default ones. -/

theorem fake_defaults (e : String → String) (d : String) : setOptions e (describe (fakeOptions d)) (.dict []) = .ok [("as_root", .val (.bool false)), ("fake_name", .val (.str "fake")), ("install_dir", .val (.str d))] := by
  have g1 : groupOf "as_root" = none := by rfl
  have g2 : groupOf "fake_name" = none := by rfl
  have g3 : groupOf "install_dir" = none := by rfl
  obtain ⟨h1, h2⟩ := fake_described d
  generalize hD : describe (fakeOptions d) = D at *
  simp only [fakeOptions, baseOptions, List.cons_append, List.nil_append, List.map_cons, List.map_nil] at h2
  have hd : configFromDefaults D = .ok [("as_root", .val (.bool false)), ("fake_name", .val (.str "fake")), ("install_dir", .val (.str d))] := by
    simp [configFromDefaults, bind, Except.bind, h2, g1, g2, g3, defaultsStep, writeOpt, mkItem, PVal.isNone, dset, pure, Except.pure]
  simp only [setOptions, configFromParsedYaml, h1, h2, fillGroups, bind, Except.bind, fillItems, g1, g2, g3, yamlValue, if_true, hd]
  simp [mkItem, CType.fromYaml, CType.verify, dget, PVal.isNone, dset, mergeConfigs, copyConfigDict, h1, h2, mergeConfig, mergeItem, readOpt, writeOpt, g1, g2, g3, CType.merge,
    bind, Except.bind, pure, Except.pure]

theorem builtin_configure (h : Host σ) (fakeDir : String) {p : InstallerPlugin σ} (hp : p ∈ builtinInstallers h fakeDir) :
    p.configure (.dict []) = .ok (builtinDefault h fakeDir p.name) ∧ p.name ∈ builtinNames := by
  simp only [builtinInstallers, List.mem_cons, List.not_mem_nil, or_false] at hp
  rcases hp with rfl | rfl | rfl | rfl | rfl
  · refine ⟨?_, by simp [builtinInstaller, builtinNames]⟩
    simp only [builtinInstaller, fake_defaults, bind, Except.bind]
    rfl
  all_goals exact ⟨rfl, by simp [builtinInstaller, builtinNames]⟩

theorem builtinDefault_name (h : Host σ) (fakeDir : String) {n : String} (hn : n ∈ builtinNames) : (builtinDefault h fakeDir n).name = n := by
  simp only [builtinNames, List.mem_cons, List.not_mem_nil, or_false] at hn
  rcases hn with rfl | rfl | rfl | rfl | rfl <;> rfl

theorem builtinDefault_additional (h : Host σ) (fakeDir : String) {n : String} (hn : n ∈ builtinNames) (t : OsTuple) :
    (builtinDefault h fakeDir n).useAsAdditional t = .ok (n == "pip") := by
  simp only [builtinNames, List.mem_cons, List.not_mem_nil, or_false] at hn
  rcases hn with rfl | rfl | rfl | rfl | rfl <;> rfl

theorem pairwise_lt_unique {l : List Nat} (h : l.Pairwise (· < ·)) {k : Nat} (hk : ∀ x, x ∈ l ↔ x = k) : l = [k] := by
  cases l with
  | nil => exact absurd ((hk k).2 rfl) (by simp)
  | cons a t =>
    have ha := (hk a).1 (by simp)
    subst ha
    cases t with
    | nil => rfl
    | cons b t =>
      have hb := (hk b).1 (by simp)
      have := (List.pairwise_cons.1 h).1 b (by simp)
      omega

/-- The names of the plugins determine the core installers. -/
theorem CoreOf.names {insts : List (Installer σ)} {names missing : List String} {core : List (Installer σ × Nat)} (hc : CoreOf insts names core missing)
    (mk : String → Installer σ) (known : List String) (hmk : ∀ i, i ∈ insts ↔ i.name ∈ known ∧ i = mk i.name) (hname : ∀ n ∈ known, (mk n).name = n) :
    core.map Prod.fst = (names.filter (known.contains ·)).map mk ∧ missing = names.filter (fun n => !known.contains n) := by
  induction hc with
  | nil => exact ⟨rfl, rfl⟩
  | @found n i k ns c m h1 h2 h3 _ ih =>
    obtain ⟨g1, g2⟩ := (hmk i).1 (List.mem_of_getElem? h1)
    rw [h2] at g1 g2
    have : known.contains n = true := by simpa using g1
    rw [List.filter_cons_of_pos this, List.filter_cons_of_neg (by simp [g1]), List.map_cons, List.map_cons, ih.1, ih.2]
    exact ⟨by rw [g2], rfl⟩
  | @missing n ns c m h1 _ ih =>
    have hn : n ∉ known := by
      intro hn
      have := hname n hn
      exact h1 (mk n) ((hmk (mk n)).2 ⟨by rw [this]; exact hn, by rw [this]⟩) this
    rw [List.filter_cons_of_neg (by simp [hn]), List.filter_cons_of_pos (by simp [hn]), ih.1, ih.2]
    exact ⟨rfl, rfl⟩

/-- **C77** With the builtin installers (loaded in any order) and no options for them, setting up always succeeds: the core installers are the named ones,
unknown names are reported, and pip is the additional installer unless it is core or additional installers are off. -/
theorem C77_builtin_installers (h : Host σ) (fakeDir : String) (plugins : List (InstallerPlugin σ)) (hp : plugins.Perm (builtinInstallers h fakeDir))
    (s : Settings) (ho : s.installerOptions = []) (os : OsSetup) (t : OsTuple) (ht : os.os.getTuple = .ok t) (names : List String)
    (hn : CoreNames s os t.2 names) :
    ∃ r, setupInstallers s os plugins = .ok r ∧ r.osTuple = t ∧
      r.context.core = (names.filter (builtinNames.contains ·)).map (builtinDefault h fakeDir) ∧
      r.notFound = names.filter (fun n => !builtinNames.contains n) ∧
      r.context.additional = if s.useAdditional = true ∧ "pip" ∉ names then [builtinDefault h fakeDir "pip"] else [] := by
  have hpn : (plugins.map InstallerPlugin.name).Perm builtinNames := hp.map _
  have hconf : ∀ p ∈ plugins, p.configure (.dict []) = .ok (builtinDefault h fakeDir p.name) ∧ p.name ∈ builtinNames :=
    fun p hpm => builtin_configure h fakeDir (hp.mem_iff.1 hpm)
  have hopt : ∀ n v, GivenOptions s.installerOptions n v ↔ v = .dict [] := by
    intro n v; rw [ho]; simp [GivenOptions, dget]
  have hf2 : List.Forall₂ (fun p i => ∃ v, GivenOptions s.installerOptions p.name v ∧ p.configure v = .ok i) plugins
      (plugins.map fun p => builtinDefault h fakeDir p.name) := by
    rw [List.forall₂_map_right_iff]
    exact List.forall₂_same.2 fun p hpm => ⟨.dict [], (hopt _ _).2 rfl, (hconf p hpm).1⟩
  obtain ⟨core, missing, -, hcore⟩ := coreStep_fold (plugins.map fun p => builtinDefault h fakeDir p.name) names ([], [])
  have hbn : ∀ i ∈ plugins.map (fun p => builtinDefault h fakeDir p.name), i.name ∈ builtinNames ∧ i = builtinDefault h fakeDir i.name := by
    intro i hi
    obtain ⟨p, hpm, rfl⟩ := List.mem_map.1 hi
    have := (hconf p hpm).2
    rw [builtinDefault_name h fakeDir this]
    exact ⟨this, rfl⟩
  obtain ⟨r, hr⟩ := (C42_succeeds_iff s os plugins).2 ⟨t, _, names, core, missing, ht, hf2, hn, hcore, fun _ i k hik _ => by
    obtain ⟨g1, g2⟩ := hbn i (List.mem_of_getElem? hik)
    rw [g2]; exact ⟨_, builtinDefault_additional h fakeDir g1 t⟩⟩
  obtain ⟨h1, h2, ⟨names', h3, h4⟩, h5, h6⟩ := C42_installers s os plugins r hr
  have htup : r.osTuple = t := by rw [ht] at h1; injection h1 with h1; exact h1.symm
  rw [htup] at h3 h6
  have hnames : names' = names := by
    have a := coreNames_iff.2 h3
    have b := coreNames_iff.2 hn
    rw [a] at b; injection b
  subst hnames
  have hplug : r.plugins = plugins.map fun p => builtinDefault h fakeDir p.name := by
    clear h3 h4 h5 h6 hcore hbn hr hf2 hpn hp htup h1
    generalize r.plugins = l at h2
    induction h2 with
    | nil => rfl
    | @cons p i ps is hpi _ ih =>
      obtain ⟨v, g1, g2⟩ := hpi
      rw [(hopt _ _).1 g1, (hconf p (by simp)).1] at g2
      injection g2 with g2
      rw [List.map_cons, ← g2, ih fun q hq => hconf q (List.mem_cons_of_mem _ hq)]
  have hmem : ∀ i, i ∈ r.plugins ↔ i.name ∈ builtinNames ∧ i = builtinDefault h fakeDir i.name := by
    intro i
    rw [hplug]
    constructor
    · exact hbn i
    · rintro ⟨g1, g2⟩
      obtain ⟨p, hpm, hpe⟩ := List.mem_map.1 (hpn.mem_iff.2 g1)
      exact List.mem_map.2 ⟨p, hpm, by rw [hpe, ← g2]⟩
  obtain ⟨hc1, hc2⟩ := h4.names (builtinDefault h fakeDir) builtinNames hmem (fun n hn => builtinDefault_name h fakeDir hn)
  have hrn : r.plugins.map Installer.name = plugins.map InstallerPlugin.name := by
    rw [hplug, List.map_map]
    exact List.map_congr_left fun p hpm => builtinDefault_name h fakeDir (hconf p hpm).2
  have hnodup : (r.plugins.map Installer.name).Nodup := by
    rw [hrn]
    exact hpn.nodup_iff.2 (by decide)
  have huniq : ∀ {k m : Nat} {i j : Installer σ}, r.plugins[k]? = some i → r.plugins[m]? = some j → i.name = j.name → k = m := by
    intro k m i j g1 g2 g3
    obtain ⟨hk, e1⟩ := List.getElem?_eq_some_iff.1 g1
    obtain ⟨hm, e2⟩ := List.getElem?_eq_some_iff.1 g2
    have := List.nodup_iff_injective_getElem.1 hnodup (a₁ := ⟨k, by simpa using hk⟩) (a₂ := ⟨m, by simpa using hm⟩) (by
      simp only [List.getElem_map, e1, e2]; exact g3)
    simpa using congrArg Fin.val this
  have hpip : builtinDefault h fakeDir "pip" ∈ r.plugins := (hmem _).2 ⟨by rw [builtinDefault_name h fakeDir (by simp [builtinNames])]; simp [builtinNames], by
    rw [builtinDefault_name h fakeDir (by simp [builtinNames])]⟩
  obtain ⟨kp, hkp⟩ := List.mem_iff_getElem?.1 hpip
  have hpipname : (builtinDefault h fakeDir "pip").name = "pip" := builtinDefault_name h fakeDir (by simp [builtinNames])
  have hcorepip : kp ∈ r.core.map Prod.snd ↔ "pip" ∈ names' := by
    constructor
    · intro hk
      obtain ⟨⟨i, k⟩, hik, rfl⟩ := List.mem_map.1 hk
      have g1 := h4.mem hik
      rw [hkp] at g1; injection g1 with g1; subst g1
      have : builtinDefault h fakeDir "pip" ∈ r.core.map Prod.fst := List.mem_map.2 ⟨_, hik, rfl⟩
      rw [hc1] at this
      obtain ⟨n, hn', he⟩ := List.mem_map.1 this
      obtain ⟨g2, g3⟩ := List.mem_filter.1 hn'
      have g4 := congrArg Installer.name he
      rw [builtinDefault_name h fakeDir (by simpa using g3), hpipname] at g4
      exact g4 ▸ g2
    · intro hn'
      have : builtinDefault h fakeDir "pip" ∈ r.core.map Prod.fst := by
        rw [hc1]
        exact List.mem_map.2 ⟨"pip", List.mem_filter.2 ⟨hn', by simp [builtinNames]⟩, rfl⟩
      obtain ⟨⟨i, k⟩, hik, he⟩ := List.mem_map.1 this
      simp only at he
      subst he
      have := huniq (h4.mem hik) hkp rfl
      exact List.mem_map.2 ⟨_, hik, this⟩
  refine ⟨r, hr, htup, hc1, hc2, ?_⟩
  by_cases hu : s.useAdditional = true
  · obtain ⟨g1, g2⟩ := h6 hu
    have hone : ∀ i k, (i, k) ∈ r.additional ↔ (i = builtinDefault h fakeDir "pip" ∧ k = kp) ∧ "pip" ∉ names' := by
      intro i k
      rw [g2]
      constructor
      · rintro ⟨e1, e2, e3⟩
        obtain ⟨e4, e5⟩ := (hmem i).1 (List.mem_of_getElem? e1)
        rw [e5, builtinDefault_additional h fakeDir e4] at e3
        have e6 : i.name = "pip" := by simpa using e3
        rw [e6] at e5
        have e7 := huniq e1 hkp (by rw [e6, hpipname])
        subst e7
        exact ⟨⟨e5, rfl⟩, fun hn' => e2 (hcorepip.2 hn')⟩
      · rintro ⟨⟨rfl, rfl⟩, e1⟩
        exact ⟨hkp, fun hc => e1 (hcorepip.1 hc), by rw [builtinDefault_additional h fakeDir (by simp [builtinNames])]; rfl⟩
    by_cases hpn' : "pip" ∈ names'
    · rw [if_neg (by simp [hpn'])]
      have : r.additional = [] := by
        rw [List.eq_nil_iff_forall_not_mem]
        rintro ⟨i, k⟩ hik
        exact ((hone i k).1 hik).2 hpn'
      simp [InstallerSetup.context, this]
    · rw [if_pos ⟨hu, hpn'⟩]
      have hpos : r.additional.map Prod.snd = [kp] := by
        refine pairwise_lt_unique g1 fun x => ?_
        constructor
        · intro hx
          obtain ⟨⟨i, k⟩, hik, rfl⟩ := List.mem_map.1 hx
          exact ((hone i k).1 hik).1.2
        · rintro rfl
          exact List.mem_map.2 ⟨(builtinDefault h fakeDir "pip", x), (hone _ _).2 ⟨⟨rfl, rfl⟩, hpn'⟩, rfl⟩
      obtain ⟨y, hy⟩ : ∃ y, r.additional = [y] := by
        have := congrArg List.length hpos
        simp at this
        exact List.length_eq_one_iff.1 this
      obtain ⟨i, k⟩ := y
      have := (hone i k).1 (by rw [hy]; simp)
      simp [InstallerSetup.context, hy, this.1.1]
  · rw [if_neg (by simp [hu])]
    have := h5 (by simpa using hu)
    simp [InstallerSetup.context, this]

/-- The entry points of os plugins, with their names as plugin names (as all builtin plugins have). -/
def osEntries (l : List OsPlugin) : List (EntryPoint OsPlugin) := l.map fun o => builtinEntry o.name o.name o
/-- The entry points of installer plugins, with their names as plugin names. -/
def installerEntries (l : List (InstallerPlugin σ)) : List (EntryPoint (InstallerPlugin σ)) := l.map fun o => builtinEntry o.name o.name o

theorem load_os {uni : Char → Bool} {p : Platform} {l : List OsPlugin} (hl : Builtins p l) :
    ∃ s, loadPlugins uni [] (osEntries l) = .ok s ∧ s.loaded.map Prod.snd = l := by
  have hnames : (l.map OsPlugin.name).Perm ["debian", "ubuntu", "xubuntu", "osx"] := hl.map _
  obtain ⟨s, h1, h2⟩ := load_all (uni := uni) (disabled := []) (l.map fun o => (o.name, o))
    (by rw [List.map_map]; exact hnames.nodup_iff.2 (by decide))
    (by
      intro x hx
      obtain ⟨o, ho, rfl⟩ := List.mem_map.1 hx
      have := hnames.mem_iff.1 (List.mem_map.2 ⟨o, ho, rfl⟩)
      exact builtin_names_valid uni _ (by simp at this ⊢; tauto))
    (by simp)
  refine ⟨s, ?_, by rw [h2, List.map_map]; simp [Function.comp_def]⟩
  rw [List.map_map] at h1
  exact h1

theorem load_installers {uni : Char → Bool} {h : Host σ} {fakeDir : String} {l : List (InstallerPlugin σ)} (hl : l.Perm (builtinInstallers h fakeDir)) :
    ∃ s, loadPlugins uni [] (installerEntries l) = .ok s ∧ s.loaded.map Prod.snd = l := by
  have hnames : (l.map InstallerPlugin.name).Perm builtinNames := hl.map _
  obtain ⟨s, h1, h2⟩ := load_all (uni := uni) (disabled := []) (l.map fun o => (o.name, o))
    (by rw [List.map_map]; exact hnames.nodup_iff.2 (by decide))
    (by
      intro x hx
      obtain ⟨o, ho, rfl⟩ := List.mem_map.1 hx
      have := hnames.mem_iff.1 (List.mem_map.2 ⟨o, ho, rfl⟩)
      exact builtin_names_valid uni _ (by simp [builtinNames] at this ⊢; tauto))
    (by simp)
  refine ⟨s, ?_, by rw [h2, List.map_map]; simp [Function.comp_def]⟩
  rw [List.map_map] at h1
  exact h1

/-- Setting up the context when the os is detected. -/
theorem context_of_os {uni : Char → Bool} {expand : String → String} {p : Platform} {l : List OsPlugin} (hl : Builtins p l) {h : Host σ} {fakeDir : String}
    {insts : List (InstallerPlugin σ)} (hi : insts.Perm (builtinInstallers h fakeDir)) {o : OsPlugin} (hd : detected l = .ok o) {v : String}
    (hv : o.getVersion = .ok v) {names : List String} (hc : ∀ v opts, o.coreInstallers v opts = .ok names) (ho : o.optionsDesc = describe osOptionItems)
    (features : List String) :
    ∃ r, installerContext uni expand { osOptions := .dict [(.str "features", .list (features.map .str))] } (osEntries l) (installerEntries insts) = .ok r ∧
      r.osTuple = (o.name, v) ∧
      r.context.core = (names.filter (builtinNames.contains ·)).map (builtinDefault h fakeDir) ∧
      r.notFound = names.filter (fun n => !builtinNames.contains n) ∧
      r.context.additional = if "pip" ∉ names then [builtinDefault h fakeDir "pip"] else [] := by
  obtain ⟨s1, g1, g2⟩ := load_os (uni := uni) hl
  obtain ⟨s2, g3, g4⟩ := load_installers (uni := uni) hi
  obtain ⟨c, k1, k2, k3⟩ := C45_setup_detects expand l o hd v hv [(.str "features", .list (features.map .str))] (featureOptions features) (by
    rw [ho, osOptions_spec]
    simp only [dget, if_true, Option.getD_some, fromYaml_texts, PVal.isNone, bind, Except.bind, pure, Except.pure]
    rfl)
  obtain ⟨r, r1, r2, r3, r4, r5⟩ := C77_builtin_installers h fakeDir insts hi
    { osOptions := .dict [(.str "features", .list (features.map .str))] } rfl ⟨c, featureOptions features⟩ (o.name, v) k2 names (.inr ⟨rfl, by
      show c.plugin.coreInstallers v (featureOptions features) = .ok names
      rw [k3]; exact hc _ _⟩)
  refine ⟨r, ?_, r2, r3, r4, ?_⟩
  · simp only [installerContext, g1, g2, g3, g4, k1, r1, bind, Except.bind]
  · rw [r5]; simp

/-- **C77** On Debian, Ubuntu and Xubuntu (LSB information, no `sw_vers`) with the builtin plugins, in any order, and default options, the installer
context has the detected os with its codename, apt as the only core installer and pip as the only additional one. -/
theorem C77_linux (uni : Char → Bool) (expand : String → String) (p : Platform) (l : List OsPlugin) (hl : Builtins p l) (h : Host σ) (fakeDir : String)
    (insts : List (InstallerPlugin σ)) (hi : insts.Perm (builtinInstallers h fakeDir)) (id_ release codename : String)
    (hlsb : p.lsbInfo = some (id_, release, codename)) (hs : p.swVersExists = false) (o : OsPlugin) (ho : lsbOs p id_ = some o) (features : List String) :
    ∃ r, installerContext uni expand { osOptions := .dict [(.str "features", .list (features.map .str))] } (osEntries l) (installerEntries insts) = .ok r ∧
      r.osTuple = (o.name, codename) ∧ r.context.core = [builtinDefault h fakeDir "apt"] ∧ r.notFound = [] ∧
      r.context.additional = [builtinDefault h fakeDir "pip"] := by
  obtain ⟨h1, h2⟩ := (C76_lsb p l hl id_ release codename hlsb hs).1 o ho
  have hcore : (∀ v opts, o.coreInstallers v opts = .ok ["apt"]) ∧ o.optionsDesc = describe osOptionItems := by
    unfold lsbOs at ho
    split at ho
    · injection ho with ho; subst ho; exact ⟨fun _ _ => rfl, rfl⟩
    · injection ho with ho; subst ho; exact ⟨fun _ _ => rfl, rfl⟩
    · injection ho with ho; subst ho; exact ⟨fun _ _ => rfl, rfl⟩
    · simp at ho
  obtain ⟨r, r1, r2, r3, r4, r5⟩ := context_of_os (uni := uni) (expand := expand) hl hi h1 h2 hcore.1 hcore.2 features
  exact ⟨r, r1, r2, r3, r4, by simpa using r5⟩

/-- **C77** On OS X (`sw_vers` exists, no LSB information) with a known version, homebrew and pip are the core installers in this order, gem is reported as
not found, and there are no additional installers. -/
theorem C77_osx (uni : Char → Bool) (expand : String → String) (p : Platform) (l : List OsPlugin) (hl : Builtins p l) (h : Host σ) (fakeDir : String)
    (insts : List (InstallerPlugin σ)) (hi : insts.Perm (builtinInstallers h fakeDir)) (hlsb : p.lsbInfo = none) (hs : p.swVersExists = true)
    (v : String) (hv : (osxOs p).plugin.getVersion = .ok v) (features : List String) :
    ∃ r, installerContext uni expand { osOptions := .dict [(.str "features", .list (features.map .str))] } (osEntries l) (installerEntries insts) = .ok r ∧
      r.osTuple = ("osx", v) ∧ r.context.core = [builtinDefault h fakeDir "homebrew", builtinDefault h fakeDir "pip"] ∧ r.notFound = ["gem"] ∧
      r.context.additional = [] := by
  obtain ⟨h1, -⟩ := C76_osx p l hl hlsb hs
  obtain ⟨r, r1, r2, r3, r4, r5⟩ := context_of_os (uni := uni) (expand := expand) hl hi h1 hv (names := ["homebrew", "pip", "gem"]) (fun _ _ => rfl) rfl features
  exact ⟨r, r1, r2, r3, r4, by simpa using r5⟩

/-- A machine for the examples. -/
def exHost : Host Unit where
  isRoot := false
  popen := fun _ s => (.ok "", s)
  pathExists := fun _ _ => false
  isdir := fun _ _ => false
  makedirs := fun _ s => (.ok (), s)
  expand := id

/-- A machine running Ubuntu. -/
def exUbuntu : Platform where
  lsbInfo := some ("Ubuntu", "14.04", "trusty")
  swVersExists := false
  swVers := none
  strictVersion := fun _ => none

example : Builtins exUbuntu (builtinPlugins exUbuntu) ∧ (builtinInstallers exHost "/f").Perm (builtinInstallers exHost "/f") ∧
    (lsbOs exUbuntu "Ubuntu").map OsPlugin.name = some "ubuntu" := ⟨.refl _, .refl _, rfl⟩

/-- **C42** Two installers of the same name can be set up, one core and one additional: giving the fake installer the name of another one is not noticed. -/
theorem C42_same_name_witness :
    (installerContext (fun _ => false) id { coreInstallers := some [.str "pip"], installerOptions := [(.str "fake", .dict [(.str "fake_name", .str "pip")])] }
        (builtinOsEntries exUbuntu) (builtinInstallerEntries exHost "/f")).toOption.map
      (fun r => (r.core.map fun i => (i.1.name, i.2), r.additional.map fun i => (i.1.name, i.2))) = some ([("pip", 0)], [("pip", 4)]) := by rfl

/-- **C42** A null among the configured core installers is not accepted: setting up raises TypeError. -/
theorem C42_null_core_installer (s : Settings) (os : OsSetup) (plugins : List (InstallerPlugin σ)) (l : List PVal) (hl : s.coreInstallers = some l)
    (hn : ∃ v ∈ l, ∀ x, v ≠ .str x) (t : OsTuple) (ht : os.os.getTuple = .ok t) (insts : List (Installer σ))
    (hi : List.Forall₂ (fun p i => ∃ v, GivenOptions s.installerOptions p.name v ∧ p.configure v = .ok i) plugins insts) :
    setupInstallers s os plugins = .error .typeError := by
  have hm : plugins.mapM (configureOne s.installerOptions) = .ok insts := by
    rw [mapM_ok_iff]
    refine forall₂_imp_mem hi fun p i _ _ ⟨v, g1, g2⟩ => ?_
    unfold configureOne
    rw [optionsFor_given.1 g1]; exact g2
  obtain ⟨v, hv, hx⟩ := hn
  have herr : asText v = .error .typeError := by cases v <;> first | rfl | exact absurd rfl (hx _)
  have hnames : coreInstallerNames s os t.2 = .error .typeError := by
    unfold coreInstallerNames
    rw [hl]
    obtain ⟨e, he⟩ := mapM_mem_error hv herr
    obtain ⟨w, -, hw⟩ := mapM_error he
    have : e = .typeError := by cases w <;> simp [asText] at hw <;> exact hw.symm
    rw [this] at he
    exact he
  simp only [setupInstallers, ht, hm, hnames, bind, Except.bind]

/-- **C42** If an installer rejects its options, setting up fails: for the builtin installers a null entry under their name raises AttributeError. -/
theorem C42_null_options (h : Host σ) (fakeDir : String) (p : InstallerPlugin σ) (hp : p ∈ builtinInstallers h fakeDir) :
    p.configure .none = .error .attributeError := by
  simp only [builtinInstallers, List.mem_cons, List.not_mem_nil, or_false] at hp
  rcases hp with rfl | rfl | rfl | rfl | rfl <;> rfl

/-! ## From a loaded config -/

theorem firstSet_valid {t : CType} {l : List PVal} (h : ∀ v ∈ l, Valid t v) : firstSet l = .none ∨ Valid t (firstSet l) := by
  induction l with
  | nil => exact .inl rfl
  | cons v l ih =>
    cases v with
    | none => exact ih fun x hx => h x (List.mem_cons_of_mem _ hx)
    | _ => right; simp only [firstSet]; exact h _ (by simp)

theorem firstSet_ne_none {l : List PVal} (h : ∃ v ∈ l, v ≠ .none) : firstSet l ≠ .none := by
  induction l with
  | nil => simp at h
  | cons v l ih =>
    cases v with
    | none =>
      refine ih ?_
      obtain ⟨w, hw, hne⟩ := h
      rcases List.mem_cons.1 hw with rfl | hw
      · exact absurd rfl hne
      · exact ⟨w, hw, hne⟩
    | _ => simp [firstSet]

theorem firstSet_append_set {d : PVal} {l : List PVal} (h : ∃ w ∈ l, w ≠ .none) : firstSet (l ++ [d]) = firstSet l := by
  induction l with
  | nil => simp at h
  | cons x t ih =>
    cases x with
    | none =>
      refine ih ?_
      obtain ⟨w, hw, hne⟩ := h
      rcases List.mem_cons.1 hw with rfl | hw
      · exact absurd rfl hne
      · exact ⟨w, hw, hne⟩
    | _ => rfl

theorem firstSet_append_unset {d : PVal} {l : List PVal} (h : ∀ w ∈ l, w = .none) : firstSet (l ++ [d]) = firstSet [d] := by
  induction l with
  | nil => rfl
  | cons x t ih =>
    have hx : x = .none := h x (by simp)
    subst hx
    exact ih fun w hw => h w (List.mem_cons_of_mem _ hw)

/-- **C77** Every config that xylem loads from files and command line gives settings to set up installers with: lists of disabled plugins, a list of core
installers or none, and a dict of installer options. -/
theorem C77_settings_from_config {loadYaml : String → Except Exc PVal} (hl : ∀ s e, loadYaml s = .error e → e = .yamlError)
    {expand : String → String} {file : String → FileText} {home tool ns : String} {a : GlobalArgs} {args : String → Option CmdVal}
    (hargs : ∀ n i raw, xylemDescription.Has n i → args (String.ofList (underscorify i.argument.toList)) = some raw → raw.FitsType i.type)
    {r : Config} (h : loadConfig loadYaml expand file home tool ns a args xylemDescription = .ok r) (override : OverrideVal) (features : PVal) :
    ∃ s, settingsOf r override features = .ok s ∧ s.override = override ∧ s.osOptions = .dict [(.str "features", features)] ∧
      readOpt r "disabled_plugins/os" = .ok (.list s.disabledOs) ∧ readOpt r "disabled_plugins/installer" = .ok (.list s.disabledInstallers) ∧
      readOpt r "core_installers" = .ok (match s.coreInstallers with | none => .none | some l => .list l) ∧
      readOpt r "use_additional_installers" = .ok (.bool s.useAdditional) ∧ readOpt r "installer_options" = .ok (.dict s.installerOptions) := by
  have built := xylem_built
  have val : ∀ n i, xylemDescription.Has n i → (∀ vt kt, i.type ≠ .mergingDict vt kt) →
      ∃ v, readOpt r n = .ok v ∧ ((v = .none ∧ i.default = .none) ∨ Valid i.type v ∨ v = i.default) ∧ (i.default ≠ .none → v ≠ .none) := by
    intro n i hi ht
    obtain ⟨cmd, files, v, h1, h2, h3, h4⟩ := C48_loaded_config built (fun n i h => (xylem_defaults h).1) h hi
    have hv : v = firstSet (cmd :: files ++ [i.default]) := by
      unfold Effective at h4
      split at h4
      · next vt kt heq => exact absurd heq (ht vt kt)
      · exact h4
    have hfiles : ∀ w ∈ cmd :: files, Valid i.type w := by
      intro w hw
      rcases List.mem_cons.1 hw with rfl | hw
      · unfold CommandLineGives at h1
        split at h1
        · obtain ⟨raw, g1, g2⟩ := h1
          exact (C50_command_line_values hl (xylem_defaults hi).2 (hargs n i raw hi g1)).2.1 w g2
        · subst h1
          cases hty : i.type <;> simp [Valid, CType.unset]
      · obtain ⟨dir, -, data, -, g2⟩ := forall₂_mem_right h2 hw
        exact fromYaml_valid g2
    refine ⟨v, h3, ?_, ?_⟩
    · by_cases hset : ∃ w ∈ cmd :: files, w ≠ .none
      · have e := firstSet_append_set (d := i.default) hset
        rw [e] at hv
        rcases firstSet_valid hfiles with g | g
        · exact absurd g (firstSet_ne_none hset)
        · rw [hv]; exact .inr (.inl g)
      · have e := firstSet_append_unset (d := i.default) (l := cmd :: files) fun w hw => Classical.byContradiction fun hne => hset ⟨w, hw, hne⟩
        rw [e] at hv
        right; right
        rw [hv]
        cases i.default <;> rfl
    · intro hd
      rw [hv]
      exact firstSet_ne_none ⟨i.default, by simp, hd⟩
  have has : ∀ s ∈ xylemItems, xylemDescription.Has s.name (mkItem s) := by
    intro s hs
    have e : xylemDescription.itemlist = xylemItems.map mkItem := by rfl
    exact ⟨by rw [e]; exact List.mem_map.2 ⟨s, hs, rfl⟩, rfl⟩
  obtain ⟨v1, a1, b1, c1⟩ := val "disabled_plugins/os" _ (has { name := "disabled_plugins/os", type := .list .string, default := .list [], argument := some "disable-os-plugins" } (by simp [xylemItems])) (by simp [mkItem])
  obtain ⟨v2, a2, b2, c2⟩ := val "disabled_plugins/installer" _ (has { name := "disabled_plugins/installer", type := .list .string, default := .list [], argument := some "disable-installer-plugins" } (by simp [xylemItems])) (by simp [mkItem])
  obtain ⟨v3, a3, b3, -⟩ := val "core_installers" _ (has { name := "core_installers", type := .list .string, commandLine := some true, metavar := some "\"inst1,inst2,...\"" } (by simp [xylemItems])) (by simp [mkItem])
  obtain ⟨v4, a4, b4, c4⟩ := val "use_additional_installers" _ (has { name := "use_additional_installers", type := .boolean, default := .bool true, commandLine := some true } (by simp [xylemItems])) (by simp [mkItem])
  have a5 : ∃ d, readOpt r "installer_options" = .ok (.dict d) := by
    obtain ⟨cmd, files, v, h1, h2, h3, h4⟩ := C48_loaded_config built (fun n i h => (xylem_defaults h).1) h
      (has { name := "installer_options", type := .mergingDict (.dict .any .string) .string, metavar := some "\"inst1:{opt1:val1,...}, ...\"" } (by simp [xylemItems]))
    obtain ⟨d, rfl, -⟩ := h4
    exact ⟨d, h3⟩
  obtain ⟨d5, a5⟩ := a5
  simp [mkItem, PVal.isNone, CType.unset, Valid] at b1 b2 b3 b4 c1 c2 c4
  have e1 : ∃ l, v1 = .list l := by
    rcases b1 with (g | ⟨l, g, -⟩) | g
    · exact absurd g c1
    · exact ⟨l, g⟩
    · exact ⟨_, g⟩
  have e2 : ∃ l, v2 = .list l := by
    rcases b2 with (g | ⟨l, g, -⟩) | g
    · exact absurd g c2
    · exact ⟨l, g⟩
    · exact ⟨_, g⟩
  have e3 : v3 = .none ∨ ∃ l, v3 = .list l := by
    rcases b3 with g | (g | ⟨l, g, -⟩) | g
    · exact .inl g
    · exact .inl g
    · exact .inr ⟨l, g⟩
    · exact .inl g
  have e4 : ∃ b, v4 = .bool b := by
    have b4' : v4 = .none ∨ ∃ b, v4 = .bool b := by
      rcases b4 with (g | g | g) | g
      · exact .inl g
      · exact .inr ⟨_, g⟩
      · exact .inr ⟨_, g⟩
      · exact .inr ⟨_, g⟩
    exact b4'.resolve_left c4
  obtain ⟨l1, rfl⟩ := e1
  obtain ⟨l2, rfl⟩ := e2
  obtain ⟨b, rfl⟩ := e4
  rcases e3 with rfl | ⟨l3, rfl⟩
  · refine ⟨⟨override, .dict [(.str "features", features)], l1, l2, none, b, d5⟩, ?_, rfl, rfl, a1, a2, a3, a4, a5⟩
    simp only [settingsOf, a1, a2, a3, a4, a5, bind, Except.bind, listValue, optListValue, dictValue, pyTruthy, pure, Except.pure]
  · refine ⟨⟨override, .dict [(.str "features", features)], l1, l2, some l3, b, d5⟩, ?_, rfl, rfl, a1, a2, a3, a4, a5⟩
    simp only [settingsOf, a1, a2, a3, a4, a5, bind, Except.bind, listValue, optListValue, dictValue, pyTruthy, pure, Except.pure]

end Verif
