import Verif.Spec.ConfigUsed
import Verif.Props.Resolve
import Verif.Props.ResolveInstall
import Verif.Props.Uninstalled
import Verif.Props.ProgramExamples
namespace Verif
variable {σ : Type}

/-! ## `install_from` -/

theorem keysFrom_mem {v : PVal} {l : List String} (h : keysFrom v = .ok l) :
    ∃ vs, v = .list vs ∧ ∀ key, key ∈ l ↔ PVal.str key ∈ vs := by
  cases v with
  | list vs =>
    refine ⟨vs, rfl, fun key => ?_⟩
    simp only [keysFrom, Except.ok.injEq] at h
    subst h
    rw [List.mem_filterMap]
    constructor
    · rintro ⟨x, hx, hk⟩
      split at hk
      · cases hk; exact hx
      · cases hk
    · intro hx
      exact ⟨_, hx, rfl⟩
  | _ => simp [keysFrom] at h

/-- One entry of the config and the entry used. -/
def SameEntry (e : PKey × PVal) (x : String × List String) : Prop :=
  e.1 = .str x.1 ∧ ∃ vs, e.2 = .list vs ∧ ∀ key, key ∈ x.2 ↔ PVal.str key ∈ vs

theorem installFromEntry_same {e : PKey × PVal} {x : String × List String} (h : installFromEntry e = .ok x) : SameEntry e x := by
  obtain ⟨k, v⟩ := e
  unfold installFromEntry at h
  simp only at h
  cases k with
  | str inst =>
    simp only at h
    cases hk : keysFrom v with
    | error e => rw [hk] at h; simp [Except.map] at h
    | ok l =>
      rw [hk] at h
      simp only [Except.map, Except.ok.injEq] at h
      subst h
      exact ⟨rfl, keysFrom_mem hk⟩
  | _ => simp at h

theorem fromEntries_same {d : Dict PKey PVal} : ∀ {f : Dict String (List String)}, d.mapM installFromEntry = .ok f → List.Forall₂ SameEntry d f := by
  induction d with
  | nil => intro f h; rw [List.mapM_nil] at h; cases pure_ok.1 h; exact .nil
  | cons e t ih =>
    intro f h
    rw [List.mapM_cons] at h
    obtain ⟨x, hx, h⟩ := Except_bind_ok.1 h
    obtain ⟨l, hl, h⟩ := Except_bind_ok.1 h
    cases pure_ok.1 h
    exact .cons (installFromEntry_same hx) (ih hl)

theorem asks_installFrom {d : Dict PKey PVal} {f : Dict String (List String)} (h : List.Forall₂ SameEntry d f) {key inst : String}
    (ha : AsksFor d key inst) : InstallFrom f key inst := by
  obtain ⟨pre, l, post, rfl, hm, hp⟩ := ha
  induction pre generalizing f with
  | nil =>
    cases h with
    | @cons _ x _ f' h1 h2 =>
      obtain ⟨n, ks⟩ := x
      obtain ⟨e1, vs, e2, e3⟩ := h1
      simp only [PKey.str.injEq] at e1
      subst e1
      simp only [PVal.list.injEq] at e2
      subst e2
      exact ⟨[], ks, f', rfl, (e3 key).2 hm, by simp⟩
  | cons e t ih =>
    cases h with
    | @cons _ x _ f' h1 h2 =>
      obtain ⟨pre', ks, post', rfl, hk, hn⟩ := ih h2 (fun e he => hp e (by simp [he]))
      refine ⟨x :: pre', ks, post', rfl, hk, ?_⟩
      intro p hpm
      rcases List.mem_cons.1 hpm with rfl | hpm
      · obtain ⟨-, vs, e2, e3⟩ := h1
        exact fun hc => hp e (by simp) vs e2 ((e3 key).1 hc)
      · exact hn p hpm

theorem asks_none {d : Dict PKey PVal} {f : Dict String (List String)} (h : List.Forall₂ SameEntry d f) {key : String}
    (ha : AsksForNone d key) : NotInstallFrom f key := by
  induction h with
  | nil => intro p hp; cases hp
  | @cons e x _ f' h1 h2 ih =>
    intro p hp
    rcases List.mem_cons.1 hp with rfl | hp
    · obtain ⟨-, vs, e2, e3⟩ := h1
      exact fun hc => ha e (by simp) vs e2 ((e3 key).1 hc)
    · exact ih (fun e he => ha e (by simp [he])) p hp

/-- **C143** `install_from` in the config is obeyed: a key that its first entry listing it assigns to the installer `inst` is resolved with that
installer or not at all. A key that no entry lists is resolved with the first core installer that has a rule for it or, if there is none, with the last
additional installer that has one. -/
theorem C143_install_from {env : StartEnv} {w : Surroundings σ} {c : Config} {ic : InstallerSetup σ} {os : OsSetup} {db : Database}
    {f : Dict String (List String)} (hf : Finds env w c ic os db f) {d : Dict PKey PVal} (hd : readOpt c "install_from" = .ok (.dict d))
    {keys : List String} {all : Bool} {r : Resolved} (hr : resolve ic.context db f keys all = .ok r) {key name : String} {rs : List Resolution}
    (hm : (key, (name, rs)) ∈ r.results) :
    (∀ inst, AsksFor d key inst → name = inst) ∧
    (AsksForNone d key → ∃ rules i rule, db.lookup key = .ok rules ∧ i.name = name ∧ i.resolve rule = .ok rs ∧
      (FirstWithRule rules ic.context.core i rule ∨ (NoneWithRule rules ic.context.core ∧ LastWithRule rules ic.context.additional i rule))) := by
  have hs : List.Forall₂ SameEntry d f := by
    have h := hf.installFrom
    unfold installFromOf at h
    rw [hd] at h
    exact fromEntries_same h
  refine ⟨fun inst ha => ?_, fun ha => ?_⟩
  · exact ((C29_install_from _ _ _ _ _ _ hr key inst (asks_installFrom hs ha)).1 name rs hm).1
  · exact C28_installer_choice _ _ _ _ _ _ hr key name rs hm (asks_none hs ha)

/-! ## The os -/

theorem lookupCtx_of {env : StartEnv} {w : Surroundings σ} {c : Config} {k : LookupCtx} (h : lookupCtxFor env w c = .ok k) :
    ∃ os, osFor env w c = .ok os ∧ os.os.getTuple = .ok (k.os, k.version) ∧ k.dflt = os.os.plugin.defaultInstaller := by
  unfold lookupCtxFor at h
  obtain ⟨os, ho, h⟩ := Except_bind_ok.1 h
  obtain ⟨t, ht, h⟩ := Except_bind_ok.1 h
  cases pure_ok.1 h
  exact ⟨os, ho, ht, rfl⟩

theorem context_tuple {env : StartEnv} {w : Surroundings σ} {c : Config} {ic : InstallerSetup σ} (h : contextFor env w c = .ok ic)
    {os : OsSetup} (ho : osFor env w c = .ok os) : os.os.getTuple = .ok ic.osTuple := by
  unfold contextFor installerContext at h
  obtain ⟨s, h1, h⟩ := Except_bind_ok.1 h
  obtain ⟨oss, h2, h⟩ := Except_bind_ok.1 h
  obtain ⟨os', h3, h⟩ := Except_bind_ok.1 h
  obtain ⟨insts, h4, h⟩ := Except_bind_ok.1 h
  have e : osFor env w c = .ok os' := by
    unfold osFor
    rw [h1]
    show (loadPlugins w.uni s.disabledOs w.osEntries >>= fun oss => setupOs env.expand (oss.loaded.map Prod.snd) s.override s.osOptions) = _
    rw [h2]
    exact h3
  rw [ho] at e
  cases e
  exact (C42_installers s os _ ic h).1

/-- **C143** The rules are looked up for the os the installers are set up for, with the default installer of the plugin of that os, in the sources loaded
from the cache in the order in which they are listed. -/
theorem C143_one_os {env : StartEnv} {w : Surroundings σ} {c : Config} {ic : InstallerSetup σ} (hic : contextFor env w c = .ok ic)
    {db : Database} (hdb : databaseFor env w c = .ok db) :
    ∃ sources os, loadedFor w c = .ok sources ∧ osFor env w c = .ok os ∧ os.os.plugin.name = ic.osTuple.1 ∧
      (∀ key, db.lookup key = dbLookup w.uni sources key ⟨ic.osTuple.1, ic.osTuple.2, os.os.plugin.defaultInstaller⟩) ∧
      db.keys = dbKeys sources ⟨ic.osTuple.1, ic.osTuple.2, os.os.plugin.defaultInstaller⟩ := by
  unfold databaseFor at hdb
  obtain ⟨l, hl, h⟩ := Except_bind_ok.1 hdb
  obtain ⟨k, hk, h⟩ := Except_bind_ok.1 h
  cases pure_ok.1 h
  obtain ⟨os, ho, ht, hd⟩ := lookupCtx_of hk
  have e := context_tuple hic ho
  rw [e] at ht
  have hk' : k = ⟨ic.osTuple.1, ic.osTuple.2, os.os.plugin.defaultInstaller⟩ := by
    obtain ⟨a, b, c'⟩ := k
    simp only at hd
    injection ht with ht
    rw [ht, hd]
  refine ⟨l, os, hl, ho, ?_, fun key => by rw [← hk']; rfl, by rw [← hk']; rfl⟩
  unfold CurrentOs.getTuple at e
  obtain ⟨v, -, e⟩ := Except_bind_ok.1 e
  rw [← pure_ok.1 e]

theorem settings_override {c : Config} {s : Settings} (h : effectiveSettings c = .ok s) {v : PVal} (hv : readOpt c "os_override" = .ok v) :
    overrideOf v = .ok s.override := by
  unfold effectiveSettings settingsOf at h
  rw [hv] at h
  obtain ⟨o, ho, h⟩ := Except_bind_ok.1 h
  cases ho
  obtain ⟨ov, hov, h⟩ := Except_bind_ok.1 h
  obtain ⟨f, -, h⟩ := Except_bind_ok.1 h
  obtain ⟨_, -, h⟩ := Except_bind_ok.1 h
  obtain ⟨_, -, h⟩ := Except_bind_ok.1 h
  obtain ⟨_, -, h⟩ := Except_bind_ok.1 h
  obtain ⟨_, -, h⟩ := Except_bind_ok.1 h
  obtain ⟨_, -, h⟩ := Except_bind_ok.1 h
  cases pure_ok.1 h
  exact hov

/-- **C143** The os in the config is obeyed: if it overrides the os by a name and a version, the installers are set up and the rules are looked up for
that os and version; if it has a name only, for that os in the version its plugin reports. -/
theorem C143_override {env : StartEnv} {w : Surroundings σ} {c : Config} {ic : InstallerSetup σ} (hic : contextFor env w c = .ok ic) {name : String} :
    (∀ version, readOpt c "os_override" = .ok (.list [.str name, .str version]) → ic.osTuple = (name, version)) ∧
    (readOpt c "os_override" = .ok (.list [.str name, .none]) →
      ic.osTuple.1 = name ∧ ∃ os, osFor env w c = .ok os ∧ os.os.plugin.getVersion = .ok ic.osTuple.2) := by
  obtain ⟨os, ho⟩ := context_has_os hic
  have e := context_tuple hic ho
  have hos := ho
  unfold osFor at hos
  obtain ⟨s, hs, hos⟩ := Except_bind_ok.1 hos
  obtain ⟨oss, -, hos⟩ := Except_bind_ok.1 hos
  unfold setupOs at hos
  obtain ⟨cur, hcur, hos⟩ := Except_bind_ok.1 hos
  obtain ⟨opts, -, hos⟩ := Except_bind_ok.1 hos
  cases pure_ok.1 hos
  simp only at e
  have named : ∀ ver, s.override = .pair name ver → ∃ q, lookupOs (oss.loaded.map Prod.snd) name = some q ∧ q.name = name ∧ mkOverride q ver = .ok cur := by
    intro ver hp
    rw [hp] at hcur
    unfold chooseOs overrideOs at hcur
    cases hl : lookupOs (oss.loaded.map Prod.snd) name with
    | none => simp only [hl] at hcur; cases hcur
    | some q =>
      simp only [hl] at hcur
      refine ⟨q, rfl, ?_, ?_⟩
      · unfold lookupOs at hl
        have := List.find?_some hl
        simpa using this
      · cases hm : mkOverride q ver with
        | error e => simp only [hm] at hcur; cases hcur
        | ok x =>
          simp only [hm] at hcur
          have : x = cur := by
            simpa [currentOs] using hcur
          rw [this]
  constructor
  · intro version hv
    have hp := settings_override hs hv
    obtain ⟨q, -, hq, hm⟩ := named (some version) (by simpa [overrideOf] using hp.symm)
    simp only [mkOverride] at hm
    split at hm
    · cases hm
      simp only [CurrentOs.getTuple, CurrentOs.getVersion, CurrentOs.plugin, bind, Except.bind, pure, Except.pure, Except.ok.injEq] at e
      rw [← e, hq]
    · cases hm
  · intro hv
    have hp := settings_override hs hv
    obtain ⟨q, -, hq, hm⟩ := named none (by simpa [overrideOf] using hp.symm)
    simp only [mkOverride] at hm
    obtain ⟨v, hv', hm⟩ := Except_bind_ok.1 hm
    cases pure_ok.1 hm
    simp only [CurrentOs.getTuple, CurrentOs.getVersion, CurrentOs.plugin, bind, Except.bind, pure, Except.pure, Except.ok.injEq] at e
    rw [← e]
    exact ⟨hq, _, ho, hv'⟩

/-! ## The installers -/

/-- The settings are the values of the options. -/
theorem settings_values {c : Config} {s : Settings} (h : effectiveSettings c = .ok s) :
    (readOpt c "core_installers" >>= optListValue) = .ok s.coreInstallers ∧
    (∃ v, readOpt c "use_additional_installers" = .ok v ∧ s.useAdditional = pyTruthy v) ∧
    readOpt c "installer_options" = .ok (.dict s.installerOptions) ∧
    ∃ v, readOpt c "os_options/features" = .ok v ∧ s.osOptions = .dict [(.str "features", v)] := by
  unfold effectiveSettings settingsOf at h
  obtain ⟨o, -, h⟩ := Except_bind_ok.1 h
  obtain ⟨ov, -, h⟩ := Except_bind_ok.1 h
  obtain ⟨f, hf, h⟩ := Except_bind_ok.1 h
  obtain ⟨_, -, h⟩ := Except_bind_ok.1 h
  obtain ⟨_, -, h⟩ := Except_bind_ok.1 h
  obtain ⟨ci, hci, h⟩ := Except_bind_ok.1 h
  obtain ⟨ua, hua, h⟩ := Except_bind_ok.1 h
  obtain ⟨io, hio, h⟩ := Except_bind_ok.1 h
  cases pure_ok.1 h
  refine ⟨hci, ⟨ua, hua, rfl⟩, ?_, f, hf, rfl⟩
  obtain ⟨v, hv, hd⟩ := Except_bind_ok.1 hio
  rw [hv]
  cases v <;> simp [dictValue] at hd
  rw [hd]

/-- **C143** The options of the config decide about the installers: the loaded plugins that are not disabled are set up, each with the options listed under
its name (or none); the core installers are the ones listed, in this order, as far as they are loaded; and there are no additional ones if they are switched
off. -/
theorem C143_installers {env : StartEnv} {w : Surroundings σ} {c : Config} {ic : InstallerSetup σ} (hic : contextFor env w c = .ok ic) :
    ∃ off plugins opts, readOpt c "disabled_plugins/installer" = .ok (.list off) ∧ loadPlugins w.uni off w.installerEntries = .ok plugins ∧
      readOpt c "installer_options" = .ok (.dict opts) ∧
      List.Forall₂ (fun p i => ∃ v, GivenOptions opts p.name v ∧ p.configure v = .ok i) (plugins.loaded.map Prod.snd) ic.context.plugins ∧
      (∀ l, readOpt c "core_installers" = .ok (.list l) → ∃ names core missing, l = names.map .str ∧ CoreOf ic.context.plugins names core missing ∧
        ic.context.core = core.map Prod.fst) ∧
      (readOpt c "use_additional_installers" = .ok (.bool false) → ic.context.additional = []) := by
  unfold contextFor installerContext at hic
  obtain ⟨s, h1, h⟩ := Except_bind_ok.1 hic
  obtain ⟨oss, h2, h⟩ := Except_bind_ok.1 h
  obtain ⟨os, h3, h⟩ := Except_bind_ok.1 h
  obtain ⟨insts, h4, h⟩ := Except_bind_ok.1 h
  obtain ⟨v1, ⟨ua, v2, v2'⟩, v3, -⟩ := settings_values h1
  obtain ⟨-, g2, ⟨names, g3, g3'⟩, g4, -⟩ := C42_installers s os _ ic h
  refine ⟨s.disabledInstallers, insts, s.installerOptions, (settings_disabled h1).2, h4, v3, g2, fun l hl => ?_, fun hu => ?_⟩
  · rw [hl] at v1
    have e : s.coreInstallers = some l := by
      have : (Except.ok (some l) : Except Exc (Option (List PVal))) = .ok s.coreInstallers := v1
      injection this with this
      exact this.symm
    rcases g3 with ⟨l', hl', rfl⟩ | ⟨hn, -⟩
    · rw [e] at hl'
      injection hl' with hl'
      exact ⟨names, ic.core, ic.notFound, hl', g3', rfl⟩
    · rw [e] at hn; cases hn
  · rw [hu] at v2
    injection v2 with v2
    subst v2
    show ic.additional.map Prod.fst = []
    rw [g4 v2']
    rfl

/-- **C143** The plugin of the os gets the features of the config as its options. -/
theorem C143_features {env : StartEnv} {w : Surroundings σ} {c : Config} {os : OsSetup} (h : osFor env w c = .ok os) :
    ∃ v, readOpt c "os_options/features" = .ok v ∧
      setOptions env.expand os.os.plugin.optionsDesc (.dict [(.str "features", v)]) = .ok os.options := by
  unfold osFor at h
  obtain ⟨s, hs, h⟩ := Except_bind_ok.1 h
  obtain ⟨oss, -, h⟩ := Except_bind_ok.1 h
  unfold setupOs at h
  obtain ⟨cur, -, h⟩ := Except_bind_ok.1 h
  obtain ⟨opts, ho, h⟩ := Except_bind_ok.1 h
  cases pure_ok.1 h
  obtain ⟨-, -, -, v, hv, he⟩ := settings_values hs
  exact ⟨v, hv, by rw [← he]; exact ho⟩

/-! ## An example: `xylem resolve boost --install-from "{pip: [boost]}" --os ubuntu:precise` with rules for apt and pip -/

/-- YAML knows this dict. -/
def exStartFrom : StartEnv :=
  { exStart with loadYaml := fun s => if s = "{pip: [boost]}" then .ok (.dict [(.str "pip", .list [.str "boost"])]) else .ok (.str s) }

/-- The machine of `Props/ProgramExamples`, with rules for apt and pip. -/
def exTwoMachine : Surroundings (List String) :=
  { exMachine with
    installerEntries := exMachine.installerEntries ++ [builtinEntry "pip" "pip" ⟨"pip", fun _ => .ok { exApt with name := "pip" }⟩],
    files := applySteps (fun _ => none) (updateApi true ⟨exEnv.sha1, "0.1.0", "/var/cache/xylem/sources"⟩ [rulesSpec fun _ => false] ⟨true, .ok (), true⟩
      exWorld "/etc/xylem/sources.d" (fun _ => ⟨fun _ => .ok (.dict [(.str "boost", .dict [(.str "ubuntu", .dict [(.str "precise",
        .dict [(.str "apt", .str "libboost"), (.str "pip", .str "pyboost")])])])]), .other 7, .ok⟩)).steps }

/-- The config the command is called with. -/
def exConfigFrom (after : List String) : Except Exc Config :=
  match parseArgv true sharedOptions (commandNames.map xylemCommand) (["resolve", "boost"] ++ after) with
  | .error e => .error e
  | .ok r => (handleConfigArguments exStartFrom xylemDescription (handleSwitches exStartFrom r.2.1 exProcess) r.2.1).res

/-- What is resolved, with the os. -/
def exResolvedFrom (after : List String) : Option (List (String × String) × OsTuple) :=
  match exConfigFrom after with
  | .error _ => none
  | .ok c =>
    match contextFor exStartFrom exTwoMachine c, osFor exStartFrom exTwoMachine c, databaseFor exStartFrom exTwoMachine c, installFromOf c with
    | .ok ic, .ok _, .ok db, .ok f =>
      match resolve ic.context db f ["boost"] false with
      | .ok r => some (r.results.map fun x => (x.1, x.2.1), ic.osTuple)
      | .error _ => none
    | _, _, _, _ => none

/-- The hypotheses are met: everything is found, `boost` is resolved with pip as asked for, and with the core installer apt otherwise. -/
example : exResolvedFrom ["--install-from={pip: [boost]}", "--os=ubuntu:precise"] = some ([("boost", "pip")], "ubuntu", "precise") := by decide +kernel
example : exResolvedFrom ["--os=ubuntu:precise"] = some ([("boost", "apt")], "ubuntu", "precise") := by decide +kernel

/-- The value asks for it. -/
example : AsksFor [(.str "pip", .list [.str "boost"])] "boost" "pip" := ⟨[], _, [], rfl, by simp, by simp⟩

end Verif
