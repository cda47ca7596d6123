import Verif.Props.PluginOrder
import Verif.Props.ProgramExamples
import Verif.Props.Uninstalled
/-!
# The order of the plugins that come with xylem (C145)
-/
namespace Verif
variable {α σ : Type}

theorem provides_builtin {uni : Char → Bool} {dis : List PVal} {m : String} {x : α} {pn n : String} {a : α}
    (h : Provides uni dis (builtinEntry m m x) pn n a) : pn = m ∧ n = m ∧ a = x := by
  obtain ⟨d, t, h1, h2, -, h4, -⟩ := h
  injection h1 with h1
  subst h1
  simp only [Except.ok.injEq, PVal.str.injEq] at h2
  simp only [Except.ok.injEq, ClassVal.derived.injEq, PluginObj.mk.injEq, PVal.str.injEq] at h4
  exact ⟨h2.symm, h4.1.symm, h4.2.symm⟩

theorem distinct_builtin {uni : Char → Bool} {dis : List PVal} (f : α → String) (l : List α) (h : (l.map f).Nodup) :
    DistinctNames uni dis (l.map fun p => builtinEntry (f p) (f p) p) := by
  unfold DistinctNames
  rw [List.pairwise_map]
  rw [List.Nodup, List.pairwise_map] at h
  refine h.imp fun {x y} hne => ?_
  intro pn pn' n a a' h1 h2
  exact hne ((provides_builtin h1).2.1.symm.trans (provides_builtin h2).2.1)

theorem all_builtin {uni : Char → Bool} {dis : List PVal} {f : α → String} {l : List α} {P : String → α → Prop} (h : ∀ a ∈ l, P (f a) a) :
    AllProvided uni dis (l.map fun p => builtinEntry (f p) (f p) p) P := by
  intro ep he pn n a hp
  obtain ⟨x, hx, rfl⟩ := List.mem_map.1 he
  obtain ⟨-, rfl, rfl⟩ := provides_builtin hp
  exact h _ hx

/-- At most one of the builtin oses detects itself, unless there is both LSB information and `sw_vers`. -/
theorem builtin_one {p : Platform} (hp : p.lsbInfo = none ∨ p.swVersExists = false) {a b : OsPlugin} (ha : a ∈ builtinPlugins p) (hb : b ∈ builtinPlugins p)
    (da : Detects a) (db : Detects b) : a = b := by
  have det : Detects (debianOs p).plugin = (∃ r c, p.lsbInfo = some ("debian", r, c)) ∧ Detects (ubuntuOs p).plugin = (∃ r c, p.lsbInfo = some ("Ubuntu", r, c)) ∧
      Detects (xubuntuOs p).plugin = (∃ r c, p.lsbInfo = some ("Xubuntu", r, c)) ∧ Detects (osxOs p).plugin = (p.swVersExists = true) := by
    cases hi : p.lsbInfo with
    | none => simp [Detects, BuiltinOs.plugin, debianOs, ubuntuOs, xubuntuOs, osxOs, lsbDetect, hi, osxDetect]
    | some x =>
      obtain ⟨n, r, c⟩ := x
      simp [Detects, BuiltinOs.plugin, debianOs, ubuntuOs, xubuntuOs, osxOs, lsbDetect, hi, osxDetect]
  obtain ⟨d1, d2, d3, d4⟩ := det
  have hp : ∀ n r c, p.lsbInfo = some (n, r, c) → p.swVersExists = true → False := by
    intro n r c h1 h2
    rcases hp with h | h
    · rw [h] at h1; cases h1
    · rw [h] at h2; cases h2
  rcases builtin_cases (List.Perm.refl _) ha with rfl | rfl | rfl | rfl <;> rcases builtin_cases (List.Perm.refl _) hb with rfl | rfl | rfl | rfl <;>
    first
    | rfl
    | (simp only [d1, d2, d3, d4] at da db
       obtain ⟨r, c, h1⟩ := da
       obtain ⟨r', c', h2⟩ := db
       rw [h1] at h2
       simp at h2)
    | (simp only [d1, d2, d3, d4] at da db
       obtain ⟨r, c, h1⟩ := da
       exact (hp _ _ _ h1 db).elim)
    | (simp only [d1, d2, d3, d4] at da db
       obtain ⟨r, c, h1⟩ := db
       exact (hp _ _ _ h1 da).elim)

/-- Setting up an os without an override means that some os detects itself. -/
theorem chosen_detects {l : List OsPlugin} (ret : ∀ p ∈ l, ∃ b, p.isOs = .ok b) {c : CurrentOs} (h : chooseOs l .none = .ok c) : ∃ d ∈ l, Detects d := by
  refine Classical.byContradiction fun hn => ?_
  have hd := (C44_detects_iff l ret).2 hn
  unfold chooseOs at h
  unfold detected at hd
  simp only at h
  cases hx : detectOs ⟨l, none⟩ with
  | mk s r =>
    rw [hx] at h hd
    cases r with
    | error e => simp at h
    | ok u =>
      simp only at hd
      split at hd <;> cases hd

theorem builtin_os {env : StartEnv} {c : Config} {w : Surroundings σ} {p : Platform} (hos : w.osEntries = builtinOsEntries p)
    (hp : p.lsbInfo = none ∨ p.swVersExists = false) {r : InstallerSetup σ} (hr : contextFor env w c = .ok r) :
    ∃ l, readOpt c "disabled_plugins/os" = .ok (.list l) ∧ DistinctNames w.uni l w.osEntries ∧ AllProvided w.uni l w.osEntries (fun n p => p.name = n) ∧
    (readOpt c "os_override" = .ok .none → ∃ d ep pn n, ep ∈ w.osEntries ∧ Provides w.uni l ep pn n d ∧ d.isOs = .ok true ∧
      AllProvided w.uni l w.osEntries fun _ p => p.isOs = .ok true → p ≠ d → p.name ∈ d.allNames ∧ d.name ∉ p.allNames) := by
  unfold contextFor at hr
  obtain ⟨s, hs, hr⟩ := Except_bind_ok.1 hr
  unfold installerContext at hr
  obtain ⟨loaded, hload, hr⟩ := Except_bind_ok.1 hr
  obtain ⟨os, hset, hr⟩ := Except_bind_ok.1 hr
  have hdo : DistinctNames w.uni s.disabledOs w.osEntries := by
    rw [hos]
    exact distinct_builtin OsPlugin.name _ (show ["debian", "ubuntu", "xubuntu", "osx"].Nodup by decide)
  refine ⟨s.disabledOs, (settings_disabled hs).1, hdo, ?_, ?_⟩
  · rw [hos]; exact all_builtin fun a _ => rfl
  · intro hov
    have hsn : s.override = .none := by
      unfold effectiveSettings settingsOf at hs
      obtain ⟨o, ho, hs⟩ := Except_bind_ok.1 hs
      obtain ⟨ov, hv, hs⟩ := Except_bind_ok.1 hs
      obtain ⟨f, -, hs⟩ := Except_bind_ok.1 hs
      obtain ⟨a, ha, hs⟩ := Except_bind_ok.1 hs
      obtain ⟨b, hb, hs⟩ := Except_bind_ok.1 hs
      obtain ⟨_, -, hs⟩ := Except_bind_ok.1 hs
      obtain ⟨_, -, hs⟩ := Except_bind_ok.1 hs
      obtain ⟨_, -, hs⟩ := Except_bind_ok.1 hs
      have := pure_ok.1 hs
      subst this
      rw [hov] at ho
      injection ho with ho
      subst ho
      injection hv with hv
      exact hv.symm
    unfold setupOs at hset
    obtain ⟨cur, hc, -⟩ := Except_bind_ok.1 hset
    rw [hsn] at hc
    have prov : ∀ q ∈ loaded.loaded.map Prod.snd, ∃ ep ∈ w.osEntries, ∃ pn n, Provides w.uni s.disabledOs ep pn n q := by
      intro q hq
      obtain ⟨x, hx, rfl⟩ := List.mem_map.1 hq
      obtain ⟨ep, he, pn, hpr⟩ := (loaded_mem hdo hload x).1 hx
      exact ⟨ep, he, pn, x.1, hpr⟩
    have isb : ∀ {ep pn n q}, ep ∈ w.osEntries → Provides w.uni s.disabledOs ep pn n q → q ∈ builtinPlugins p := by
      intro ep pn n q he hpr
      rw [hos] at he
      obtain ⟨x, hx, rfl⟩ := List.mem_map.1 he
      rw [(provides_builtin hpr).2.2]
      exact hx
    have ret : ∀ q ∈ loaded.loaded.map Prod.snd, ∃ b, q.isOs = .ok b := by
      intro q hq
      obtain ⟨ep, he, pn, n, hpr⟩ := prov q hq
      rcases builtin_cases (List.Perm.refl _) (isb he hpr) with rfl | rfl | rfl | rfl <;> exact ⟨_, rfl⟩
    obtain ⟨d, hd, hdet⟩ := chosen_detects ret hc
    obtain ⟨ep, he, pn, n, hpr⟩ := prov d hd
    refine ⟨d, ep, pn, n, he, hpr, hdet, ?_⟩
    intro ep' he' pn' n' q hq hqd hne
    exact absurd (builtin_one hp (isb he' hq) (isb he hpr) hqd hdet) hne

theorem builtin_specs {c : Config} {w : Surroundings σ} (hsp : w.specEntries = [builtinEntry "rules" "rules" (rulesSpec w.uni)]) {l : List Spec}
    (hl : specsFor w c = .ok l) :
    ∃ l, readOpt c "disabled_plugins/spec" = .ok (.list l) ∧ DistinctNames w.uni l w.specEntries ∧ AllProvided w.uni l w.specEntries (fun n p => p.name = n) := by
  unfold specsFor at hl
  obtain ⟨dis, hdis, hl⟩ := Except_bind_ok.1 hl
  obtain ⟨v, hv, hlv⟩ := Except_bind_ok.1 hdis
  cases v <;> simp [listValue] at hlv
  subst hlv
  refine ⟨_, hv, ?_, ?_⟩
  · rw [hsp]; exact List.pairwise_singleton _ _
  · rw [hsp]
    intro ep he pn n a hpr
    rw [List.mem_singleton.1 he] at hpr
    obtain ⟨-, rfl, rfl⟩ := provides_builtin hpr
    rfl

/-- The plugins that come with xylem are of the kind for which the order does not matter. -/
theorem builtin_orderfree {env : StartEnv} {c : Config} {w : Surroundings σ} (p : Platform) (h : Host σ) (fakeDir : String)
    (hos : w.osEntries = builtinOsEntries p) (hin : w.installerEntries = builtinInstallerEntries h fakeDir)
    (hsp : w.specEntries = [builtinEntry "rules" "rules" (rulesSpec w.uni)]) (hp : p.lsbInfo = none ∨ p.swVersExists = false)
    (hfake : ∀ o, readOpt c "installer_options" = .ok (.dict o) → dget o (.str "fake") = none)
    {r : InstallerSetup σ} (hr : contextFor env w c = .ok r) {l : List Spec} (hl : specsFor w c = .ok l) : OrderFree c w := by
  refine ⟨builtin_os hos hp hr, ?_, builtin_specs hsp hl⟩
  unfold contextFor at hr
  obtain ⟨s, hs, hr⟩ := Except_bind_ok.1 hr
  refine ⟨s.disabledInstallers, s.installerOptions, (settings_disabled hs).2, order_options hs, ?_, ?_⟩
  · rw [hin]
    exact distinct_builtin InstallerPlugin.name _ (show ["fake", "apt", "homebrew", "macports", "pip"].Nodup by decide)
  · rw [hin]
    refine all_builtin fun a ha => ⟨rfl, ?_⟩
    intro v i hv hc
    have hf := hfake _ (order_options hs)
    simp only [builtinInstallers, List.mem_cons, List.not_mem_nil, or_false] at ha
    rcases ha with rfl | rfl | rfl | rfl | rfl
    · have : v = .dict [] := by
        rcases hv with hv | hv
        · exact absurd (hf.symm.trans hv) (by simp)
        · exact hv.2
      subst this
      have := (builtin_configure h fakeDir (p := builtinInstaller h.expand "fake" (fakeOptions fakeDir) fun o => (fakePlugin h o).installer h o)
        (by simp [builtinInstallers])).1
      rw [this] at hc
      injection hc with hc
      rw [← hc]
      exact builtinDefault_name h fakeDir (by simp [builtinNames, builtinInstaller])
    all_goals
      simp only [builtinInstaller] at hc
      obtain ⟨o, -, hc⟩ := Except_bind_ok.1 hc
      rw [← pure_ok.1 hc]
      rfl

/-- No key is disputed: of the builtin installers only pip can be an additional installer. -/
theorem builtin_undisputed {env : StartEnv} {c : Config} {w : Surroundings σ} (h : Host σ) (fakeDir : String)
    (hin : w.installerEntries = builtinInstallerEntries h fakeDir) {r : InstallerSetup σ} (hr : contextFor env w c = .ok r) (db : Database)
    (f : Dict String (List String)) : Undisputed r.context db f := by
  have hpip : ∀ i ∈ r.context.additional, i.name = "pip" := by
    intro i hi
    have hr' := hr
    unfold contextFor at hr'
    obtain ⟨s, hs, hr'⟩ := Except_bind_ok.1 hr'
    unfold installerContext at hr'
    obtain ⟨loaded, hload, hr'⟩ := Except_bind_ok.1 hr'
    obtain ⟨os, hset, hr'⟩ := Except_bind_ok.1 hr'
    obtain ⟨insts, -, hr'⟩ := Except_bind_ok.1 hr'
    obtain ⟨-, -, -, c4, c5⟩ := C42_installers s os _ r hr'
    obtain ⟨⟨j, k⟩, hx, e⟩ := List.mem_map.1 hi
    simp only at e
    subst e
    cases hu : s.useAdditional with
    | false => rw [c4 hu] at hx; cases hx
    | true =>
      obtain ⟨g1, -, g3⟩ := ((c5 hu).2 _ _).1 hx
      obtain ⟨ep, he, dis, pn, n, a, v, hpr, hc⟩ := context_plugins hr j (List.mem_of_getElem? g1)
      rw [hin] at he
      obtain ⟨x, hx, rfl⟩ := List.mem_map.1 he
      obtain ⟨-, -, rfl⟩ := provides_builtin hpr
      simp only [builtinInstallers, List.mem_cons, List.not_mem_nil, or_false] at hx
      rcases hx with rfl | rfl | rfl | rfl | rfl
      all_goals
        simp only [builtinInstaller] at hc
        obtain ⟨o, -, hc⟩ := Except_bind_ok.1 hc
        have hc := pure_ok.1 hc
        subst hc
        first
        | rfl
        | (exfalso; revert g3; simp [PackageManager.installer, fakePlugin, aptPlugin, homebrewPlugin, macportsPlugin])
  intro key d _
  exact .inr (.inr fun i hi j hj _ _ => (hpip i hi).trans (hpip j hj).symm)

/-- **C145** The plugins that come with xylem can be found in any order: no options are given for the fake installer (which can be given the name of another
one), and the machine has not both LSB information and `sw_vers`. -/
theorem C145_builtin_plugins {env : StartEnv} {c : Config} {w w' : Surroundings σ} (p : Platform) (h : Host σ) (fakeDir : String)
    (hos : w.osEntries = builtinOsEntries p) (hin : w.installerEntries = builtinInstallerEntries h fakeDir)
    (hsp : w.specEntries = [builtinEntry "rules" "rules" (rulesSpec w.uni)]) (hp : p.lsbInfo = none ∨ p.swVersExists = false)
    (hfake : ∀ o, readOpt c "installer_options" = .ok (.dict o) → dget o (.str "fake") = none)
    {r : InstallerSetup σ} (hr : contextFor env w c = .ok r) {l : List Spec} (hl : specsFor w c = .ok l) (hw : Shuffled w w') :
    ∃ r', contextFor env w' c = .ok r' ∧ r'.osTuple = r.osTuple ∧ r'.context.core = r.context.core ∧ r.context.additional.Perm r'.context.additional ∧
      lookupCtxFor env w' c = lookupCtxFor env w c ∧ loadedFor w' c = loadedFor w c ∧
      ∀ db f, (∀ keys all, resolve r'.context db f keys all = resolve r.context db f keys all) ∧
        ∀ m o keys all, install m r'.context db f o keys all = install m r.context db f o keys all := by
  have hfree := builtin_orderfree p h fakeDir hos hin hsp hp hfake hr hl
  obtain ⟨⟨r', h1, h2, h3, -, -, h6, -, h8⟩, h9, h10⟩ := C145_same_contexts_partial env hw hfree hr
  exact ⟨r', h1, h2, h3, h6, h9, h10 ⟨l, hl⟩, fun db f => h8 db f (builtin_undisputed h fakeDir hin hr db f)⟩

/-- **C145** The same for whole runs of xylem, with any words. -/
theorem C145_builtin_program {σ : Type} (o : Outside σ) (w' : Surroundings σ) (desc : Desc) (fresh : Bool) (proc : Process) (words : List String) (s : σ)
    (hw : Shuffled o.world w') (p : Platform) (h : Host σ) (fakeDir : String) (hos : o.world.osEntries = builtinOsEntries p)
    (hin : o.world.installerEntries = builtinInstallerEntries h fakeDir) (hsp : o.world.specEntries = [builtinEntry "rules" "rules" (rulesSpec o.world.uni)])
    (hp : p.lsbInfo = none ∨ p.swVersExists = false)
    (hc : ∀ r c, parseXylem fresh desc words = .ok r → (handleConfigArguments o.env desc (handleSwitches o.env r.2.1 proc) r.2.1).res = .ok c →
      (∀ d, readOpt c "installer_options" = .ok (.dict d) → dget d (.str "fake") = none) ∧
      (∃ r, contextFor o.env o.world c = .ok r) ∧ ∃ l, specsFor o.world c = .ok l) :
    let o' := { o with world := w' }
    xylemDone o' desc fresh proc words s = xylemDone o desc fresh proc words s ∧
    (xylemMain o' desc fresh proc words s).1 = (xylemMain o desc fresh proc words s).1 ∧
    (xylemMain o' desc fresh proc words s).2.ending = (xylemMain o desc fresh proc words s).2.ending ∧
    (xylemMain o' desc fresh proc words s).2.lines.filter Line.notErr = (xylemMain o desc fresh proc words s).2.lines.filter Line.notErr :=
  C145_whatever_order_partial o w' desc fresh proc words s hw fun r c h1 h2 => by
    obtain ⟨g1, ⟨ic, g2⟩, l, g3⟩ := hc r c h1 h2
    exact ⟨builtin_orderfree p h fakeDir hos hin hsp hp g1 g2 g3, ⟨ic, g2, fun db f _ _ => builtin_undisputed h fakeDir hin g2 db f⟩, l, g3⟩

/-! ## Two additional installers -/

/-- The config of `xylem resolve boost`. -/
def exConfigPlain : Except Exc Config :=
  match parseArgv true sharedOptions (commandNames.map xylemCommand) ["resolve", "boost"] with
  | .error e => .error e
  | .ok r => (handleConfigArguments exStart xylemDescription (handleSwitches exStart r.2.1 exProcess) r.2.1).res

def exRival (n : String) : Installer (List String) := { surely with name := n, resolve := listed, useAsAdditional := fun _ => .ok true }

def exRivalPlugin (n : String) : InstallerPlugin (List String) := ⟨n, fun _ => .ok (exRival n)⟩

theorem rival_name {l : List String} {a : InstallerPlugin (List String)} (ha : a ∈ l.map exRivalPlugin) {v : PVal} {i : Installer (List String)}
    (hi : a.configure v = .ok i) : i.name = a.name := by
  obtain ⟨n, -, rfl⟩ := List.mem_map.1 ha
  unfold exRivalPlugin at hi
  injection hi with hi
  rw [← hi]
  rfl

/-- A machine with additional installers of these names. -/
def exRivals (l : List String) : Surroundings (List String) :=
  { exMachine with installerEntries := (l.map exRivalPlugin).map fun p => builtinEntry p.name p.name p }

/-- There are rules for both. -/
def exBoth : Database where
  lookup _ := .ok [("one", [("packages", .list [.str "boost1"])]), ("two", [("packages", .list [.str "boost2"])])]
  keys := .ok ["boost"]

/-- What is resolved: the installers. -/
def exChosen (l : List String) : List String :=
  match exConfigPlain with
  | .error _ => []
  | .ok c =>
    match contextFor exStart (exRivals l) c with
    | .error _ => []
    | .ok r =>
      match resolve r.context exBoth [] ["boost"] false with
      | .error _ => []
      | .ok x => x.results.map fun y => y.2.1

/-- **C145** is false with two additional installers that have rules for the same key: the one that is found last is used. Everything else
`C145_same_contexts_partial` needs holds. -/
theorem C145_additional_refuted :
    ∃ (c : Config) (w w' : Surroundings (List String)) (r r' : InstallerSetup (List String)) (db : Database) (x x' : Resolved),
      Shuffled w w' ∧ OrderFree c w ∧ contextFor exStart w c = .ok r ∧ contextFor exStart w' c = .ok r' ∧
      resolve r.context db [] ["boost"] false = .ok x ∧ resolve r'.context db [] ["boost"] false = .ok x' ∧
      x.results.map (fun y => y.2.1) = ["two"] ∧ x'.results.map (fun y => y.2.1) = ["one"] := by
  have h1 : exChosen ["one", "two"] = ["two"] := by decide +kernel
  have h2 : exChosen ["two", "one"] = ["one"] := by decide +kernel
  have h3 : (match exConfigPlain with | .ok c => (specsFor (exRivals ["one", "two"]) c).isOk | .error _ => false) = true := by decide +kernel
  unfold exChosen at h1 h2
  cases hc : exConfigPlain with
  | error e => rw [hc] at h1; cases h1
  | ok c =>
    rw [hc] at h1 h2 h3
    simp only at h1 h2 h3
    cases hr : contextFor exStart (exRivals ["one", "two"]) c with
    | error e => rw [hr] at h1; cases h1
    | ok r =>
      cases hr' : contextFor exStart (exRivals ["two", "one"]) c with
      | error e => rw [hr'] at h2; cases h2
      | ok r' =>
        rw [hr] at h1
        rw [hr'] at h2
        simp only at h1 h2
        cases hx : resolve r.context exBoth [] ["boost"] false with
        | error e => rw [hx] at h1; cases h1
        | ok x =>
          cases hx' : resolve r'.context exBoth [] ["boost"] false with
          | error e => rw [hx'] at h2; cases h2
          | ok x' =>
            rw [hx] at h1
            rw [hx'] at h2
            cases hl : specsFor (exRivals ["one", "two"]) c with
            | error e => rw [hl] at h3; cases h3
            | ok l =>
              refine ⟨c, exRivals ["one", "two"], exRivals ["two", "one"], r, r', exBoth, x, x', ⟨.refl _, ?_, .refl _, rfl⟩, ⟨builtin_os (p := exUbuntu) rfl (.inr rfl) hr, ?_, builtin_specs rfl hl⟩, hr, hr', hx,
                hx', h1, h2⟩
              · exact ((List.Perm.swap "two" "one" []).map exRivalPlugin).map fun p => builtinEntry p.name p.name p
              · have hr := hr
                unfold contextFor at hr
                obtain ⟨s, hs, hr⟩ := Except_bind_ok.1 hr
                refine ⟨s.disabledInstallers, s.installerOptions, (settings_disabled hs).2, order_options hs, ?_, ?_⟩
                · exact distinct_builtin InstallerPlugin.name (["one", "two"].map exRivalPlugin) (show ["one", "two"].Nodup by decide)
                · exact all_builtin (f := InstallerPlugin.name) (l := ["one", "two"].map exRivalPlugin) fun a ha => ⟨rfl, fun v i _ hi => rival_name ha hi⟩

/-! ## A machine with the builtin plugins -/

def exBuiltinHost : Host (List String) where
  isRoot := false
  popen := fun _ s => (.ok "", s)
  pathExists := fun _ _ => false
  isdir := fun _ _ => false
  makedirs := fun _ s => (.ok (), s)
  expand := id

def exBuiltinMachine : Surroundings (List String) := { exMachine with installerEntries := builtinInstallerEntries exBuiltinHost "/f" }

/-- With the plugins found in the opposite order. -/
def exBackwards : Surroundings (List String) :=
  { exBuiltinMachine with osEntries := exBuiltinMachine.osEntries.reverse, installerEntries := exBuiltinMachine.installerEntries.reverse }

example (o : Outside (List String)) (s : List String) (he : o.env = exStart) (hw : o.world = exBuiltinMachine) :
    exConfigPlain.isOk = true ∧ Shuffled o.world exBackwards ∧
    xylemDone { o with world := exBackwards } xylemDescription true exProcess ["resolve", "boost"] s = xylemDone o xylemDescription true exProcess ["resolve", "boost"] s := by
  have hf : (match exConfigPlain with
      | .ok c => (contextFor exStart exBuiltinMachine c).isOk && (specsFor exBuiltinMachine c).isOk &&
        (match readOpt c "installer_options" with | .ok (.dict d) => (dget d (.str "fake")).isNone | _ => true)
      | .error _ => false) = true := by decide +kernel
  have hre : Shuffled o.world exBackwards := by
    rw [hw]; exact ⟨(List.reverse_perm _).symm, (List.reverse_perm _).symm, .refl _, rfl⟩
  refine ⟨?_, hre, (C145_builtin_program o exBackwards xylemDescription true exProcess ["resolve", "boost"] s hre exUbuntu exBuiltinHost "/f" (by rw [hw]; rfl)
    (by rw [hw]; rfl) (by rw [hw]; rfl) (.inr rfl) ?_).1⟩
  · cases hc : exConfigPlain with
    | error e => rw [hc] at hf; cases hf
    | ok c => rfl
  · intro r c h1 h2
    rw [parseXylem_eq] at h1
    have hc : exConfigPlain = .ok c := by
      unfold exConfigPlain
      rw [h1]
      rw [he] at h2
      exact h2
    rw [hc] at hf
    simp only [Bool.and_eq_true] at hf
    rw [he, hw]
    refine ⟨fun d hd => ?_, ?_, ?_⟩
    · have := hf.2
      rw [hd] at this
      simpa using this
    · cases hx : contextFor exStart exBuiltinMachine c with
      | error e => rw [hx] at hf; cases hf.1.1
      | ok r => exact ⟨r, rfl⟩
    · cases hx : specsFor exBuiltinMachine c with
      | error e => rw [hx] at hf; cases hf.1.2
      | ok r => exact ⟨r, rfl⟩

end Verif
