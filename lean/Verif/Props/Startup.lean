import Verif.Lemmas.Startup
/-! # The start of xylem: effective config (C53, C54), `--print-config` (C98), global switches and messages (C99) -/
namespace Verif

/-! ## The effective config -/

/-- Writing to one of these places does not change the other. -/
def ApartOpts (n m : String) : Prop :=
  n ≠ m ∧ (∀ g s, groupOf n = some (g, s) → g ≠ m) ∧ ∀ g s, groupOf m = some (g, s) → g ≠ n

theorem apart_of_has {desc : Desc} (hd : desc.Built) {n m : String} {i j : ConfigItem} (hn : desc.Has n i) (hm : desc.Has m j) (hne : n ≠ m) :
    ApartOpts n m := ⟨hne, (C52_keys_distinct hd hn hm).2, (C52_keys_distinct hd hm hn).2⟩

theorem xylem_item {s : ItemSpec} (h : s ∈ xylemItems) : xylemDescription.Has s.name (mkItem s) := by
  have e : xylemDescription.itemlist = xylemItems.map mkItem := by rfl
  exact ⟨by rw [e]; exact List.mem_map_of_mem h, rfl⟩

theorem has_cache : xylemDescription.Has "cache_dir" (mkItem { name := "cache_dir", type := .path, commandLine := some true }) :=
  xylem_item (s := { name := "cache_dir", type := .path, commandLine := some true }) (by simp [xylemItems])
theorem has_sources : xylemDescription.Has "sources_dir" (mkItem { name := "sources_dir", type := .path, commandLine := some true }) :=
  xylem_item (s := { name := "sources_dir", type := .path, commandLine := some true }) (by simp [xylemItems])
theorem has_user : xylemDescription.Has "user_sources" (mkItem { name := "user_sources", type := .boolean, default := .bool false, commandLine := some true }) :=
  xylem_item (s := { name := "user_sources", type := .boolean, default := .bool false, commandLine := some true }) (by simp [xylemItems])
theorem has_override :
    xylemDescription.Has "os_override" (mkItem { name := "os_override", type := .string, argument := some "os", metavar := some "name:version" }) :=
  xylem_item (s := { name := "os_override", type := .string, argument := some "os", metavar := some "name:version" }) (by simp [xylemItems])
theorem has_features : xylemDescription.Has "os_options/features"
    (mkItem { name := "os_options/features", type := .list .string, argument := some "os-features", metavar := some "\"feature1,feature2,...\"" }) :=
  xylem_item (s := { name := "os_options/features", type := .list .string, argument := some "os-features", metavar := some "\"feature1,feature2,...\"" })
    (by simp [xylemItems])

theorem fillDir_set {c : Config} {n : String} {v : PVal} (h : readOpt c n = .ok v) (hv : v.isNone = false) (dir : Except Exc String) :
    fillDir c n dir = .ok c := by
  unfold fillDir
  rw [h]
  show (if v.isNone = true then _ else _) = _
  rw [if_neg (by simp [hv])]
  rfl

theorem fillDir_unset {c : Config} {n : String} (h : readOpt c n = .ok .none) {dir : Except Exc String} {d : String} (hdir : dir = .ok d) :
    ∃ c', fillDir c n dir = .ok c' ∧ readOpt c' n = .ok (.str d) ∧ ∀ m, ApartOpts n m → readOpt c' m = readOpt c m := by
  obtain ⟨c', h'⟩ := write_ok (.str d) h
  refine ⟨c', ?_, write_read h', fun m hm => write_other h' hm.1 hm.2.1 hm.2.2⟩
  unfold fillDir
  rw [h, hdir]
  exact h'

/-- One directory, set or not. -/
theorem fillDir_spec {c : Config} {n : String} {o : Option String} (h : readOpt c n = .ok (optText o)) {dir : Except Exc String} {d : String}
    (hdir : dir = .ok d) :
    ∃ c', fillDir c n dir = .ok c' ∧ readOpt c' n = .ok (.str (o.getD d)) ∧ ∀ m, ApartOpts n m → readOpt c' m = readOpt c m := by
  cases o with
  | none => exact fillDir_unset h hdir
  | some s => exact ⟨c, fillDir_set h rfl dir, h, fun _ _ => rfl⟩

theorem chosenDir_eq {c : Config} {user : Bool} (h : readOpt c "user_sources" = .ok (.bool user)) (a : GlobalArgs) (x y z : String) :
    chosenDir c a x y z = .ok (chooseDir a.configDir user x y z) := by
  unfold chosenDir chooseDir
  split
  · rfl
  · rw [h]; rfl

/-- **C53, C54** `process_config` on a real config dict does what `C53` and `C54` say of its parts: the directories are filled in, the os override is
split into name and version, its features replace the others, and no other option changes. -/
theorem C53_processed_config (env : StartEnv) (a : GlobalArgs) {c : Config} {cache sources : Option String} {user : Bool} {os : Option String} {fs : PVal}
    (h1 : readOpt c "cache_dir" = .ok (optText cache)) (h2 : readOpt c "sources_dir" = .ok (optText sources))
    (h3 : readOpt c "user_sources" = .ok (.bool user)) (h4 : readOpt c "os_override" = .ok (optText os))
    (h5 : readOpt c "os_options/features" = .ok fs) :
    let p := processConfig env.ws env.home a cache sources user (os.map String.toList) none
    ∃ c', processConfigDict env a c = .ok c' ∧ readOpt c' "cache_dir" = .ok (.str p.cacheDir) ∧ readOpt c' "sources_dir" = .ok (.str p.sourcesDir) ∧
      readOpt c' "os_override" = .ok (overridePair p.osOverride) ∧
      readOpt c' "os_options/features" = .ok ((p.features.map fun l => PVal.list (l.map textVal)).getD fs) ∧
      ∀ m i, xylemDescription.Has m i → m ∉ ["cache_dir", "sources_dir", "os_override", "os_options/features"] → readOpt c' m = readOpt c m := by
  intro p
  have hb := xylem_built
  have ap : ∀ {n m : String} {i j : ConfigItem}, xylemDescription.Has n i → xylemDescription.Has m j → n ≠ m → ApartOpts n m :=
    fun hn hm hne => apart_of_has hb hn hm hne
  obtain ⟨c1, e1, r1, o1⟩ := fillDir_spec h1 (chosenDir_eq h3 a (userCacheDir (a.configDir.getD "")) (userCacheDir (userConfigDir env.home "xylem"))
    (systemCacheDir (a.prefix_.getD "/") "xylem"))
  have k2 := (o1 _ (ap has_cache has_sources (by decide))).trans h2
  have k3 := (o1 _ (ap has_cache has_user (by decide))).trans h3
  have k4 := (o1 _ (ap has_cache has_override (by decide))).trans h4
  have k5 := (o1 _ (ap has_cache has_features (by decide))).trans h5
  obtain ⟨c2, e2, r2, o2⟩ := fillDir_spec k2 (chosenDir_eq k3 a (sourcesDirOf (a.configDir.getD "")) (sourcesDirOf (userConfigDir env.home "xylem"))
    (sourcesDirOf (systemConfigDir (a.prefix_.getD "/") "xylem")))
  have m1 := (o2 _ (ap has_sources has_cache (by decide))).trans r1
  have m4 := (o2 _ (ap has_sources has_override (by decide))).trans k4
  have m5 := (o2 _ (ap has_sources has_features (by decide))).trans k5
  have run : processConfigDict env a c = processOverride env.ws c2 := by
    unfold processConfigDict
    rw [e1]
    show (fillDir c1 "sources_dir" _ >>= fun c => processOverride env.ws c) = _
    rw [e2]
    rfl
  have hother : ∀ m i, xylemDescription.Has m i → m ∉ ["cache_dir", "sources_dir", "os_override", "os_options/features"] → readOpt c2 m = readOpt c m := by
    intro m i hm hne
    simp only [List.mem_cons, List.not_mem_nil, or_false, not_or] at hne
    rw [o2 m (ap has_sources hm (Ne.symm hne.2.1)), o1 m (ap has_cache hm (Ne.symm hne.1))]
  rw [run]
  cases os with
  | none =>
    refine ⟨c2, ?_, m1, r2, m4, m5, hother⟩
    unfold processOverride
    rw [m4]
    rfl
  | some s =>
    obtain ⟨c3, e3⟩ := write_ok (.list [textVal (parseOsOverride env.ws s.toList).1, ((parseOsOverride env.ws s.toList).2.1.map textVal).getD .none]) m4
    have w3 := fun m hm => write_other (m := m) e3 (hm : ApartOpts "os_override" m).1 hm.2.1 hm.2.2
    have n1 := (w3 _ (ap has_override has_cache (by decide))).trans m1
    have n2 := (w3 _ (ap has_override has_sources (by decide))).trans r2
    have n5 := (w3 _ (ap has_override has_features (by decide))).trans m5
    have n4 := write_read e3
    have hpair : PVal.list [textVal (parseOsOverride env.ws s.toList).1, ((parseOsOverride env.ws s.toList).2.1.map textVal).getD .none] =
        overridePair p.osOverride := by
      show _ = overridePair (some ((parseOsOverride env.ws s.toList).1, (parseOsOverride env.ws s.toList).2.1))
      cases (parseOsOverride env.ws s.toList).2.1 <;> rfl
    have hfeat : p.features = (parseOsOverride env.ws s.toList).2.2 := by
      show ((parseOsOverride env.ws s.toList).2.2).or none = _
      cases (parseOsOverride env.ws s.toList).2.2 <;> rfl
    have hov : processOverride env.ws c2 = storeOverride c2 (parseOsOverride env.ws s.toList) := by
      unfold processOverride
      rw [m4]
      rfl
    rw [hpair] at n4
    rw [hov, hfeat]
    unfold storeOverride
    rw [e3]
    cases hf : (parseOsOverride env.ws s.toList).2.2 with
    | none =>
      refine ⟨c3, rfl, n1, n2, n4, n5, fun m i hm hne => ?_⟩
      have := hne
      simp only [List.mem_cons, List.not_mem_nil, or_false, not_or] at this
      rw [w3 m (ap has_override hm (Ne.symm this.2.2.1)), hother m i hm hne]
    | some l =>
      obtain ⟨c4, e4⟩ := write_ok (.list (l.map textVal)) n5
      have w4 := fun m hm => write_other (m := m) e4 (hm : ApartOpts "os_options/features" m).1 hm.2.1 hm.2.2
      refine ⟨c4, e4, (w4 _ (ap has_features has_cache (by decide))).trans n1, (w4 _ (ap has_features has_sources (by decide))).trans n2,
        (w4 _ (ap has_features has_override (by decide))).trans n4, write_read e4, fun m i hm hne => ?_⟩
      have := hne
      simp only [List.mem_cons, List.not_mem_nil, or_false, not_or] at this
      rw [w4 m (ap has_features hm (Ne.symm this.2.2.2)), w3 m (ap has_override hm (Ne.symm this.2.2.1)), hother m i hm hne]

/-! ## What a loaded config of xylem looks like -/

theorem has_one {desc : Desc} (hd : desc.Built) {n : String} {i j : ConfigItem} (hi : desc.Has n i) (hj : desc.Has n j) : i = j :=
  List.inj_on_of_nodup_map (C52_names_distinct hd) hi.1 hj.1 (hi.2.trans hj.2.symm)

theorem xylem_defaults_fixed (expand : String → String) {n : String} {i : ConfigItem} (h : xylemDescription.Has n i) : Fixed expand i.type i.default := by
  obtain ⟨h, -⟩ := h
  have : ∀ i ∈ xylemItems.map mkItem, Fixed expand i.type i.default := by
    intro i hi
    simp only [xylemItems, List.map_cons, List.map_nil, List.mem_cons, List.not_mem_nil, or_false] at hi
    rcases hi with rfl | rfl | rfl | rfl | rfl | rfl | rfl | rfl | rfl | rfl | rfl | rfl <;> rfl
  have e : xylemDescription.itemlist = xylemItems.map mkItem := by rfl
  exact this i (e ▸ h)

theorem fixed_path {expand : String → String} {v : PVal} (h : Fixed expand .path v) : ∃ o, v = optText o ∧ ∀ s, o = some s → expand s = s := by
  cases v with
  | none => exact ⟨none, rfl, by simp⟩
  | str s =>
    unfold Fixed at h
    simp only [CType.fromYaml] at h
    injection h with h
    injection h with h
    exact ⟨some s, rfl, by rintro _ ⟨⟩; exact h⟩
  | _ => simp [Fixed, CType.fromYaml] at h

theorem fixed_string {expand : String → String} {v : PVal} (h : Fixed expand .string v) : ∃ o, v = optText o := by
  rcases (fromYaml_ok_iff (expand := expand) (t := .string) (by simp [CType.KeysOk])).1 ⟨v, h⟩ with rfl | ⟨s, rfl⟩
  · exact ⟨none, rfl⟩
  · exact ⟨some s, rfl⟩

theorem fixed_boolean {expand : String → String} {v : PVal} (h : Fixed expand .boolean v) (hn : v ≠ .none) : ∃ b, v = .bool b := by
  rcases (fromYaml_ok_iff (expand := expand) (t := .boolean) (by simp [CType.KeysOk])).1 ⟨v, h⟩ with rfl | ⟨s, rfl⟩
  · exact absurd rfl hn
  · exact ⟨s, rfl⟩

/-- The values of a loaded config, before `process_config`. -/
theorem xylem_loaded {loadYaml : String → Except Exc PVal} {expand : String → String} (hexp : ∀ s, expand (expand s) = expand s)
    {file : String → FileText} {home tool ns : String} {a : GlobalArgs} {args : String → Option CmdVal} {c : Config}
    (h : loadConfig loadYaml expand file home tool ns a args xylemDescription = .ok c) :
    ∃ cache sources user os fs, readOpt c "cache_dir" = .ok (optText cache) ∧ readOpt c "sources_dir" = .ok (optText sources) ∧
      readOpt c "user_sources" = .ok (.bool user) ∧ readOpt c "os_override" = .ok (optText os) ∧ readOpt c "os_options/features" = .ok fs ∧
      (∀ s, cache = some s → expand s = s) ∧ ∀ s, sources = some s → expand s = s := by
  have key := fun {n i} hi => loaded_fixed (n := n) (i := i) hexp xylem_built (fun n i hi => xylem_defaults hi) (fun n i hi => xylem_defaults_fixed expand hi) h hi
  obtain ⟨v1, r1, f1, -⟩ := key has_cache
  obtain ⟨v2, r2, f2, -⟩ := key has_sources
  obtain ⟨v3, r3, f3, g3⟩ := key has_user
  obtain ⟨v4, r4, f4, -⟩ := key has_override
  obtain ⟨v5, r5, -, -⟩ := key has_features
  obtain ⟨o1, rfl, e1⟩ := fixed_path f1
  obtain ⟨o2, rfl, e2⟩ := fixed_path f2
  obtain ⟨o3, rfl⟩ := fixed_boolean f3 (fun e => by have := g3 e; cases this)
  obtain ⟨o4, rfl⟩ := fixed_string f4
  exact ⟨o1, o2, o3, o4, v5, r1, r2, r3, r4, r5, e1, e2⟩

/-! ## C98 -/

theorem handle_error {env : StartEnv} {desc : Desc} {p : Process} {ns : ArgSpace} {e : Exc} (h : effectiveConfig env desc ns = .error e) :
    handleConfigArguments env desc p ns = ⟨[], .error e⟩ := by
  unfold handleConfigArguments
  rw [h]
  rfl

theorem handle_ok {env : StartEnv} {desc : Desc} {p : Process} {ns : ArgSpace} {c : Config} (h : effectiveConfig env desc ns = .ok c) :
    handleConfigArguments env desc p ns =
      if switchOn ns "print_config" then ⟨[.out (env.dumpYaml (.dict c.items) ++ ansi p.color "reset")], .error (.systemExit 0)⟩ else ⟨[], .ok c⟩ := by
  unfold handleConfigArguments
  rw [h]
  show Run.bind ⟨[], .ok c⟩ (fun c => Run.bind (printConfig env p ns c) fun _ => (pure c : Run Config)) = _
  unfold printConfig
  by_cases hp : switchOn ns "print_config" = true
  · rw [if_pos hp]
    simp only [Run.bind, hp, if_true, info, Run.lift, List.nil_append, List.append_nil]
  · rw [if_neg hp]
    simp only [Run.bind, hp]
    rfl

/-- **C98** `--print-config`: whatever the command, it is not run. If the effective config can be built, it is printed on stdout, once, and the
program ends with exit status 0; otherwise nothing is printed on stdout and the program ends with the exception. The global config is not set. -/
theorem C98_print_config (env : StartEnv) (desc : Desc) (text : Bool → Exc → List Char) (func : Process → ArgSpace → Run (Option Int)) (p : Process)
    {ns : ArgSpace} (hp : dget ns "print_config" = some (.flag true)) :
    (∀ c, effectiveConfig env desc ns = .ok c →
      mainParsed env desc text func p ns = (handleSwitches env ns p,
        ⟨[.out (env.dumpYaml (.dict c.items) ++ ansi (handleSwitches env ns p).color "reset")], .exit 0⟩)) ∧
    (∀ e, effectiveConfig env desc ns = .error e →
      mainParsed env desc text func p ns = (handleSwitches env ns p, ⟨[], uncaught e⟩)) ∧
    (mainParsed env desc text func p ns).1.config = p.config := by
  have hp' : switchOn ns "print_config" = true := by unfold switchOn; rw [hp]
  have h1 : ∀ c, effectiveConfig env desc ns = .ok c →
      mainParsed env desc text func p ns = (handleSwitches env ns p,
        ⟨[.out (env.dumpYaml (.dict c.items) ++ ansi (handleSwitches env ns p).color "reset")], .exit 0⟩) := by
    intro c h
    unfold mainParsed
    simp only [handle_ok h, hp', if_true]
    rfl
  have h2 : ∀ e, effectiveConfig env desc ns = .error e →
      mainParsed env desc text func p ns = (handleSwitches env ns p, ⟨[], uncaught e⟩) := by
    intro e h
    unfold mainParsed
    simp only [handle_error h]
  refine ⟨h1, h2, ?_⟩
  cases h : effectiveConfig env desc ns with
  | ok c => rw [h1 c h]; rfl
  | error e => rw [h2 e h]; rfl

/-- Without `--print-config` the printing code prints nothing, and the command runs with the effective config as the global config. -/
theorem C98_config_set (env : StartEnv) (desc : Desc) (text : Bool → Exc → List Char) (func : Process → ArgSpace → Run (Option Int)) (p : Process)
    {ns : ArgSpace} (hp : dget ns "print_config" = some (.flag false)) {c : Config} (h : effectiveConfig env desc ns = .ok c) :
    mainParsed env desc text func p ns =
      (let p' := { handleSwitches env ns p with config := c }
       (p', mainTry p'.color p'.debug text (func p' ns))) := by
  have hp' : switchOn ns "print_config" = false := by unfold switchOn; rw [hp]
  unfold mainParsed
  simp only [handle_ok h, hp', Bool.false_eq_true, if_false, List.nil_append]

/-- **C98** The printed config can be used as the config file: if no os override is set, the file read instead of all other config files and
options gives the same value for every option. Hypotheses on the library: path expansion is idempotent, and leaves the two directories alone. -/
theorem C98_reread_partial {env env' : StartEnv} {ns ns' : ArgSpace} {c : Config} (hexp : ∀ s, env.expand (env.expand s) = env.expand s)
    (h : effectiveConfig env xylemDescription ns = .ok c) (hos : readOpt c "os_override" = .ok .none)
    (h1 : ∀ s, readOpt c "cache_dir" = .ok (.str s) → env.expand s = s) (h2 : ∀ s, readOpt c "sources_dir" = .ok (.str s) → env.expand s = s)
    (hf : PrintedAsFile env c env' ns') :
    ∃ c', effectiveConfig env' xylemDescription ns' = .ok c' ∧ SameOptions xylemDescription c c' := by
  unfold effectiveConfig at h
  obtain ⟨cL, hL, hP⟩ := Except_bind_ok.1 h
  obtain ⟨cache, sources, user, os, fs, r1, r2, r3, r4, r5, x1, x2⟩ := xylem_loaded hexp hL
  obtain ⟨c0, e0, q1, q2, q3, q4, q5⟩ := C53_processed_config env _ r1 r2 r3 r4 r5
  have := Except.ok.inj (e0.symm.trans hP)
  subst this
  have hosn : os = none := by
    cases os with
    | none => rfl
    | some s =>
      rw [hos] at q3
      have := Except.ok.inj q3
      revert this
      show PVal.none = overridePair (some ((parseOsOverride env.ws s.toList).1, (parseOsOverride env.ws s.toList).2.1)) → _
      cases (parseOsOverride env.ws s.toList).2.1 <;> intro h <;> cases h
  subst hosn
  have hc : ∀ n i, xylemDescription.Has n i → ∃ v, readOpt c0 n = .ok v ∧ Fixed env.expand i.type v ∧ Covers i.type i.default v := by
    intro n i hi
    obtain ⟨v, rv, fv, gv⟩ := loaded_fixed (n := n) (i := i) hexp xylem_built (fun n i hi => xylem_defaults hi)
      (fun n i hi => xylem_defaults_fixed env.expand hi) hL hi
    by_cases hm : n ∈ ["cache_dir", "sources_dir", "os_override", "os_options/features"]
    · simp only [List.mem_cons, List.not_mem_nil, or_false] at hm
      rcases hm with rfl | rfl | rfl | rfl
      · have := (has_one xylem_built hi has_cache); subst this
        refine ⟨_, q1, ?_, fun e => by cases e⟩
        show Except.ok (PVal.str (env.expand _)) = _
        rw [h1 _ q1]
      · have := (has_one xylem_built hi has_sources); subst this
        refine ⟨_, q2, ?_, fun e => by cases e⟩
        show Except.ok (PVal.str (env.expand _)) = _
        rw [h2 _ q2]
      · have := (has_one xylem_built hi has_override); subst this
        exact ⟨_, hos, rfl, fun _ => rfl⟩
      · refine ⟨v, ?_, fv, gv⟩
        rw [q4, ← rv, r5]; rfl
    · exact ⟨v, (q5 n i hi hm).trans rv, fv, gv⟩
  obtain ⟨d, hd1, hd2⟩ := hf.dirGiven
  have hdir : (handleGlobalConfigArguments env'.expand env'.dirVar env'.prefixVar (globalArgs ns')).configDir = some (env'.expand d) := by
    show (((textArg ns' "config_dir").or env'.dirVar).map env'.expand) = _
    rw [hd1]; rfl
  rw [← hf.sameExpand] at hd2 hc
  obtain ⟨cR, eR, same⟩ := reload (home := env'.home) (tool := "xylem") (file := env'.file) xylem_built (fun n i hi => xylem_defaults hi) hc hdir hd2 hf.readsBack hf.nothingElse
  have val : ∀ {n i x}, xylemDescription.Has n i → readOpt c0 n = .ok x → (∀ d, x ≠ .dict d) → readOpt cR n = .ok x := by
    intro n i x hi hx hnd
    obtain ⟨v, w, hv, hw, hs⟩ := same n i hi
    rw [hx] at hv
    have := Except.ok.inj hv
    subst this
    rcases hs with rfl | ⟨d, -, rfl, -⟩
    · exact hw
    · exact absurd rfl (hnd d)
  obtain ⟨c', e', s1, s2, s3, s4, s5⟩ := C53_processed_config env' (handleGlobalConfigArguments env'.expand env'.dirVar env'.prefixVar (globalArgs ns'))
    (c := cR) (cache := some _) (sources := some _) (user := user) (os := none) (fs := fs) (val has_cache q1 (by intro d h; cases h))
    (val has_sources q2 (by intro d h; cases h))
    (val has_user ((q5 _ _ has_user (by decide)).trans r3) (by intro d h; cases h)) (val has_override hos (by intro d h; cases h)) (by
      have hfs : readOpt c0 "os_options/features" = .ok fs := q4
      refine val has_features hfs ?_
      rintro d rfl
      obtain ⟨v, rv, fv, -⟩ := hc _ _ has_features
      rw [hfs] at rv
      cases rv
      simp [Fixed, mkItem, CType.fromYaml] at fv)
  refine ⟨c', ?_, fun n i hi => ?_⟩
  · unfold effectiveConfig
    simp only [eR]
    exact e'
  · obtain ⟨v, w, hv, hw, hs⟩ := same n i hi
    refine ⟨v, w, hv, ?_, hs⟩
    by_cases hm : n ∈ ["cache_dir", "sources_dir", "os_override", "os_options/features"]
    · simp only [List.mem_cons, List.not_mem_nil, or_false] at hm
      rcases hm with rfl | rfl | rfl | rfl
      · rw [s1, ← hw, val has_cache q1 (by intro d h; cases h)]; rfl
      · rw [s2, ← hw, val has_sources q2 (by intro d h; cases h)]; rfl
      · rw [s3, ← hw, val has_override hos (by intro d h; cases h)]; rfl
      · rw [s4]
        have hfs : readOpt c0 "os_options/features" = .ok fs := q4
        rw [hfs] at hv
        cases hv
        rcases hs with rfl | ⟨d, -, rfl, -⟩
        · rfl
        · obtain ⟨v, rv, fv, -⟩ := hc _ _ has_features
          rw [hfs] at rv
          cases rv
          simp [Fixed, mkItem, CType.fromYaml] at fv
    · rw [s5 n i hi hm, hw]

/-- **C98** refuted: with an os override the printed config cannot be used as the config file: it has a list where a text is expected, so
loading it always fails. -/
theorem C98_reread_override_refuted {env env' : StartEnv} {ns ns' : ArgSpace} {c : Config} (hexp : ∀ s, env.expand (env.expand s) = env.expand s)
    (h : effectiveConfig env xylemDescription ns = .ok c) (hos : readOpt c "os_override" ≠ .ok .none) (hf : PrintedAsFile env c env' ns') :
    effectiveConfig env' xylemDescription ns' = .error .configValueError := by
  unfold effectiveConfig at h
  obtain ⟨cL, hL, hP⟩ := Except_bind_ok.1 h
  obtain ⟨cache, sources, user, os, fs, r1, r2, r3, r4, r5, x1, x2⟩ := xylem_loaded hexp hL
  obtain ⟨c0, e0, q1, q2, q3, q4, q5⟩ := C53_processed_config env _ r1 r2 r3 r4 r5
  have := Except.ok.inj (e0.symm.trans hP)
  subst this
  have hlist : ∃ l, readOpt c0 "os_override" = .ok (.list l) := by
    rw [q3] at hos ⊢
    cases os with
    | none => exact absurd rfl hos
    | some s =>
      show ∃ l, Except.ok (overridePair (some ((parseOsOverride env.ws s.toList).1, (parseOsOverride env.ws s.toList).2.1))) = _
      cases (parseOsOverride env.ws s.toList).2.1 <;> exact ⟨_, rfl⟩
  obtain ⟨l, hl⟩ := hlist
  have hread : ∀ n i, xylemDescription.Has n i → ∃ v, readOpt c0 n = .ok v := by
    intro n i hi
    by_cases hm : n ∈ ["cache_dir", "sources_dir", "os_override", "os_options/features"]
    · simp only [List.mem_cons, List.not_mem_nil, or_false] at hm
      rcases hm with rfl | rfl | rfl | rfl
      · exact ⟨_, q1⟩
      · exact ⟨_, q2⟩
      · exact ⟨_, hl⟩
      · exact ⟨_, q4⟩
    · obtain ⟨v, rv, -⟩ := loaded_fixed (n := n) (i := i) hexp xylem_built (fun n i hi => xylem_defaults hi)
        (fun n i hi => xylem_defaults_fixed env.expand hi) hL hi
      exact ⟨v, (q5 n i hi hm).trans rv⟩
  obtain ⟨d, hd1, hd2⟩ := hf.dirGiven
  have hdir : (handleGlobalConfigArguments env'.expand env'.dirVar env'.prefixVar (globalArgs ns')).configDir = some (env'.expand d) := by
    show (((textArg ns' "config_dir").or env'.dirVar).map env'.expand) = _
    rw [hd1]; rfl
  rw [← hf.sameExpand] at hd2
  have hfile : configFromFile env'.loadYaml env'.expand xylemDescription (env'.file (pathJoin (env'.expand d) "config.yaml")) = .error .configValueError := by
    unfold configFromFile
    rw [hd2, items_load hf.readsBack]
    show configFromParsedYaml env'.expand c0.items xylemDescription false = _
    rcases C51_errors_partial (expand := env'.expand) (data := c0.items) xylem_built (fun n i hi => (xylem_defaults hi).2) (by
      intro n i g s hi hg v hv
      obtain ⟨w, hw⟩ := hread n i hi
      exact items_group hg hw hv) with ⟨cx, h⟩ | ⟨h, -⟩
    · obtain ⟨v, hv, -⟩ := C51_every_option xylem_built h has_override
      rw [items_fileEntry hl] at hv
      have hr : Readable .string (.list l) := (fromYaml_ok_iff (expand := env'.expand) (t := .string) (by simp [CType.KeysOk])).1 ⟨v, hv⟩
      simp [Readable] at hr
    · exact h
  obtain ⟨ca, hca⟩ := nothing_loads (loadYaml := env'.loadYaml) (expand := env'.expand) xylem_built hf.nothingElse
  unfold effectiveConfig
  have : loadConfig env'.loadYaml env'.expand env'.file env'.home "xylem" "config.yaml"
      (handleGlobalConfigArguments env'.expand env'.dirVar env'.prefixVar (globalArgs ns')) (argsOf ns') xylemDescription = .error .configValueError := by
    unfold loadConfig
    rw [hca]
    unfold configDirs
    rw [hdir]
    simp only [List.map_cons, List.map_nil, List.mapM_cons, hfile]
    rfl
  simp only [this]
  rfl

/-! ## C99: global switches -/

theorem switch_spec {extra opts : List OptSpec} {desc : Desc} (hp : mkParser extra desc = .ok opts) (hd : (opts.map OptSpec.dest).Nodup)
    {l : List Given} (hfull : ∀ g ∈ l, g.flag ∈ allFlags opts) {ns : ArgSpace} (h : parseInto opts [] l = .ok ns) {o : OptSpec} (ho : o ∈ globalOptions)
    (ha : o.action = .storeTrue) : switchOn ns o.dest = true ↔ GivenSwitch o.flags l := by
  have hm : o ∈ opts := by rw [(mkParser_ok hp).1]; exact List.mem_append_right _ ho
  unfold switchOn GivenSwitch
  rcases C96_switches hp hd hfull h hm ha with ⟨h1, h2⟩ | ⟨h1, h2⟩
  · rw [h1]; simp only [true_iff]; exact h2
  · rw [h1]; simp only [Bool.false_eq_true, false_iff]; exact h2

theorem mainParsed_switches (env : StartEnv) (desc : Desc) (text : Bool → Exc → List Char) (func : Process → ArgSpace → Run (Option Int)) (p : Process)
    (ns : ArgSpace) : (mainParsed env desc text func p ns).1.debug = (handleSwitches env ns p).debug ∧
      (mainParsed env desc text func p ns).1.pdb = (handleSwitches env ns p).pdb ∧
      (mainParsed env desc text func p ns).1.verbose = (handleSwitches env ns p).verbose ∧
      (mainParsed env desc text func p ns).1.color = (handleSwitches env ns p).color := by
  unfold mainParsed
  rcases hr : handleConfigArguments env desc (handleSwitches env ns p) ns with ⟨lines, e | c⟩ <;> simp only [hr, and_self]

/-- **C99** The switches after the start of xylem, whatever the other options are (written in full) and whether or not reading the config works:
debugging output is on iff `-d` or `--debug` is given or the variable XYLEM_DEBUG is set; likewise `--pdb` and XYLEM_PDB; verbose output is on iff
`-v` or `--verbose` is given or it was on before; colours are off iff `--no-color` is given or they were off before. -/
theorem C99_switches_partial {extra opts : List OptSpec} {desc : Desc} (hp : mkParser extra desc = .ok opts) (hd : (opts.map OptSpec.dest).Nodup)
    {l : List Given} (hfull : ∀ g ∈ l, g.flag ∈ allFlags opts) {ns : ArgSpace} (h : parseInto opts [] l = .ok ns)
    (env : StartEnv) (text : Bool → Exc → List Char) (func : Process → ArgSpace → Run (Option Int)) (p : Process) :
    let p' := (mainParsed env desc text func p ns).1
    (p'.debug = true ↔ GivenSwitch ["-d", "--debug"] l ∨ env.debugVar = true) ∧ (p'.pdb = true ↔ GivenSwitch ["--pdb"] l ∨ env.pdbVar = true) ∧
      (p'.verbose = true ↔ GivenSwitch ["-v", "--verbose"] l ∨ p.verbose = true) ∧
      (p'.color = false ↔ GivenSwitch ["--no-color"] l ∨ p.color = false) := by
  intro p'
  have hsame := mainParsed_switches env desc text func p ns
  have s1 := switch_spec hp hd hfull h (o := ⟨["-d", "--debug"], "debug", .storeTrue⟩) (by simp [globalOptions]) rfl
  have s2 := switch_spec hp hd hfull h (o := ⟨["--pdb"], "pdb", .storeTrue⟩) (by simp [globalOptions]) rfl
  have s3 := switch_spec hp hd hfull h (o := ⟨["-v", "--verbose"], "verbose", .storeTrue⟩) (by simp [globalOptions]) rfl
  have s4 := switch_spec hp hd hfull h (o := ⟨["--no-color"], "no_color", .storeTrue⟩) (by simp [globalOptions]) rfl
  simp only at s1 s2 s3 s4
  rw [show p'.debug = _ from hsame.1, show p'.pdb = _ from hsame.2.1, show p'.verbose = _ from hsame.2.2.1, show p'.color = _ from hsame.2.2.2,
    ← s1, ← s2, ← s3, ← s4]
  unfold handleSwitches
  refine ⟨Bool.or_eq_true_iff, Bool.or_eq_true_iff, ?_, ?_⟩
  · cases switchOn ns "verbose" <;> simp
  · cases switchOn ns "no_color" <;> simp

/-- In a new process nothing was on before: the environment and the command line decide, for every builtin command, whatever else is given. -/
theorem C99_new_process (cmd : String) : ∃ opts, mkParser (commandOptions cmd) xylemDescription = .ok opts ∧
    ∀ {l : List Given} {ns : ArgSpace}, (∀ g ∈ l, g.flag ∈ allFlags opts) → parseInto opts [] l = .ok ns →
      ∀ (env : StartEnv) (text : Bool → Exc → List Char) (func : Process → ArgSpace → Run (Option Int)) (dflt : Config),
        let p' := (mainParsed env xylemDescription text func (Process.imported env dflt) ns).1
        (p'.debug = true ↔ GivenSwitch ["-d", "--debug"] l ∨ env.debugVar = true) ∧ (p'.pdb = true ↔ GivenSwitch ["--pdb"] l ∨ env.pdbVar = true) ∧
          (p'.verbose = true ↔ GivenSwitch ["-v", "--verbose"] l) ∧ (p'.color = false ↔ GivenSwitch ["--no-color"] l) := by
  obtain ⟨opts, h1, h2, _⟩ := xylem_parser cmd
  refine ⟨opts, h1, ?_⟩
  intro l ns hfull h env text func dflt p'
  obtain ⟨k1, k2, k3, k4⟩ := C99_switches_partial h1 h2 hfull h env text func (Process.imported env dflt)
  refine ⟨k1, k2, ?_, ?_⟩
  · refine k3.trans ?_
    simp [Process.imported]
  · refine k4.trans ?_
    simp [Process.imported]

/-- The same for the program as a whole: the command line has the command first, then the options; for both kinds of argparse. A command line
argparse does not accept changes no switch and runs nothing. -/
theorem C99_program (cmd : String) : ∃ top sub, mkParser [] xylemDescription = .ok top ∧ mkParser (commandOptions cmd) xylemDescription = .ok sub ∧
    ∀ (fresh : Bool) (l : List Given), (∀ g ∈ l, g.flag ∈ allFlags sub) →
      ∀ (env : StartEnv) (text : Bool → Exc → List Char) (func : Process → ArgSpace → Run (Option Int)) (dflt : Config),
        let p := Process.imported env dflt
        let r := mainProgram env xylemDescription text fresh top sub func p [] l
        (∀ e, parseCommandLine fresh top sub [] l = .error e → r = (p, ⟨[], uncaught e⟩)) ∧
        (∀ ns, parseCommandLine fresh top sub [] l = .ok ns →
          (r.1.debug = true ↔ GivenSwitch ["-d", "--debug"] l ∨ env.debugVar = true) ∧ (r.1.pdb = true ↔ GivenSwitch ["--pdb"] l ∨ env.pdbVar = true) ∧
            (r.1.verbose = true ↔ GivenSwitch ["-v", "--verbose"] l) ∧ (r.1.color = false ↔ GivenSwitch ["--no-color"] l)) := by
  obtain ⟨top, ht, -, -⟩ := xylem_parser ""
  obtain ⟨sub, hs, hd, _⟩ := xylem_parser cmd
  obtain ⟨sub', hs', key⟩ := C99_new_process cmd
  have := Except.ok.inj (hs'.symm.trans hs)
  subst this
  refine ⟨top, sub', ht, hs, ?_⟩
  intro fresh l hfull env text func dflt p r
  refine ⟨fun e he => ?_, fun ns hns => ?_⟩
  · show mainProgram env xylemDescription text fresh top sub' func p [] l = _
    unfold mainProgram
    rw [he]
  · have hr : r = mainParsed env xylemDescription text func p ns := by
      show mainProgram env xylemDescription text fresh top sub' func p [] l = _
      unfold mainProgram
      rw [hns]
    obtain ⟨ns', h1, h2⟩ : ∃ ns', parseInto sub' [] l = .ok ns' ∧
        ∀ o ∈ globalOptions, o.action = .storeTrue → switchOn ns o.dest = switchOn ns' o.dest := by
      cases fresh with
      | false =>
        obtain ⟨ns', h1, h2⟩ := (C97_options_before_command_partial ht hs hd (before := []) (after := l) (by simp)).1 ns hns
        exact ⟨ns', h1, fun o _ _ => by unfold switchOn; rw [h2]⟩
      | true =>
        unfold parseCommandLine at hns
        obtain ⟨n1, h1, h2⟩ := Except_bind_ok.1 hns
        rw [if_pos rfl] at h2
        obtain ⟨n2, h3, h4⟩ := Except_bind_ok.1 h2
        have h4 := pure_ok.1 h4
        subst h4
        refine ⟨n2, h3, fun o ho ha => ?_⟩
        have hm : o ∈ sub' := by rw [(mkParser_ok hs).1]; exact List.mem_append_right _ ho
        unfold switchOn
        rw [dget_dupdate (parse_DWF h3)]
        rcases C96_switches hs hd hfull h3 hm ha with ⟨e, -⟩ | ⟨e, -⟩ <;> rw [e] <;> rfl
    have k := key hfull h1 env text func dflt
    simp only at k
    obtain ⟨m1, m2, m3, m4⟩ := mainParsed_switches env xylemDescription text func p ns
    obtain ⟨q1, q2, q3, q4⟩ := mainParsed_switches env xylemDescription text func p ns'
    have s1 := h2 ⟨["-d", "--debug"], "debug", .storeTrue⟩ (by simp [globalOptions]) rfl
    have s2 := h2 ⟨["--pdb"], "pdb", .storeTrue⟩ (by simp [globalOptions]) rfl
    have s3 := h2 ⟨["-v", "--verbose"], "verbose", .storeTrue⟩ (by simp [globalOptions]) rfl
    have s4 := h2 ⟨["--no-color"], "no_color", .storeTrue⟩ (by simp [globalOptions]) rfl
    have hsw : (handleSwitches env ns p).debug = (handleSwitches env ns' p).debug ∧ (handleSwitches env ns p).pdb = (handleSwitches env ns' p).pdb ∧
        (handleSwitches env ns p).verbose = (handleSwitches env ns' p).verbose ∧ (handleSwitches env ns p).color = (handleSwitches env ns' p).color := by
      unfold handleSwitches
      simp only at s1 s2 s3 s4
      simp only [s1, s2, s3, s4, and_self]
    rw [hr, m1, m2, m3, m4, hsw.1, hsw.2.1, hsw.2.2.1, hsw.2.2.2, ← q1, ← q2, ← q3, ← q4]
    exact k

/-- **C99** refuted: when `main` is called again in the same process, `-v` and `--no-color` of the first call are still in force although the
second command line does not have them. (`-d` and `--pdb` are not: they are set anew.) -/
theorem C99_second_call_refuted {extra opts : List OptSpec} {desc : Desc} (hp : mkParser extra desc = .ok opts) (hd : (opts.map OptSpec.dest).Nodup)
    {l l' : List Given} (hfull : ∀ g ∈ l, g.flag ∈ allFlags opts) (hfull' : ∀ g ∈ l', g.flag ∈ allFlags opts) {ns ns' : ArgSpace}
    (h : parseInto opts [] l = .ok ns) (h' : parseInto opts [] l' = .ok ns')
    (env : StartEnv) (text : Bool → Exc → List Char) (func : Process → ArgSpace → Run (Option Int)) (p : Process) :
    let p1 := (mainParsed env desc text func p ns).1
    let p2 := (mainParsed env desc text func p1 ns').1
    (GivenSwitch ["-v", "--verbose"] l → p2.verbose = true) ∧ (GivenSwitch ["--no-color"] l → p2.color = false) ∧
      (¬ GivenSwitch ["-d", "--debug"] l' → env.debugVar = false → p2.debug = false) := by
  intro p1 p2
  obtain ⟨-, -, a3, a4⟩ := C99_switches_partial hp hd hfull h env text func p
  obtain ⟨b1, -, b3, b4⟩ := C99_switches_partial hp hd hfull' h' env text func p1
  refine ⟨fun hv => b3.2 (.inr (a3.2 (.inl hv))), fun hv => b4.2 (.inr (a4.2 (.inl hv))), fun hn he => ?_⟩
  cases hx : p2.debug with
  | false => rfl
  | true =>
    rcases b1.1 hx with h | h
    · exact absurd h hn
    · rw [he] at h; cases h

/-- **C99** Which messages are printed: debug messages iff debugging is on, verbose messages iff verbose output is on, all others always, one line
each; ordinary messages on stdout, all others on stderr. With colours off the line is the message itself; with colours on it contains the message
and ends by resetting the colour. -/
theorem C99_messages (p : Process) (f : LogFn) (msg : List Char) :
    (logCall p f msg = [] ↔ f = .debug ∧ p.debug = false ∨ f = .infoV ∧ p.verbose = false) ∧
    (logCall p f msg).length ≤ 1 ∧
    ∀ line ∈ logCall p f msg, (f = .info → ∃ t, line = .out t) ∧ (f ≠ .info → ∃ t, line = .err t) ∧
      (p.color = false → line.text = msg) ∧ (p.color = true → msg <:+: line.text ∧ ansi true "reset" <:+ line.text) := by
  have hoff : ∀ k : String, ansi false k = [] := by
    intro k
    unfold ansi ansiOff
    simp only [Bool.false_eq_true, if_false]
    cases dget ansiEntries (String.ofList k.toList) <;> rfl
  obtain ⟨verbose, debug, pdb, color, config⟩ := p
  refine ⟨?_, ?_, ?_⟩
  · cases f <;> cases debug <;> cases verbose <;> simp [logCall]
  · cases f <;> cases debug <;> cases verbose <;> simp [logCall]
  · intro line hl
    have key : ∃ pre, line.text = pre ++ msg ++ ansi color "reset" ∧ (color = false → pre = []) := by
      cases f <;> cases debug <;> cases verbose <;> simp only [logCall, if_true, Bool.false_eq_true, if_false, List.mem_singleton, List.not_mem_nil] at hl <;>
        subst hl <;> first
          | (refine ⟨_, rfl, fun h => ?_⟩; subst h; simp only [hoff, List.append_nil])
          | (refine ⟨[], ?_, fun _ => rfl⟩; simp only [Line.text, List.nil_append])
    refine ⟨?_, ?_, ?_, ?_⟩
    · rintro rfl
      simp only [logCall, List.mem_singleton] at hl
      exact ⟨_, hl⟩
    · intro hne
      cases f <;> cases debug <;> cases verbose <;> simp only [logCall, if_true, Bool.false_eq_true, if_false, List.mem_singleton, List.not_mem_nil] at hl <;>
        first
          | exact ⟨_, hl⟩
          | exact absurd rfl hne
    · intro hc
      obtain ⟨pre, e, hpre⟩ := key
      have hc : color = false := hc
      subst hc
      rw [e, hpre rfl, hoff]; simp
    · intro hc
      obtain ⟨pre, e, -⟩ := key
      have hc : color = true := hc
      subst hc
      rw [e]
      exact ⟨⟨pre, _, rfl⟩, ⟨pre ++ msg, rfl⟩⟩

/-- Over any history of calls the last call for a switch decides; without one it stays as it was. -/
theorem C99_last_call_decides (p : Process) (l l' : List LogSwitch) :
    (∀ b, (∀ x ∈ l', ∀ b', x ≠ .enableDebug b') → ((l ++ .enableDebug b :: l').foldl LogSwitch.apply p).debug = b) ∧
    (∀ b, (∀ x ∈ l', ∀ b', x ≠ .enableVerbose b') → ((l ++ .enableVerbose b :: l').foldl LogSwitch.apply p).verbose = b) ∧
    (∀ b, (∀ x ∈ l', ∀ b', x ≠ .colors b') → ((l ++ .colors b :: l').foldl LogSwitch.apply p).color = b) ∧
    ((∀ x ∈ l', ∀ b', x ≠ .enableDebug b') → (l'.foldl LogSwitch.apply p).debug = p.debug) ∧
    ((∀ x ∈ l', ∀ b', x ≠ .enableVerbose b') → (l'.foldl LogSwitch.apply p).verbose = p.verbose) ∧
    ((∀ x ∈ l', ∀ b', x ≠ .colors b') → (l'.foldl LogSwitch.apply p).color = p.color) := by
  have kd : ∀ (l' : List LogSwitch) (p : Process), (∀ x ∈ l', ∀ b', x ≠ .enableDebug b') → (l'.foldl LogSwitch.apply p).debug = p.debug := by
    intro l'
    induction l' with
    | nil => intro p _; rfl
    | cons x l' ih =>
      intro p h
      rw [List.foldl_cons, ih _ (fun y hy => h y (List.mem_cons_of_mem _ hy))]
      have := h x (List.mem_cons_self ..)
      cases x with
      | enableDebug b => exact absurd rfl (this b)
      | _ => rfl
  have kv : ∀ (l' : List LogSwitch) (p : Process), (∀ x ∈ l', ∀ b', x ≠ .enableVerbose b') → (l'.foldl LogSwitch.apply p).verbose = p.verbose := by
    intro l'
    induction l' with
    | nil => intro p _; rfl
    | cons x l' ih =>
      intro p h
      rw [List.foldl_cons, ih _ (fun y hy => h y (List.mem_cons_of_mem _ hy))]
      have := h x (List.mem_cons_self ..)
      cases x with
      | enableVerbose b => exact absurd rfl (this b)
      | _ => rfl
  have kc : ∀ (l' : List LogSwitch) (p : Process), (∀ x ∈ l', ∀ b', x ≠ .colors b') → (l'.foldl LogSwitch.apply p).color = p.color := by
    intro l'
    induction l' with
    | nil => intro p _; rfl
    | cons x l' ih =>
      intro p h
      rw [List.foldl_cons, ih _ (fun y hy => h y (List.mem_cons_of_mem _ hy))]
      have := h x (List.mem_cons_self ..)
      cases x with
      | colors b => exact absurd rfl (this b)
      | _ => rfl
  refine ⟨fun b h => ?_, fun b h => ?_, fun b h => ?_, kd l' p, kv l' p, kc l' p⟩
  · rw [List.foldl_append, List.foldl_cons, kd l' _ h]; rfl
  · rw [List.foldl_append, List.foldl_cons, kv l' _ h]; rfl
  · rw [List.foldl_append, List.foldl_cons, kc l' _ h]; rfl

/-! ## Concrete cases -/

/-- A machine without config files, with the home directory `/home/u/.config`; paths are not expanded. -/
def exStart : StartEnv where
  debugVar := false
  pdbVar := false
  dirVar := none
  prefixVar := none
  home := "/home/u"
  file := fun _ => .missing
  loadYaml := fun s => .ok (.str s)
  dumpYaml := fun _ => "printed".toList
  expand := id
  ws := fun c => c == ' '

/-- The config as computed. -/
def getOk (x : Except Exc Config) : Config :=
  match x with
  | .ok c => c
  | .error _ => []

/-- The namespace as parsed by the parser of a command. -/
def exSpace (cmd : String) (l : List Given) : ArgSpace :=
  match mkParser (commandOptions cmd) xylemDescription with
  | .error _ => []
  | .ok opts =>
    match parseInto opts [] l with
    | .ok ns => ns
    | .error _ => []

/-- `xylem install --print-config --cache-dir /c -v --core-installers apt`. -/
def exPrint : ArgSpace :=
  exSpace "install" [⟨"--print-config", none⟩, ⟨"--cache-dir", some "/c"⟩, ⟨"-v", none⟩, ⟨"--disable-os-plugins", some "debian"⟩]

/-- Lists on the command line are read by the YAML library. -/
def exStartYaml : StartEnv := { exStart with loadYaml := fun s => .ok (.list [.str s]) }

/-- The config it prints, and the start of xylem with the printed file in `/d`. -/
def exPrinted : Config := getOk (effectiveConfig exStartYaml xylemDescription exPrint)

def exAgain (c : Config) : StartEnv :=
  { exStartYaml with
    file := fun p => if p = "/d/config.yaml" then .text "printed" else .missing
    loadYaml := fun _ => .ok (.dict c.items) }

/-- `xylem install --xylem-dir /d`. -/
def exAgainArgs : ArgSpace := exSpace "install" [⟨"--xylem-dir", some "/d"⟩]

/-- The option is known and was not given. -/
def isNothing : Option CmdVal → Bool
  | some .none => true
  | _ => false

theorem exAgain_printed (c : Config) : PrintedAsFile exStartYaml c (exAgain c) exAgainArgs where
  sameExpand := rfl
  sameDump := rfl
  readsBack := rfl
  dirGiven := ⟨"/d", rfl, rfl⟩
  nothingElse := by
    intro n i hi _
    have key : (xylemItems.map mkItem).all (fun i => isNothing (argsOf exAgainArgs (String.ofList (underscorify i.argument.toList)))) = true := by
      decide +kernel
    have e : xylemDescription.itemlist = xylemItems.map mkItem := by rfl
    have := List.all_eq_true.1 key i (e ▸ hi.1)
    revert this
    generalize argsOf exAgainArgs (String.ofList (underscorify i.argument.toList)) = x
    intro h
    rcases x with _ | _ | _ | _ <;> first | rfl | cases h

/-- A computed value that is this text, list of texts, or None. -/
def isText (x : Except Exc PVal) (s : String) : Bool :=
  match x with
  | .ok (.str t) => t == s
  | _ => false

theorem isText_eq {x : Except Exc PVal} {s : String} (h : isText x s = true) : x = .ok (.str s) := by
  unfold isText at h
  split at h
  · simp at h; subst h; rfl
  · cases h

theorem isOk_eq {x : Except Exc Config} (h : x.isOk = true) : x = .ok (getOk x) := by
  cases x with
  | ok c => rfl
  | error e => cases h

/-- A computed value that is None. -/
def isUnset (x : Except Exc PVal) : Bool :=
  match x with
  | .ok .none => true
  | _ => false

theorem isUnset_eq {x : Except Exc PVal} (h : isUnset x = true) : x = .ok .none := by
  unfold isUnset at h
  split at h
  · rfl
  · cases h

/-- The hypotheses of the theorems on `--print-config` hold for this command line, which sets a path and a list, and the printed config is read back. -/
example : switchOn exPrint "print_config" = true ∧ effectiveConfig exStartYaml xylemDescription exPrint = .ok exPrinted ∧
    readOpt exPrinted "cache_dir" = .ok (.str "/c") ∧ 
    readOpt exPrinted "sources_dir" = .ok (.str "/etc/xylem/sources.d") ∧
    ∃ c', effectiveConfig (exAgain exPrinted) xylemDescription exAgainArgs = .ok c' ∧ SameOptions xylemDescription exPrinted c' := by
  have h : effectiveConfig exStartYaml xylemDescription exPrint = .ok exPrinted := isOk_eq (by decide +kernel)
  exact ⟨by decide +kernel, h, isText_eq (by decide +kernel), isText_eq (by decide +kernel), C98_reread_partial (fun _ => rfl) h (isUnset_eq (by decide +kernel)) (fun _ _ => rfl) (fun _ _ => rfl) (exAgain_printed _)⟩

/-- The config printed with `--os ubuntu:precise`. -/
def exOsConfig : Config := getOk (effectiveConfig exStartYaml xylemDescription (exSpace "resolve" [⟨"--os", some "ubuntu:precise"⟩]))

/-- With `--os ubuntu:precise` the printed config cannot be read. -/
example : effectiveConfig exStartYaml xylemDescription (exSpace "resolve" [⟨"--os", some "ubuntu:precise"⟩]) = .ok exOsConfig ∧
    effectiveConfig (exAgain exOsConfig) xylemDescription exAgainArgs = .error .configValueError := by
  have h : effectiveConfig exStartYaml xylemDescription (exSpace "resolve" [⟨"--os", some "ubuntu:precise"⟩]) = .ok exOsConfig := isOk_eq (by decide +kernel)
  refine ⟨h, C98_reread_override_refuted (fun _ => rfl) h ?_ (exAgain_printed _)⟩
  intro e
  have : isUnset (readOpt exOsConfig "os_override") = false := by decide +kernel
  rw [e] at this
  cases this

/-- `main` called twice: first with `-v`, then with `-d`. -/
example : ∃ opts, mkParser (commandOptions "install") xylemDescription = .ok opts ∧ parseInto opts [] [⟨"-v", none⟩] = .ok (exSpace "install" [⟨"-v", none⟩]) ∧
    parseInto opts [] [⟨"--debug", none⟩] = .ok (exSpace "install" [⟨"--debug", none⟩]) ∧ (∀ g ∈ [(⟨"-v", none⟩ : Given)], g.flag ∈ allFlags opts) ∧
    (∀ g ∈ [(⟨"--debug", none⟩ : Given)], g.flag ∈ allFlags opts) ∧ GivenSwitch ["-v", "--verbose"] [⟨"-v", none⟩] ∧
    ¬ GivenSwitch ["-v", "--verbose"] [⟨"--debug", none⟩] :=
  ⟨_, rfl, rfl, rfl, by decide, by decide, ⟨_, List.mem_singleton.2 rfl, by decide⟩, by rintro ⟨g, hg, h⟩; rw [List.mem_singleton.1 hg] at h; revert h; decide⟩

end Verif
