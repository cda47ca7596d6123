import Verif.Props.Program
import Verif.Props.Paths
import Verif.Props.Api
import Verif.Props.OsSupport
import Verif.Props.ConfigNames
/-! # Whole runs of xylem: directories and os given on the command line (C103, C104) -/
namespace Verif
variable {σ : Type}

/-! ## Values given on the command line -/

theorem fold_last {opts : List OptSpec} {o : OptSpec} (ha : o.action = .store) {pre post : List Given} {g : Given} {v : String}
    (hg : findOption opts g.flag = .ok o) (hv : g.value = some v) (hp : ∀ x ∈ post, findOption opts x.flag ≠ .ok o) (cur : Option ArgVal) :
    (pre ++ g :: post).foldl (destStep opts o) cur = some (.cmd (.one v)) := by
  rw [List.foldl_append, List.foldl_cons]
  have e : ∀ c, destStep opts o c g = some (.cmd (.one v)) := by
    intro c
    unfold destStep
    simp only [hg, if_true, ha, hv, actVal]
  rw [e, foldl_const_mem]
  intro b x hx
  unfold destStep
  split
  · rename_i p hp'
    rw [if_neg]
    intro e; subst e; exact hp x hx hp'
  · rfl

/-- The last value given after the name of the command is the value in the namespace, whatever is given before it. -/
theorem given_value {extra top sub : List OptSpec} {desc : Desc} (hs : mkParser extra desc = .ok sub) (hn : ∀ o ∈ extra, o.flags.Nodup)
    (hd : (sub.map OptSpec.dest).Nodup) {fresh : Bool} {before after : List Given} {ns : ArgSpace}
    (h : parseCommandLine fresh top sub before after = .ok ns) {o : OptSpec} (ho : o ∈ sub) (ha : o.action = .store) {flag v : String}
    (hfl : flag ∈ o.flags) (hl : LastGiven sub flag after v) : dget ns o.dest = some (.cmd (.one v)) := by
  obtain ⟨_, hf⟩ := mkParser_ok hs
  obtain ⟨pre, g, post, rfl, hm, hv, hpost⟩ := hl
  have hg := (means_iff hf (parser_nodup hs hn) ho hfl).1 hm
  have hp : ∀ x ∈ post, findOption sub x.flag ≠ .ok o := fun x hx hx' =>
    hpost ⟨x, hx, (means_iff hf (parser_nodup hs hn) ho hfl).2 hx'⟩
  obtain ⟨n0, h0, ⟨_, n2, h2, rfl⟩ | ⟨_, h2⟩⟩ := parse_cases h
  · rw [dget_dupdate (parse_DWF h2), fold_dest hd ho _ h2, fold_last ha hg hv hp]
    rfl
  · rw [fold_dest hd ho _ h2, fold_last ha hg hv hp]

/-- The options of the config description in the parser of every command. -/
theorem ParsersFor.option {cmd : String} {top sub : List OptSpec} (h : ParsersFor cmd top sub) {n : String} {i : ConfigItem}
    (hi : xylemDescription.Has n i) : i.option ∈ sub := by
  have key : ∀ i ∈ xylemItems.map mkItem, i.commandLine = true := by decide
  have e : xylemDescription.itemlist = xylemItems.map mkItem := by rfl
  exact option_mem h.sub hi.1 (key i (e ▸ hi.1))

/-- What is on the command line is what the loaded config says. -/
theorem loaded_given {cmd : String} {top sub : List OptSpec} (hp : ParsersFor cmd top sub) {env : StartEnv} {fresh : Bool} {before after : List Given}
    {ns : ArgSpace} (h : parseCommandLine fresh top sub before after = .ok ns) {n : String} {i : ConfigItem} (hi : xylemDescription.Has n i)
    (hm : i.type.multiple = false) {v : String} (hl : LastGiven sub ("--" ++ i.argument) after v) {a : GlobalArgs} {c : Config}
    (hc : loadConfig env.loadYaml env.expand env.file env.home "xylem" "config.yaml" a (argsOf ns) xylemDescription = .ok c)
    (hmd : ∀ x y, i.type ≠ .mergingDict x y) :
    ∃ val, i.type.fromCommandLine env.loadYaml env.expand (.one v) = .ok val ∧ (val ≠ .none → readOpt c n = .ok val) := by
  have ho := hp.option hi
  have ha : i.option.action = .store := by rw [action_eq, hm]; rfl
  have hv := given_value hp.sub hp.facts.1 hp.facts.2 h ho ha (List.mem_singleton.2 rfl) hl
  obtain ⟨cl, files, val, h1, h2, h3, h4⟩ := C48_loaded_config xylem_built (fun n i hi => (xylem_defaults hi).1) hc hi
  have key : ∀ i ∈ xylemItems.map mkItem, i.commandLine = true ∧ i.option.dest = String.ofList (underscorify i.argument.toList) := by decide
  have e : xylemDescription.itemlist = xylemItems.map mkItem := by rfl
  obtain ⟨k1, k2⟩ := key i (e ▸ hi.1)
  unfold CommandLineGives at h1
  rw [if_pos k1] at h1
  obtain ⟨raw, h5, h6⟩ := h1
  have : raw = .one v := by
    unfold argsOf at h5
    rw [← k2, hv] at h5
    injection h5 with h5
    exact h5.symm
  subst this
  refine ⟨cl, h6, fun hne => ?_⟩
  have : val = cl := by
    have : val = firstSet (cl :: files ++ [i.default]) := by
      revert h4 hmd
      unfold Effective
      cases i.type <;> intro hmd h4 <;> first | exact h4 | exact absurd rfl (hmd _ _)
    rw [this]
    cases cl <;> first | rfl | exact absurd rfl hne
  rw [h3, this]

/-! ## C103: directories -/

/-- **C103** `--cache-dir D` / `--sources-dir D` after the name of the command (the last one, if several; or an unambiguous abbreviation): the effective
directory is `D`, expanded to an absolute path, whatever is in config files, the environment or before the name of the command. -/
theorem C103_directory_given {cmd : String} {top sub : List OptSpec} (hp : ParsersFor cmd top sub) {env : StartEnv} {e : PathEnv} (hr : RealPaths env e)
    {fresh : Bool} {before after : List Given} {positional : Except Exc Unit} {p p' : Process} {ns : ArgSpace}
    (h : reached env xylemDescription fresh top sub positional p before after = .ok (p', ns)) (d : String) :
    (LastGiven sub "--cache-dir" after d → readOpt p'.config "cache_dir" = .ok (.str (expandInputPath e d))) ∧
    (LastGiven sub "--sources-dir" after d → readOpt p'.config "sources_dir" = .ok (.str (expandInputPath e d))) := by
  obtain ⟨hns, _, _, c, hc, hpe⟩ := reached_ok.1 h
  have hcfg : p'.config = c := by rw [hpe]
  rw [hcfg]
  have hexp : ∀ s, env.expand (env.expand s) = env.expand s := by
    intro s; rw [hr.expand]; exact (C100_expansion hr.cwd s).2
  unfold effectiveConfig at hc
  obtain ⟨cL, hL, hP⟩ := Except_bind_ok.1 hc
  obtain ⟨cache, sources, user, os, fs, r1, r2, r3, r4, r5, x1, x2⟩ := xylem_loaded hexp hL
  obtain ⟨c0, e0, q1, q2, -⟩ := C53_processed_config env _ r1 r2 r3 r4 r5
  have := Except.ok.inj (e0.symm.trans hP)
  subst this
  refine ⟨fun hl => ?_, fun hl => ?_⟩
  · obtain ⟨val, v1, v2⟩ := loaded_given hp hns has_cache rfl hl hL (by intro x y; exact CType.noConfusion)
    injection v1 with v1
    subst v1
    have := (v2 (by exact PVal.noConfusion)).symm.trans r1
    injection this with this
    cases cache with
    | none => cases this
    | some s =>
      injection this with this
      rw [q1, ← hr.expand, this]
      rfl
  · obtain ⟨val, v1, v2⟩ := loaded_given hp hns has_sources rfl hl hL (by intro x y; exact CType.noConfusion)
    injection v1 with v1
    subst v1
    have := (v2 (by exact PVal.noConfusion)).symm.trans r2
    injection this with this
    cases sources with
    | none => cases this
    | some s =>
      injection this with this
      rw [q2, ← hr.expand, this]
      rfl

theorem normal_nonempty {s : String} (h : NormalPath s.toList) : s ≠ "" := by
  rintro rfl
  obtain ⟨names, _, h | h⟩ := h <;> cases h

/-- **C53** The directories of the effective config of a run: as in the loaded config (command line and config files) if set there; otherwise next to the
config in the directory given with `--xylem-dir` or XYLEM_DIR; otherwise in the user's or the system's directories, depending on `user_sources`. -/
theorem C53_effective_directories {env : StartEnv} {e : PathEnv} (hr : RealPaths env e) {ns : ArgSpace} {c : Config}
    (h : effectiveConfig env xylemDescription ns = .ok c) :
    ∃ a cL cache sources user kd sd, a = handleGlobalConfigArguments env.expand env.dirVar env.prefixVar (globalArgs ns) ∧
      loadConfig env.loadYaml env.expand env.file env.home "xylem" "config.yaml" a (argsOf ns) xylemDescription = .ok cL ∧
      readOpt cL "cache_dir" = .ok (optText cache) ∧ readOpt cL "sources_dir" = .ok (optText sources) ∧ readOpt cL "user_sources" = .ok (.bool user) ∧
      readOpt c "cache_dir" = .ok (.str kd) ∧ readOpt c "sources_dir" = .ok (.str sd) ∧
      (∀ d, cache = some d → kd = d) ∧ (∀ d, sources = some d → sd = d) ∧
      (∀ d, (textArg ns "config_dir").or env.dirVar = some d →
        (cache = none → kd = pathJoin (expandInputPath e d) "cache") ∧ (sources = none → sd = pathJoin (expandInputPath e d) "sources.d")) ∧
      ((textArg ns "config_dir").or env.dirVar = none → user = true →
        (cache = none → kd = pathJoin (pathJoin (defaultUserConfigDir e) "xylem") "cache") ∧
        (sources = none → sd = pathJoin (pathJoin (defaultUserConfigDir e) "xylem") "sources.d")) ∧
      ((textArg ns "config_dir").or env.dirVar = none → user = false →
        (cache = none → kd = pathJoin (pathJoin (expandInputPath e (((textArg ns "prefix").or env.prefixVar).getD "/")) "var/cache") "xylem") ∧
        (sources = none →
          sd = pathJoin (pathJoin (pathJoin (expandInputPath e (((textArg ns "prefix").or env.prefixVar).getD "/")) "etc") "xylem") "sources.d")) := by
  have hexp : ∀ s, env.expand (env.expand s) = env.expand s := by
    intro s; rw [hr.expand]; exact (C100_expansion hr.cwd s).2
  have hne : ∀ s, expandInputPath e s ≠ "" := fun s => normal_nonempty (C100_expansion hr.cwd s).1
  unfold effectiveConfig at h
  obtain ⟨cL, hL, hP⟩ := Except_bind_ok.1 h
  obtain ⟨cache, sources, user, os, fs, r1, r2, r3, r4, r5, x1, x2⟩ := xylem_loaded hexp hL
  obtain ⟨c0, e0, q1, q2, q3, -⟩ := C53_processed_config env _ r1 r2 r3 r4 r5
  have := Except.ok.inj (e0.symm.trans hP)
  subst this
  refine ⟨_, cL, cache, sources, user, _, _, rfl, hL, r1, r2, r3, q1, q2, ?_⟩
  have k := C53_cache_and_sources (expand := env.expand) (by rw [hr.expand]; exact hne) env.ws env.home env.dirVar env.prefixVar (globalArgs ns) cache sources
    user (os.map String.toList) none
  rw [hr.expand, hr.home] at k
  rw [hr.expand, hr.home]
  exact k

theorem dirOption_str {c : Config} {n s : String} (h : readOpt c n = .ok (.str s)) : dirOption c n = .ok (some s) := by
  unfold dirOption; rw [h]; rfl

/-- The directories a command works with. -/
theorem paths_of {w : Surroundings σ} {c : Config} {k s : String} (hk : readOpt c "cache_dir" = .ok (.str k)) (hs : readOpt c "sources_dir" = .ok (.str s))
    (hk0 : k ≠ "") (hs0 : s ≠ "") : pathsFor w c = .ok ⟨s, pathJoin k "sources"⟩ := by
  unfold pathsFor
  rw [dirOption_str hs, dirOption_str hk]
  show Except.ok _ = _
  unfold setupPaths orDefault
  simp only [if_neg hk0, if_neg hs0]
  rfl

theorem updateRun_eq {w : Surroundings σ} {p : Process} {paths : SourcesPaths} (h : pathsFor w p.config = .ok paths) (ns : ArgSpace) :
    updateRun w p ns = match specsFor w p.config with
      | .error e => ⟨[], some e⟩
      | .ok specs => updateApi (switchOn ns "dry_run") (cacheEnvFor w paths) specs (w.dirAt paths.cacheDir) (w.sourcesIn paths.sourcesDir)
          paths.sourcesDir w.outcome := by
  unfold updateRun
  simp only [h]
  cases specsFor w p.config <;> rfl

/-- What an update changes. -/
theorem update_changes {dryRun : Bool} {env : CacheEnv} {plugins : List Spec} {dir : DirWorld} {w : SourcesWorld} {sourcesDir : String}
    {outcome : Source → Outcome} {fs : FileSys} {path : String}
    (h : applySteps fs (updateApi dryRun env plugins dir w sourcesDir outcome).steps path ≠ fs path) :
    ∃ v i, env.sha1 v = .ok i ∧ path = pathJoin env.cacheDir (i ++ ".pickle") := by
  obtain ⟨h1, h2, h3⟩ := C64_touches_only_cache_files_partial dryRun env plugins dir w sourcesDir outcome fs
  cases hd : ensureCacheDir dir with
  | error e => rw [h1 e hd] at h; exact absurd rfl h
  | ok u =>
    cases ho : openDatabase env plugins w sourcesDir with
    | error e => rw [h2 e hd ho] at h; exact absurd rfl h
    | ok sources =>
      by_contra hc
      apply h
      refine h3 sources path ho fun s _ hs => hc ?_
      unfold Source.cachePath cacheFilePath at hs
      obtain ⟨i, k1, k2⟩ := Except_bind_ok.1 hs
      exact ⟨_, i, k1, (pure_ok.1 k2).symm⟩

/-- **C103** A run of `xylem update --cache-dir D` changes no file that is not a cache file (`<sha1>.pickle`) directly in the directory `sources` in
`D`: whatever the sources, their contents, the config files and the rest of the command line. -/
theorem C103_update_stays_in_cache_dir {top sub : List OptSpec} (hp : ParsersFor "update" top sub) {env : StartEnv} {e : PathEnv} (hr : RealPaths env e)
    (w : Surroundings σ) (fresh : Bool) (before after : List Given) (p : Process) (d : String) (hd : LastGiven sub "--cache-dir" after d) (fs : FileSys)
    (path : String) (h : applySteps fs (updateEffect env w xylemDescription fresh top sub p before after) path ≠ fs path) :
    ∃ v i, w.sha1 v = .ok i ∧ path = pathJoin (pathJoin (expandInputPath e d) "sources") (i ++ ".pickle") := by
  unfold updateEffect at h
  cases hre : reached env xylemDescription fresh top sub (.ok ()) p before after with
  | error e => rw [hre] at h; exact absurd rfl h
  | ok r =>
    obtain ⟨p', ns⟩ := r
    rw [hre] at h
    simp only at h
    obtain ⟨hns, _, _, c, hc, hpe⟩ := reached_ok.1 hre
    obtain ⟨_, s, hs, hsn⟩ := C100_directories hr hc
    have hcfg : p'.config = c := by rw [hpe]
    have hk := (C103_directory_given hp hr hre d).1 hd
    have hpa := paths_of (w := w) hk (hcfg ▸ hs) (normal_nonempty (C100_expansion hr.cwd d).1) (normal_nonempty hsn)
    rw [updateRun_eq hpa] at h
    cases hsp : specsFor w p'.config with
    | error e => rw [hsp] at h; exact absurd rfl h
    | ok specs =>
      rw [hsp] at h
      obtain ⟨v, i, h1, h2⟩ := update_changes h
      simp only [cacheEnvFor] at h1 h2
      exact ⟨v, i, h1, h2⟩

/-- **C103** A run of `xylem update --sources-dir S` reads the source files of the directory `S` only: the same happens with any other contents of
all other directories. -/
theorem C103_update_reads_sources_dir {top sub : List OptSpec} (hp : ParsersFor "update" top sub) {env : StartEnv} {e : PathEnv} (hr : RealPaths env e)
    (w : Surroundings σ) (fresh : Bool) (before after : List Given) (p : Process) (d : String) (hd : LastGiven sub "--sources-dir" after d)
    (other : String → SourcesWorld) (ho : other (expandInputPath e d) = w.sourcesIn (expandInputPath e d)) :
    updateEffect env { w with sourcesIn := other } xylemDescription fresh top sub p before after =
      updateEffect env w xylemDescription fresh top sub p before after := by
  unfold updateEffect
  cases hre : reached env xylemDescription fresh top sub (.ok ()) p before after with
  | error e => rfl
  | ok r =>
    obtain ⟨p', ns⟩ := r
    simp only
    obtain ⟨hns, _, _, c, hc, hpe⟩ := reached_ok.1 hre
    obtain ⟨⟨k, hk, hkn⟩, _⟩ := C100_directories hr hc
    have hcfg : p'.config = c := by rw [hpe]
    have hs := (C103_directory_given hp hr hre d).2 hd
    have hpa := paths_of (w := w) (hcfg ▸ hk) hs (normal_nonempty hkn) (normal_nonempty (C100_expansion hr.cwd d).1)
    have hpa' : pathsFor { w with sourcesIn := other } p'.config = _ := hpa
    rw [updateRun_eq hpa, updateRun_eq hpa']
    have : specsFor { w with sourcesIn := other } p'.config = specsFor w p'.config := rfl
    rw [this]
    cases specsFor w p'.config with
    | error e => rfl
    | ok specs =>
      simp only [ho]
      rfl

/-! ### `xylem update --dry-run` -/

/-- The namespaces differ in one switch at most. -/
structure SameBut (d : String) (ns ns' : ArgSpace) : Prop where
  others : ∀ x, x ≠ d → dget ns x = dget ns' x
  flag : ∃ b, dget ns d = some (.flag b)
  flag' : ∃ b, dget ns' d = some (.flag b)

theorem SameBut.args {d : String} {ns ns' : ArgSpace} (h : SameBut d ns ns') : argsOf ns = argsOf ns' := by
  funext x
  unfold argsOf
  by_cases e : x = d
  · subst e
    obtain ⟨b, h1⟩ := h.flag
    obtain ⟨b', h2⟩ := h.flag'
    rw [h1, h2]
  · rw [h.others x e]

/-- The start of xylem looks at global options only. -/
theorem SameBut.reached {d : String} {ns ns' : ArgSpace} (h : SameBut d ns ns') (hd : d ∉ globalOptions.map OptSpec.dest) (env : StartEnv) (desc : Desc)
    (p : Process) : handleSwitches env ns p = handleSwitches env ns' p ∧ effectiveConfig env desc ns = effectiveConfig env desc ns' ∧
      switchOn ns "print_config" = switchOn ns' "print_config" := by
  have key : ∀ x ∈ globalOptions.map OptSpec.dest, dget ns x = dget ns' x := fun x hx => h.others x (fun e => hd (e ▸ hx))
  have sw : ∀ x ∈ globalOptions.map OptSpec.dest, switchOn ns x = switchOn ns' x := fun x hx => switchOn_congr (key x hx)
  refine ⟨?_, ?_, sw _ (by decide)⟩
  · unfold handleSwitches
    rw [sw "debug" (by decide), sw "pdb" (by decide), sw "verbose" (by decide), sw "no_color" (by decide)]
  · unfold effectiveConfig globalArgs
    have t1 : textArg ns "config_dir" = textArg ns' "config_dir" := by unfold textArg; rw [key _ (by decide)]
    have t2 : textArg ns "prefix" = textArg ns' "prefix" := by unfold textArg; rw [key _ (by decide)]
    rw [h.args, t1, t2, sw "no_user_config" (by decide)]

theorem fold_flag {opts : List OptSpec} (hd : (opts.map OptSpec.dest).Nodup) {o : OptSpec} (ho : o ∈ opts) (ha : o.action = .storeTrue)
    {l : List Given} {ns ns' : ArgSpace} (h0 : ∃ b, dget ns o.dest = some (.flag b)) (h : l.foldlM (takeGiven opts) ns = .ok ns') :
    ∃ b, dget ns' o.dest = some (.flag b) := by
  obtain ⟨b, hb⟩ := h0
  have hk := fold_dest hd ho l h
  rw [hb] at hk
  have hacc := fold_accepted l h
  rcases fold_switch_on ha l b (fun g hg hfo => by
    obtain ⟨p, hp, _, h3, _⟩ := hacc g hg
    rw [hfo] at hp; injection hp with hp; subst hp
    exact h3 ha) with e | ⟨e, _⟩
  · exact ⟨true, hk.trans e⟩
  · exact ⟨b, hk.trans e⟩

theorem parseInto_snoc (opts : List OptSpec) (ns : ArgSpace) (l : List Given) (g : Given) :
    parseInto opts ns (l ++ [g]) = parseInto opts ns l >>= fun n => takeGiven opts n g := by
  unfold parseInto
  rw [List.foldlM_append]
  congr 1
  funext n
  rw [List.foldlM_cons]
  cases takeGiven opts n g <;> rfl

/-- One more switch of the command at the end of the command line. -/
theorem parse_one_more {extra top sub : List OptSpec} {desc : Desc} (ht : mkParser [] desc = .ok top) (hs : mkParser extra desc = .ok sub)
    (hn : ∀ o ∈ extra, o.flags.Nodup) (hd : (sub.map OptSpec.dest).Nodup) (fresh : Bool) (before after : List Given)
    {o : OptSpec} (ho : o ∈ extra) (ha : o.action = .storeTrue) {flag : String} (hfl : flag ∈ o.flags) :
    (∀ e, parseCommandLine fresh top sub before after = .error e → parseCommandLine fresh top sub before (after ++ [⟨flag, none⟩]) = .error e) ∧
    ∀ ns, parseCommandLine fresh top sub before after = .ok ns →
      ∃ ns', parseCommandLine fresh top sub before (after ++ [⟨flag, none⟩]) = .ok ns' ∧ SameBut o.dest ns ns' := by
  obtain ⟨et, hft⟩ := mkParser_ok ht
  obtain ⟨es, hfs⟩ := mkParser_ok hs
  have hos : o ∈ sub := by rw [es, List.append_assoc]; exact List.mem_append_left _ ho
  have hdt : o.dest ∉ top.map OptSpec.dest := by
    rw [es, List.append_assoc, List.map_append, List.nodup_append] at hd
    intro hm
    rw [et, List.nil_append] at hm
    exact hd.2.2 _ (List.mem_map_of_mem ho) _ hm rfl
  have hg : ∀ n, takeGiven sub n ⟨flag, none⟩ = .ok (dset n o.dest (.flag true)) := by
    intro n
    unfold takeGiven
    have : findOption sub flag = .ok o := (findOption_iff hfs (parser_nodup hs hn)).2 ⟨hos, .inl hfl⟩
    simp only [this, bind, Except.bind]
    unfold runAction
    rw [ha]
  refine ⟨fun e h => ?_, fun ns h => ?_⟩
  · unfold parseCommandLine at h ⊢
    rcases Except_bind_err.1 h with h | ⟨n0, h0, h⟩
    · rw [h]; rfl
    · rw [h0]
      cases fresh with
      | true =>
        have h : (parseInto sub [] after >>= fun n => pure (dupdate n0 n)) = Except.error e := h
        show (parseInto sub [] (after ++ [⟨flag, none⟩]) >>= fun n => pure (dupdate n0 n)) = Except.error e
        rw [parseInto_snoc]
        rcases Except_bind_err.1 h with h | ⟨n2, _, h⟩
        · rw [h]; rfl
        · cases h
      | false =>
        have h : parseInto sub n0 after = .error e := h
        show parseInto sub n0 (after ++ [⟨flag, none⟩]) = _
        rw [parseInto_snoc, h]; rfl
  · obtain ⟨n0, h0, ⟨hf, n2, h2, rfl⟩ | ⟨hf, h2⟩⟩ := parse_cases h
    · subst hf
      have hb := fold_flag hd hos ha ⟨false, addDefaults_switch hd hos ha (ns := []) rfl⟩ h2
      have hw := parse_DWF h2
      refine ⟨dupdate n0 (dset n2 o.dest (.flag true)), ?_, ?_⟩
      · unfold parseCommandLine
        rw [h0]
        show (parseInto sub [] (after ++ [⟨flag, none⟩]) >>= fun n => pure (dupdate n0 n)) = Except.ok _
        rw [parseInto_snoc, h2]
        show (takeGiven sub n2 ⟨flag, none⟩ >>= fun n => pure (dupdate n0 n)) = Except.ok _
        rw [hg]; rfl
      · have hw' := DWF_set hw o.dest (ArgVal.flag true)
        refine ⟨fun x hx => ?_, ?_, ?_⟩
        · rw [dget_dupdate hw, dget_dupdate hw', dget_set, if_neg (fun e => hx e.symm)]
        · obtain ⟨b, hb⟩ := hb
          exact ⟨b, by rw [dget_dupdate hw, hb]; rfl⟩
        · exact ⟨true, by rw [dget_dupdate hw', dget_set, if_pos rfl]; rfl⟩
    · subst hf
      have hb := fold_flag hd hos ha ⟨false, addDefaults_switch hd hos ha (top_untouched h0 hdt)⟩ h2
      refine ⟨dset ns o.dest (.flag true), ?_, ?_⟩
      · unfold parseCommandLine
        rw [h0]
        show parseInto sub n0 (after ++ [⟨flag, none⟩]) = _
        rw [parseInto_snoc, h2]
        show takeGiven sub ns ⟨flag, none⟩ = _
        rw [hg]
      · refine ⟨fun x hx => ?_, hb, ⟨true, by rw [dget_set, if_pos rfl]⟩⟩
        rw [dget_set, if_neg (fun e => hx e.symm)]

/-- **C103 (refuted)** `xylem update ... --dry-run` changes the cache exactly as `xylem update ...` does, always. -/
theorem C103_update_dry_run_refuted {top sub : List OptSpec} (hp : ParsersFor "update" top sub) (env : StartEnv) (w : Surroundings σ) (fresh : Bool)
    (p : Process) (before after : List Given) :
    updateEffect env w xylemDescription fresh top sub p before (after ++ [⟨"--dry-run", none⟩]) =
      updateEffect env w xylemDescription fresh top sub p before after := by
  obtain ⟨h1, h2⟩ := parse_one_more hp.top hp.sub hp.facts.1 hp.facts.2 fresh before after (o := ⟨["-n", "--dry-run"], "dry_run", .storeTrue⟩)
    (flag := "--dry-run") (by simp [commandOptions]) rfl (by simp)
  unfold updateEffect
  cases hns : parseCommandLine fresh top sub before after with
  | error e =>
    unfold reached
    rw [h1 e hns, hns]
  | ok ns =>
    obtain ⟨ns', h3, h4⟩ := h2 ns hns
    obtain ⟨k1, k2, k3⟩ := h4.reached (by decide) env xylemDescription p
    have e1 : (handleConfigArguments env xylemDescription (handleSwitches env ns p) ns).res =
        (handleConfigArguments env xylemDescription (handleSwitches env ns' p) ns').res := by
      rw [← k1]
      cases hc : effectiveConfig env xylemDescription ns with
      | error e => rw [handle_error hc, handle_error (k2 ▸ hc)]
      | ok c => rw [handle_ok hc, handle_ok (k2 ▸ hc), k3]
    have r1 : reached env xylemDescription fresh top sub (.ok ()) p before after =
        ((handleConfigArguments env xylemDescription (handleSwitches env ns p) ns).res >>= fun c =>
          pure ({ handleSwitches env ns p with config := c }, ns)) := by
      unfold reached; rw [hns]; rfl
    have r2 : reached env xylemDescription fresh top sub (.ok ()) p before (after ++ [⟨"--dry-run", none⟩]) =
        ((handleConfigArguments env xylemDescription (handleSwitches env ns' p) ns').res >>= fun c =>
          pure ({ handleSwitches env ns' p with config := c }, ns')) := by
      unfold reached; rw [h3]; rfl
    rw [r1, r2, ← e1, ← k1]
    cases (handleConfigArguments env xylemDescription (handleSwitches env ns p) ns).res with
    | error e => rfl
    | ok c =>
      simp only [bind, Except.bind, pure, Except.pure]
      rfl

/-! ## C104: the os given on the command line -/

/-- **C104** `--os name:version` after the name of the command: if the installers can be set up at all, they are set up for exactly that os and that
version; and otherwise the error is raised before any installer is used. White space around name and version is left out. -/
theorem C104_os_given {cmd : String} {top sub : List OptSpec} (hp : ParsersFor cmd top sub) {env : StartEnv} {e : PathEnv} (hr : RealPaths env e)
    (w : Surroundings σ) {fresh : Bool} {before after : List Given} {positional : Except Exc Unit} {p p' : Process} {ns : ArgSpace}
    (h : reached env xylemDescription fresh top sub positional p before after = .ok (p', ns)) (n v : List Char)
    (hn : ':' ∉ n) (hn2 : '&' ∉ n) (hv : '&' ∉ v) (hl : LastGiven sub "--os" after (String.ofList (n ++ ':' :: v))) (ic : InstallerSetup σ)
    (hic : contextFor env w p'.config = .ok ic) :
    ic.osTuple = (String.ofList (pyStrip env.ws n), String.ofList (pyStrip env.ws v)) ∧
    ∃ ep ∈ w.osEntries, ∃ disabled pn nm a, Provides w.uni disabled ep pn nm a ∧ a.name = String.ofList (pyStrip env.ws n) ∧
      String.ofList (pyStrip env.ws v) ∈ a.knownVersions := by
  obtain ⟨hns, _, _, c, hc, hpe⟩ := reached_ok.1 h
  have hcfg : p'.config = c := by rw [hpe]
  rw [hcfg] at hic
  have hexp : ∀ s, env.expand (env.expand s) = env.expand s := by
    intro s; rw [hr.expand]; exact (C100_expansion hr.cwd s).2
  unfold effectiveConfig at hc
  obtain ⟨cL, hL, hP⟩ := Except_bind_ok.1 hc
  obtain ⟨cache, sources, user, os, fs, r1, r2, r3, r4, r5, x1, x2⟩ := xylem_loaded hexp hL
  obtain ⟨c0, e0, q1, q2, q3, -⟩ := C53_processed_config env _ r1 r2 r3 r4 r5
  have := Except.ok.inj (e0.symm.trans hP)
  subst this
  obtain ⟨val, v1, v2⟩ := loaded_given hp hns has_override rfl hl hL (by intro x y; exact CType.noConfusion)
  injection v1 with v1
  subst v1
  have h4 := (v2 (by exact PVal.noConfusion)).symm.trans r4
  injection h4 with h4
  cases os with
  | none => cases h4
  | some s =>
    injection h4 with h4
    subst h4
    have hq : overridePair (processConfig env.ws env.home (handleGlobalConfigArguments env.expand env.dirVar env.prefixVar (globalArgs ns)) cache sources user
        (Option.map String.toList (some (String.ofList (n ++ ':' :: v)))) none).osOverride =
        .list [textVal (pyStrip env.ws n), textVal (pyStrip env.ws v)] := by
      simp only [processConfig, Option.map_some, String.toList_ofList, C54_name_version hn hn2 hv]
      rfl
    rw [hq] at q3
    unfold contextFor at hic
    obtain ⟨st, i1, hic⟩ := Except_bind_ok.1 hic
    have hov : st.override = .pair (String.ofList (pyStrip env.ws n)) (some (String.ofList (pyStrip env.ws v))) := by
      unfold effectiveSettings at i1
      rw [q3] at i1
      obtain ⟨fe, _, i1⟩ := Except_bind_ok.1 (show ((readOpt c0 "os_options/features") >>= fun fe => settingsOf c0 _ fe) = .ok st from i1)
      unfold settingsOf at i1
      obtain ⟨_, _, i1⟩ := Except_bind_ok.1 i1
      obtain ⟨_, _, i1⟩ := Except_bind_ok.1 i1
      obtain ⟨_, _, i1⟩ := Except_bind_ok.1 i1
      obtain ⟨_, _, i1⟩ := Except_bind_ok.1 i1
      obtain ⟨_, _, i1⟩ := Except_bind_ok.1 i1
      have i1 := pure_ok.1 i1
      rw [← i1]
    unfold installerContext at hic
    obtain ⟨oss, j1, hic⟩ := Except_bind_ok.1 hic
    obtain ⟨os, j2, hic⟩ := Except_bind_ok.1 hic
    obtain ⟨insts, j3, hic⟩ := Except_bind_ok.1 hic
    obtain ⟨k1, _⟩ := setupInstallers_ok.1 hic
    rw [hov] at j2
    unfold setupOs at j2
    obtain ⟨cur, j4, j2⟩ := Except_bind_ok.1 j2
    obtain ⟨o, j5, j2⟩ := Except_bind_ok.1 j2
    have j2 := pure_ok.1 j2
    subst j2
    unfold chooseOs at j4
    simp only at j4
    generalize hlk : lookupOs (oss.loaded.map Prod.snd) (String.ofList (pyStrip env.ws n)) = lk at j4
    cases lk with
    | none => simp only [overrideOs, hlk] at j4; cases j4
    | some q =>
      by_cases hkv : String.ofList (pyStrip env.ws v) ∈ q.knownVersions
      · obtain ⟨c', g1, g2, g3, _⟩ := C45_override_version ⟨oss.loaded.map Prod.snd, none⟩ _ _ q hlk hkv
        simp only [g1] at j4
        have j4 : (Except.ok c' : Except Exc CurrentOs) = .ok cur := j4
        injection j4 with j4
        subst j4
        refine ⟨?_, ?_⟩
        · have := k1.symm.trans g2
          injection this
        · obtain ⟨_, ⟨idx, _, h3⟩, _⟩ := C43_loaded _ _ _ _ j1
          have hmem : q ∈ oss.loaded.map Prod.snd := List.mem_of_find?_eq_some hlk
          obtain ⟨x, hx, rfl⟩ := List.mem_map.1 hmem
          obtain ⟨k, _, ⟨ep, pn, he, hpr⟩, _⟩ := forall₂_mem_left h3 hx
          refine ⟨ep, List.mem_of_getElem? he, _, pn, _, _, hpr, ?_, hkv⟩
          have := List.find?_some hlk
          simpa using this
      · rw [(C45_refused ⟨oss.loaded.map Prod.snd, none⟩).2.1 _ _ q hlk hkv] at j4
        cases j4

end Verif
