import Verif.Props.ProgramDirs
/-! # Several runs of xylem: the same config for all commands (C106), `xylem update` and the commands after it (C105) -/
namespace Verif
variable {σ : Type}

/-! ## C106: the common options mean the same to all commands -/

/-- The options that all commands have, among those written on the command line. -/
def commonOptions (top : List OptSpec) (l : List Given) : List Given := l.filter fun g => decide (g.flag ∈ allFlags top)

/-- All options are written in full. -/
def InFull (sub : List OptSpec) (l : List Given) : Prop := ∀ g ∈ l, g.flag ∈ allFlags sub

theorem fold_common {top sub : List OptSpec} (hft : FlagsApart top) (hfs : FlagsApart sub) (hsub : ∀ o ∈ top, o ∈ sub) {o : OptSpec} (ho : o ∈ top)
    (l : List Given) (hl : InFull sub l) (cur : Option ArgVal) :
    l.foldl (destStep sub o) cur = (commonOptions top l).foldl (destStep top o) cur := by
  induction l generalizing cur with
  | nil => rfl
  | cons g l ih =>
    have hg := hl g (by simp)
    have ih := ih (fun x hx => hl x (by simp [hx]))
    obtain ⟨q, hq, hgq⟩ := List.mem_flatMap.1 hg
    have e1 := findOption_full hfs hq hgq
    rw [List.foldl_cons, ih]
    unfold commonOptions
    rw [List.filter_cons]
    by_cases hc : g.flag ∈ allFlags top
    · rw [if_pos (by simpa using hc), List.foldl_cons]
      obtain ⟨r, hr, hgr⟩ := List.mem_flatMap.1 hc
      have e2 := findOption_full hft hr hgr
      have := apart_unique hfs hq (hsub r hr) hgq hgr
      subst this
      congr 1
      unfold destStep
      rw [e1, e2]
    · rw [if_neg (by simpa using hc)]
      congr 1
      unfold destStep
      simp only [e1]
      rw [if_neg]
      intro e; subst e
      exact hc (List.mem_flatMap.2 ⟨_, ho, hgq⟩)

theorem command_flags (cmd : String) : ∀ o ∈ commandOptions cmd, o.action = .storeTrue := by
  intro o ho
  unfold commandOptions at ho
  split at ho <;> simp only [List.mem_cons, List.not_mem_nil, or_false] at ho
  · rcases ho with rfl | rfl <;> rfl
  · rcases ho with rfl | rfl | rfl | rfl | rfl <;> rfl
  · subst ho; rfl
  · subst ho; rfl

theorem ParsersFor.apart {cmd : String} {top sub : List OptSpec} (h : ParsersFor cmd top sub) :
    FlagsApart top ∧ FlagsApart sub ∧ sub = commandOptions cmd ++ top := by
  obtain ⟨et, hft⟩ := mkParser_ok h.top
  obtain ⟨es, hfs⟩ := mkParser_ok h.sub
  refine ⟨hft, hfs, ?_⟩
  rw [et, es, List.nil_append, List.append_assoc]

/-- What the namespace has for an option all commands have. -/
theorem common_value {cmd : String} {top sub : List OptSpec} (hp : ParsersFor cmd top sub) {fresh : Bool} {before after : List Given} {ns : ArgSpace}
    (h : parseCommandLine fresh top sub before after = .ok ns) (hl : InFull sub after) {o : OptSpec} (ho : o ∈ top) :
    ∃ n0, parseInto top [] before = .ok n0 ∧ dget ns o.dest =
      bif fresh then ((commonOptions top after).foldl (destStep top o) (dfltVal o.action)).or (dget n0 o.dest)
      else (commonOptions top after).foldl (destStep top o) ((dget n0 o.dest).or (dfltVal o.action)) := by
  obtain ⟨hft, hfs, e⟩ := hp.apart
  have hsub : ∀ o ∈ top, o ∈ sub := fun o ho => by rw [e]; exact List.mem_append_right _ ho
  obtain ⟨n0, h0, ⟨hf, n2, h2, rfl⟩ | ⟨hf, h2⟩⟩ := parse_cases h
  · refine ⟨n0, h0, ?_⟩
    subst hf
    rw [dget_dupdate (parse_DWF h2), fold_dest hp.facts.2 (hsub o ho) _ h2, fold_common hft hfs hsub ho _ hl, addDefaults_dget,
      findSome_dest hp.facts.2 (hsub o ho)]
    rfl
  · refine ⟨n0, h0, ?_⟩
    subst hf
    rw [fold_dest hp.facts.2 (hsub o ho) _ h2, fold_common hft hfs hsub ho _ hl, addDefaults_dget, findSome_dest hp.facts.2 (hsub o ho)]
    rfl

/-- Options of the command alone are switches, and there is nothing else. -/
theorem uncommon_value {cmd : String} {top sub : List OptSpec} (hp : ParsersFor cmd top sub) {fresh : Bool} {before after : List Given} {ns : ArgSpace}
    (h : parseCommandLine fresh top sub before after = .ok ns) {d : String} (hd : d ∉ top.map OptSpec.dest) : argsOf ns d = none := by
  obtain ⟨hft, hfs, e⟩ := hp.apart
  have key : ∀ {n0 n2 : ArgSpace}, dget n0 d = none → parseInto sub n0 after = .ok n2 → dget n2 d = none ∨ ∃ b, dget n2 d = some (.flag b) := by
    intro n0 n2 h0 h2
    by_cases hm : d ∈ sub.map OptSpec.dest
    · obtain ⟨o, ho, rfl⟩ := List.mem_map.1 hm
      have ha : o.action = .storeTrue := by
        rw [e] at ho
        rcases List.mem_append.1 ho with ho | ho
        · exact command_flags cmd o ho
        · exact absurd (List.mem_map_of_mem ho) hd
      exact .inr (fold_flag hp.facts.2 ho ha ⟨false, addDefaults_switch hp.facts.2 ho ha h0⟩ h2)
    · left
      rw [fold_other hm _ h2, addDefaults_dget, h0]
      have : (sub.findSome? fun p => if p.dest = d then dfltVal p.action else none) = none := by
        rw [List.findSome?_eq_none_iff]
        intro q hq
        rw [if_neg]
        exact fun e => hm (e ▸ List.mem_map_of_mem hq)
      rw [this]; rfl
  have fin : dget ns d = none ∨ ∃ b, dget ns d = some (.flag b) := by
    obtain ⟨n0, h0, ⟨hf, n2, h2, rfl⟩ | ⟨hf, h2⟩⟩ := parse_cases h
    · have hn := top_untouched h0 hd
      rw [dget_dupdate (parse_DWF h2), hn]
      rcases key (n0 := []) rfl h2 with h3 | ⟨b, h3⟩
      · left; rw [h3]; rfl
      · right; exact ⟨b, by rw [h3]; rfl⟩
    · exact key (top_untouched h0 hd) h2
  unfold argsOf
  rcases fin with h | ⟨b, h⟩ <;> rw [h]

/-- **C106** The options common to all commands mean the same to all of them: two commands, started in the same environment with the same options
before the name of the command and the same common options after it (written in full, in the same order), whatever their own options: if both get to
work, they do so with the same effective config and the same global switches. -/
theorem C106_same_config {cmd cmd' : String} {top sub sub' : List OptSpec} (hp : ParsersFor cmd top sub) (hp' : ParsersFor cmd' top sub')
    (env : StartEnv) {fresh : Bool} {positional positional' : Except Exc Unit} {p q q' : Process} {before after after' : List Given} {ns ns' : ArgSpace}
    (h : reached env xylemDescription fresh top sub positional p before after = .ok (q, ns))
    (h' : reached env xylemDescription fresh top sub' positional' p before after' = .ok (q', ns'))
    (hf : InFull sub after) (hf' : InFull sub' after') (hc : commonOptions top after = commonOptions top after') : q = q' := by
  obtain ⟨h1, _, _, c, h2, rfl⟩ := reached_ok.1 h
  obtain ⟨h1', _, _, c', h2', rfl⟩ := reached_ok.1 h'
  have key : ∀ o ∈ top, dget ns o.dest = dget ns' o.dest := by
    intro o ho
    obtain ⟨n0, k1, k2⟩ := common_value hp h1 hf ho
    obtain ⟨n0', k1', k2'⟩ := common_value hp' h1' hf' ho
    have := Except.ok.inj (k1.symm.trans k1')
    subst this
    rw [k2, k2', hc]
  have hg : ∀ o ∈ globalOptions, o ∈ top := by
    intro o ho
    rw [(mkParser_ok hp.top).1]
    exact List.mem_append_right _ ho
  have gkey : ∀ x ∈ globalOptions.map OptSpec.dest, dget ns x = dget ns' x := by
    intro x hx
    obtain ⟨o, ho, rfl⟩ := List.mem_map.1 hx
    exact key o (hg o ho)
  have sw : ∀ x ∈ globalOptions.map OptSpec.dest, switchOn ns x = switchOn ns' x := fun x hx => switchOn_congr (gkey x hx)
  have ha : argsOf ns = argsOf ns' := by
    funext d
    by_cases hd : d ∈ top.map OptSpec.dest
    · obtain ⟨o, ho, rfl⟩ := List.mem_map.1 hd
      unfold argsOf
      rw [key o ho]
    · rw [uncommon_value hp h1 hd, uncommon_value hp' h1' hd]
  have hcc : c = c' := by
    have : effectiveConfig env xylemDescription ns = effectiveConfig env xylemDescription ns' := by
      unfold effectiveConfig globalArgs
      have t1 : textArg ns "config_dir" = textArg ns' "config_dir" := by unfold textArg; rw [gkey _ (by decide)]
      have t2 : textArg ns "prefix" = textArg ns' "prefix" := by unfold textArg; rw [gkey _ (by decide)]
      rw [ha, t1, t2, sw "no_user_config" (by decide)]
    rw [this] at h2
    exact Except.ok.inj (h2.symm.trans h2')
  subst hcc
  have : handleSwitches env ns p = handleSwitches env ns' p := by
    unfold handleSwitches
    rw [sw "debug" (by decide), sw "pdb" (by decide), sw "verbose" (by decide), sw "no_color" (by decide)]
  rw [this]

/-- **C106 (refuted for abbreviations)** An unambiguous abbreviation of a common option can be ambiguous for another command: `xylem update --co apt` is
`xylem update --core-installers apt`, but `xylem install --co apt key` is a usage error, whatever is before the name of the command. -/
theorem C106_abbreviations_refuted {top sub sub' : List OptSpec} (hp : ParsersFor "update" top sub) (hp' : ParsersFor "install" top sub') :
    Means sub "--co" "--core-installers" ∧ Means top "--co" "--core-installers" ∧
      ∀ fresh before (v : Option String) ns, parseCommandLine fresh top sub' before [⟨"--co", v⟩] ≠ .ok ns := by
  obtain ⟨hft, hfs, e⟩ := hp.apart
  obtain ⟨_, hfs', e'⟩ := hp'.apart
  have et : top = xylemDescription.options ++ globalOptions := by rw [(mkParser_ok hp.top).1, List.nil_append]
  have k1 : findOption (xylemDescription.options ++ globalOptions) "--co" = .ok ⟨["--core-installers"], "core_installers", .append⟩ := by rfl
  have k2 : findOption (commandOptions "update" ++ (xylemDescription.options ++ globalOptions)) "--co" =
      .ok ⟨["--core-installers"], "core_installers", .append⟩ := by rfl
  have k3 : findOption (commandOptions "install" ++ (xylemDescription.options ++ globalOptions)) "--co" = .error (.systemExit 2) := by rfl
  rw [← et] at k1 k2 k3
  rw [← e] at k2
  rw [← e'] at k3
  refine ⟨(means_iff hfs (parser_nodup hp.sub hp.facts.1) (findOption_mem k2) (List.mem_singleton.2 rfl)).2 k2,
    (means_iff hft (parser_nodup hp.top (by simp)) (findOption_mem k1) (List.mem_singleton.2 rfl)).2 k1, fun fresh before v ns h => ?_⟩
  have key : ∀ {n n' : ArgSpace}, parseInto sub' n [⟨"--co", v⟩] ≠ .ok n' := by
    intro n n' h
    obtain ⟨o, ho, _⟩ := fold_accepted _ h _ (List.mem_singleton.2 rfl)
    rw [k3] at ho
    cases ho
  obtain ⟨n0, h0, ⟨hf, n2, h2, rfl⟩ | ⟨hf, h2⟩⟩ := parse_cases h
  · exact key h2
  · exact key h2

/-! ## C105: `xylem update`, then another command -/

/-- What a source has in the next command after an update in which the world did `o` to it: what was downloaded, if that worked; what the cache had
before, if the source could not be downloaded. -/
def AfterUpdate (env : CacheEnv) (files : FileSys) (s : Source) (o : Outcome) (s' : Source) : Prop :=
  (∃ d, Downloaded s o d ∧ o.write = .ok ∧ s' = { s with data := d, time := o.now }) ∨
  ((∀ d, ¬ Downloaded s o d) ∧ s.loadFromCache env files = .ok s')

theorem loadFromCache_congr {env : CacheEnv} {fs fs' : FileSys} {s : Source} {p : String} (hp : s.cachePath env = .ok p) (h : fs p = fs' p) :
    s.loadFromCache env fs = s.loadFromCache env fs' := by
  unfold Source.loadFromCache
  rw [hp]
  show (readCache fs p >>= _) = (readCache fs' p >>= _)
  have : readCache fs p = readCache fs' p := by unfold readCache; rw [h]
  rw [this]

theorem dbLoad_all {env : CacheEnv} {fs : FileSys} {b : Bool} {l l' : List Source} (h : List.Forall₂ (fun s s' => s.loadFromCache env fs = .ok s') l l') :
    dbLoadFromCache env fs b l = ⟨l', [], none⟩ := by
  induction h with
  | nil => rfl
  | cons h _ ih => simp only [dbLoadFromCache, h, ih]

/-- **C105** `xylem update`, then any command with the same common options (written in full) in the same environment: the command works with the same
sources, each with the data the update downloaded, or with what the cache had before if it could not be downloaded; whatever was in the cache before
(after crashes, other versions, any history). -/
theorem C105_update_then_command {cmd : String} {top sub sub' : List OptSpec} (hp : ParsersFor "update" top sub) (hp' : ParsersFor cmd top sub')
    (env : StartEnv) (w : Surroundings σ) {fresh : Bool} {positional : Except Exc Unit} {p q q' : Process} {before after after' : List Given}
    {ns ns' : ArgSpace} (h : reached env xylemDescription fresh top sub (.ok ()) p before after = .ok (q, ns))
    (h' : reached env xylemDescription fresh top sub' positional p before after' = .ok (q', ns'))
    (hf : InFull sub after) (hf' : InFull sub' after') (hc : commonOptions top after = commonOptions top after')
    (hsl : ∀ v i, w.sha1 v = .ok i → i.toList.head? ≠ some '/')
    {paths : SourcesPaths} (hpa : pathsFor w q.config = .ok paths) (hdir : ensureCacheDir (w.dirAt paths.cacheDir) = .ok ())
    {sources : List Source} (hs : sourcesFor w q.config = .ok sources)
    (hni : ∀ s ∈ sources, NotInterrupted (cacheEnvFor w paths) (s, w.outcome s)) {loaded : List Source}
    (hl : List.Forall₂ (fun s s' => AfterUpdate (cacheEnvFor w paths) w.files s (w.outcome s) s') sources loaded) :
    let w' := { w with files := applySteps w.files (updateEffect env w xylemDescription fresh top sub p before after) }
    q'.config = q.config ∧ sourcesFor w' q'.config = .ok sources ∧ loadedFor w' q'.config = .ok loaded ∧
      ∀ k, lookupCtxFor env w q.config = .ok k → databaseFor env w' q'.config = .ok (databaseOf w.uni loaded k) := by
  intro w'
  have e := C106_same_config hp hp' env h h' hf hf' hc
  subst e
  have hs' : sourcesFor w' q.config = .ok sources := hs
  have key : loadedFor w' q.config = .ok loaded := by
    have hopen : ∃ specs, specsFor w q.config = .ok specs ∧
        openDatabase (cacheEnvFor w paths) specs (w.sourcesIn paths.sourcesDir) paths.sourcesDir = .ok sources := by
      unfold sourcesFor at hs
      rw [hpa] at hs
      have hs : (specsFor w q.config >>= fun specs => openDatabase (cacheEnvFor w paths) specs (w.sourcesIn paths.sourcesDir) paths.sourcesDir) =
        .ok sources := hs
      exact Except_bind_ok.1 hs
    obtain ⟨specs, hsp, hopen⟩ := hopen
    have heff : updateEffect env w xylemDescription fresh top sub p before after =
        (dbUpdate (cacheEnvFor w paths) false (sources.map fun s => (s, w.outcome s))).steps := by
      unfold updateEffect
      rw [h]
      show (updateRun w q ns).steps = _
      rw [updateRun_eq hpa, hsp]
      unfold updateApi
      simp only [hdir, hopen]
    have hmap : (sources.map fun s => (s, w.outcome s)).map Prod.fst = sources := by simp [Function.comp_def]
    have hdist : DistinctCacheFiles (cacheEnvFor w paths) ((sources.map fun s => (s, w.outcome s)).map Prod.fst) := by
      rw [hmap]; exact openDatabase_distinct hopen hsl
    have hni' : ∀ so ∈ sources.map fun s => (s, w.outcome s), NotInterrupted (cacheEnvFor w paths) so := by
      intro so hso; obtain ⟨s, hm, rfl⟩ := List.mem_map.1 hso; exact hni s hm
    have hfr := openDatabase_fresh hopen
    have each : List.Forall₂ (fun s s' => s.loadFromCache (cacheEnvFor w paths) w'.files = .ok s') sources loaded := by
      obtain ⟨hlen, hz⟩ := List.forall₂_iff_zip.1 hl
      refine List.forall₂_iff_zip.2 ⟨hlen, fun {a b} hab => ?_⟩
      have ha := (List.of_mem_zip hab).1
      have hm : (a, w.outcome a) ∈ sources.map fun s => (s, w.outcome s) := List.mem_map.2 ⟨a, ha, rfl⟩
      have hfiles : w'.files = applySteps w.files (dbUpdate (cacheEnvFor w paths) false (sources.map fun s => (s, w.outcome s))).steps := by
        show applySteps w.files (updateEffect env w xylemDescription fresh top sub p before after) = _
        rw [heff]
      rw [hfiles]
      rcases hz hab with ⟨d, hd, hw, rfl⟩ | ⟨hd, ho⟩
      · exact C21_round_trip _ _ _ hni' hdist a (w.outcome a) hm d (hfr a ha).2.1 hd hw a (hfr a ha).2.2
      · obtain ⟨pth, _, _, hpth, _⟩ := distinct_split hdist hm
        rw [loadFromCache_congr hpth ((C19_update_cache _ _ _ hni' hdist a (w.outcome a) hm pth hpth).2.2.2 hd)]
        exact ho
    have hpa' : pathsFor w' q.config = .ok paths := hpa
    unfold loadedFor
    rw [hpa']
    show (sourcesFor w' q.config >>= fun sources => _) = _
    rw [hs']
    have hdb : dbLoadFromCache (cacheEnvFor w' paths) w'.files true sources = ⟨loaded, [], none⟩ := dbLoad_all each
    show (match (dbLoadFromCache (cacheEnvFor w' paths) w'.files true sources).raised with
      | some e => Except.error e
      | none => pure (dbLoadFromCache (cacheEnvFor w' paths) w'.files true sources).sources) = _
    rw [hdb]
    rfl
  refine ⟨rfl, hs', key, fun k hk => ?_⟩
  unfold databaseFor
  rw [key]
  have hk' : lookupCtxFor env w' q.config = .ok k := hk
  show (lookupCtxFor env w' q.config >>= fun k => pure (databaseOf w'.uni loaded k)) = _
  rw [hk']
  rfl

end Verif
