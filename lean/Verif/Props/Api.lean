import Verif.Props.Sources
/-! # Properties C64, C65: the `update` and `lookup` API functions -/
namespace Verif

/-! ## C64 -/

/-- Opening the database establishes distinct cache files. -/
theorem openDatabase_distinct {env : CacheEnv} {plugins : List Spec} {w : SourcesWorld} {dir : String} {ss : List Source}
    (h : openDatabase env plugins w dir = .ok ss) (hsl : ∀ v i, env.sha1 v = .ok i → i.toList.head? ≠ some '/') :
    DistinctCacheFiles env ss := by
  unfold openDatabase at h
  obtain ⟨ss', _, h⟩ := Except_bind_ok.1 h
  obtain ⟨u, h2, h⟩ := Except_bind_ok.1 h
  rw [pure_ok] at h; subst h
  exact (verifyUniqueIds_spec (by cases u; exact h2)).2 hsl

/-- **C64 refuted** `dry_run` has no influence on what an update does, in any environment. -/
theorem C64_dry_run_is_ignored (env : CacheEnv) (plugins : List Spec) (dir : DirWorld) (w : SourcesWorld) (sourcesDir : String)
    (outcome : Source → Outcome) :
    updateApi true env plugins dir w sourcesDir outcome = updateApi false env plugins dir w sourcesDir outcome := rfl

/-- **C64 refuted** With `dry_run` every source that can be downloaded has its cache file overwritten. -/
theorem C64_dry_run_writes (env : CacheEnv) (plugins : List Spec) (dir : DirWorld) (w : SourcesWorld) (sourcesDir : String)
    (outcome : Source → Outcome) (fs : FileSys) (sources : List Source)
    (hsl : ∀ v i, env.sha1 v = .ok i → i.toList.head? ≠ some '/')
    (hdir : ensureCacheDir dir = .ok ()) (hopen : openDatabase env plugins w sourcesDir = .ok sources)
    (hni : ∀ s ∈ sources, NotInterrupted env (s, outcome s))
    (s : Source) (hs : s ∈ sources) (d : PVal) (hd : Downloaded s (outcome s) d) (hw : (outcome s).write = .ok) :
    (updateApi true env plugins dir w sourcesDir outcome).raised = none ∧
    ∃ p, s.cachePath env = .ok p ∧
      applySteps fs (updateApi true env plugins dir w sourcesDir outcome).steps p = some (goodFile env s d (outcome s).now) := by
  have hmap : (sources.map fun s => (s, outcome s)).map Prod.fst = sources := by simp [Function.comp_def]
  have hdist : DistinctCacheFiles env ((sources.map fun s => (s, outcome s)).map Prod.fst) := by
    rw [hmap]; exact openDatabase_distinct hopen hsl
  have hm : (s, outcome s) ∈ sources.map fun s => (s, outcome s) := List.mem_map.2 ⟨s, hs, rfl⟩
  obtain ⟨p, _, _, hp, _⟩ := distinct_split hdist hm
  unfold updateApi
  simp only [hdir, hopen]
  have hni' : ∀ so ∈ sources.map fun s => (s, outcome s), NotInterrupted env so := by
    intro so hso; obtain ⟨s, hs, rfl⟩ := List.mem_map.1 hso; exact hni s hs
  exact ⟨(C19_update_memory env _ hni').1, p, hp, (C19_update_cache env _ fs hni' hdist s (outcome s) hm p hp).1 d hd hw⟩

/-- **C64 (partial)** What does hold of every update, dry or not: it touches no file but the cache files of its sources, and
nothing at all if the cache directory cannot be created or the database cannot be opened (then that error is raised).
Missing for the full claim: with `dry_run` the cache files themselves are to be left alone (refuted above). -/
theorem C64_touches_only_cache_files_partial (dryRun : Bool) (env : CacheEnv) (plugins : List Spec) (dir : DirWorld)
    (w : SourcesWorld) (sourcesDir : String) (outcome : Source → Outcome) (fs : FileSys) :
    (∀ e, ensureCacheDir dir = .error e → updateApi dryRun env plugins dir w sourcesDir outcome = ⟨[], some e⟩) ∧
    (∀ e, ensureCacheDir dir = .ok () → openDatabase env plugins w sourcesDir = .error e →
      updateApi dryRun env plugins dir w sourcesDir outcome = ⟨[], some e⟩) ∧
    (∀ sources p, openDatabase env plugins w sourcesDir = .ok sources → (∀ s ∈ sources, s.cachePath env ≠ .ok p) →
      applySteps fs (updateApi dryRun env plugins dir w sourcesDir outcome).steps p = fs p) := by
  unfold updateApi
  refine ⟨fun e h => by simp [h], fun e h1 h2 => by simp [h1, h2], fun sources p h1 h2 => ?_⟩
  cases hd : ensureCacheDir dir with
  | error e => rfl
  | ok u =>
    simp only [h1]
    refine C19_other_files_untouched env false _ fs p ?_
    intro so hso
    obtain ⟨s, hs, rfl⟩ := List.mem_map.1 hso
    exact h2 s hs

/-- **C64** The cache directory: nothing is done if it exists; the call succeeds iff it exists afterwards. -/
theorem C64_ensure_cache_dir (dir : DirWorld) :
    (ensureCacheDir dir = .ok () ↔ dir.before = true ∨ (dir.makedirs = .ok () ∧ dir.after = true)) := by
  unfold ensureCacheDir
  obtain ⟨b, m, a⟩ := dir
  cases b <;> simp
  cases m with
  | error e => simp
  | ok u => cases a <;> simp

/-! ## C65 -/

/-- **C65 refuted** The default call (`compact=False`) never returns rules: it raises UnboundLocalError whenever the lookup
itself succeeded, and the lookup's error otherwise. -/
theorem C65_uncompacted_lookup_crashes (uni : Char → Bool) (env : CacheEnv) (fs : FileSys) (plugins : List Spec) (w : SourcesWorld)
    (sourcesDir key : String) (c : LookupCtx) :
    (∀ r, lookupApi uni env fs plugins w sourcesDir key false c ≠ .ok r) ∧
    (∀ d, lookupDb uni env fs plugins w sourcesDir key c = .ok d →
      lookupApi uni env fs plugins w sourcesDir key false c = .error .unboundLocalError) := by
  unfold lookupApi
  cases h : lookupDb uni env fs plugins w sourcesDir key c <;>
    simp [bind, Except.bind, throw, throwThe, MonadExceptOf.throw]

theorem GoodRules.wf {r : Rules} (h : GoodRules r) : r.WF :=
  ⟨h.nodup, fun k od hk => ⟨(h.oss k od hk).nodup, fun o vd ho => ⟨((h.oss k od hk).vers o vd ho).nodup,
    fun v i hi => (((h.oss k od hk).vers o vd ho).insts v i hi).nodup⟩⟩⟩

theorem entryAt_good {r : Rules} (h : GoodRules r) (key os ver : String) : GoodInst (entryAt r key os ver) := by
  have nil : GoodInst [] := ⟨by simp [DWF, dkeys], fun n ρ h => by simp [dget] at h⟩
  unfold entryAt
  split
  · exact nil
  · rename_i od hk; split
    · exact nil
    · rename_i vd ho; split
      · exact nil
      · rename_i i hi; exact ((h.oss _ _ hk).vers _ _ ho).insts _ _ hi

theorem offeredFirst_mem {dflt : Option String} {inst : String} {ρ : Rule} {l : List InstDict}
    (h : OfferedFirst dflt inst ρ l) : ∃ d ∈ l, Offers d dflt inst ρ := by
  induction l with
  | nil => exact h.elim
  | cons d l ih =>
    rcases h with h | ⟨_, h⟩
    · exact ⟨d, by simp, h⟩
    · obtain ⟨d', h1, h2⟩ := ih h; exact ⟨d', by simp [h1], h2⟩

/-- The result of a lookup in normal-form rules is a normal installer dict. -/
theorem lookup_good {r : Rules} (hr : GoodRules r) {key os ver : String} {dflt : Option String} {d : InstDict}
    (h : lookupRules r key os ver dflt = .ok d) : GoodInst d := by
  refine ⟨lookupRules_DWF h, fun n ρ hn => ?_⟩
  have := (C01_lookup_precedence r hr.wf key os ver dflt d h n).1 ρ hn
  obtain ⟨e, he, ho⟩ := offeredFirst_mem this
  have hg : GoodInst e := by
    simp only [consulted, List.mem_cons, List.not_mem_nil, or_false] at he
    rcases he with rfl | rfl | rfl <;> exact entryAt_good hr _ _ _
  rcases ho with ⟨_, ho⟩ | ⟨_, _, ho⟩
  · exact hg.rules _ _ ho
  · exact hg.rules _ _ ho

theorem sourceLookup_good {uni u : Char → Bool} {s : Source} {r : Rules} (hs : s.spec = rulesSpec u) (hd : s.data = r.toVal)
    (hr : GoodRules r) {key : String} {c : LookupCtx} {d : InstDict} (h : s.lookup uni key c = .ok d) : GoodInst d := by
  obtain ⟨h1, _⟩ := sourceLookup_ok_iff.1 h
  rw [hs] at h1
  simp only [rulesSpec, rulesLookup, hd, rulesOfVal_toVal] at h1
  obtain ⟨d', h2, h3⟩ := Except_bind_ok.1 h1
  rw [pure_ok] at h3
  have := congrArg instOfVal h3
  rw [instOfVal_toVal, instOfVal_toVal] at this
  injection this with this
  exact this ▸ lookup_good hr h2

/-- The result of a database lookup is a normal installer dict without the keyword `default_installer`. -/
theorem dbLookup_good {uni u : Char → Bool} {sources : List Source}
    (hs : ∀ s ∈ sources, ∃ r : Rules, s.spec = rulesSpec u ∧ s.data = r.toVal ∧ GoodRules r)
    {key : String} {c : LookupCtx} {d : InstDict} (h : dbLookup uni sources key c = .ok d) :
    GoodInst d ∧ "default_installer" ∉ dkeys d := by
  obtain ⟨ds, h1, h2⟩ := C03_first_source_wins uni sources key c (fun s hm d hd => by
    obtain ⟨r, e1, _, _⟩ := hs s hm
    exact rules_lookup_DWF e1 hd) d h
  have hg : ∀ e ∈ ds, GoodInst e ∧ "default_installer" ∉ dkeys e := by
    intro e he
    obtain ⟨s, hsm, hl⟩ := forall₂_mem_right h1 he
    obtain ⟨r, e1, e2, e3⟩ := hs s hsm
    exact ⟨sourceLookup_good e1 e2 e3 hl, sourceLookup_noDefault hl⟩
  refine ⟨⟨?_, fun n ρ hn => ?_⟩, ?_⟩
  · unfold dbLookup at h
    rw [List.foldlM_reverse] at h
    clear h1 h2 hg hs
    induction sources generalizing d with
    | nil => simp only [List.foldrM_nil, pure_ok] at h; subst h; simp [DWF, dkeys]
    | cons s t ih =>
      rw [List.foldrM_cons] at h
      obtain ⟨acc, h3, h4⟩ := Except_bind_ok.1 h
      unfold dbLookupStep at h4
      obtain ⟨new, _, h5⟩ := Except_bind_ok.1 h4
      exact mergeInst_DWF h5 (ih h3)
  · rw [h2] at hn
    obtain ⟨e, he, hv⟩ := List.exists_of_findSome?_eq_some hn
    exact (hg e he).1.rules _ _ hv
  · rw [mem_dkeys_iff, h2]
    intro hc
    obtain ⟨ρ, hρ⟩ := Option.isSome_iff_exists.1 hc
    obtain ⟨e, he, hv⟩ := List.exists_of_findSome?_eq_some hρ
    exact (hg e he).2 (mem_dkeys_iff.2 (by rw [hv]; rfl))

/-- Without the keyword, an installer dict offers exactly what it contains. -/
theorem offers_plain {d : InstDict} (hn : "default_installer" ∉ dkeys d) {dflt : Option String} {inst : String} {ρ : Rule} :
    Offers d dflt inst ρ ↔ dget d inst = some ρ := by
  have hnone : dget d "default_installer" = none := by
    cases hx : dget d "default_installer" with
    | none => rfl
    | some x => exact absurd (mem_dkeys_iff.2 (by rw [hx]; rfl)) hn
  constructor
  · rintro (⟨_, h⟩ | ⟨_, _, h⟩)
    · exact h
    · rw [hnone] at h; simp at h
  · intro h
    refine Or.inl ⟨?_, h⟩
    rintro rfl; rw [hnone] at h; simp at h

/-- **C65 (partial)** A compacted lookup: if the cached data is in the normal form that loading establishes
(`loaded_is_good`), the call succeeds whenever the database lookup does, and the compact notation it returns stands for
exactly the rules of the database lookup, for every installer. Missing for the full claim: `compact=False` (refuted above). -/
theorem C65_compact_lookup_partial (uni u : Char → Bool) (env : CacheEnv) (fs : FileSys) (plugins : List Spec) (w : SourcesWorld)
    (sourcesDir key : String) (c : LookupCtx) (sources : List Source) (d : InstDict)
    (hopen : openDatabase env plugins w sourcesDir = .ok sources)
    (hgood : ∀ s ∈ (dbLoadFromCache env fs true sources).sources, ∃ r : Rules, s.spec = rulesSpec u ∧ s.data = r.toVal ∧ GoodRules r)
    (hd : lookupDb uni env fs plugins w sourcesDir key c = .ok d) :
    ∃ v d', lookupApi uni env fs plugins w sourcesDir key true c = .ok v ∧
      expandInstallerDefinition v = .ok (InstDict.toVal d') ∧ DWF d' ∧
      ∀ inst ρ, Offers d' c.dflt inst ρ ↔ dget d inst = some ρ := by
  have hl : dbLookup uni (dbLoadFromCache env fs true sources).sources key c = .ok d := by
    unfold lookupDb at hd
    rw [hopen] at hd
    simp only [bind, Except.bind] at hd
    split at hd
    · simp [throw, throwThe, MonadExceptOf.throw] at hd
    · exact hd
  obtain ⟨hg, hn⟩ := dbLookup_good hgood hl
  unfold lookupApi
  rw [hd]
  simp only [bind, Except.bind, if_true]
  cases hc : compactInstallerDict d c.dflt with
  | error e =>
    obtain ⟨_, name, _, _, h3, _⟩ := (C16_fails_iff d hg c.dflt e).1 hc
    exact absurd h3 hn
  | ok v =>
    obtain ⟨d', h1, h2, h3, _⟩ := C16_keeps_rules d hg c.dflt v hc
    exact ⟨v, d', rfl, h1, h2, fun inst ρ => (h3 inst ρ).trans (offers_plain hn)⟩

/-! ## C70 -/

/-- Sources made from descriptions are as `RulesSource.__init__` makes them. -/
theorem openDatabase_fresh {env : CacheEnv} {plugins : List Spec} {w : SourcesWorld} {dir : String} {ss : List Source}
    (h : openDatabase env plugins w dir = .ok ss) :
    ∀ s ∈ ss, s.spec ∈ plugins ∧ s.spec.verifyArguments s.arguments = .ok () ∧ mkSource s.spec s.arguments s.origin = .ok s := by
  unfold openDatabase at h
  obtain ⟨ss', h1, h⟩ := Except_bind_ok.1 h
  obtain ⟨u, h2, h⟩ := Except_bind_ok.1 h
  rw [pure_ok] at h; subst h
  intro s hs
  obtain ⟨⟨f, v⟩, _, n, a, _, e1, e2, e3, e4, e5, before, after, e6, _⟩ :=
    forall₂_mem_right (C59_one_source_per_description plugins _ ss' h1) hs
  refine ⟨by rw [e6]; simp, by rw [e1]; exact e5, ?_⟩
  unfold mkSource
  rw [e1, e5]
  simp only [bind, Except.bind, pure, Except.pure]
  obtain ⟨sp, ar, og, da, ti⟩ := s
  simp only at e1 e2 e3 e4; subst e1 e3 e4; rfl

/-- **C70** Update, then look up in a new process: if every source could be updated, then whatever the cache contained before,
the lookup in the reopened database loaded from the cache is the lookup in the sources holding exactly what was downloaded. -/
theorem C70_update_then_lookup (dryRun : Bool) (uni : Char → Bool) (env : CacheEnv) (plugins : List Spec) (dir : DirWorld)
    (w : SourcesWorld) (sourcesDir : String) (outcome : Source → Outcome) (fs : FileSys) (sources : List Source)
    (hsl : ∀ v i, env.sha1 v = .ok i → i.toList.head? ≠ some '/')
    (hdir : ensureCacheDir dir = .ok ()) (hopen : openDatabase env plugins w sourcesDir = .ok sources)
    (hall : ∀ s ∈ sources, UpdateSucceeds env (s, outcome s)) :
    ∃ loaded, List.Forall₂ (fun s s' => ∃ d, Downloaded s (outcome s) d ∧ s' = { s with data := d, time := (outcome s).now })
        sources loaded ∧
      ∀ key c, lookupDb uni env (applySteps fs (updateApi dryRun env plugins dir w sourcesDir outcome).steps) plugins w
        sourcesDir key c = dbLookup uni loaded key c := by
  have hmap : (sources.map fun s => (s, outcome s)).map Prod.fst = sources := by simp [Function.comp_def]
  have hdist : DistinctCacheFiles env ((sources.map fun s => (s, outcome s)).map Prod.fst) := by
    rw [hmap]; exact openDatabase_distinct hopen hsl
  have hfr := openDatabase_fresh hopen
  have hfresh : List.Forall₂ (fun so s0 => mkSource so.1.spec so.1.arguments so.1.origin = .ok s0)
      (sources.map fun s => (s, outcome s)) sources := by
    rw [List.forall₂_map_left_iff]
    rw [List.forall₂_same]
    exact fun s hs => (hfr s hs).2.2
  obtain ⟨h1, h2, h3⟩ := C21_round_trip_db env (sources.map fun s => (s, outcome s)) fs true hdist
    (by intro so hso; obtain ⟨s, hs, rfl⟩ := List.mem_map.1 hso; exact hall s hs)
    (by intro so hso; obtain ⟨s, hs, rfl⟩ := List.mem_map.1 hso; exact (hfr s hs).2.1) sources hfresh
  refine ⟨(dbUpdate env false (sources.map fun s => (s, outcome s))).sources, ?_, fun key c => ?_⟩
  · have := (C19_update_memory env (sources.map fun s => (s, outcome s))
      (by intro so hso; obtain ⟨s, hs, rfl⟩ := List.mem_map.1 hso; exact (hall s hs).notInterrupted)).2
    rw [List.forall₂_map_left_iff] at this
    obtain ⟨hlen, hz⟩ := List.forall₂_iff_zip.1 this
    refine List.forall₂_iff_zip.2 ⟨hlen, fun {a b} hab => ?_⟩
    obtain ⟨d, hd⟩ := (hall a (List.of_mem_zip hab).1).1
    exact ⟨d, hd, (hz hab).1 d hd⟩
  · have e : (updateApi dryRun env plugins dir w sourcesDir outcome).steps =
        (dbUpdate env false (sources.map fun s => (s, outcome s))).steps := by
      unfold updateApi; simp only [hdir, hopen]
    unfold lookupDb
    rw [hopen, e]
    simp only [bind, Except.bind, h1]
    exact h3 uni key c

/-- **C70** The same for rules files, down to the answer: if every source is a `rules` source whose file downloads to the YAML
document `doc s` that loads as the rules `rules s`, then the lookup API answers, for every installer, with the rule of the
first listed source whose own rules have one for it (in compact notation). -/
theorem C70_end_to_end (dryRun : Bool) (uni u : Char → Bool) (env : CacheEnv) (plugins : List Spec) (dir : DirWorld)
    (w : SourcesWorld) (sourcesDir : String) (outcome : Source → Outcome) (fs : FileSys) (sources : List Source)
    (doc : Source → PVal) (rules : Source → Rules)
    (hsl : ∀ v i, env.sha1 v = .ok i → i.toList.head? ≠ some '/')
    (hdir : ensureCacheDir dir = .ok ()) (hopen : openDatabase env plugins w sourcesDir = .ok sources)
    (hplug : ∀ q ∈ plugins, q = rulesSpec u)
    (hwrite : ∀ s ∈ sources, (outcome s).write = .ok)
    (hnet : ∀ s ∈ sources, (outcome s).net s.arguments = .ok (doc s) ∧ (doc s).WF ∧ loadRulesData u (doc s) = .ok (rules s).toVal)
    (key : String) (c : LookupCtx) (d : InstDict)
    (hlook : lookupDb uni env (applySteps fs (updateApi dryRun env plugins dir w sourcesDir outcome).steps) plugins w
        sourcesDir key c = .ok d) :
    (∃ ds : List InstDict, List.Forall₂ (fun s i => lookupRules (rules s) key c.os c.version c.dflt = .ok i) sources ds ∧
      ∀ inst, dget d inst = ds.findSome? (fun i => dget i inst)) ∧
    ∃ v d', lookupApi uni env (applySteps fs (updateApi dryRun env plugins dir w sourcesDir outcome).steps) plugins w
        sourcesDir key true c = .ok v ∧
      expandInstallerDefinition v = .ok (InstDict.toVal d') ∧ ∀ inst ρ, Offers d' c.dflt inst ρ ↔ dget d inst = some ρ := by
  have hfr := openDatabase_fresh hopen
  have hdl : ∀ s ∈ sources, Downloaded s (outcome s) (rules s).toVal := by
    intro s hs
    obtain ⟨h1, h2, h3⟩ := hnet s hs
    have e := hplug _ (hfr s hs).1
    unfold loadRulesData at h3
    obtain ⟨x, h4, h3⟩ := Except_bind_ok.1 h3
    obtain ⟨⟨⟩, h5, h3⟩ := Except_bind_ok.1 h3
    rw [pure_ok] at h3; subst h3
    unfold Downloaded
    rw [e]
    simp only [rulesSpec, rulesLoadData, h1, bind, Except.bind]
    exact ⟨h4, h5⟩
  have hall : ∀ s ∈ sources, UpdateSucceeds env (s, outcome s) := by
    intro s hs
    obtain ⟨paths, hp, hnd⟩ := openDatabase_distinct hopen hsl
    clear hnd
    have : ∃ p, s.cachePath env = .ok p := by
      clear hwrite hnet hfr hdl hopen hlook
      induction hp with
      | nil => simp at hs
      | cons h _ ih =>
        rcases List.mem_cons.1 hs with rfl | hs
        · exact ⟨_, h⟩
        · exact ih hs
    exact ⟨⟨_, hdl s hs⟩, this, hwrite s hs⟩
  obtain ⟨loaded, hl, hlk⟩ := C70_update_then_lookup dryRun uni env plugins dir w sourcesDir outcome fs sources hsl hdir hopen hall
  have hl' : List.Forall₂ (fun s s' => s' = { s with data := (rules s).toVal, time := (outcome s).now }) sources loaded := by
    obtain ⟨hlen, hz⟩ := List.forall₂_iff_zip.1 hl
    refine List.forall₂_iff_zip.2 ⟨hlen, fun {a b} hab => ?_⟩
    obtain ⟨d, h1, h2⟩ := hz hab
    have h3 := hdl a (List.of_mem_zip hab).1
    have : d = (rules a).toVal := by
      have := h1.1.symm.trans h3.1
      injection this
    rw [h2, this]
  have hspecs : ∀ s ∈ loaded, ∃ r : Rules, s.spec = rulesSpec u ∧ s.data = r.toVal ∧ GoodRules r := by
    intro s' hs'
    obtain ⟨s, hs, rfl⟩ := forall₂_mem_right hl' hs'
    exact ⟨rules s, hplug _ (hfr s hs).1, rfl, loaded_is_good (hnet s hs).2.1 (hnet s hs).2.2⟩
  have hdb := hlook
  rw [hlk] at hdb
  constructor
  · obtain ⟨ds, h1, h2⟩ := C03_first_source_wins uni loaded key c
      (fun s hm d hd => rules_lookup_DWF (hspecs s hm).choose_spec.1 hd) d hdb
    refine ⟨ds, ?_, h2⟩
    have : List.Forall₂ (fun s i => ∃ s', s' = { s with data := (rules s).toVal, time := (outcome s).now } ∧
        s'.lookup uni key c = .ok i) sources ds := by
      clear hlook hdb hspecs hl hlk h2 hall hdl hfr hnet hwrite hopen
      induction hl' generalizing ds with
      | nil => cases h1; exact .nil
      | cons e _ ih => cases h1 with | cons ha hb => exact .cons ⟨_, e, ha⟩ (ih _ hb)
    obtain ⟨hlen, hz⟩ := List.forall₂_iff_zip.1 this
    refine List.forall₂_iff_zip.2 ⟨hlen, fun {a b} hab => ?_⟩
    obtain ⟨s', rfl, hlo⟩ := hz hab
    obtain ⟨h1, _⟩ := sourceLookup_ok_iff.1 hlo
    have e := hplug _ (hfr a (List.of_mem_zip hab).1).1
    simp only [e, rulesSpec, rulesLookup, rulesOfVal_toVal] at h1
    obtain ⟨d', h2, h3⟩ := Except_bind_ok.1 h1
    rw [pure_ok] at h3
    have := congrArg instOfVal h3
    rw [instOfVal_toVal, instOfVal_toVal] at this
    injection this with this
    exact this ▸ h2
  · obtain ⟨hg, hn⟩ := dbLookup_good hspecs hdb
    unfold lookupApi
    rw [hlook]
    simp only [bind, Except.bind, if_true]
    cases hc : compactInstallerDict d c.dflt with
    | error e =>
      obtain ⟨_, name, _, _, h3, _⟩ := (C16_fails_iff d hg c.dflt e).1 hc
      exact absurd h3 hn
    | ok v =>
      obtain ⟨d', h1, _, h3, _⟩ := C16_keeps_rules d hg c.dflt v hc
      exact ⟨v, d', rfl, h1, fun inst ρ => (h3 inst ρ).trans (offers_plain hn)⟩

/-- A world with one rules file, for the examples. -/
def exWorld : SourcesWorld :=
  ⟨true, ["a.yaml"], fun _ => true, fun _ => .ok (.list [.dict [(.str "rules", .str "u1")]]), []⟩

example : ensureCacheDir ⟨false, .ok (), true⟩ = .ok () := by rfl
example : openDatabase exEnv [rulesSpec fun _ => false] exWorld "/etc/sources.d" =
    .ok [⟨rulesSpec fun _ => false, .str "u1", .str "/etc/sources.d/a.yaml", .none, .none⟩] := by rfl
example : ∀ v i, (CacheEnv.sha1 ⟨fun _ => .ok "ab", "", ""⟩) v = .ok i → i.toList.head? ≠ some '/' := by
  intro v i h; simp at h; subst h; decide
example : (lookupApi (fun _ => false) exEnv
    (applySteps (fun _ => none) (updateApi true exEnv [rulesSpec fun _ => false] ⟨true, .ok (), true⟩ exWorld "/etc/sources.d"
      (fun _ => exO)).steps) [rulesSpec fun _ => false] exWorld "/etc/sources.d" "boost" true exCtx) =
    .ok (.list [.str "libboost"]) := by rfl

end Verif
