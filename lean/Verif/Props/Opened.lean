import Verif.Props.Resolve
import Verif.Props.Sources
import Verif.Spec.Sources
/-! # C24, C30, C58, C59: opening the database from source lists, and exactly when resolving raises -/
namespace Verif

/-! ## Opening the database -/

theorem openDatabase_ok {env : CacheEnv} {plugins : List Spec} {w : SourcesWorld} {dir : String} {ss : List Source} :
    openDatabase env plugins w dir = .ok ss ↔ initFromFiles plugins (sourceFiles w dir) = .ok ss ∧ verifyUniqueIds env ss = .ok () := by
  unfold openDatabase
  constructor
  · intro h
    obtain ⟨a, h1, h⟩ := Except_bind_ok.1 h
    obtain ⟨u, h2, h⟩ := Except_bind_ok.1 h
    rw [pure_ok] at h; subst h
    cases u
    exact ⟨h1, h2⟩
  · rintro ⟨h1, h2⟩
    simp only [h1, h2, bind, Except.bind, pure, Except.pure]

/-- **C24** The database the API opens from the source list files: its sources have distinct ids and distinct cache files; and if the ids of the
described sources are not distinct, opening raises RuntimeError. -/
theorem C24_opened_database (env : CacheEnv) (plugins : List Spec) (w : SourcesWorld) (dir : String) :
    (∀ ss, openDatabase env plugins w dir = .ok ss →
      (∃ ids : List String, List.Forall₂ (fun s i => env.sha1 (s.spec.uniqueId s.arguments) = .ok i) ss ids ∧ ids.Nodup) ∧
      ((∀ v i, env.sha1 v = .ok i → i.toList.head? ≠ some '/') → DistinctCacheFiles env ss)) ∧
    (∀ ss ids, initFromFiles plugins (sourceFiles w dir) = .ok ss →
      List.Forall₂ (fun s i => env.sha1 (s.spec.uniqueId s.arguments) = .ok i) ss ids →
      openDatabase env plugins w dir = if ids.Nodup then .ok ss else .error .runtimeError) := by
  refine ⟨fun ss h => verifyUniqueIds_spec (openDatabase_ok.1 h).2, fun ss ids h hf => ?_⟩
  have := C24_duplicates_refused env ss ids hf
  unfold openDatabase
  simp only [h, this, bind, Except.bind, pure, Except.pure]
  by_cases hn : ids.Nodup <;> simp only [hn, if_true, if_false]

theorem initFromFiles_mkSources {plugins : List Spec} : ∀ {files : List (String × Except Exc PVal)} {ss : List Source},
    initFromFiles plugins files = .ok ss → ∃ lists, lists.map Prod.fst = files.map Prod.fst ∧ mkSources plugins lists = .ok ss := by
  intro files
  induction files with
  | nil => intro ss h; exact ⟨[], rfl, h⟩
  | cons f t ih =>
    intro ss h
    obtain ⟨file, parsed⟩ := f
    unfold initFromFiles at h
    obtain ⟨v, h1, h⟩ := Except_bind_ok.1 h
    obtain ⟨descrs, h2, h⟩ := Except_bind_ok.1 h
    obtain ⟨l, h3, h⟩ := Except_bind_ok.1 h
    obtain ⟨r, h4, h⟩ := Except_bind_ok.1 h
    obtain ⟨lists, h5, h6⟩ := ih h4
    refine ⟨(file, descrs) :: lists, by simp [h5], ?_⟩
    unfold mkSources
    simp only [h3, h6, bind, Except.bind]
    exact h

/-- **C23** The database the API opens from the source list files is one of the databases `ReachableDb` speaks of: so in it, and in every database
updating, loading and saving make of it, every source's data is unset or has passed the verification of its spec. -/
theorem C23_opened_database (env : CacheEnv) (plugins : List Spec) (w : SourcesWorld) (dir : String) (ss : List Source)
    (h : openDatabase env plugins w dir = .ok ss) : ReachableDb plugins ss := by
  obtain ⟨h1, h2⟩ := openDatabase_ok.1 h
  obtain ⟨lists, -, h3⟩ := initFromFiles_mkSources h1
  refine .init env lists ss ?_
  unfold initDatabase
  simp only [h3, h2, bind, Except.bind, pure, Except.pure]

/-- **C23** So whatever `update` (interrupted or not) has loaded from the network for a source of the opened database, and whatever
`load_from_cache` has loaded for it from the files on disk, has been verified. -/
theorem C23_opened_then_loaded (env : CacheEnv) (plugins : List Spec) (w : SourcesWorld) (dir : String) (ss : List Source)
    (h : openDatabase env plugins w dir = .ok ss) (fs : FileSys) (b : Bool) (outcome : Source → Outcome) :
    (∀ s ∈ (dbLoadFromCache env fs b ss).sources, s.spec ∈ plugins ∧ (s.data = .none ∨ ∃ args, s.spec.verifyData s.data args = .ok ())) ∧
    (∀ s ∈ (dbUpdate env b (ss.map fun s => (s, outcome s))).sources,
      s.spec ∈ plugins ∧ (s.data = .none ∨ ∃ args, s.spec.verifyData s.data args = .ok ())) := by
  have hr := C23_opened_database env plugins w dir ss h
  refine ⟨fun s hs => C23_data_always_verified plugins _ (.loadFromCache env fs b ss hr) s hs, fun s hs => ?_⟩
  refine C23_data_always_verified plugins _ (.update env b _ ?_) s hs
  have e : (ss.map fun s => (s, outcome s)).map Prod.fst = ss := by simp [List.map_map, Function.comp_def]
  rw [e]; exact hr

/-- **C58** The sources of the database the API opens are described, in order, by the `.yaml` files of the sources directory if that directory
exists (for a path that does not start with a dot), and by the default source lists of the package only if it does not exist. -/
theorem C58_opened_database_partial (env : CacheEnv) (plugins : List Spec) (w : SourcesWorld) (dir : String) (ss : List Source)
    (h : openDatabase env plugins w dir = .ok ss) :
    (w.dirExists = false → List.Forall₂ (fun fd s => DescribedBy plugins fd.1 fd.2 s)
      (w.defaults.flatMap fun f => (descrsOf f.2).map fun d => (f.1, d)) ss) ∧
    (w.dirExists = true → dir ≠ "" → ¬ startsWith dir "." → (∀ n ∈ w.listing, n.toList.head? ≠ some '/') →
      List.Forall₂ (fun fd s => DescribedBy plugins fd.1 fd.2 s)
        ((w.listing.filter fun n => endsWith n ".yaml" && w.isfile (pathJoin dir n)).flatMap fun n =>
          (descrsOf (w.parsed (pathJoin dir n))).map fun d => (pathJoin dir n, d)) ss) := by
  have key := C59_one_source_per_description plugins (sourceFiles w dir) ss (openDatabase_ok.1 h).1
  constructor
  · intro hd
    have e : sourceFiles w dir = w.defaults := by unfold sourceFiles; rw [hd]; rfl
    rwa [e] at key
  · intro hd h1 h2 h3
    have e : sourceFiles w dir = ((w.listing.filter fun n => endsWith n ".yaml" && w.isfile (pathJoin dir n)).map
        (pathJoin dir)).map fun p => (p, w.parsed p) := by
      unfold sourceFiles
      rw [hd, C58_source_files_partial w.isfile w.listing dir h1 h2 h3]
      rfl
    rw [e, List.map_map, List.flatMap_map] at key
    exact key

/-- **C59** The arguments of a `rules` source: text is accepted, anything else is refused with ValueError, so a source list that describes such
a source does not open. -/
theorem C59_rules_arguments (u : Char → Bool) (file : String) (args : PVal) :
    (∃ ss, initFromFiles [rulesSpec u] [(file, .ok (.list [.dict [(.str "rules", args)]]))] = .ok ss) ↔ ∃ t, args = .str t := by
  cases args <;> simp [initFromFiles, parseSourceDescriptions, verifySourceDescriptionList, iterVal, verifyDescrs, verifySourceDescription,
    verifySpecName, mkSourceOfDescr, getSpec, rulesSpec, mkSource, rulesVerifyArguments, bind, Except.bind, pure, Except.pure]

/-! ## Exactly when resolving raises -/

theorem chooseInstaller_ok_iff {σ : Type} {ic : InstallerCtx σ} {f : Dict String (List String)} {key : String} {d : InstDict} {i : Installer σ}
    {rule : Rule} : chooseInstaller ic (installFromMap f) key d = .ok (i, rule) ↔ Chosen ic f key d i rule := by
  unfold chooseInstaller
  cases hm : dget (installFromMap f) key with
  | some name =>
    have hi := installFromMap_some.1 hm
    have hnot : ¬ NotInstallFrom f key := by
      intro hn; rw [installFromMap_none.2 hn] at hm; simp at hm
    have huniq : ∀ n, InstallFrom f key n ↔ n = name := by
      intro n
      constructor
      · intro h; have := installFromMap_some.2 h; rw [hm] at this; simpa using this.symm
      · rintro rfl; exact hi
    have hl : ∀ i', lookupInstaller ic name = some i' ↔ i'.name = name ∧ ∃ pre post, ic.plugins = pre ++ i' :: post ∧ ∀ j ∈ pre, j.name ≠ name := by
      intro i'
      unfold lookupInstaller
      rw [List.find?_eq_some_iff_append]
      simp
    constructor
    · intro h
      cases hli : lookupInstaller ic name with
      | none => simp [hli] at h
      | some i' =>
        simp only [hli] at h
        cases hd : dget d name with
        | none => simp [hd] at h
        | some r =>
          simp only [hd, Except.ok.injEq, Prod.mk.injEq] at h
          obtain ⟨rfl, rfl⟩ := h
          obtain ⟨hn, hp⟩ := (hl i').1 hli
          subst hn
          exact .inl ⟨hi, hd, hp⟩
    · rintro (⟨h1, h2, h3⟩ | ⟨h1, -⟩)
      · have := (huniq _).1 h1
        subst this
        simp only [(hl i).2 ⟨rfl, h3⟩, h2]
      · exact absurd h1 hnot
  | none =>
    have hn := installFromMap_none.1 hm
    have hnot : ¬ ∃ n, InstallFrom f key n := by
      rintro ⟨n, h⟩; rw [installFromMap_some.2 h] at hm; simp at hm
    constructor
    · intro h
      refine .inr ⟨hn, ?_⟩
      cases hc : coreLoop d ic.core with
      | some r =>
        simp only [hc, Except.ok.injEq] at h; subst h
        exact .inl (coreLoop_some.1 hc)
      | none =>
        simp only [hc] at h
        cases ha : additionalLoop d none ic.additional with
        | none => simp [ha] at h
        | some r =>
          simp only [ha, Except.ok.injEq] at h; subst h
          exact .inr ⟨coreLoop_none.1 hc, additionalLoop_some.1 ha⟩
    · rintro (⟨h1, -⟩ | ⟨-, h | ⟨h1, h2⟩⟩)
      · exact absurd ⟨_, h1⟩ hnot
      · simp only [coreLoop_some.2 h]
      · simp only [coreLoop_none.2 h1, additionalLoop_some.2 h2]

theorem raises_exactly {σ : Type} (ic : InstallerCtx σ) (db : Database) (installFrom : Dict String (List String)) (keys : List String) :
    (∃ e, resolve ic db installFrom keys false = .error e) ↔ ∃ key ∈ keys, ∃ e,
      (db.lookup key = .error e ∧ e.isLookupError = false) ∨
      (db.lookup key = .ok [] ∧ ic.osTuple = .error e ∧ e.isLookupError = false) ∨
      (∃ d i rule, db.lookup key = .ok d ∧ d ≠ [] ∧ Chosen ic installFrom key d i rule ∧ i.resolve rule = .error e ∧
        e.isInstallerError = false) := by
  rw [C30_raises_iff]
  have one : ∀ key, (∃ e, resolve ic db installFrom [key] false = .error e) ↔
      ∃ e, resolveKey ic db.lookup (installFromMap installFrom) key = .error e := by
    intro key
    have : resolve ic db installFrom [key] false = resolveLoop ic db.lookup (installFromMap installFrom) ⟨[], []⟩ [key] := rfl
    rw [this]
    unfold resolveLoop
    cases hk : resolveKey ic db.lookup (installFromMap installFrom) key with
    | error e => simp
    | ok o => cases o <;> simp [resolveLoop]
  have step : ∀ key e, resolveKey ic db.lookup (installFromMap installFrom) key = .error e ↔
      (db.lookup key = .error e ∧ e.isLookupError = false) ∨
      (db.lookup key = .ok [] ∧ ic.osTuple = .error e ∧ e.isLookupError = false) ∨
      (∃ d i rule, db.lookup key = .ok d ∧ d ≠ [] ∧ Chosen ic installFrom key d i rule ∧ i.resolve rule = .error e ∧
        e.isInstallerError = false) := by
    intro key e
    unfold resolveKey
    cases hl : db.lookup key with
    | error x =>
      by_cases hx : x.isLookupError = true
      · simp only [hx, if_true]
        simp only [reduceCtorEq, Except.error.injEq, false_and, exists_false, or_false, false_iff]
        rintro ⟨rfl, h⟩; rw [hx] at h; simp at h
      · simp only [hx]
        simp only [Bool.false_eq_true, if_false, reduceCtorEq, Except.error.injEq, false_and, exists_false, or_false]
        constructor
        · rintro rfl; exact ⟨rfl, by simpa using hx⟩
        · rintro ⟨rfl, -⟩; rfl
    | ok d =>
      cases d with
      | nil =>
        cases ho : ic.osTuple with
        | ok t => simp
        | error x =>
          by_cases hx : x.isLookupError = true
          · simp only [hx, if_true]
            simp only [reduceCtorEq, Except.error.injEq, Except.ok.injEq, true_and, false_and, false_or, false_iff, not_or]
            refine ⟨?_, ?_⟩
            · rintro ⟨rfl, h⟩; rw [hx] at h; simp at h
            · rintro ⟨d, i, r, rfl, h, -⟩; exact h rfl
          · simp only [hx]
            simp only [Bool.false_eq_true, if_false, reduceCtorEq, Except.error.injEq, Except.ok.injEq, true_and, false_and, false_or]
            constructor
            · rintro rfl; exact .inl ⟨rfl, by simpa using hx⟩
            · rintro (⟨rfl, -⟩ | ⟨d, i, r, rfl, h, -⟩)
              · rfl
              · exact absurd rfl h
      | cons y d =>
        have hne : (y :: d) ≠ [] := by simp
        cases hc : chooseInstaller ic (installFromMap installFrom) key (y :: d) with
        | error x =>
          simp only [hc, reduceCtorEq, Except.ok.injEq, false_and, false_or, false_iff, List.cons_ne_nil]
          rintro ⟨d', i, r, rfl, -, h, -⟩
          rw [chooseInstaller_ok_iff.2 h] at hc; simp at hc
        | ok ir =>
          obtain ⟨i, r⟩ := ir
          simp only [hc, reduceCtorEq, Except.ok.injEq, false_and, false_or, List.cons_ne_nil]
          unfold resolveWith
          constructor
          · intro h
            refine ⟨_, i, r, rfl, hne, chooseInstaller_ok_iff.1 hc, ?_⟩
            cases hr : i.resolve r with
            | ok rs => simp [hr] at h
            | error x =>
              by_cases hx : x.isInstallerError = true
              · simp [hr, hx] at h
              · simp only [hr, hx, Bool.false_eq_true, if_false, Except.error.injEq] at h
                subst h; exact ⟨rfl, by simpa using hx⟩
          · rintro ⟨d', i', r', rfl, -, h, h1, h2⟩
            have := chooseInstaller_ok_iff.2 h
            rw [hc] at this; simp only [Except.ok.injEq, Prod.mk.injEq] at this
            obtain ⟨rfl, rfl⟩ := this
            simp only [h1, h2, Bool.false_eq_true, if_false]
  constructor
  · rintro ⟨key, hk, h⟩
    obtain ⟨e, he⟩ := (one key).1 h
    exact ⟨key, hk, e, (step key e).1 he⟩
  · rintro ⟨key, hk, e, h⟩
    exact ⟨key, hk, (one key).2 ⟨e, (step key e).2 h⟩⟩

example : Chosen exIc [("pip", ["core"])] "core" [("pip", []), ("apt", [])] (exInst "pip") [] :=
  .inl ⟨⟨[], ["core"], [], rfl, by simp, by simp⟩, rfl, [exInst "apt"], [exInst "gem"], rfl, by simp [exInst]⟩
example : Chosen exIc [] "core" [("pip", []), ("apt", [])] (exInst "apt") [] :=
  .inr ⟨by simp [NotInstallFrom], .inl ⟨[], [], rfl, rfl, by simp⟩⟩

/-- **C30** Exactly when resolving raises instead of reporting: some requested key's lookup raises something else than a LookupError, or the key
has no rules and the os cannot be determined, or the installer that serves the key raises something else than an InstallerError for its rule.
So a missing rule, a missing installer, an unusable `install_from` and an installer error of one key never affect other keys. -/
theorem C30_raises_exactly {σ : Type} (ic : InstallerCtx σ) (db : Database) (installFrom : Dict String (List String)) (keys : List String) :
    (∃ e, resolve ic db installFrom keys false = .error e) ↔ ∃ key ∈ keys, ∃ e,
      (db.lookup key = .error e ∧ ¬ FailedLookup e) ∨
      (db.lookup key = .ok [] ∧ ic.osTuple = .error e ∧ ¬ FailedLookup e) ∨
      (∃ d i rule, db.lookup key = .ok d ∧ d ≠ [] ∧ Chosen ic installFrom key d i rule ∧ i.resolve rule = .error e ∧
        ¬ FailedInstaller e) := by
  have h1 : ∀ e : Exc, e.isLookupError = false ↔ ¬ FailedLookup e := fun e => by cases e <;> simp [Exc.isLookupError, FailedLookup]
  have h2 : ∀ e : Exc, e.isInstallerError = false ↔ ¬ FailedInstaller e := fun e => by cases e <;> simp [Exc.isInstallerError, FailedInstaller]
  simp only [← h1, ← h2]
  exact raises_exactly ic db installFrom keys

/-- **C27** With `--all` and a database of `rules` sources: the keys with an outcome are exactly the requested ones and those some source has an entry
for the os for, each with exactly one outcome. -/
theorem C27_all_keys_of_sources {σ : Type} (ic : InstallerCtx σ) (uni u : Char → Bool) (sources : List Source) (rs : List Rules) (c : LookupCtx)
    (hs : List.Forall₂ (fun s r => s.spec = rulesSpec u ∧ s.data = Rules.toVal r ∧ Rules.WF r) sources rs)
    (installFrom : Dict String (List String)) (xylemKeys : List String) (out : Resolved)
    (h : resolve ic (databaseOf uni sources c) installFrom xylemKeys true = .ok out) (k : String) :
    ((out.results.map Prod.fst).count k + (out.errors.map Prod.fst).count k = 1 ↔
      k ∈ xylemKeys ∨ ∃ r ∈ rs, ∃ od, dget r k = some od ∧
        ((∃ vd, dget od "any_os" = some vd) ∨
         ∃ vd, dget od c.os = some vd ∧ ((∃ i, dget vd c.version = some i) ∨ ∃ i, dget vd "any_version" = some i))) ∧
    (out.results.map Prod.fst).count k + (out.errors.map Prod.fst).count k ≤ 1 := by
  obtain ⟨req, h1, h2⟩ := C27_exactly_once ic (databaseOf uni sources c) installFrom xylemKeys true out h
  obtain ⟨ks, hk, -, hmem⟩ := C05_db_keys u sources rs c hs
  obtain ⟨ks', sorted, hk', hperm, -, rfl⟩ := h1
  have e : ks' = ks := by
    have : (databaseOf uni sources c).keys = dbKeys sources c := rfl
    rw [this, hk] at hk'; injection hk' with hk'; exact hk'.symm
  subst e
  have hin : k ∈ xylemKeys ++ sorted ↔ k ∈ xylemKeys ∨ k ∈ ks' := by rw [List.mem_append, hperm.mem_iff]
  rw [h2 k, ← hmem k, ← hin]
  by_cases hc : k ∈ xylemKeys ++ sorted <;> simp [hc]

/-- Non-vacuity: one source with one key; another key is asked for by name. -/
example : ∃ out, resolve exIc (databaseOf (fun _ => false) [exSource "v" exRules] exCtx) [] ["other"] true = .ok out ∧
    out.results.map Prod.fst = ["boost"] ∧ out.errors.map Prod.fst = ["other"] := by
  have hk : (databaseOf (fun _ => false) [exSource "v" exRules] exCtx).keys = .ok ["boost"] := rfl
  have hl : lookupKeys (databaseOf (fun _ => false) [exSource "v" exRules] exCtx) ["other"] true = .ok ["other", "boost"] := by
    simp [lookupKeys, hk, bind, Except.bind, pure, Except.pure, removeDuplicates]
    rfl
  unfold resolve
  rw [hl]
  exact ⟨_, rfl, rfl, rfl⟩

end Verif
