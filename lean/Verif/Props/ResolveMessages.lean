import Mathlib.Data.List.Forall2
import Verif.Props.SetupMessages
import Verif.Props.Opened
/-! # C125: the messages of resolving -/
namespace Verif
variable {σ : Type}

/-! ## Lemmas: `install_from` -/

/-- The inverse mapping of pairs. -/
def Inverse (m : Dict String String) (pairs : List (String × String)) : Prop := ∀ k, dget m k = requestedFrom pairs k

theorem inverse_add {m : Dict String String} {pairs : List (String × String)} (h : Inverse m pairs) (inst k : String) :
    Inverse (installFromKey inst m k) (pairs ++ [(inst, k)]) := by
  intro k'
  have hk' := h k'
  have hk := h k
  unfold requestedFrom at hk hk' ⊢
  rw [List.find?_append]
  unfold installFromKey
  by_cases e : k = k'
  · subst e
    cases hf : pairs.find? fun e => e.2 == k with
    | some p =>
      rw [hf] at hk
      have : dhas m k = true := by unfold dhas; rw [hk]; rfl
      rw [if_pos this, hk]
      rfl
    | none =>
      rw [hf] at hk
      have : dhas m k = false := dhas_false.2 hk
      rw [this, if_neg (by simp), dget_dset_self']
      simp
  · have hne : (k == k') = false := by simpa using e
    split
    · rw [hk']; simp [List.find?_cons, hne]
    · rw [dget_dset_ne' _ _ e, hk']; simp [List.find?_cons, hne]

theorem says_keys {c : Console} (ho : c.on = false) (inst : String) (ks : List String) (m : Dict String String) (earlier : List (String × String))
    (h : Inverse m earlier) :
    ∃ m', Inverse m' (earlier ++ ks.map fun k => (inst, k)) ∧ m' = ks.foldl (installFromKey inst) m ∧
      ∀ rest, ∃ n, installFromNotes earlier (ks.map (fun k => (inst, k)) ++ rest) =
          n ++ installFromNotes (earlier ++ ks.map fun k => (inst, k)) rest ∧
        Says c.verbose (installFromKeysSaying c inst m ks) n m' := by
  induction ks generalizing m earlier with
  | nil => exact ⟨m, by simpa using h, rfl, fun rest => ⟨[], by simp, .pure⟩⟩
  | cons k t ih =>
    obtain ⟨m', h1, h2, h3⟩ := ih _ _ (inverse_add h inst k)
    refine ⟨m', by simpa using h1, h2, fun rest => ?_⟩
    obtain ⟨n, h4, h5⟩ := h3 rest
    have hk := h k
    unfold requestedFrom at hk
    cases hf : earlier.find? fun e => e.2 == k with
    | none =>
      refine ⟨n, ?_, ?_⟩
      · show ignoredNote earlier (inst, k) ++ installFromNotes (earlier ++ [(inst, k)]) (t.map (fun k => (inst, k)) ++ rest) = _
        rw [h4]
        unfold ignoredNote
        simp only [hf]
        simp
      · rw [hf] at hk
        refine Says.bind (m := []) (a := ()) ?_ h5
        unfold sayTwice
        rw [hk]
        exact .pure
    | some e =>
      rw [hf] at hk
      refine ⟨ignoredNote earlier (inst, k) ++ n, ?_, ?_⟩
      rotate_left
      · refine Says.bind (a := ()) ?_ h5
        unfold sayTwice
        rw [hk, ho]
        refine Says.congr (says_error _) ?_
        unfold ignoredNote
        simp only [hf]
        simp [words, quoted]
      · show ignoredNote earlier (inst, k) ++ installFromNotes (earlier ++ [(inst, k)]) (t.map (fun k => (inst, k)) ++ rest) = _
        rw [h4]
        simp

theorem says_installFrom {c : Console} (ho : c.on = false) (f : Dict String (List String)) (m : Dict String String) (earlier : List (String × String))
    (h : Inverse m earlier) :
    Says c.verbose (installFromSaying c m f) (installFromNotes earlier (installFromPairs f)) (f.foldl installFromStep m) := by
  induction f generalizing m earlier with
  | nil => exact .pure
  | cons ik t ih =>
    obtain ⟨m', h1, h2, h3⟩ := says_keys ho ik.1 ik.2 m earlier h
    obtain ⟨n, h4, h5⟩ := h3 (installFromPairs t)
    subst h2
    have := ih _ _ h1
    exact Says.congr (Says.bind h5 this) h4.symm

theorem inverse_map (f : Dict String (List String)) : Inverse (installFromMap f) (installFromPairs f) := by
  have gen : ∀ (m : Dict String String) (earlier : List (String × String)), Inverse m earlier → Inverse (f.foldl installFromStep m) (earlier ++ installFromPairs f) := by
    induction f with
    | nil => intro m earlier h; simpa [installFromPairs] using h
    | cons ik t ih =>
      intro m earlier h
      have hk : ∀ (ks : List String) (m : Dict String String) (earlier : List (String × String)), Inverse m earlier →
          Inverse (ks.foldl (installFromKey ik.1) m) (earlier ++ ks.map fun k => (ik.1, k)) := by
        intro ks
        induction ks with
        | nil => intro m e h; simpa using h
        | cons k t ih => intro m e h; simpa using ih _ _ (inverse_add h ik.1 k)
      have := ih _ _ (hk ik.2 m earlier h)
      simpa [installFromPairs, installFromStep] using this
  exact gen [] [] fun k => rfl

/-! ## Lemmas: the choice -/

theorem coreLoop_name (d : InstDict) (l : List (Installer σ)) :
    (coreLoop d l).map (fun r => r.1.name) = (l.map (·.name)).find? fun i => i ∈ d.map Prod.fst := by
  induction l with
  | nil => rfl
  | cons i t ih =>
    unfold coreLoop
    have hm : i.name ∈ d.map Prod.fst ↔ (dget d i.name).isSome := mem_dkeys_iff
    rw [List.map_cons, List.find?_cons]
    cases hd : dget d i.name with
    | some r => rw [hd] at hm; simp only [hm.2 rfl, decide_true]; rfl
    | none =>
      rw [hd] at hm
      have : i.name ∉ d.map Prod.fst := fun h => by simpa using hm.1 h
      simp only [this, decide_false]
      exact ih

theorem says_found {c : Console} (ho : c.on = false) (key how inst : String) :
    Says c.verbose (sayFound c key how.toList inst) [.chat (foundText key how inst)] () :=
  (says_infoV ho _).congr (by simp [foundText, words, quoted])

theorem says_additional {c : Console} (ho : c.on = false) (key : String) (d : InstDict) (l : List (Installer σ)) :
    Says c.verbose (sayAdditional c key d l)
      (((l.map (·.name)).filter fun i => i ∈ d.map Prod.fst).map fun i => .chat (foundText key "additional" i)) () := by
  induction l with
  | nil => exact .pure
  | cons i t ih =>
    have hm : dhas d i.name = true ↔ i.name ∈ d.map Prod.fst := dhas_iff
    rw [List.map_cons, List.filter_cons]
    by_cases hd : dhas d i.name = true
    · simp only [hm.1 hd, decide_true, if_true, List.map_cons]
      refine Says.bind (m := [_]) (a := ()) ?_ ih
      unfold sayIfFound
      rw [if_pos hd]
      exact says_found ho key "additional" i.name
    · have : i.name ∉ d.map Prod.fst := fun h => hd (hm.2 h)
      simp only [this, decide_false, Bool.false_eq_true, if_false]
      refine Says.bind (m := []) (a := ()) ?_ ih
      unfold sayIfFound
      rw [if_neg hd]
      exact .pure

theorem says_choice {c : Console} (ho : c.on = false) (ic : InstallerCtx σ) (ifm : Dict String String) (key : String) (d : InstDict) :
    Says c.verbose (sayChoice c ic ifm key d)
      (foundNotes (dget ifm key) (ic.plugins.map (·.name)) (ic.core.map (·.name)) (ic.additional.map (·.name)) (d.map Prod.fst) key) () := by
  unfold sayChoice foundNotes
  cases dget ifm key with
  | some inst =>
    simp only
    have hl : (lookupInstaller ic inst).isSome ↔ inst ∈ ic.plugins.map (·.name) := by
      unfold lookupInstaller
      rw [List.find?_isSome]
      simp
    have hm : dhas d inst = true ↔ inst ∈ d.map Prod.fst := dhas_iff
    cases h : lookupInstaller ic inst with
    | none =>
      rw [h] at hl
      have : ¬ (inst ∈ ic.plugins.map (·.name) ∧ inst ∈ d.map Prod.fst) := fun hh => by simpa using hl.2 hh.1
      simp only [this, if_false]
      exact .pure
    | some i =>
      rw [h] at hl
      simp only
      by_cases hd : dhas d inst = true
      · rw [if_pos hd, if_pos ⟨hl.1 rfl, hm.1 hd⟩]
        exact says_found ho key "explicitly requested" inst
      · rw [if_neg hd, if_neg fun hh => hd (hm.2 hh.2)]
        exact .pure
  | none =>
    simp only
    rw [← coreLoop_name]
    cases coreLoop d ic.core with
    | some r => exact says_found ho key "core" r.1.name
    | none => exact says_additional ho key d ic.additional

theorem says_key {c : Console} (ho : c.on = false) (ic : InstallerCtx σ) (f : Dict String (List String)) (lookup : String → Except Exc InstDict)
    (key : String) (o : KeyOutcome) (h : resolveKey ic lookup (installFromMap f) key = .ok o) :
    ∃ notes, SaidOf c.toTexts ic f lookup key notes ∧ Says c.verbose (resolveKeySaying c ic lookup (installFromMap f) key) notes o := by
  have hq : dget (installFromMap f) key = requestedFrom (installFromPairs f) key := inverse_map f key
  unfold resolveKeySaying
  cases hl : lookup key with
  | error e => exact ⟨[], .inr ⟨⟨e, hl⟩, rfl⟩, .lift h⟩
  | ok d =>
    cases d with
    | nil =>
      refine ⟨[], .inl ⟨[], hl, [], ?_, .inr ⟨?_, rfl⟩⟩, .lift h⟩
      · unfold foundNotes
        have hfind : (ic.core.map (·.name)).find? (fun i => decide (i ∈ ([] : InstDict).map Prod.fst)) = none := by simp
        cases requestedFrom (installFromPairs f) key
        · simp only [hfind]; simp
        · simp
      · rintro i rule (⟨-, hd, -⟩ | ⟨-, ⟨_, _, -, hd, -⟩ | ⟨-, _, _, -, hd, -⟩⟩) <;> cases hd
    | cons x d =>
      simp only
      unfold resolveFoundSaying
      have hres : resolveKey ic lookup (installFromMap f) key = (match chooseInstaller ic (installFromMap f) key (x :: d) with
        | .error err => .ok (.error err)
        | .ok r => resolveWith r.1 r.2) := by
        unfold resolveKey; rw [hl]
        show (match chooseInstaller ic (installFromMap f) key (x :: d) with
          | Except.error err => Except.ok (Except.error err)
          | Except.ok (inst, rule) => resolveWith inst rule) = _
        cases chooseInstaller ic (installFromMap f) key (x :: d) <;> rfl
      rw [hres] at h
      have hs := says_choice ho ic (installFromMap f) key (x :: d)
      rw [hq] at hs
      cases hc : chooseInstaller ic (installFromMap f) key (x :: d) with
      | error err =>
        rw [hc] at h
        cases h
        refine ⟨_, .inl ⟨_, hl, [], rfl, .inr ⟨fun i rule hch => ?_, rfl⟩⟩, Says.bind hs .pure⟩
        rw [chooseInstaller_ok_iff.2 hch] at hc
        cases hc
      | ok r =>
        rw [hc] at h
        exact ⟨_, .inl ⟨_, hl, c.ruleWarnings r.1.name r.2, rfl, .inl ⟨r.1, r.2, chooseInstaller_ok_iff.1 hc, rfl⟩⟩,
          Says.bind hs (Says.congr (Says.bind (n := []) (says_warnings ho _) (.lift h)) (by simp))⟩

theorem says_loop {c : Console} (ho : c.on = false) (ic : InstallerCtx σ) (f : Dict String (List String)) (lookup : String → Except Exc InstDict)
    (keys : List String) (acc r : Resolved) (h : resolveLoop ic lookup (installFromMap f) acc keys = .ok r) :
    ∃ notes, List.Forall₂ (SaidOf c.toTexts ic f lookup) keys notes ∧
      Says c.verbose (resolveLoopSaying c ic lookup (installFromMap f) acc keys) notes.flatten r := by
  induction keys generalizing acc with
  | nil => cases h; exact ⟨[], .nil, .pure⟩
  | cons k t ih =>
    have e : resolveLoop ic lookup (installFromMap f) acc (k :: t) =
        (resolveKey ic lookup (installFromMap f) k >>= fun o => resolveLoop ic lookup (installFromMap f) (acc.add k o) t) := by
      rw [resolveLoop]
      cases resolveKey ic lookup (installFromMap f) k with
      | error e => rfl
      | ok o => cases o <;> rfl
    rw [e] at h
    obtain ⟨o, h1, h2⟩ := Except_bind_ok.1 h
    obtain ⟨n, h3, h4⟩ := says_key ho ic f lookup k o h1
    obtain ⟨ns, h5, h6⟩ := ih _ h2
    exact ⟨n :: ns, .cons h3 h5, Says.bind h4 h6⟩

/-! ## C125 -/

/-- **C125** What `resolve` says: every entry of `install_from` that is ignored because an earlier entry lists its key is reported, with the installer that
is used instead; then, key by key, what is said about it. -/
theorem C125_resolve_messages {c : Console} (hoff : c.on = false) (ic : InstallerCtx σ) (db : Database) (f : Dict String (List String)) (keys : List String)
    (all : Bool) (r : Resolved) (h : resolve ic db f keys all = .ok r) :
    ∃ requested notes, RequestedKeys db keys all requested ∧
      List.Forall₂ (SaidOf c.toTexts ic f db.lookup) (removeDuplicates requested) notes ∧
      (resolveSaying c ic db f keys all).res = .ok r ∧
      (resolveSaying c ic db f keys all).lines = shownNotes c.verbose (installFromNotes [] (installFromPairs f) ++ notes.flatten) := by
  unfold resolve at h
  obtain ⟨l, h1, h2⟩ := Except_bind_ok.1 h
  obtain ⟨requested, h3, rfl⟩ := lookupKeys_ok h1
  obtain ⟨notes, h4, h5⟩ := says_loop hoff ic f db.lookup _ _ _ h2
  exact ⟨requested, notes, h3, h4, (Says.bind (Says.lift h1) (Says.bind (says_installFrom hoff f [] [] fun k => rfl) h5) :
    Says c.verbose (resolveSaying c ic db f keys all) _ r)⟩

/-- **C125** The last message that a rule was found for a key that is resolved names the installer used for it. -/
theorem C125_found_names_installer (ic : InstallerCtx σ) (f : Dict String (List String)) (key : String) (d : InstDict) (i : Installer σ) (rule : Rule)
    (h : Chosen ic f key d i rule) :
    ∃ before how, foundNotes (requestedFrom (installFromPairs f) key) (ic.plugins.map (·.name)) (ic.core.map (·.name)) (ic.additional.map (·.name))
      (d.map Prod.fst) key = before ++ [.chat (foundText key how i.name)] := by
  have hq : requestedFrom (installFromPairs f) key = dget (installFromMap f) key := (inverse_map f key).symm
  rw [hq]
  rcases h with ⟨h1, h2, pre, post, h3, h4⟩ | ⟨h1, h2⟩
  · rw [installFromMap_some.2 h1]
    refine ⟨[], "explicitly requested", ?_⟩
    unfold foundNotes
    have : i.name ∈ ic.plugins.map (·.name) := by rw [h3]; simp
    have hd : i.name ∈ d.map Prod.fst := mem_dkeys_iff.2 (by rw [h2]; rfl)
    simp only [this, hd, and_self, if_true]
    rfl
  · rw [installFromMap_none.2 h1]
    unfold foundNotes
    simp only
    rw [← coreLoop_name]
    rcases h2 with h2 | ⟨h2, pre, post, h3, h4, h5⟩
    · rw [coreLoop_some.2 h2]
      exact ⟨[], "core", rfl⟩
    · rw [coreLoop_none.2 h2]
      have hd : i.name ∈ d.map Prod.fst := mem_dkeys_iff.2 (by rw [h4]; rfl)
      have hp : (post.map (·.name)).filter (fun j => decide (j ∈ d.map Prod.fst)) = [] := by
        rw [List.filter_eq_nil_iff]
        intro n hn
        obtain ⟨j, hj, rfl⟩ := List.mem_map.1 hn
        have := h5 j hj
        simp only [decide_eq_true_eq]
        intro hm
        have hm := mem_dkeys_iff.1 (show j.name ∈ dkeys d from hm)
        rw [this] at hm
        cases hm
      refine ⟨((pre.map (·.name)).filter (fun j => decide (j ∈ d.map Prod.fst))).map fun i => .chat (foundText key "additional" i), "additional", ?_⟩
      simp only [Option.map_none, h3, List.map_append, List.map_cons, List.filter_append, List.filter_cons, hd, decide_true, if_true, hp, List.map_nil]

/-- **C124** Every core installer without plugin is reported, verbose or not. -/
theorem C124_missing_core_installers {c : Console} (hoff : c.on = false) (env : StartEnv) (w : Surroundings σ) (cfg : Config) (r : InstallerSetup σ)
    (h : contextFor env w cfg = .ok r) (name : String) (hn : name ∈ r.notFound) :
    .err (words ["ignoring core installer ".toList, quoted name.toList, "; according plugin was not found".toList]) ∈ (contextSaying c env w cfg).lines := by
  obtain ⟨s, oss, os, insts, names, -, -, -, -, -, -, hl⟩ := C124_context_messages hoff env w cfg r h
  have hp : ∀ (l : List Note) (t : List Char), Note.problem t ∈ l → Line.err t ∈ shownNotes c.verbose l := by
    intro l t hm
    induction l with
    | nil => cases hm
    | cons a l ih =>
      rcases List.mem_cons.1 hm with rfl | hm'
      · exact List.mem_cons_self ..
      · cases a with
        | problem x => exact List.mem_cons_of_mem _ (ih hm')
        | chat x =>
          unfold shownNotes
          split
          · exact List.mem_cons_of_mem _ (ih hm')
          · exact ih hm'
  rw [hl]
  apply hp
  refine List.mem_append_right _ (List.mem_append_right _ ?_)
  unfold installerNotes
  exact List.mem_append_left _ (List.mem_append_right _ (List.mem_map_of_mem hn))

/-- **C124** On OS X with the plugins xylem comes with and their default configuration, every command that makes an installer context complains: there is
no plugin for the core installer `gem`. -/
theorem C124_osx_complains {c : Console} (hoff : c.on = false) (env : StartEnv) (w : Surroundings σ) (cfg : Config) (p : Platform) (l : List OsPlugin)
    (hl : Builtins p l) (h : Host σ) (fakeDir : String) (insts : List (InstallerPlugin σ)) (hi : insts.Perm (builtinInstallers h fakeDir))
    (hlsb : p.lsbInfo = none) (hs : p.swVersExists = true) (v : String) (hv : (osxOs p).plugin.getVersion = .ok v) (features : List String)
    (hw : w.osEntries = osEntries l) (hw' : w.installerEntries = installerEntries insts)
    (hc : effectiveSettings cfg = .ok { osOptions := .dict [(.str "features", .list (features.map .str))] }) :
    Line.err "ignoring core installer 'gem'; according plugin was not found".toList ∈ (contextSaying c env w cfg).lines := by
  obtain ⟨r, h1, -, -, h2, -⟩ := C77_osx w.uni env.expand p l hl h fakeDir insts hi hlsb hs v hv features
  have : contextFor env w cfg = .ok r := by
    unfold contextFor
    rw [hc, hw, hw']
    exact h1
  have := C124_missing_core_installers hoff env w cfg r this "gem" (by rw [h2]; simp)
  exact this

/-! ## The whole output -/

/-- **C124** What is said while the database is opened: about spec plugins, the directory of the sources, and source files that are not YAML. -/
theorem C124_database_messages {c : Console} (hoff : c.on = false) (w : Surroundings σ) (cfg : Config) (l : List Source) (h : loadedFor w cfg = .ok l) :
    ∃ paths disabled specs, pathsFor w cfg = .ok paths ∧ (readOpt cfg "disabled_plugins/spec" >>= listValue) = .ok disabled ∧
      loadPlugins w.uni disabled w.specEntries = .ok specs ∧ (loadedSaying c w cfg).res = .ok l ∧
      (loadedSaying c w cfg).lines = shownNotes c.verbose (pluginNotes c.toTexts "spec" "xylem.specs" specs.reports) ++
        placeLines c.verbose (w.sourcesIn paths.sourcesDir).dirExists (isDefaultDirs w.defaultSources w.defaultCache paths) paths.sourcesDir ++
        (sourceFiles (w.sourcesIn paths.sourcesDir) paths.sourcesDir).flatMap (yamlLine c.yaml) := by
  have hl := h
  unfold loadedFor at h
  obtain ⟨paths, h1, h⟩ := Except_bind_ok.1 h
  obtain ⟨ss, h2, h⟩ := Except_bind_ok.1 h
  unfold sourcesFor at h2
  obtain ⟨paths', h1', h2⟩ := Except_bind_ok.1 h2
  rw [h1] at h1'; cases h1'
  obtain ⟨ps, h3, h4⟩ := Except_bind_ok.1 h2
  have h3' := h3
  unfold specsFor at h3
  obtain ⟨disabled, h5, h3⟩ := Except_bind_ok.1 (show ((readOpt cfg "disabled_plugins/spec" >>= listValue) >>= fun d => _) = .ok ps from by
    simpa [bind, Except.bind] using h3)
  obtain ⟨specs, h6, h3⟩ := Except_bind_ok.1 h3
  cases h3
  refine ⟨paths, disabled, specs, h1, h5, h6, ?_⟩
  have hs : Says c.verbose (specsSaying c w cfg) _ (specs.loaded.map Prod.snd) :=
    Says.bind (Says.lift h5) (Says.bind (n := []) (says_loaded hoff "spec" "xylem.specs" w.uni disabled w.specEntries specs h6) .pure)
  obtain ⟨reached, g1, g2, g3⟩ := C120_opening_output c.verbose c.yaml w.defaultSources w.defaultCache (cacheEnvFor w paths) (specs.loaded.map Prod.snd)
    (w.sourcesIn paths.sourcesDir) paths
  have ho : (openSaying c.on c.verbose c.yaml w.defaultSources w.defaultCache (cacheEnvFor w paths) (specs.loaded.map Prod.snd)
    (w.sourcesIn paths.sourcesDir) paths).res = .ok ss := by rw [C120_same_database]; exact h4
  have hr : (loadedSaying c w cfg).res = .ok l := by
    rw [(loaded_same c w cfg).1, loadedNoting_after]
    exact hl
  refine ⟨hr, ?_⟩
  unfold loadedSaying at hr ⊢
  rw [h1, run_lift_ok] at hr ⊢
  rw [run_bind_ok hs.1] at hr ⊢
  rw [run_bind_ok ho] at hr ⊢
  simp only [hs.2, shown_append, hoff, g2, g3 ss h4, List.nil_append]
  simp [Run.lift, shownNotes]

/-- Setting up, then the database, then the rest. -/
theorem whole_lines {α : Type} {c : Console} {env : StartEnv} {w : Surroundings σ} {cfg : Config} {ic : InstallerSetup σ} {os : OsSetup} {db : Database}
    {f : Dict String (List String)} {r : Resolved} {keys : List String} {all : Bool} {g : InstallerSetup σ × OsSetup → Database × Dict String (List String) → Resolved → Run α}
    (h1 : contextFor env w cfg = .ok ic) (h2 : osFor env w cfg = .ok os) (h3 : databaseFor env w cfg = .ok db) (h4 : installFromOf cfg = .ok f)
    (h5 : resolve ic.context db f keys all = .ok r) :
    (contextSaying c env w cfg >>= fun x => resolveInputsSaying c env w cfg >>= fun i => resolveSaying c x.1.context i.1 i.2 keys all >>= g x i) =
      (g (ic, os) (db, f) r).after
        ((contextSaying c env w cfg).lines ++ (loadedSaying c w cfg).lines ++ (resolveSaying c ic.context db f keys all).lines) := by
  have hc : (contextSaying c env w cfg).res = .ok (ic, os) := by
    rw [(context_same c env w cfg).1]
    unfold contextAndOs
    rw [h1, h2]
    rfl
  have h3' := h3
  unfold databaseFor at h3
  obtain ⟨l, g1, h3⟩ := Except_bind_ok.1 h3
  obtain ⟨k, g2, h3⟩ := Except_bind_ok.1 h3
  cases h3
  have hi : resolveInputsSaying c env w cfg = ⟨(loadedSaying c w cfg).lines, .ok (databaseOf w.uni l k, f)⟩ := by
    have hl : (loadedSaying c w cfg).res = .ok l := by
      rw [(loaded_same c w cfg).1, loadedNoting_after]
      exact g1
    unfold resolveInputsSaying
    rw [run_bind_ok hl, g2, run_lift_ok, h4, run_lift_ok]
    simp [pure]
  have hr : (resolveSaying c ic.context (databaseOf w.uni l k) f keys all).res = .ok r := by
    rw [(resolve_same _ _ _ _ _ _).1]
    exact h5
  rw [run_bind_ok hc, hi, run_bind_ok rfl]
  simp only
  rw [run_bind_ok hr]
  simp [Run.after]

/-- **C125** Everything `xylem resolve` and `xylem install` print, on both streams and in order, if they get as far as results: what is said about setting
up (`C124_context_messages`), opening the database (`C124_database_messages`) and resolving (`C125_resolve_messages`), and then what the programs print
without messages. -/
theorem C125_complete_output (t : Texts) {env : StartEnv} {w : Surroundings σ} {desc : Desc} (text : Bool → Exc → List Char)
    (etext : String × ResErr → List Char) (itext : InstErr → List Char) {fresh : Bool} {top sub : List OptSpec} {p p' : Process}
    {before after : List Given} {keys : List String} {ns : ArgSpace} (s : σ) {ic : InstallerSetup σ} {db : Database} {f : Dict String (List String)}
    {r : Resolved}
    (hr : reached env desc fresh top sub (requireKeys keys) p before after = .ok (p', ns))
    (h1 : contextFor env w p'.config = .ok ic) (h2 : databaseFor env w p'.config = .ok db) (h3 : installFromOf p'.config = .ok f) :
    (resolve ic.context db f keys (resolveArgsOf ns keys).all = .ok r →
      (xylemResolveSaying t env w desc text etext fresh top sub p before after keys).2.lines =
        (contextSaying (p'.console t) env w p'.config).lines ++ (loadedSaying (p'.console t) w p'.config).lines ++
        (resolveSaying (p'.console t) ic.context db f keys (resolveArgsOf ns keys).all).lines ++
        (xylemResolve env w desc text etext fresh top sub p before after keys).2.lines) ∧
    (resolve ic.context db f keys (installArgsOf ns keys).all = .ok r →
      (xylemInstallSaying t env w desc text etext itext fresh top sub p before after keys s).2.lines =
        (contextSaying (p'.console t) env w p'.config).lines ++ (loadedSaying (p'.console t) w p'.config).lines ++
        (resolveSaying (p'.console t) ic.context db f keys (installArgsOf ns keys).all).lines ++
        (xylemInstall env w desc text etext itext fresh top sub p before after keys s).2.lines) := by
  obtain ⟨os, hos⟩ := context_has_os h1
  have hm : ∀ (n : List Line) (g : Run (Option Int)), (mainTry p'.color p'.debug text (g.after n)).lines = n ++ (mainTry p'.color p'.debug text g).lines := by
    intro n g
    unfold mainTry Run.after
    cases g.res with
    | ok x => simp
    | error e =>
      simp only
      split
      · split <;> simp
      · split <;> simp
  constructor
  · intro h4
    unfold xylemResolveSaying xylemResolve
    rw [mainWith_reached hr, mainWith_reached hr]
    have e : resolveFuncSaying t env w etext keys p' ns = (resolveFunc env w etext keys p' ns).after
        ((contextSaying (p'.console t) env w p'.config).lines ++ (loadedSaying (p'.console t) w p'.config).lines ++
        (resolveSaying (p'.console t) ic.context db f keys (resolveArgsOf ns keys).all).lines) := by
      unfold resolveFuncSaying resolveFunc
      have := whole_lines (c := p'.console t) (g := fun x _ r => printResolved p'.color etext x.2.os.plugin.defaultInstaller (resolveArgsOf ns keys).showDefault r)
        h1 hos h2 h3 h4
      rw [this, after_interruptible, after_none, h1, run_lift_ok, hos, run_lift_ok, h2, run_lift_ok, h3, run_lift_ok, h4, run_lift_ok]
    rw [e]
    exact hm _ _
  · intro h4
    unfold xylemInstallSaying xylemInstall
    rw [mainWith_reached hr, mainWith_reached hr]
    have e : installFuncSaying t env w etext itext keys s p' ns = (installFunc env w etext itext keys s p' ns).after
        ((contextSaying (p'.console t) env w p'.config).lines ++ (loadedSaying (p'.console t) w p'.config).lines ++
        (resolveSaying (p'.console t) ic.context db f keys (installArgsOf ns keys).all).lines) := by
      unfold installFuncSaying installFunc
      have := whole_lines (c := p'.console t) (g := fun x i _ => Run.said p'.color w.machine.ansi
          (install w.machine x.1.context i.1 i.2 (installArgsOf ns keys).opts keys (installArgsOf ns keys).all s) >>= printReport p'.color etext itext)
        h1 hos h2 h3 h4
      rw [this, after_interruptible, after_none]
      congr 2
      have hin : installInputs env w p'.config = .ok ⟨ic.context, db, f⟩ := by
        unfold installInputs
        rw [h1, h2, h3]
        rfl
      unfold installRun
      rw [hin]
    rw [e]
    exact hm _ _

end Verif
