import Verif.Props.UpdateReport
import Verif.Props.Opened
/-! # C120: what opening the database prints; C119: the output of `xylem update` -/
namespace Verif

/-! ## Specification -/

/-- What is printed about one file of source descriptions (colours off): one message on stderr if it is not YAML. -/
def yamlLine (ytext : String → List Char) (f : String × Except Exc PVal) : List Line :=
  match f.2 with
  | .error .yamlError => [.err ("Invalid YAML in source list file '".toList ++ f.1.toList ++ "'".toList ++ ytext f.1)]
  | _ => []

/-- What is printed about the place sources are read from (colours off). -/
def placeLines (verbose dirExists defaultDirs : Bool) (sourcesDir : String) : List Line :=
  match dirExists, defaultDirs, verbose with
  | true, _, true => [.out ("Loading source urls from '".toList ++ sourcesDir.toList ++ "'".toList)]
  | true, _, false => []
  | false, true, true => [.out "Loading default source urls".toList]
  | false, true, false => []
  | false, false, true => [.err ("no source files found in source dir '".toList ++ sourcesDir.toList ++ "'; using default sources".toList),
      .out "Loading default source urls".toList]
  | false, false, false => [.err ("no source files found in source dir '".toList ++ sourcesDir.toList ++ "'; using default sources".toList)]

/-! ## Lemmas -/

theorem infoIf_res (on verbose : Bool) (m : List Char) : (infoIf on verbose m).res = .ok () := by cases verbose <;> rfl

theorem choose_res (on verbose : Bool) (ds dc : String) (p : SourcesPaths) (w : SourcesWorld) : (chooseSaying on verbose ds dc p w).res = .ok () := by
  unfold chooseSaying
  cases w.dirExists with
  | true => exact infoIf_res _ _ _
  | false =>
    have : (warnDefault on ds dc p).res = .ok () := by
      unfold warnDefault; cases isDefaultDirs ds dc p <;> rfl
    simp only [Bool.false_eq_true, if_false]
    rw [run_bind_ok this]
    exact infoIf_res _ _ _

theorem choose_lines (verbose : Bool) (ds dc : String) (p : SourcesPaths) (w : SourcesWorld) :
    (chooseSaying false verbose ds dc p w).lines = placeLines verbose w.dirExists (isDefaultDirs ds dc p) p.sourcesDir := by
  have hi : ∀ m, (infoIf false verbose m).lines = if verbose then [.out m] else [] := by
    intro m
    unfold infoIf
    cases verbose
    · rfl
    · simp only [if_true]; unfold info; rw [ansi_off (by simp)]; simp
  unfold chooseSaying
  cases w.dirExists with
  | true => simp only [if_true, hi]; cases verbose <;> rfl
  | false =>
    have h1 : (warnDefault false ds dc p).res = .ok () := by
      unfold warnDefault; cases isDefaultDirs ds dc p <;> rfl
    simp only [Bool.false_eq_true, if_false]
    rw [run_bind_ok h1]
    simp only [hi]
    unfold warnDefault
    cases isDefaultDirs ds dc p with
    | true => cases verbose <;> rfl
    | false =>
      simp only [Bool.false_eq_true, if_false]
      unfold warning
      rw [ansi_off (by simp), ansi_off (by simp)]
      cases verbose <;> simp [placeLines]

theorem parse_saying (on : Bool) (ytext : String → List Char) (file : String) (parsed : Except Exc PVal) :
    (parseSaying on ytext file parsed).res = parseSourceDescriptions parsed ∧
    (parseSaying false ytext file parsed).lines = yamlLine ytext (file, parsed) := by
  unfold parseSaying yamlLine
  cases parsed with
  | ok v => exact ⟨rfl, rfl⟩
  | error e =>
    by_cases he : e = .yamlError
    · subst he
      refine ⟨rfl, ?_⟩
      simp only [if_true]
      rw [run_bind_ok (r := error false _) (a := ()) rfl]
      unfold error
      rw [ansi_off (by simp), ansi_off (by simp), ansi_off (by simp)]
      simp [pure]
    · refine ⟨?_, ?_⟩
      · simp only [if_neg he]; unfold parseSourceDescriptions; simp only [if_neg he]; rfl
      · simp only [if_neg he]
        cases e <;> first | rfl | exact absurd rfl he

theorem run_res_bind {α β : Type} (r : Run α) (f : α → Run β) : (r >>= f).res = r.res.bind fun a => (f a).res := by
  cases h : r.res with
  | ok a => rw [run_bind_ok h]; rfl
  | error e => rw [run_bind_error h]; rfl

theorem init_res (on : Bool) (ytext : String → List Char) (plugins : List Spec) (files : List (String × Except Exc PVal)) :
    (initSaying on ytext plugins files).res = initFromFiles plugins files := by
  induction files with
  | nil => rfl
  | cons f t ih =>
    obtain ⟨file, parsed⟩ := f
    unfold initSaying initFromFiles
    rw [run_res_bind, (parse_saying on ytext file parsed).1]
    show Except.bind _ _ = Except.bind _ _
    congr 1
    funext v
    rw [run_res_bind]
    show Except.bind (iterVal v) _ = Except.bind _ _
    congr 1
    funext descrs
    rw [run_res_bind]
    show Except.bind (descrs.mapM (mkSourceOfDescr plugins file)) _ = Except.bind _ _
    congr 1
    funext l
    rw [run_res_bind, ih]
    rfl

theorem init_lines (ytext : String → List Char) (plugins : List Spec) (files : List (String × Except Exc PVal)) :
    ∃ reached, reached <+: files ∧ (initSaying false ytext plugins files).lines = reached.flatMap (yamlLine ytext) ∧
      (∀ ss, initFromFiles plugins files = .ok ss → reached = files) := by
  induction files with
  | nil => exact ⟨[], List.nil_prefix, rfl, fun _ _ => rfl⟩
  | cons f t ih =>
    obtain ⟨file, parsed⟩ := f
    obtain ⟨r, hr, hl, hall⟩ := ih
    have hres := init_res false ytext plugins ((file, parsed) :: t)
    unfold initSaying at hres ⊢
    have hp := parse_saying false ytext file parsed
    -- one file only, if something fails
    have stop : ∀ (x : Run (List Source)) (e : Exc), x.lines = yamlLine ytext (file, parsed) → x.res = .error e →
        x.res = initFromFiles plugins ((file, parsed) :: t) →
        ∃ reached, reached <+: (file, parsed) :: t ∧ x.lines = reached.flatMap (yamlLine ytext) ∧
          (∀ ss, initFromFiles plugins ((file, parsed) :: t) = .ok ss → reached = (file, parsed) :: t) := by
      intro x e h1 h2 h3
      refine ⟨[(file, parsed)], ⟨t, rfl⟩, by simp [h1], fun ss hss => ?_⟩
      rw [← h3, h2] at hss; cases hss
    cases h1 : (parseSaying false ytext file parsed).res with
    | error e =>
      rw [run_bind_error h1] at hres ⊢
      exact stop _ e hp.2 rfl hres
    | ok v =>
      rw [run_bind_ok h1] at hres ⊢
      cases h2 : iterVal v with
      | error e =>
        rw [h2, run_lift_error] at hres
        rw [run_lift_error]
        exact stop _ e (by simp [hp.2]) rfl hres
      | ok descrs =>
        rw [h2, run_lift_ok] at hres
        rw [run_lift_ok]
        cases h3 : descrs.mapM (mkSourceOfDescr plugins file) with
        | error e =>
          rw [h3, run_lift_error] at hres
          rw [run_lift_error]
          exact stop _ e (by simp [hp.2]) rfl hres
        | ok l =>
          rw [h3, run_lift_ok] at hres
          rw [run_lift_ok]
          cases h4 : (initSaying false ytext plugins t).res with
          | error e =>
            rw [run_bind_error h4] at hres ⊢
            refine ⟨(file, parsed) :: r, by simpa using hr, by simp [hp.2, hl], fun ss hss => ?_⟩
            rw [← hres] at hss; cases hss
          | ok ss' =>
            rw [run_bind_ok h4] at hres ⊢
            refine ⟨(file, parsed) :: r, by simpa using hr, by simp [hp.2, hl, pure], fun ss hss => ?_⟩
            rw [hall ss' (by rw [← init_res false ytext]; exact h4)]

/-! ## C120 -/

/-- **C120** Being verbose or coloured changes nothing: the database is opened with the same sources, or the same exception. -/
theorem C120_same_database (on verbose : Bool) (ytext : String → List Char) (ds dc : String) (env : CacheEnv) (plugins : List Spec)
    (w : SourcesWorld) (p : SourcesPaths) :
    (openSaying on verbose ytext ds dc env plugins w p).res = openDatabase env plugins w p.sourcesDir := by
  unfold openSaying openDatabase
  rw [run_bind_ok (choose_res on verbose ds dc p w)]
  show (initSaying on ytext plugins (sourceFiles w p.sourcesDir) >>= _).res = _
  rw [run_res_bind, init_res]
  show Except.bind _ _ = Except.bind _ _
  congr 1
  funext ss
  rw [run_res_bind]
  rfl

/-- **C120** What opening the database prints (colours off): where sources are read from if verbose; the warning that default sources are used exactly
if the sources dir does not exist and the directories are not the default ones; one message per file that is not YAML. If opening fails, files after
the one at which it fails are not read. -/
theorem C120_opening_output (verbose : Bool) (ytext : String → List Char) (ds dc : String) (env : CacheEnv) (plugins : List Spec)
    (w : SourcesWorld) (p : SourcesPaths) :
    ∃ reached, reached <+: sourceFiles w p.sourcesDir ∧
      (openSaying false verbose ytext ds dc env plugins w p).lines =
        placeLines verbose w.dirExists (isDefaultDirs ds dc p) p.sourcesDir ++ reached.flatMap (yamlLine ytext) ∧
      (∀ ss, openDatabase env plugins w p.sourcesDir = .ok ss → reached = sourceFiles w p.sourcesDir) := by
  obtain ⟨reached, h1, h2, h3⟩ := init_lines ytext plugins (sourceFiles w p.sourcesDir)
  refine ⟨reached, h1, ?_, fun ss hss => ?_⟩
  · unfold openSaying
    rw [run_bind_ok (choose_res false verbose ds dc p w), choose_lines]
    show placeLines verbose w.dirExists (isDefaultDirs ds dc p) p.sourcesDir ++ _ = _
    congr 1
    show (initSaying false ytext plugins (sourceFiles w p.sourcesDir) >>= _).lines = _
    cases hr : (initSaying false ytext plugins (sourceFiles w p.sourcesDir)).res with
    | error e => rw [run_bind_error hr]; exact h2
    | ok ss =>
      rw [run_bind_ok hr, h2]
      cases hv : verifyUniqueIds env ss with
      | error e => simp only [run_lift_error, List.append_nil]
      | ok u => simp only [run_lift_ok, pure, List.append_nil]
  · exact h3 ss (openDatabase_ok.1 hss).1

/-- **C120** Unless verbose, opening the database prints nothing on stdout; the results a command prints are not mixed with anything. If verbose, it
prints exactly one line there. -/
theorem C120_stdout (verbose : Bool) (ytext : String → List Char) (ds dc : String) (env : CacheEnv) (plugins : List Spec)
    (w : SourcesWorld) (p : SourcesPaths) :
    ((openSaying false verbose ytext ds dc env plugins w p).lines.filterMap onStdout).length = if verbose then 1 else 0 := by
  obtain ⟨reached, -, h, -⟩ := C120_opening_output verbose ytext ds dc env plugins w p
  have hy : (reached.flatMap (yamlLine ytext)).filterMap onStdout = [] := by
    rw [List.filterMap_eq_nil_iff]
    intro x hx
    obtain ⟨f, -, hf⟩ := List.mem_flatMap.1 hx
    unfold yamlLine at hf
    split at hf
    · rw [List.mem_singleton] at hf; subst hf; rfl
    · cases hf
  rw [h, List.filterMap_append, hy, List.append_nil]
  cases verbose <;> cases w.dirExists <;> cases isDefaultDirs ds dc p <;> rfl

theorem pathJoin_sources_inj {a b : String} (ha : a ≠ "") (hb : b ≠ "") (ha' : a.toList.getLast? ≠ some '/') (hb' : b.toList.getLast? ≠ some '/')
    (h : pathJoin a "sources" = pathJoin b "sources") : a = b := by
  obtain ⟨x, hx, hx'⟩ := pathJoin_plain (a := a) (b := "sources") (by decide) ha
  obtain ⟨y, hy, hy'⟩ := pathJoin_plain (a := b) (b := "sources") (by decide) hb
  rw [h, hy] at hx
  have hxy := List.append_cancel_right hx
  have ex : x = a.toList := hx'.resolve_right (fun e => ha' (by rw [← e]; simp))
  have ey : y = b.toList := hy'.resolve_right (fun e => hb' (by rw [← e]; simp))
  exact String.toList_inj.1 (by rw [← ex, ← ey, hxy])

/-- **C120** The directories: `sources_dir` and `cache_dir` of the config decide, `None` and `''` stand for the defaults; the cache of sources is
`sources` inside of the cache dir. They count as default directories exactly if both are the defaults (for directories given without trailing slash,
as the configured ones are, C100). -/
theorem C120_directories (ds dc : String) (s k : Option String) (hdc : dc ≠ "") (hdc' : dc.toList.getLast? ≠ some '/')
    (hk : ∀ x, k = some x → x.toList.getLast? ≠ some '/') :
    (setupPaths ds dc s k).sourcesDir = (if s = none ∨ s = some "" then ds else s.getD ds) ∧
    (setupPaths ds dc s k).cacheDir = pathJoin (if k = none ∨ k = some "" then dc else k.getD dc) "sources" ∧
    (isDefaultDirs ds dc (setupPaths ds dc s k) = true ↔
      (s = none ∨ s = some "" ∨ s = some ds) ∧ (k = none ∨ k = some "" ∨ k = some dc)) := by
  have ho : ∀ (a : Option String) (b : String), orDefault a b = if a = none ∨ a = some "" then b else a.getD b := by
    intro a b
    cases a with
    | none => rfl
    | some x => by_cases hx : x = "" <;> simp [orDefault, hx]
  have hs : ∀ (a : Option String) (b : String), orDefault a b = b ↔ a = none ∨ a = some "" ∨ a = some b := by
    intro a b
    cases a with
    | none => simp [orDefault]
    | some x => by_cases hx : x = "" <;> simp [orDefault, hx]
  refine ⟨ho s ds, by rw [← ho k dc]; rfl, ?_⟩
  rw [← hs s ds, ← hs k dc]
  unfold isDefaultDirs setupPaths sourcesCacheDir
  simp only [Bool.and_eq_true, beq_iff_eq]
  constructor
  · rintro ⟨h1, h2⟩
    refine ⟨h1, ?_⟩
    by_cases h0 : orDefault k dc = ""
    · exfalso
      have := (hs k dc).2
      cases k with
      | none => exact hdc h0
      | some x => by_cases hx : x = "" <;> simp [orDefault, hx] at h0 <;> exact hdc h0
    · apply pathJoin_sources_inj h0 hdc _ hdc' h2
      cases k with
      | none => exact hdc'
      | some x =>
        by_cases hx : x = ""
        · simpa [orDefault, hx] using hdc'
        · simpa [orDefault, hx] using hk x rfl
  · rintro ⟨h1, h2⟩; exact ⟨h1, by rw [h2]⟩

/-! ## C119, the command -/

theorem descrs_origin {plugins : List Spec} {file : String} {descrs : List PVal} {l : List Source}
    (hl : descrs.mapM (mkSourceOfDescr plugins file) = .ok l) : ∀ s ∈ l, s.origin = .str file := by
  induction descrs generalizing l with
  | nil => rw [List.mapM_nil] at hl; rw [pure_ok] at hl; subst hl; intro s hs; cases hs
  | cons d ds ihd =>
    rw [List.mapM_cons] at hl
    obtain ⟨x, hx, hl⟩ := Except_bind_ok.1 hl
    obtain ⟨xs, hxs, hl⟩ := Except_bind_ok.1 hl
    rw [pure_ok] at hl; subst hl
    intro s hs
    rcases List.mem_cons.1 hs with rfl | hs
    · unfold mkSourceOfDescr at hx
      split at hx
      · obtain ⟨sp, -, hx⟩ := Except_bind_ok.1 hx
        unfold mkSource at hx
        obtain ⟨u, -, hx⟩ := Except_bind_ok.1 hx
        rw [pure_ok] at hx; subst hx; rfl
      · cases hx
      · cases hx
    · exact ihd hxs s hs

/-- **C119** Every database that has just been opened: the sources come file by file, and the origin of each is the name of its file. -/
theorem C119_opened {env : CacheEnv} {plugins : List Spec} {w : SourcesWorld} {dir : String} {ss : List Source}
    (h : openDatabase env plugins w dir = .ok ss) :
    ∃ groups : List (String × List Source), groups.map Prod.fst = (sourceFiles w dir).map Prod.fst ∧ ss = groups.flatMap Prod.snd ∧
      ∀ g ∈ groups, ∀ s ∈ g.2, s.origin = .str g.1 := by
  replace h := (openDatabase_ok.1 h).1
  generalize sourceFiles w dir = files at h
  induction files generalizing ss with
  | nil => injection h with h; subst h; exact ⟨[], rfl, rfl, by simp⟩
  | cons f t ih =>
    obtain ⟨file, parsed⟩ := f
    unfold initFromFiles at h
    obtain ⟨v, -, h⟩ := Except_bind_ok.1 h
    obtain ⟨descrs, -, h⟩ := Except_bind_ok.1 h
    obtain ⟨l, hl, h⟩ := Except_bind_ok.1 h
    obtain ⟨r, hr, h⟩ := Except_bind_ok.1 h
    rw [pure_ok] at h; subst h
    obtain ⟨groups, g1, rfl, g3⟩ := ih hr
    refine ⟨(file, l) :: groups, by simp [g1], by simp, ?_⟩
    rintro g hg s hs
    rcases List.mem_cons.1 hg with rfl | hg
    · exact descrs_origin hl s hs
    · exact g3 g hg s hs

theorem opened_origins {env : CacheEnv} {plugins : List Spec} {w : SourcesWorld} {dir : String} {ss : List Source}
    (h : openDatabase env plugins w dir = .ok ss) (outcome : Source → Outcome) : TextOrigins (ss.map fun s => (s, outcome s)) := by
  obtain ⟨groups, -, rfl, hg⟩ := C119_opened h
  intro so hso
  obtain ⟨s, hs, rfl⟩ := List.mem_map.1 hso
  obtain ⟨g, h1, h2⟩ := List.mem_flatMap.1 hs
  exact ⟨g.1, hg g h1 s h2⟩

/-- **C119** Saying all this does not change how `xylem update` ends. -/
theorem C119_same_ending (on verbose dryRun : Bool) (ytext : String → List Char) (str : PVal → List Char) (text : Exc → List Char) (ds dc : String)
    (env : CacheEnv) (plugins : List Spec) (dir : DirWorld) (w : SourcesWorld) (p : SourcesPaths) (outcome : Source → Outcome) :
    (updateCommandSaying on verbose ytext str text ds dc env plugins dir w p outcome).res =
      (updateCommand on dryRun env plugins dir w p.sourcesDir outcome).res := by
  have hi : ∀ a b : Run Unit, a.res = b.res → (interruptible on a).res = (interruptible on b).res := by
    intro a b h
    cases hb : b.res with
    | ok u => cases u; rw [interruptible_ok hb, interruptible_ok (h.trans hb), h]
    | error e =>
      rw [interruptible_error hb, interruptible_error (h.trans hb)]
      split
      · rfl
      · exact h
  apply hi
  unfold updateSaying updateApi
  cases ensureCacheDir dir with
  | error e => rw [run_lift_error]; rfl
  | ok u =>
    cases u
    rw [run_lift_ok]
    show (openSaying on verbose ytext ds dc env plugins w p >>= _).res = _
    rw [run_res_bind, C120_same_database]
    cases ho : openDatabase env plugins w p.sourcesDir with
    | error e => rfl
    | ok ss =>
      show (UpdateTrace.run on str text _).res = _
      unfold UpdateTrace.run
      simp only
      rw [(C119_same_update env true false _ (opened_origins ho outcome)).2.2]
      rfl

/-- **C119** The output of `xylem update` (colours off) if it is not interrupted: what opening the database prints, then for each thing the update does
(`C119_update_report`) its line: progress on stdout, failures on stderr. -/
theorem C119_update_output (verbose : Bool) (ytext : String → List Char) (str : PVal → List Char) (text : Exc → List Char) (ds dc : String)
    (env : CacheEnv) (plugins : List Spec) (dir : DirWorld) (w : SourcesWorld) (p : SourcesPaths) (outcome : Source → Outcome) (ss : List Source)
    (hdir : ensureCacheDir dir = .ok ()) (hopen : openDatabase env plugins w p.sourcesDir = .ok ss)
    (hni : ∀ s ∈ ss, NotInterrupted env (s, outcome s)) :
    let events := (updateTelling env true false [] (ss.map fun s => (s, outcome s))).events
    (updateCommandSaying false verbose ytext str text ds dc env plugins dir w p outcome).res = .ok () ∧
    (updateCommandSaying false verbose ytext str text ds dc env plugins dir w p outcome).lines =
      placeLines verbose w.dirExists (isDefaultDirs ds dc p) p.sourcesDir ++ (sourceFiles w p.sourcesDir).flatMap (yamlLine ytext) ++
      events.flatMap (UpdateEvent.lines false str text) ∧
    (∀ origin, UpdateEvent.lines false str text (.processing origin) = [.out ("Processing '".toList ++ str origin ++ "'...".toList)]) ∧
    (∀ name args, UpdateEvent.lines false str text (.loading name args) = [.out ("Loading: ".toList ++ name.toList ++ " : ".toList ++ str args)]) ∧
    (∀ f, UpdateEvent.lines false str text (.step f) = []) ∧
    (∀ id e, UpdateEvent.lines false str text (.notLoaded id e) =
      [.err ("Failed to load source '".toList ++ str id ++ "':\n".toList ++ text e)]) ∧
    (∀ id e, UpdateEvent.lines false str text (.notSaved id e) =
      [.err ("Failed to save source '".toList ++ str id ++ "' to cache:\n".toList ++ text e)]) := by
  have hni' : ∀ so ∈ ss.map fun s => (s, outcome s), NotInterrupted env so := by
    intro so hso; obtain ⟨s, hs, rfl⟩ := List.mem_map.1 hso; exact hni s hs
  have hr : (updateTelling env true false [] (ss.map fun s => (s, outcome s))).raised = none := by
    rw [(C119_same_update env true false _ (opened_origins hopen outcome)).2.2, (C19_update_memory env _ hni').1]
  obtain ⟨reached, -, h2, h3⟩ := C120_opening_output verbose ytext ds dc env plugins w p
  rw [h3 ss hopen] at h2
  have ei : ∀ m, (info false m).lines = [.out m] := by
    intro m; unfold info; rw [ansi_off (by simp)]; simp
  have ee : ∀ m, (error false m).lines = [.err m] := by
    intro m; unfold error; rw [ansi_off (by simp), ansi_off (by simp), ansi_off (by simp)]; simp
  have hrun : updateSaying false verbose ytext str text ds dc env plugins dir w p outcome =
      ⟨(openSaying false verbose ytext ds dc env plugins w p).lines ++
        (updateTelling env true false [] (ss.map fun s => (s, outcome s))).events.flatMap (UpdateEvent.lines false str text), .ok ()⟩ := by
    unfold updateSaying
    rw [hdir, run_lift_ok, run_bind_ok ((C120_same_database false verbose ytext ds dc env plugins w p).trans hopen)]
    unfold UpdateTrace.run
    rw [hr]
  have hcmd : updateCommandSaying false verbose ytext str text ds dc env plugins dir w p outcome =
      updateSaying false verbose ytext str text ds dc env plugins dir w p outcome := by
    unfold updateCommandSaying
    exact interruptible_ok (by rw [hrun])
  refine ⟨by rw [hcmd, hrun], by rw [hcmd, hrun, h2], fun o => ?_, fun n a => ?_, fun f => rfl, fun i e => ?_, fun i e => ?_⟩
  · unfold UpdateEvent.lines; exact ei _
  · unfold UpdateEvent.lines; exact ei _
  · unfold UpdateEvent.lines; exact ee _
  · unfold UpdateEvent.lines; exact ee _

/-! ## Examples -/

/-- Two files in the sources dir, the second not YAML. -/
def exReportWorld : SourcesWorld where
  dirExists := true
  listing := ["a.yaml", "b.yaml"]
  isfile := fun _ => true
  parsed := fun p => if p = "/src/a.yaml" then .ok (.list [.dict [(.str "rules", .str "u1")], .dict [(.str "rules", .str "u2")]]) else .error .yamlError
  defaults := []

def exReportSource (url : String) : Source := ⟨rulesSpec (fun _ => false), .str url, .str "/src/a.yaml", .none, .none⟩

example : openDatabase exEnv [rulesSpec (fun _ => false)] exReportWorld "/src" = .ok [exReportSource "u1", exReportSource "u2"] := rfl

/-- `u1` is downloaded and saved, `u2` does not exist. -/
example : (updateCommandSaying false false (fun _ => " at '1:1'".toList) (fun v => match v with | .str s => s.toList | _ => []) (fun _ => "no such url".toList)
    "/etc/xylem/sources.d" "/home/u/.cache" exEnv [rulesSpec (fun _ => false)] ⟨true, .ok (), true⟩ exReportWorld ⟨"/src", "/cache"⟩ (fun _ => exO)).lines =
    [.err "Invalid YAML in source list file '/src/b.yaml' at '1:1'".toList, .out "Processing '/src/a.yaml'...".toList, .out "Loading: rules : u1".toList,
     .out "Loading: rules : u2".toList, .err "Failed to load source 'u2':\nno such url".toList] := by decide +kernel

example : NotInterrupted exEnv (exReportSource "u2", exO) where
  load := by intro e h; cases h; rfl
  verify := by intro d e h; cases h
  path := by intro e h; cases h
  write := by intro e h; rcases h with h | h <;> cases h

/-- The sources dir does not exist: a warning on stderr if it, or the cache dir, was chosen by the user. -/
example : (openSaying false true (fun _ => []) "/etc/s" "/var/c" exEnv [] { exReportWorld with dirExists := false } (setupPaths "/etc/s" "/var/c" none (some "/tmp/c"))).lines =
    [.err "no source files found in source dir '/etc/s'; using default sources".toList, .out "Loading default source urls".toList] := by decide +kernel
example : (openSaying false true (fun _ => []) "/etc/s" "/var/c" exEnv [] { exReportWorld with dirExists := false } (setupPaths "/etc/s" "/var/c" (some "") none)).lines =
    [.out "Loading default source urls".toList] := by decide +kernel

end Verif
