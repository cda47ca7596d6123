import Verif.Lemmas.Database
import Verif.Props.Lookup
/-! # Properties C03, C05 (database), C19 – C25: the database of sources and its cache -/
namespace Verif

/-! ## C03 -/

/-- **C03** A database lookup that succeeds has looked up every source successfully, and gives for each installer the rule
of the first listed source whose own lookup has that installer (so exactly the union of the installers). The hypothesis
`hd` says that what sources return are python dicts (no duplicate keys); for `rules` sources it always holds
(`rules_lookup_DWF`). -/
theorem C03_first_source_wins (uni : Char → Bool) (sources : List Source) (key : String) (c : LookupCtx)
    (hd : ∀ s ∈ sources, ∀ d, s.lookup uni key c = .ok d → DWF d) (res : InstDict)
    (h : dbLookup uni sources key c = .ok res) :
    ∃ ds : List InstDict, List.Forall₂ (fun s d => s.lookup uni key c = .ok d) sources ds ∧
      ∀ inst, dget res inst = ds.findSome? (fun d => dget d inst) := by
  unfold dbLookup at h
  rw [List.foldlM_reverse] at h
  induction sources generalizing res with
  | nil =>
    simp only [List.foldrM_nil, pure_ok] at h; subst h
    exact ⟨[], .nil, fun _ => rfl⟩
  | cons s t ih =>
    rw [List.foldrM_cons] at h
    obtain ⟨r, h1, h2⟩ := Except_bind_ok.1 h
    obtain ⟨ds, h3, h4⟩ := ih (fun s hs => hd s (by simp [hs])) r h1
    unfold dbLookupStep at h2
    obtain ⟨d, h5, h6⟩ := Except_bind_ok.1 h2
    refine ⟨d :: ds, .cons h5 h3, fun inst => ?_⟩
    rw [mergeInst_dget h6, effLast_none (hd s (by simp) d h5) (sourceLookup_noDefault h5), h4, List.findSome?_cons]
    cases dget d inst <;> rfl

/-- **C03** The database lookup succeeds iff the lookup in every source does. -/
theorem C03_succeeds_iff (uni : Char → Bool) (sources : List Source) (key : String) (c : LookupCtx) :
    (∃ res, dbLookup uni sources key c = .ok res) ↔ ∀ s ∈ sources, ∃ d, s.lookup uni key c = .ok d := by
  unfold dbLookup
  rw [List.foldlM_reverse]
  induction sources with
  | nil => simp [pure, Except.pure]
  | cons s t ih =>
    rw [List.foldrM_cons]
    simp only [List.mem_cons, forall_eq_or_imp, ← ih]
    constructor
    · rintro ⟨res, h⟩
      obtain ⟨r, h1, h2⟩ := Except_bind_ok.1 h
      unfold dbLookupStep at h2
      obtain ⟨d, h5, h6⟩ := Except_bind_ok.1 h2
      exact ⟨⟨d, h5⟩, ⟨r, h1⟩⟩
    · rintro ⟨⟨d, h5⟩, ⟨r, h1⟩⟩
      have h6 := (mergeInst_ok_iff' (new := d) (c := r) (dflt := none)).2
        (fun hm => absurd hm (sourceLookup_noDefault h5))
      obtain ⟨res, h6⟩ := h6
      exact ⟨res, Except_bind_ok.2 ⟨r, h1, Except_bind_ok.2 ⟨d, h5, h6⟩⟩⟩

/-- For `rules` sources the side condition of C03 always holds. -/
theorem rules_lookup_DWF {uni u : Char → Bool} {s : Source} (hs : s.spec = rulesSpec u) {key : String} {c : LookupCtx}
    {d : InstDict} (h : s.lookup uni key c = .ok d) : DWF d := by
  obtain ⟨h1, _⟩ := sourceLookup_ok_iff.1 h
  rw [hs] at h1
  simp only [rulesSpec, rulesLookup] at h1
  cases hr : rulesOfVal s.data with
  | none => rw [hr] at h1; simp at h1
  | some r =>
    rw [hr] at h1
    obtain ⟨d', h2, h3⟩ := Except_bind_ok.1 h1
    rw [pure_ok] at h3
    have := congrArg instOfVal h3
    rw [instOfVal_toVal, instOfVal_toVal] at this
    injection this with this
    exact this ▸ lookupRules_DWF h2

/-- A loaded `rules` source with the given data (used in the examples). -/
def exSource (url : String) (r : Rules) : Source := ⟨rulesSpec (fun _ => false), .str url, .str "f.yaml", r.toVal, .none⟩
/-- A context for the examples. -/
def exCtx : LookupCtx := ⟨"ubuntu", "lucid", some "apt"⟩

/-- Non-vacuity for C03: two sources, the first overrides apt, the second adds pip. -/
example : dbLookup (fun _ => false) [exSource "u" [("boost", [("ubuntu", [("lucid", [("apt", [("packages", .list [.str "mine"])])])])])],
      exSource "v" exRules] "boost" exCtx =
    .ok [("pip", [("packages", .list [.str "pyboost"])]), ("apt", [("packages", .list [.str "mine"])])] := by
  rfl

/-! ## C05, database level -/

/-- **C05** Keys of a database of verified `rules` sources: no duplicates, exactly the keys of its sources that have an
`any_os` entry or an entry for this os with this version or `any_version`. -/
theorem C05_db_keys (u : Char → Bool) (sources : List Source) (rs : List Rules) (c : LookupCtx)
    (hs : List.Forall₂ (fun s r => s.spec = rulesSpec u ∧ s.data = Rules.toVal r ∧ Rules.WF r) sources rs) :
    ∃ ks, dbKeys sources c = .ok ks ∧ ks.Nodup ∧ ∀ key, key ∈ ks ↔
      ∃ r ∈ rs, ∃ od, dget r key = some od ∧
        ((∃ vd, dget od "any_os" = some vd) ∨
         ∃ vd, dget od c.os = some vd ∧ ((∃ i, dget vd c.version = some i) ∨ ∃ i, dget vd "any_version" = some i)) := by
  have hm : sources.mapM (fun s => s.keys c) =
      .ok (rs.map fun r => (r.filter fun kv => hasRuleForOs kv.2 c.os c.version).map Prod.fst) := by
    rw [mapM_ok_iff]
    induction hs with
    | nil => exact .nil
    | cons h _ ih =>
      refine .cons ?_ ih
      obtain ⟨h1, h2, _⟩ := h
      unfold Source.keys
      rw [h1, h2]
      simp [rulesSpec, rulesKeys, rulesOfVal_toVal]
  refine ⟨_, Except_bind_ok.2 ⟨_, hm, rfl⟩, nodup_eraseDups _, fun key => ?_⟩
  rw [List.mem_eraseDups, List.mem_flatten]
  simp only [List.mem_map, exists_exists_and_eq_and, List.mem_filter]
  have hwf : ∀ r ∈ rs, Rules.WF r := by
    intro r hr
    clear hm
    induction hs with
    | nil => simp at hr
    | cons h _ ih =>
      rcases List.mem_cons.1 hr with rfl | hr
      · exact h.2.2
      · exact ih hr
  constructor
  · rintro ⟨r, hr, ⟨k, od⟩, ⟨h1, h2⟩, rfl⟩
    exact ⟨r, hr, od, mem_dget (hwf r hr).1 h1, (C05_has_rule_iff _ _ _).1 h2⟩
  · rintro ⟨r, hr, od, h1, h2⟩
    exact ⟨r, hr, (key, od), ⟨dget_some_mem h1, (C05_has_rule_iff _ _ _).2 h2⟩, rfl⟩

/-- **C05** Every key with a non-empty database lookup is listed. -/
theorem C05_db_keys_complete (uni u : Char → Bool) (sources : List Source) (rs : List Rules) (c : LookupCtx)
    (hs : List.Forall₂ (fun s r => s.spec = rulesSpec u ∧ s.data = Rules.toVal r ∧ Rules.WF r) sources rs)
    (key : String) (res : InstDict) (h : dbLookup uni sources key c = .ok res) (hne : res ≠ []) :
    ∃ ks, dbKeys sources c = .ok ks ∧ key ∈ ks := by
  obtain ⟨ks, h1, _, h2⟩ := C05_db_keys u sources rs c hs
  refine ⟨ks, h1, (h2 key).2 ?_⟩
  have hd : ∀ s ∈ sources, ∀ d, s.lookup uni key c = .ok d → DWF d := by
    intro s hm d hl
    have : s.spec = rulesSpec u := by
      clear h h1 h2
      induction hs with
      | nil => simp at hm
      | cons h _ ih =>
        rcases List.mem_cons.1 hm with rfl | hm
        · exact h.1
        · exact ih hm
    exact rules_lookup_DWF this hl
  obtain ⟨ds, h3, h4⟩ := C03_first_source_wins uni sources key c hd res h
  obtain ⟨⟨inst, rule⟩, hmem⟩ := List.exists_mem_of_ne_nil _ hne
  have hg : (dget res inst).isSome := mem_dkeys_iff.1 (mem_dkeys_of_mem hmem)
  rw [h4] at hg
  clear h h1 h2 h4 hd
  induction hs generalizing ds with
  | nil => cases h3; simp at hg
  | @cons s r ss rr h _ ih =>
    cases h3 with
    | @cons _ d _ ds h5 h6 =>
      rw [List.findSome?_cons] at hg
      cases hdi : dget d inst with
      | none =>
        rw [hdi] at hg
        obtain ⟨r', hr', x⟩ := ih ds h6 hg
        exact ⟨r', by simp [hr'], x⟩
      | some ρ =>
        obtain ⟨h7, h8, h9⟩ := h
        obtain ⟨h10, _⟩ := sourceLookup_ok_iff.1 h5
        rw [h7, h8] at h10
        simp only [rulesSpec, rulesLookup, rulesOfVal_toVal] at h10
        obtain ⟨d', h11, h12⟩ := Except_bind_ok.1 h10
        rw [pure_ok] at h12
        have := congrArg instOfVal h12
        rw [instOfVal_toVal, instOfVal_toVal] at this
        injection this with this
        subst this
        obtain ⟨od, h13, h14⟩ := C05_has_rule_complete r key c.os c.version c.dflt d' h11 (by rintro rfl; simp [dget] at hdi)
        exact ⟨r, by simp, od, h13, (C05_has_rule_iff _ _ _).1 h14⟩

example : dbKeys [exSource "u" exRules, exSource "v" exRules] exCtx = .ok ["boost"] := rfl

/-! ## C19: update isolates failing sources -/

theorem distinct_split {env : CacheEnv} {l : List (Source × Outcome)} (h : DistinctCacheFiles env (l.map Prod.fst))
    {so : Source × Outcome} (hm : so ∈ l) :
    ∃ p pre post, so.1.cachePath env = .ok p ∧ l = pre ++ so :: post ∧
      (∀ x ∈ pre, x.1.cachePath env ≠ .ok p) ∧ (∀ x ∈ post, x.1.cachePath env ≠ .ok p) := by
  obtain ⟨paths, h1, h2⟩ := h
  have gen : ∀ {l : List (Source × Outcome)} {paths : List String},
      List.Forall₂ (fun s p => s.cachePath env = .ok p) (l.map Prod.fst) paths → ∀ {p : String}, p ∉ paths →
      ∀ x ∈ l, x.1.cachePath env ≠ .ok p := by
    intro l paths h1 p hp x hx he
    induction l generalizing paths with
    | nil => simp at hx
    | cons a t ih =>
      rw [List.map_cons] at h1
      cases h1 with
      | cons h3 h4 =>
        rcases List.mem_cons.1 hx with rfl | hx
        · rw [h3] at he; injection he with he; subst he; simp at hp
        · exact ih h4 (fun hc => hp (by simp [hc])) hx
  induction l generalizing paths with
  | nil => simp at hm
  | cons a t ih =>
    rw [List.map_cons] at h1
    cases h1 with
    | @cons _ p _ ps h3 h4 =>
      rw [List.nodup_cons] at h2
      rcases List.mem_cons.1 hm with rfl | hm
      · exact ⟨p, [], t, h3, rfl, by simp, gen h4 h2.1⟩
      · obtain ⟨q, pre, post, h5, rfl, h6, h7⟩ := ih hm ps h4 h2.2
        refine ⟨q, a :: pre, post, h5, rfl, ?_, h7⟩
        intro x hx he
        rcases List.mem_cons.1 hx with rfl | hx
        · rw [h3] at he; injection he with he; subst he
          exact gen h4 h2.1 so (by simp) h5
        · exact h6 x hx he

theorem flatMap_other {env : CacheEnv} {l : List (Source × Outcome)} {p : String}
    (h : ∀ x ∈ l, x.1.cachePath env ≠ .ok p) : ∀ st ∈ l.flatMap (srcSteps env), st.path ≠ p := by
  intro st hst hp
  obtain ⟨x, hx, hs⟩ := List.mem_flatMap.1 hst
  have := srcSteps_path hs
  rw [hp] at this
  exact h x hx this

/-- **C19** With `raise_on_error` off an update that is not interrupted (by a KeyboardInterrupt or SystemExit, see C79) never raises, keeps the sources in order, and each source afterwards has
the freshly downloaded data (and otherwise the same fields) if its own download gave valid data, and is unchanged
otherwise: whatever happens to the other sources is irrelevant. -/
theorem C19_update_memory (env : CacheEnv) (l : List (Source × Outcome)) (hni : ∀ so ∈ l, NotInterrupted env so) :
    (dbUpdate env false l).raised = none ∧
    List.Forall₂ (fun so s' =>
        (∀ d, Downloaded so.1 so.2 d → s' = { so.1 with data := d, time := so.2.now }) ∧
        ((∀ d, ¬ Downloaded so.1 so.2 d) → s' = so.1))
      l (dbUpdate env false l).sources := by
  rw [dbUpdate_false env l hni]
  refine ⟨rfl, ?_⟩
  show List.Forall₂ _ l (l.map srcAfter)
  rw [List.forall₂_map_right_iff, List.forall₂_same]
  intro so _
  exact ⟨fun d hd => srcAfter_eq hd, fun hd => srcAfter_fail hd⟩

/-- The cache file of a source after the steps of all sources. -/
theorem flatMap_cache (env : CacheEnv) (l : List (Source × Outcome)) (fs : FileSys)
    (hdist : DistinctCacheFiles env (l.map Prod.fst)) (s : Source) (o : Outcome) (hm : (s, o) ∈ l) (p : String)
    (hp : s.cachePath env = .ok p) :
    (∀ d, Downloaded s o d → o.write = .ok →
      applySteps fs (l.flatMap (srcSteps env)) p = some (goodFile env s d o.now)) ∧
    (∀ d e, Downloaded s o d → o.write = .openFails e → applySteps fs (l.flatMap (srcSteps env)) p = fs p) ∧
    (∀ d e, Downloaded s o d → o.write = .dumpFails e → applySteps fs (l.flatMap (srcSteps env)) p = some .broken) ∧
    ((∀ d, ¬ Downloaded s o d) → applySteps fs (l.flatMap (srcSteps env)) p = fs p) := by
  obtain ⟨q, pre, post, h1, rfl, h2, h3⟩ := distinct_split hdist hm
  simp only at h1; rw [hp] at h1; injection h1 with h1; subst h1
  have key : ∀ fs, applySteps fs ((pre ++ (s, o) :: post).flatMap (srcSteps env)) p =
      applySteps (applySteps fs (pre.flatMap (srcSteps env))) (srcSteps env (s, o)) p := by
    intro fs
    rw [List.flatMap_append, List.flatMap_cons, applySteps_append, applySteps_append]
    exact applySteps_other (flatMap_other h3) _
  have hpre := applySteps_other (flatMap_other h2) fs
  rw [key]
  refine ⟨?_, ?_, ?_, ?_⟩
  · intro d hd hw
    rw [srcSteps_eq hd hp, hw]
    simp [applySteps, FsStep.apply, Source.cacheData, createCacheData, goodFile]
  · intro d e hd hw
    rw [srcSteps_eq hd hp, hw]
    exact hpre
  · intro d e hd hw
    rw [srcSteps_eq hd hp, hw]
    simp [applySteps, FsStep.apply]
  · intro hd
    rw [srcSteps_nil hd]
    exact hpre

/-- **C19** The cache file of a source after such an update: the new content if its own download and write succeeded, the
old content if the download failed or the file could not be opened. Nothing depends on the other sources. -/
theorem C19_update_cache (env : CacheEnv) (l : List (Source × Outcome)) (fs : FileSys) (hni : ∀ so ∈ l, NotInterrupted env so)
    (hdist : DistinctCacheFiles env (l.map Prod.fst)) (s : Source) (o : Outcome) (hm : (s, o) ∈ l) (p : String)
    (hp : s.cachePath env = .ok p) :
    (∀ d, Downloaded s o d → o.write = .ok →
      applySteps fs (dbUpdate env false l).steps p = some (goodFile env s d o.now)) ∧
    (∀ d e, Downloaded s o d → o.write = .openFails e → applySteps fs (dbUpdate env false l).steps p = fs p) ∧
    (∀ d e, Downloaded s o d → o.write = .dumpFails e → applySteps fs (dbUpdate env false l).steps p = some .broken) ∧
    ((∀ d, ¬ Downloaded s o d) → applySteps fs (dbUpdate env false l).steps p = fs p) := by
  rw [dbUpdate_false env l hni]
  exact flatMap_cache env l fs hdist s o hm p hp

/-- **C19** Files that are no source's cache file are never touched, by any update. -/
theorem C19_other_files_untouched (env : CacheEnv) (raiseOnError : Bool) (l : List (Source × Outcome)) (fs : FileSys) (p : String)
    (hp : ∀ so ∈ l, so.1.cachePath env ≠ .ok p) : applySteps fs (dbUpdate env raiseOnError l).steps p = fs p := by
  refine applySteps_other (fun st hst => ?_) fs
  exact flatMap_other hp st ((dbUpdate_steps_prefix env raiseOnError l).subset hst)

/-! ## C20 -/

/-- **C20** With `raise_on_error` on, an update raises iff some source fails. -/
theorem C20_raises_iff (env : CacheEnv) (l : List (Source × Outcome)) :
    (∃ e, (dbUpdate env true l).raised = some e) ↔ ∃ so ∈ l, ¬ UpdateSucceeds env so := by
  rcases dbUpdate_true env l with ⟨h, h2⟩ | ⟨pre, so, post, e, rfl, h1, h2, h3⟩
  · rw [h]
    simp only [reduceCtorEq, exists_false, false_iff, not_exists, not_and, not_not]
    intro so hso
    exact srcErr_none_iff.1 (h2 so hso)
  · rw [h3]
    simp only [Option.some.injEq, exists_eq', true_iff]
    refine ⟨so, by simp, fun hs => ?_⟩
    rw [srcErr_none_iff.2 hs] at h2
    simp at h2

/-- **C20** If it raises, there is a first failing source: all sources before it are loaded in memory and saved in the
cache, all later sources are untouched in memory and on disk. -/
theorem C20_first_failure (env : CacheEnv) (l : List (Source × Outcome)) (fs : FileSys) (e : Exc)
    (hdist : DistinctCacheFiles env (l.map Prod.fst)) (h : (dbUpdate env true l).raised = some e) :
    ∃ pre bad post mem badMem, l = pre ++ bad :: post ∧ ¬ UpdateSucceeds env bad ∧
      (dbUpdate env true l).sources = mem ++ badMem :: post.map Prod.fst ∧
      List.Forall₂ (fun so s' => ∃ d, Downloaded so.1 so.2 d ∧ s' = { so.1 with data := d, time := so.2.now }) pre mem ∧
      (∀ so ∈ pre, ∃ d p, Downloaded so.1 so.2 d ∧ so.1.cachePath env = .ok p ∧
        applySteps fs (dbUpdate env true l).steps p = some (goodFile env so.1 d so.2.now)) ∧
      (∀ so ∈ post, ∀ p, so.1.cachePath env = .ok p → applySteps fs (dbUpdate env true l).steps p = fs p) := by
  rcases dbUpdate_true env l with ⟨h', _⟩ | ⟨pre, so, post, e', rfl, h1, h2, h3⟩
  · rw [h'] at h; simp at h
  · refine ⟨pre, so, post, pre.map srcAfter, srcAfter so, rfl, ?_, by rw [h3], ?_, ?_, ?_⟩
    · intro hs; rw [srcErr_none_iff.2 hs] at h2; simp at h2
    · rw [List.forall₂_map_right_iff, List.forall₂_same]
      intro x hx
      obtain ⟨⟨d, hd⟩, _⟩ := srcErr_none_iff.1 (h1 x hx)
      exact ⟨d, hd, srcAfter_eq hd⟩
    · intro x hx
      obtain ⟨⟨d, hd⟩, ⟨p, hp⟩, hw⟩ := srcErr_none_iff.1 (h1 x hx)
      refine ⟨d, p, hd, hp, ?_⟩
      rw [h3]
      have hdist' : DistinctCacheFiles env ((pre ++ [so]).map Prod.fst) := by
        obtain ⟨paths, g1, g2⟩ := hdist
        have e1 : (pre ++ so :: post).map Prod.fst = (pre ++ [so]).map Prod.fst ++ post.map Prod.fst := by simp
        rw [e1] at g1
        obtain ⟨a, b, g3, g4, rfl⟩ := forall₂_append_left' g1
        exact ⟨a, g3, (List.nodup_append.1 g2).1⟩
      exact (flatMap_cache env (pre ++ [so]) fs hdist' x.1 x.2 (by simp [hx]) p hp).1 d hd hw
    · intro x hx p hp
      rw [h3]
      obtain ⟨q, pre', post', g1, g2, g3, g4⟩ := distinct_split hdist (so := x) (by simp [hx])
      rw [hp] at g1; injection g1 with g1; subst g1
      refine applySteps_other (flatMap_other ?_) fs
      intro y hy he
      -- y is in pre ++ [so], x in post: distinct positions, so distinct paths
      obtain ⟨paths, k1, k2⟩ := hdist
      have e1 : (pre ++ so :: post).map Prod.fst = (pre ++ [so]).map Prod.fst ++ post.map Prod.fst := by simp
      rw [e1] at k1
      obtain ⟨a, b, k3, k4, rfl⟩ := forall₂_append_left' k1
      have mem : ∀ {l : List (Source × Outcome)} {ps : List String},
          List.Forall₂ (fun s p => s.cachePath env = .ok p) (l.map Prod.fst) ps → ∀ z ∈ l, z.1.cachePath env = .ok p → p ∈ ps := by
        intro l ps hf z hz hzp
        induction l generalizing ps with
        | nil => simp at hz
        | cons w t ih =>
          rw [List.map_cons] at hf
          cases hf with
          | cons f1 f2 =>
            rcases List.mem_cons.1 hz with rfl | hz
            · rw [f1] at hzp; injection hzp with hzp; subst hzp; simp
            · exact List.mem_cons_of_mem _ (ih f2 hz)
      exact (List.nodup_append.1 k2).2.2 p (mem k3 y hy he) p (mem k4 x hx hp) rfl

/-- **C20** Without failure everything is loaded and saved. -/
theorem C20_no_failure (env : CacheEnv) (l : List (Source × Outcome)) (h : (dbUpdate env true l).raised = none) :
    dbUpdate env true l = dbUpdate env false l ∧ ∀ so ∈ l, UpdateSucceeds env so := by
  rcases dbUpdate_true env l with ⟨h', h2⟩ | ⟨pre, so, post, e', rfl, h1, h2, h3⟩
  · exact ⟨by rw [h', dbUpdate_false env l fun so hs => (srcErr_none_iff.1 (h2 so hs)).notInterrupted],
      fun so hs => srcErr_none_iff.1 (h2 so hs)⟩
  · rw [h3] at h; simp at h

end Verif
