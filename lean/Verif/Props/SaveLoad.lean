import Verif.Spec.SaveLoad
import Verif.Props.Cache
import Verif.Props.Interrupt
/-! # C141: `load_from_source` and `save_to_cache` of a database -/
namespace Verif

/-- The steps of saving one source. -/
def savSteps (env : CacheEnv) (so : Source × Outcome) : List FsStep := (so.1.saveToCache env so.2.write).1
/-- The exception of saving one source. -/
def savErr (env : CacheEnv) (so : Source × Outcome) : Option Exc := (so.1.saveToCache env so.2.write).2

theorem savErr_none_iff {env : CacheEnv} {so : Source × Outcome} : savErr env so = none ↔ SaveWorks env so := by
  obtain ⟨s, o⟩ := so
  unfold savErr SaveWorks Source.saveToCache
  cases hp : s.cachePath env with
  | error e => simp
  | ok p => cases hw : o.write <;> simp [writeCache]

theorem savErr_uninterrupted {env : CacheEnv} {so : Source × Outcome} (h : SaveUninterrupted env so) {e : Exc} (he : savErr env so = some e) :
    e.isException = true := by
  obtain ⟨s, o⟩ := so
  unfold savErr Source.saveToCache at he
  cases hp : s.cachePath env with
  | error x => simp only [hp, Option.some.injEq] at he; subst he; exact h.path _ hp
  | ok p =>
    cases hw : o.write with
    | ok => simp [hp, hw, writeCache] at he
    | openFails x => simp only [hp, hw, writeCache, Option.some.injEq] at he; subst he; exact h.write _ (.inl hw)
    | dumpFails x => simp only [hp, hw, writeCache, Option.some.injEq] at he; subst he; exact h.write _ (.inr hw)

theorem dbSave_cons (env : CacheEnv) (b : Bool) (so : Source × Outcome) (t : List (Source × Outcome)) :
    dbSaveToCache env b (so :: t) =
      match (savErr env so).filter (reraises b) with
      | some e => ⟨so.1 :: t.map Prod.fst, savSteps env so, some e⟩
      | none => ⟨so.1 :: (dbSaveToCache env b t).sources, savSteps env so ++ (dbSaveToCache env b t).steps, (dbSaveToCache env b t).raised⟩ := by
  obtain ⟨s, o⟩ := so
  simp only [dbSaveToCache, savSteps, savErr]
  cases h2 : (s.saveToCache env o.write).2 with
  | none => simp
  | some e => cases hr : reraises b e <;> simp [hr, Option.filter]

theorem dbSave_run (env : CacheEnv) (b : Bool) (l : List (Source × Outcome)) :
    (dbSaveToCache env b l = ⟨l.map Prod.fst, l.flatMap (savSteps env), none⟩ ∧ ∀ x ∈ l, ∀ e, savErr env x = some e → reraises b e = false) ∨
    ∃ pre so post e, l = pre ++ so :: post ∧ (∀ x ∈ pre, ∀ e, savErr env x = some e → reraises b e = false) ∧
      savErr env so = some e ∧ reraises b e = true ∧
      dbSaveToCache env b l = ⟨l.map Prod.fst, (pre ++ [so]).flatMap (savSteps env), some e⟩ := by
  induction l with
  | nil => left; exact ⟨rfl, by simp⟩
  | cons so t ih =>
    rw [dbSave_cons]
    cases he : (savErr env so).filter (reraises b) with
    | some e =>
      right
      obtain ⟨h1, h2⟩ := Option.filter_eq_some_iff.1 he
      exact ⟨[], so, t, e, rfl, by simp, h1, h2, by simp⟩
    | none =>
      have he' : ∀ e, savErr env so = some e → reraises b e = false := by
        intro e h
        rw [h] at he
        simpa using he
      rcases ih with ⟨h1, h2⟩ | ⟨pre, x, post, e, rfl, h2, h3, h5, h4⟩
      · left
        refine ⟨by rw [h1]; simp, ?_⟩
        intro x hx
        rcases List.mem_cons.1 hx with rfl | hx
        · exact he'
        · exact h2 x hx
      · right
        refine ⟨so :: pre, x, post, e, rfl, ?_, h3, h5, by rw [h4]; simp⟩
        intro y hy
        rcases List.mem_cons.1 hy with rfl | hy
        · exact he'
        · exact h2 y hy

theorem savSteps_path {env : CacheEnv} {so : Source × Outcome} {st : FsStep} (h : st ∈ savSteps env so) : so.1.cachePath env = .ok st.path := by
  obtain ⟨s, o⟩ := so
  unfold savSteps Source.saveToCache at h
  cases hp : s.cachePath env with
  | error e => simp [hp] at h
  | ok p =>
    simp only [hp] at h
    cases hw : o.write with
    | ok =>
      simp only [hw, writeCache, List.mem_cons, List.not_mem_nil, or_false] at h
      rcases h with rfl | rfl <;> rfl
    | openFails x => simp [hw, writeCache] at h
    | dumpFails x =>
      simp only [hw, writeCache, List.mem_cons, List.not_mem_nil, or_false] at h
      rw [h]; rfl

theorem savFlat_other {env : CacheEnv} {l : List (Source × Outcome)} {p : String}
    (h : ∀ x ∈ l, x.1.cachePath env ≠ .ok p) : ∀ st ∈ l.flatMap (savSteps env), st.path ≠ p := by
  intro st hst hp
  obtain ⟨x, hx, hs⟩ := List.mem_flatMap.1 hst
  have := savSteps_path hs
  rw [hp] at this
  exact h x hx this

theorem savFlat_cache (env : CacheEnv) (l : List (Source × Outcome)) (fs : FileSys)
    (hdist : DistinctCacheFiles env (l.map Prod.fst)) (s : Source) (o : Outcome) (hm : (s, o) ∈ l) (p : String)
    (hp : s.cachePath env = .ok p) :
    (o.write = .ok → applySteps fs (l.flatMap (savSteps env)) p = some (goodFile env s s.data s.time)) ∧
    (∀ e, o.write = .openFails e → applySteps fs (l.flatMap (savSteps env)) p = fs p) := by
  obtain ⟨q, pre, post, h1, rfl, h2, h3⟩ := distinct_split hdist hm
  simp only at h1; rw [hp] at h1; injection h1 with h1; subst h1
  have key : ∀ fs, applySteps fs ((pre ++ (s, o) :: post).flatMap (savSteps env)) p =
      applySteps (applySteps fs (pre.flatMap (savSteps env))) (savSteps env (s, o)) p := by
    intro fs
    rw [List.flatMap_append, List.flatMap_cons, applySteps_append, applySteps_append]
    exact applySteps_other (savFlat_other h3) _
  have hpre := applySteps_other (savFlat_other h2) fs
  rw [key]
  constructor
  · intro hw
    simp [savSteps, Source.saveToCache, hp, hw, writeCache, applySteps, FsStep.apply, goodFile, Source.cacheData, createCacheData]
  · intro e hw
    simp only [savSteps, Source.saveToCache, hp, hw, writeCache]
    exact hpre

/-- **C141** Saving with `raise_on_error` raises iff some source cannot be saved. The sources in memory are unchanged in any case. -/
theorem C141_save_raises_iff (env : CacheEnv) (l : List (Source × Outcome)) :
    ((∃ e, (dbSaveToCache env true l).raised = some e) ↔ ∃ so ∈ l, ¬ SaveWorks env so) ∧
    ∀ b, (dbSaveToCache env b l).sources = l.map Prod.fst := by
  constructor
  · rcases dbSave_run env true l with ⟨h, h2⟩ | ⟨pre, so, post, e, rfl, h1, h2, -, h3⟩
    · rw [h]
      simp only [reduceCtorEq, exists_false, false_iff, not_exists, not_and, not_not]
      intro so hso
      apply savErr_none_iff.1
      cases he : savErr env so with
      | none => rfl
      | some e => have := h2 so hso e he; simp [reraises] at this
    · rw [h3]
      simp only [Option.some.injEq, exists_eq', true_iff]
      refine ⟨so, by simp, fun hs => ?_⟩
      rw [savErr_none_iff.2 hs] at h2
      simp at h2
  · intro b
    rcases dbSave_run env b l with ⟨h, -⟩ | ⟨pre, so, post, e, rfl, -, -, -, h3⟩
    · rw [h]
    · rw [h3]

/-- **C141** If it raises, the sources before the first one that cannot be saved are saved and the cache files of the later ones are as before. -/
theorem C141_save_first_failure (env : CacheEnv) (l : List (Source × Outcome)) (fs : FileSys) (e : Exc)
    (hdist : DistinctCacheFiles env (l.map Prod.fst)) (h : (dbSaveToCache env true l).raised = some e) :
    ∃ pre bad post, l = pre ++ bad :: post ∧ ¬ SaveWorks env bad ∧
      (∀ so ∈ pre, ∃ p, so.1.cachePath env = .ok p ∧
        applySteps fs (dbSaveToCache env true l).steps p = some (goodFile env so.1 so.1.data so.1.time)) ∧
      (∀ so ∈ post, ∀ p, so.1.cachePath env = .ok p → applySteps fs (dbSaveToCache env true l).steps p = fs p) := by
  rcases dbSave_run env true l with ⟨h', _⟩ | ⟨pre, so, post, e', rfl, h1, h2, -, h3⟩
  · rw [h'] at h; simp at h
  · refine ⟨pre, so, post, rfl, ?_, ?_, ?_⟩
    · intro hs; rw [savErr_none_iff.2 hs] at h2; simp at h2
    · intro x hx
      have hx' : savErr env x = none := by
        cases he : savErr env x with
        | none => rfl
        | some e => have := h1 x hx e he; simp [reraises] at this
      obtain ⟨⟨p, hp⟩, hw⟩ := savErr_none_iff.1 hx'
      refine ⟨p, hp, ?_⟩
      rw [h3]
      have hdist' : DistinctCacheFiles env ((pre ++ [so]).map Prod.fst) := by
        have e1 : (pre ++ so :: post).map Prod.fst = (pre ++ [so]).map Prod.fst ++ post.map Prod.fst := by simp
        rw [e1] at hdist
        exact hdist.left
      exact (savFlat_cache env (pre ++ [so]) fs hdist' x.1 x.2 (by simp [hx]) p hp).1 hw
    · intro x hx p hp
      rw [h3]
      refine applySteps_other (savFlat_other fun y hy hyp => ?_) fs
      have e1 : (pre ++ so :: post).map Prod.fst = (pre ++ [so]).map Prod.fst ++ post.map Prod.fst := by simp
      rw [e1] at hdist
      exact hdist.apart (List.mem_map_of_mem hy) (List.mem_map_of_mem hx) hyp hp

/-- **C141** Saving without `raise_on_error` (and without interrupts) never raises; the cache file of every source that can be saved has its data
afterwards, whatever happens to the others, and one that cannot be opened is as before. -/
theorem C141_save_skips (env : CacheEnv) (l : List (Source × Outcome)) (fs : FileSys) (hni : ∀ so ∈ l, SaveUninterrupted env so)
    (hdist : DistinctCacheFiles env (l.map Prod.fst)) :
    (dbSaveToCache env false l).raised = none ∧
    ∀ s o, (s, o) ∈ l → ∀ p, s.cachePath env = .ok p →
      (o.write = .ok → applySteps fs (dbSaveToCache env false l).steps p = some (goodFile env s s.data s.time)) ∧
      (∀ e, o.write = .openFails e → applySteps fs (dbSaveToCache env false l).steps p = fs p) := by
  rcases dbSave_run env false l with ⟨h, -⟩ | ⟨pre, so, post, e, rfl, -, h2, h4, -⟩
  · rw [h]
    exact ⟨rfl, fun s o hm p hp => savFlat_cache env l fs hdist s o hm p hp⟩
  · have := savErr_uninterrupted (hni so (by simp)) h2
    simp [reraises, this] at h4

theorem dbLoad_ok (b : Bool) : ∀ (l : List (Source × Outcome)), (∀ so ∈ l, LoadWorks so) → dbLoadFromSource b l = ⟨l.map srcAfter, [], none⟩ := by
  intro l
  induction l with
  | nil => intro _; rfl
  | cons so t ih =>
    intro h
    obtain ⟨s, o⟩ := so
    obtain ⟨d, hd⟩ := h (s, o) (by simp)
    have e := loadFromSource_ok_iff.2 ⟨d, hd, rfl⟩
    have ih := ih fun x hx => h x (List.mem_cons_of_mem _ hx)
    simp only [dbLoadFromSource, e, ih, List.map_cons, srcAfter_eq hd]

theorem dbLoad_raises (l : List (Source × Outcome)) : (∃ e, (dbLoadFromSource true l).raised = some e) ↔ ∃ so ∈ l, ¬ LoadWorks so := by
  induction l with
  | nil => simp [dbLoadFromSource]
  | cons so t ih =>
    obtain ⟨s, o⟩ := so
    cases hl : s.loadFromSource o.net o.now with
    | error e =>
      have hn : ¬ LoadWorks (s, o) := by
        rintro ⟨d, hd⟩
        rw [loadFromSource_ok_iff.2 ⟨d, hd, rfl⟩] at hl
        cases hl
      simp only [dbLoadFromSource, hl, reraises_true, if_true, Option.some.injEq, exists_eq', true_iff]
      exact ⟨_, by simp, hn⟩
    | ok s' =>
      obtain ⟨d, hd, -⟩ := loadFromSource_ok_iff.1 hl
      simp only [dbLoadFromSource, hl]
      rw [ih]
      constructor
      · rintro ⟨x, hx, hn⟩; exact ⟨x, List.mem_cons_of_mem _ hx, hn⟩
      · rintro ⟨x, hx, hn⟩
        rcases List.mem_cons.1 hx with rfl | hx
        · exact absurd ⟨d, hd⟩ hn
        · exact ⟨x, hx, hn⟩

/-- **C141** Loading from source changes no file. With `raise_on_error` it raises iff some download fails or gives invalid data. Without (and without
interrupts) it never raises, and a source has the new data iff its own download gave valid data, and is unchanged otherwise. -/
theorem C141_load_from_source (l : List (Source × Outcome)) :
    (∀ b, (dbLoadFromSource b l).steps = []) ∧
    ((∃ e, (dbLoadFromSource true l).raised = some e) ↔ ∃ so ∈ l, ¬ LoadWorks so) ∧
    ((∀ so ∈ l, LoadUninterrupted so) → (dbLoadFromSource false l).raised = none ∧
      List.Forall₂ (fun so s' =>
        (∀ d, Downloaded so.1 so.2 d → s' = { so.1 with data := d, time := so.2.now }) ∧ (¬ LoadWorks so → s' = so.1))
        l (dbLoadFromSource false l).sources) := by
  refine ⟨fun b => ?_, dbLoad_raises l, fun hni => ?_⟩
  · induction l with
    | nil => rfl
    | cons so t ih =>
      obtain ⟨s, o⟩ := so
      cases hl : s.loadFromSource o.net o.now with
      | error e => cases hr : reraises b e <;> simp [dbLoadFromSource, hl, hr, ih]
      | ok s' => simp [dbLoadFromSource, hl, ih]
  · induction l with
    | nil => exact ⟨rfl, .nil⟩
    | cons so t ih =>
      obtain ⟨s, o⟩ := so
      obtain ⟨ih1, ih2⟩ := ih fun x hx => hni x (List.mem_cons_of_mem _ hx)
      cases hl : s.loadFromSource o.net o.now with
      | error e =>
        have hn : ¬ LoadWorks (s, o) := by
          rintro ⟨d, hd⟩
          rw [loadFromSource_ok_iff.2 ⟨d, hd, rfl⟩] at hl
          cases hl
        have he : e.isException = true := by
          unfold Source.loadFromSource at hl
          cases h1 : s.spec.loadData o.net s.arguments with
          | error y =>
            rw [h1] at hl
            simp only [bind, Except.bind, Except.error.injEq] at hl
            subst hl
            exact (hni (s, o) (by simp)).load _ h1
          | ok d =>
            rw [h1] at hl
            cases h2 : s.spec.verifyData d s.arguments with
            | error y =>
              simp only [bind, Except.bind, h2, Except.error.injEq] at hl
              subst hl
              exact (hni (s, o) (by simp)).verify _ _ h1 h2
            | ok u => simp [bind, Except.bind, h2, pure, Except.pure] at hl
        have hr : reraises false e = false := by simp [reraises, he]
        have e1 : dbLoadFromSource false ((s, o) :: t) =
            ⟨s :: (dbLoadFromSource false t).sources, (dbLoadFromSource false t).steps, (dbLoadFromSource false t).raised⟩ := by
          simp [dbLoadFromSource, hl, hr]
        rw [e1]
        exact ⟨ih1, .cons ⟨fun d hd => absurd ⟨d, hd⟩ hn, fun _ => rfl⟩ ih2⟩
      | ok s' =>
        obtain ⟨d, hd, rfl⟩ := loadFromSource_ok_iff.1 hl
        have e1 : dbLoadFromSource false ((s, o) :: t) = ⟨{ s with data := d, time := o.now } :: (dbLoadFromSource false t).sources,
            (dbLoadFromSource false t).steps, (dbLoadFromSource false t).raised⟩ := by
          simp [dbLoadFromSource, hl]
        rw [e1]
        exact ⟨ih1, .cons ⟨fun d' hd' => by rw [downloaded_unique hd hd'], fun hn => absurd ⟨d, hd⟩ hn⟩ ih2⟩

/-- **C141** If every download works, `load_from_source` followed by `save_to_cache` is `update`: the same sources in memory, the same changes of
files, no exception (files that cannot be written are skipped, without interrupts). -/
theorem C141_load_and_save_is_update (env : CacheEnv) (l : List (Source × Outcome)) (hl : ∀ so ∈ l, LoadWorks so)
    (hs : ∀ so ∈ l, SaveUninterrupted env so) :
    (dbLoadFromSource false l).raised = none ∧
    dbSaveToCache env false ((dbLoadFromSource false l).sources.zip (l.map Prod.snd)) = dbUpdate env false l := by
  rw [dbLoad_ok false l hl]
  refine ⟨rfl, ?_⟩
  show dbSaveToCache env false ((l.map srcAfter).zip (l.map Prod.snd)) = _
  induction l with
  | nil => rfl
  | cons so t ih =>
    obtain ⟨s, o⟩ := so
    have ih := ih (fun x hx => hl x (List.mem_cons_of_mem _ hx)) fun x hx => hs x (List.mem_cons_of_mem _ hx)
    obtain ⟨d, hd⟩ := hl (s, o) (by simp)
    have e := loadFromSource_ok_iff.2 ⟨d, hd, rfl⟩
    simp only [List.map_cons, List.zip_cons_cons, srcAfter_eq hd, dbSaveToCache, dbUpdate, e, ih]
    cases h2 : (({ s with data := d, time := o.now } : Source).saveToCache env o.write).2 with
    | none => rfl
    | some x =>
      have hi : SaveUninterrupted env (({ s with data := d, time := o.now } : Source), o) :=
        ⟨(hs (s, o) (by simp)).path, (hs (s, o) (by simp)).write⟩
      have hx := savErr_uninterrupted hi h2
      have hr : reraises false x = false := by simp [reraises, hx]
      simp [hr]

theorem loadFromCache_unloaded {env : CacheEnv} {fs : FileSys} {s s0 : Source} {p : String} {e : Exc} (hspec : s0.spec = s.spec)
    (harg : s0.arguments = s.arguments) (hv : s.spec.verifyArguments s.arguments = .ok ()) (hd : s.spec.verifyData .none s.arguments = .error e)
    (hp : s.cachePath env = .ok p) (hf : fs p = some (goodFile env s .none s.time)) : s0.loadFromCache env fs = .error e := by
  obtain ⟨sp0, a0, o0, d0, t0⟩ := s0
  simp only at hspec harg; subst hspec; subst harg
  have hp0 : (⟨s.spec, s.arguments, o0, d0, t0⟩ : Source).cachePath env = .ok p := hp
  unfold Source.loadFromCache
  rw [hp0]
  simp only [bind, Except.bind, readCache, hf, goodFile]
  have hpy : pyEq (.str s.spec.name) (.str s.spec.name) = true := by simp [pyEq]
  simp [verifyCacheDataStructure, cacheDataKeys, dhas, dget, verifyCacheDataSpecName, getItem, bind, Except.bind, hpy, hv, hd, pure, Except.pure]

/-- **C141 (refuted: saving keeps the cache usable)** A source that is not loaded is saved all the same: whatever its cache file contained is replaced
by a file without data, and loading that source from the cache fails from then on (for every spec that does not accept "no data", as `rules`). -/
theorem C141_unloaded_destroys_cache_refuted (env : CacheEnv) (l : List (Source × Outcome)) (fs : FileSys) (hni : ∀ so ∈ l, SaveUninterrupted env so)
    (hdist : DistinctCacheFiles env (l.map Prod.fst)) (s : Source) (o : Outcome) (hm : (s, o) ∈ l) (hw : o.write = .ok) (hnew : s.data = .none)
    (ha : s.spec.verifyArguments s.arguments = .ok ()) (e : Exc) (hd : s.spec.verifyData .none s.arguments = .error e) :
    (dbSaveToCache env false l).raised = none ∧
    ∀ s0 : Source, s0.spec = s.spec → s0.arguments = s.arguments →
      s0.loadFromCache env (applySteps fs (dbSaveToCache env false l).steps) = .error e := by
  obtain ⟨h1, h2⟩ := C141_save_skips env l fs hni hdist
  refine ⟨h1, fun s0 hs ha0 => ?_⟩
  obtain ⟨p, -, -, hp, -⟩ := distinct_split hdist hm
  have := (h2 s o hm p hp).1 hw
  rw [hnew] at this
  exact loadFromCache_unloaded hs ha0 ha hd hp this

/-- **C141 (refuted: loading and saving is updating)** If the download of a `rules` source fails, `update` leaves its cache file alone, but
`load_from_source` followed by `save_to_cache` makes it useless: here the file was good before (loading gave `before`), still is after `update`, and
cannot be loaded after loading and saving. -/
theorem C141_failed_download_refuted (env : CacheEnv) (u : Char → Bool) (url origin : PVal) (s before : Source) (o : Outcome) (fs : FileSys)
    (hs : mkSource (rulesSpec u) url origin = .ok s) (hgood : s.loadFromCache env fs = .ok before)
    (e : Exc) (he : e.isException = true) (hfail : ∀ v, o.net v = .error e) (hw : o.write = .ok) :
    s.loadFromCache env (applySteps fs (dbUpdate env false [(s, o)]).steps) = .ok before ∧
    (dbLoadFromSource false [(s, o)]).raised = none ∧
    s.loadFromCache env (applySteps fs (dbSaveToCache env false ((dbLoadFromSource false [(s, o)]).sources.zip [o])).steps) = .error .valueError := by
  unfold mkSource at hs
  obtain ⟨_, ha, hs⟩ := Except_bind_ok.1 hs
  rw [pure_ok] at hs; subst hs
  have hload : (⟨rulesSpec u, url, origin, .none, .none⟩ : Source).loadFromSource o.net o.now = .error e := by
    show (rulesLoadData o.net url >>= _) = Except.error e
    unfold rulesLoadData
    rw [hfail url]
    rfl
  have hr : reraises false e = false := by simp [reraises, he]
  have e1 : dbLoadFromSource false [((⟨rulesSpec u, url, origin, .none, .none⟩ : Source), o)] = ⟨[⟨rulesSpec u, url, origin, .none, .none⟩], [], none⟩ := by
    simp [dbLoadFromSource, hload, hr]
  have e2 : dbUpdate env false [((⟨rulesSpec u, url, origin, .none, .none⟩ : Source), o)] = ⟨[⟨rulesSpec u, url, origin, .none, .none⟩], [], none⟩ := by
    simp [dbUpdate, hload, hr]
  obtain ⟨p, hp, -⟩ := Except_bind_ok.1 hgood
  refine ⟨by rw [e2]; exact hgood, by rw [e1], ?_⟩
  rw [e1]
  refine (C141_unloaded_destroys_cache_refuted env [((⟨rulesSpec u, url, origin, .none, .none⟩ : Source), o)] fs ?_ ?_ _ o (by simp) hw rfl ha .valueError rfl).2
    _ rfl rfl
  · intro so hso
    rw [List.mem_singleton.1 hso]
    exact ⟨fun x hx => by rw [hp] at hx; (cases hx), fun x hx => by rcases hx with hx | hx <;> rw [hw] at hx <;> cases hx⟩
  · exact ⟨[p], .cons hp .nil, by simp⟩

/-- Non-vacuity of the last theorem: a cache file with one rule, a network that does not work. -/
example : ∃ before, (exS "u1").loadFromCache exEnv (fun _ => some (goodFile exEnv (exS "u1") (Rules.toVal exRules) .none)) = .ok before ∧
    mkSource (rulesSpec fun _ => false) (.str "u1") (.str "a.yaml") = .ok (exS "u1") := ⟨_, rfl, rfl⟩

/-- Non-vacuity: of three sources the second cannot be written; the others are saved unless errors are raised. -/
example : (dbSaveToCache exHashEnv false [(exSource "u" [], emptyNet), (exSource "v" [], ⟨fun _ => .ok .none, .none, .openFails .ioError⟩),
      (exSource "w" [], emptyNet)]).steps.length = 4 ∧
    (dbSaveToCache exHashEnv true [(exSource "u" [], emptyNet), (exSource "v" [], ⟨fun _ => .ok .none, .none, .openFails .ioError⟩),
      (exSource "w" [], emptyNet)]).steps.length = 2 := ⟨rfl, rfl⟩
example : SaveWorks exHashEnv (exSource "u" [], emptyNet) ∧ LoadWorks (exSource "u" [], emptyNet) ∧
    SaveUninterrupted exHashEnv (exSource "v" [], ⟨fun _ => .ok .none, .none, .openFails .ioError⟩) :=
  ⟨⟨⟨_, rfl⟩, rfl⟩, ⟨.dict [], rfl, rfl⟩, ⟨fun e h => by (cases h), fun e h => by rcases h with h | h <;> cases h; rfl⟩⟩

end Verif
