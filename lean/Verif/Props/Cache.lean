import Verif.Props.Database
/-! # Properties C21 – C25: round trip, crashes, verification, unique ids, housekeeping -/
namespace Verif

/-! ## C21 -/

/-- Loading one source from a correct cache file. -/
theorem loadFromCache_good {env : CacheEnv} {fs : FileSys} {s s0 : Source} {o : Outcome} {d : PVal} {p : String}
    (hspec : s0.spec = s.spec) (harg : s0.arguments = s.arguments) (hv : s.spec.verifyArguments s.arguments = .ok ())
    (hd : Downloaded s o d) (hp : s.cachePath env = .ok p) (hf : fs p = some (goodFile env s d o.now)) :
    s0.loadFromCache env fs = .ok { s with data := d, time := o.now } := by
  obtain ⟨sp0, a0, o0, d0, t0⟩ := s0
  simp only at hspec harg; subst hspec; subst harg
  have hp0 : (⟨s.spec, s.arguments, o0, d0, t0⟩ : Source).cachePath env = .ok p := hp
  unfold Source.loadFromCache
  rw [hp0]
  simp only [bind, Except.bind, readCache, hf, goodFile]
  have hpy : pyEq (.str s.spec.name) (.str s.spec.name) = true := by simp [pyEq]
  simp [verifyCacheDataStructure, cacheDataKeys, dhas, dget, verifyCacheDataSpecName, getItem, bind, Except.bind, hpy,
    hv, hd.2, pure, Except.pure]

/-- **C21** Round trip of one source: after an update in which source `s` was downloaded and written, a fresh source with the
same spec and arguments that loads from the cache gets exactly the downloaded data (and origin, time, arguments) — whatever
the other sources did and whatever the cache contained before. -/
theorem C21_round_trip (env : CacheEnv) (l : List (Source × Outcome)) (fs : FileSys) (hni : ∀ so ∈ l, NotInterrupted env so)
    (hdist : DistinctCacheFiles env (l.map Prod.fst)) (s : Source) (o : Outcome) (hm : (s, o) ∈ l) (d : PVal)
    (hargs : s.spec.verifyArguments s.arguments = .ok ()) (hd : Downloaded s o d) (hw : o.write = .ok)
    (fresh : Source) (hfresh : mkSource s.spec s.arguments s.origin = .ok fresh) :
    fresh.loadFromCache env (applySteps fs (dbUpdate env false l).steps) = .ok { s with data := d, time := o.now } := by
  obtain ⟨p, _, _, hp, _⟩ := distinct_split hdist hm
  unfold mkSource at hfresh
  obtain ⟨_, _, hfresh⟩ := Except_bind_ok.1 hfresh
  rw [pure_ok] at hfresh; subst hfresh
  exact loadFromCache_good rfl rfl hargs hd hp ((C19_update_cache env l fs hni hdist s o hm p hp).1 d hd hw)

/-- **C21** Round trip of the whole database: if every source could be updated, a fresh database loading from the cache has
literally the same sources as the updated one, so every lookup and key listing is identical. -/
theorem C21_round_trip_db (env : CacheEnv) (l : List (Source × Outcome)) (fs : FileSys) (b : Bool)
    (hdist : DistinctCacheFiles env (l.map Prod.fst)) (hall : ∀ so ∈ l, UpdateSucceeds env so)
    (hargs : ∀ so ∈ l, so.1.spec.verifyArguments so.1.arguments = .ok ())
    (fresh : List Source)
    (hfresh : List.Forall₂ (fun so s0 => mkSource so.1.spec so.1.arguments so.1.origin = .ok s0) l fresh) :
    (dbLoadFromCache env (applySteps fs (dbUpdate env false l).steps) b fresh).raised = none ∧
    (dbLoadFromCache env (applySteps fs (dbUpdate env false l).steps) b fresh).sources = (dbUpdate env false l).sources ∧
    ∀ uni key c, dbLookup uni (dbLoadFromCache env (applySteps fs (dbUpdate env false l).steps) b fresh).sources key c =
      dbLookup uni (dbUpdate env false l).sources key c := by
  have main : ∀ (fs' : FileSys) (l' : List (Source × Outcome)) (fresh' : List Source),
      (∀ so ∈ l', ∃ d, Downloaded so.1 so.2 d ∧ ∀ s0, mkSource so.1.spec so.1.arguments so.1.origin = .ok s0 →
        s0.loadFromCache env fs' = .ok { so.1 with data := d, time := so.2.now }) →
      List.Forall₂ (fun so s0 => mkSource so.1.spec so.1.arguments so.1.origin = .ok s0) l' fresh' →
      dbLoadFromCache env fs' b fresh' = ⟨l'.map srcAfter, [], none⟩ := by
    intro fs' l' fresh' h1 h2
    induction h2 with
    | nil => rfl
    | @cons so s0 t ft h3 _ ih =>
      obtain ⟨d, hd, h4⟩ := h1 so (by simp)
      have ih := ih (fun x hx => h1 x (by simp [hx]))
      have := srcAfter_eq hd
      simp only [dbLoadFromCache, h4 s0 h3, ih, List.map_cons, this]
  have hm := main (applySteps fs (dbUpdate env false l).steps) l fresh (by
    intro so hso
    obtain ⟨⟨d, hd⟩, _, hw⟩ := hall so hso
    exact ⟨d, hd, fun s0 h0 => C21_round_trip env l fs (fun x hx => (hall x hx).notInterrupted) hdist so.1 so.2 hso d (hargs so hso) hd hw s0 h0⟩) hfresh
  have hs : (dbUpdate env false l).sources = l.map srcAfter := by rw [dbUpdate_false env l fun x hx => (hall x hx).notInterrupted]
  refine ⟨by rw [hm], by rw [hm, hs], fun uni key c => by rw [hm, hs]⟩

/-! ## C22 -/

theorem srcSteps_mem {env : CacheEnv} {s : Source} {o : Outcome} {st : FsStep} (h : st ∈ srcSteps env (s, o)) :
    ∃ p, s.cachePath env = .ok p ∧ (st = .truncate p ∨ ∃ d, Downloaded s o d ∧
      st = .fill p (({ s with data := d, time := o.now } : Source).cacheData env)) := by
  have hp := srcSteps_path h
  simp only at hp
  refine ⟨_, hp, ?_⟩
  by_cases hd : ∃ d, Downloaded s o d
  · obtain ⟨d, hd⟩ := hd
    rw [srcSteps_eq hd hp] at h
    cases hw : o.write <;> simp only [hw, List.mem_cons, List.not_mem_nil, or_false] at h
    · rcases h with h | h
      · exact .inl h
      · exact .inr ⟨d, hd, h⟩
    · exact .inl h
  · rw [srcSteps_nil (fun d hd' => hd ⟨d, hd'⟩)] at h
    simp at h

/-- After any steps the content of a path is the old one or the one of the last step touching it. -/
theorem applySteps_cases (steps : List FsStep) (fs : FileSys) (p : String) :
    applySteps fs steps p = fs p ∨ (.truncate p ∈ steps ∧ applySteps fs steps p = some .broken) ∨
      ∃ v, .fill p v ∈ steps ∧ applySteps fs steps p = some (.pickled v) := by
  induction steps generalizing fs with
  | nil => exact .inl rfl
  | cons a t ih =>
    rw [show applySteps fs (a :: t) = applySteps (a.apply fs) t from rfl]
    rcases ih (a.apply fs) with h | ⟨h1, h2⟩ | ⟨v, h1, h2⟩
    · rw [h]
      by_cases hp : a.path = p
      · right
        cases a with
        | truncate q => simp only [FsStep.path] at hp; subst hp; left; simp [FsStep.apply]
        | fill q v => simp only [FsStep.path] at hp; subst hp; right; exact ⟨v, by simp, by simp [FsStep.apply]⟩
      · exact .inl (apply_other hp)
    · exact .inr (.inl ⟨by simp [h1], h2⟩)
    · exact .inr (.inr ⟨v, by simp [h1], h2⟩)

/-- **C22** (what holds, 1) At every crash point — after any number `n` of file system steps of an update, with or without
`raise_on_error`, whatever downloads and writes did — the cache file of each source is its old content, its complete new
content, or the truncated (unreadable) file. -/
theorem C22_crash_contents_partial (env : CacheEnv) (b : Bool) (l : List (Source × Outcome)) (fs : FileSys) (n : Nat)
    (hdist : DistinctCacheFiles env (l.map Prod.fst)) (s : Source) (o : Outcome) (hm : (s, o) ∈ l) (p : String)
    (hp : s.cachePath env = .ok p) :
    applySteps fs ((dbUpdate env b l).steps.take n) p = fs p ∨
    applySteps fs ((dbUpdate env b l).steps.take n) p = some .broken ∨
    ∃ d, Downloaded s o d ∧ applySteps fs ((dbUpdate env b l).steps.take n) p = some (goodFile env s d o.now) := by
  rcases applySteps_cases ((dbUpdate env b l).steps.take n) fs p with h | ⟨_, h⟩ | ⟨v, hv, h⟩
  · exact .inl h
  · exact .inr (.inl h)
  · right; right
    have hv := (dbUpdate_steps_prefix env b l).subset (List.mem_of_mem_take hv)
    obtain ⟨⟨s', o'⟩, hx, hs⟩ := List.mem_flatMap.1 hv
    obtain ⟨q, hq, hc | ⟨d, hd, hc⟩⟩ := srcSteps_mem hs
    · simp at hc
    · injection hc with hc1 hc2
      subst hc1
      obtain ⟨q', pre, post, g1, g2, g3, g4⟩ := distinct_split hdist hm
      simp only at g1; rw [hp] at g1; injection g1 with g1; subst g1
      rw [g2] at hx
      have : (s', o') = (s, o) := by
        rcases List.mem_append.1 hx with hx | hx
        · exact absurd hq (g3 _ hx)
        · rcases List.mem_cons.1 hx with hx | hx
          · exact hx
          · exact absurd hq (g4 _ hx)
      injection this with e1 e2
      subst e1; subst e2
      exact ⟨d, hd, by rw [h, hc2]; rfl⟩

/-- Steps in which every truncation is directly completed. -/
inductive Paired : List FsStep → Prop
  | nil : Paired []
  | cons (p : String) (v : PVal) (t : List FsStep) (h : Paired t) : Paired (.truncate p :: .fill p v :: t)

theorem Paired.append {a b : List FsStep} (ha : Paired a) (hb : Paired b) : Paired (a ++ b) := by
  induction ha with
  | nil => exact hb
  | cons p v t _ ih => exact .cons p v _ ih

theorem paired_crash {steps : List FsStep} (h : Paired steps) (n : Nat) (fs : FileSys) :
    ∃ q : String, ∀ p, p ≠ q → fs p ≠ some .broken → applySteps fs (steps.take n) p ≠ some .broken := by
  induction h generalizing n fs with
  | nil => exact ⟨"", fun p _ hp => by simpa [applySteps] using hp⟩
  | cons p v t _ ih =>
    match n with
    | 0 => exact ⟨"", fun p _ hp => by simpa [applySteps] using hp⟩
    | 1 =>
      refine ⟨p, fun q hq hb => ?_⟩
      simpa [applySteps, FsStep.apply, hq] using hb
    | n + 2 =>
      obtain ⟨q, hq⟩ := ih n (FsStep.apply (FsStep.apply fs (.truncate p)) (.fill p v))
      refine ⟨q, fun r hr hb => hq r hr ?_⟩
      by_cases hrp : r = p
      · simp [FsStep.apply, hrp]
      · simpa [FsStep.apply, hrp] using hb

/-- **C22** (what holds, 2) If no write fails by itself, then at every crash point at most one file is damaged: all files
but one that were readable before are readable. -/
theorem C22_at_most_one_damaged_partial (env : CacheEnv) (b : Bool) (l : List (Source × Outcome)) (fs : FileSys) (n : Nat)
    (hw : ∀ so ∈ l, so.2.write = .ok) :
    ∃ q : String, ∀ p, p ≠ q → fs p ≠ some .broken →
      applySteps fs ((dbUpdate env b l).steps.take n) p ≠ some .broken := by
  have hp : Paired (l.flatMap (srcSteps env)) := by
    clear fs
    induction l with
    | nil => exact .nil
    | cons so t ih =>
      rw [List.flatMap_cons]
      refine Paired.append ?_ (ih (fun x hx => hw x (by simp [hx])))
      obtain ⟨s, o⟩ := so
      have hwo := hw (s, o) (by simp)
      by_cases hd : ∃ d, Downloaded s o d
      · obtain ⟨d, hd⟩ := hd
        cases hpath : s.cachePath env with
        | error e =>
          unfold srcSteps
          simp only [loadFromSource_ok_iff.2 ⟨d, hd, rfl⟩, Source.saveToCache, cachePath_congr, hpath]
          exact .nil
        | ok p =>
          rw [srcSteps_eq hd hpath]
          simp only at hwo
          rw [hwo]
          exact .cons _ _ _ .nil
      · rw [srcSteps_nil (fun d hd' => hd ⟨d, hd'⟩)]; exact .nil
  obtain ⟨q, hq⟩ := paired_crash hp (min n (dbUpdate env b l).steps.length) fs
  refine ⟨q, fun p h1 h2 => ?_⟩
  have := hq p h1 h2
  obtain ⟨rest, hr⟩ := dbUpdate_steps_prefix env b l
  rw [← hr] at this
  rw [List.take_append_of_le_length (by omega)] at this
  have e : List.take (min n (dbUpdate env b l).steps.length) (dbUpdate env b l).steps = List.take n (dbUpdate env b l).steps := by
    rw [← List.take_take, List.take_length]
  rwa [e] at this

/-- **C22** (refuted) For every source whose update works there is a crash point at which its cache file is unreadable,
whatever good content it had before. -/
theorem C22_window_of_loss (env : CacheEnv) (l : List (Source × Outcome)) (fs : FileSys) (hni : ∀ so ∈ l, NotInterrupted env so)
    (hdist : DistinctCacheFiles env (l.map Prod.fst)) (s : Source) (o : Outcome) (hm : (s, o) ∈ l) (p : String)
    (hp : s.cachePath env = .ok p) (d : PVal) (hd : Downloaded s o d) (hw : o.write = .ok) :
    ∃ n, applySteps fs ((dbUpdate env false l).steps.take n) p = some .broken ∧
      ∀ fresh : Source, fresh.cachePath env = .ok p →
        ∃ e, fresh.loadFromCache env (applySteps fs ((dbUpdate env false l).steps.take n)) = .error e := by
  obtain ⟨q, pre, post, g1, rfl, g3, g4⟩ := distinct_split hdist hm
  simp only at g1; rw [hp] at g1; injection g1 with g1; subst g1
  have hb : applySteps fs ((dbUpdate env false (pre ++ (s, o) :: post)).steps.take ((pre.flatMap (srcSteps env)).length + 1)) p
      = some .broken := by
    rw [dbUpdate_false env _ hni]
    simp only [List.flatMap_append, List.flatMap_cons]
    rw [List.take_append]
    simp only [List.take_of_length_le (Nat.le_succ _), Nat.add_sub_cancel_left]
    rw [srcSteps_eq hd hp, hw, applySteps_append]
    simp [applySteps, FsStep.apply]
  refine ⟨_, hb, fun fresh hf => ⟨.unpicklingError, ?_⟩⟩
  unfold Source.loadFromCache
  rw [hf]
  simp only [bind, Except.bind, readCache]
  rw [hb]

/-- **C22** (recovery) A later update in which the source is downloaded and written repairs its file, whatever a crash left
behind (`fs` is arbitrary). -/
theorem C22_recovery (env : CacheEnv) (l : List (Source × Outcome)) (crashed : FileSys) (hni : ∀ so ∈ l, NotInterrupted env so)
    (hdist : DistinctCacheFiles env (l.map Prod.fst)) (s : Source) (o : Outcome) (hm : (s, o) ∈ l) (p : String)
    (hp : s.cachePath env = .ok p) (d : PVal) (hd : Downloaded s o d) (hw : o.write = .ok) :
    applySteps crashed (dbUpdate env false l).steps p = some (goodFile env s d o.now) :=
  (C19_update_cache env l crashed hni hdist s o hm p hp).1 d hd hw

/-! ## C23 -/

/-- Databases that can occur: created from source lists, then any sequence of operations in any environment, with any
cache contents, any answers of the network, any write failures, raising or not. -/
inductive ReachableDb (plugins : List Spec) : List Source → Prop
  | init (env : CacheEnv) (files : List (String × List PVal)) (ss : List Source) (h : initDatabase env plugins files = .ok ss) :
      ReachableDb plugins ss
  | update (env : CacheEnv) (b : Bool) (l : List (Source × Outcome)) (h : ReachableDb plugins (l.map Prod.fst)) :
      ReachableDb plugins (dbUpdate env b l).sources
  | loadFromSource (b : Bool) (l : List (Source × Outcome)) (h : ReachableDb plugins (l.map Prod.fst)) :
      ReachableDb plugins (dbLoadFromSource b l).sources
  | loadFromCache (env : CacheEnv) (fs : FileSys) (b : Bool) (ss : List Source) (h : ReachableDb plugins ss) :
      ReachableDb plugins (dbLoadFromCache env fs b ss).sources
  | saveToCache (env : CacheEnv) (b : Bool) (l : List (Source × Outcome)) (h : ReachableDb plugins (l.map Prod.fst)) :
      ReachableDb plugins (dbSaveToCache env b l).sources

/-- Invariant of one source. -/
def SourceOk (plugins : List Spec) (s : Source) : Prop :=
  s.spec ∈ plugins ∧ (s.data = .none ∨ ∃ args, s.spec.verifyData s.data args = .ok ())

theorem loadFromSource_sourceOk {plugins : List Spec} {s s' : Source} {net : PVal → Except Exc PVal} {now : PVal}
    (hs : SourceOk plugins s) (h : s.loadFromSource net now = .ok s') : SourceOk plugins s' := by
  obtain ⟨d, h1, rfl⟩ := loadFromSource_ok_iff (o := ⟨net, now, .ok⟩) |>.1 h
  exact ⟨hs.1, .inr ⟨s.arguments, h1.2⟩⟩

theorem loadFromCache_ok {env : CacheEnv} {fs : FileSys} {s s' : Source} (h : s.loadFromCache env fs = .ok s') :
    s'.spec = s.spec ∧ s.spec.verifyData s'.data s.arguments = .ok () := by
  unfold Source.loadFromCache at h
  obtain ⟨p, h1, h⟩ := Except_bind_ok.1 h
  obtain ⟨d, h2, h⟩ := Except_bind_ok.1 h
  obtain ⟨_, h3, h⟩ := Except_bind_ok.1 h
  obtain ⟨_, h4, h⟩ := Except_bind_ok.1 h
  obtain ⟨data, h5, h⟩ := Except_bind_ok.1 h
  obtain ⟨_, h6, h⟩ := Except_bind_ok.1 h
  obtain ⟨a, h7, h⟩ := Except_bind_ok.1 h
  obtain ⟨o, h8, h⟩ := Except_bind_ok.1 h
  obtain ⟨t, h9, h⟩ := Except_bind_ok.1 h
  rw [pure_ok] at h; subst h
  exact ⟨rfl, h6⟩

theorem loadFromCache_sourceOk {plugins : List Spec} {env : CacheEnv} {fs : FileSys} {s s' : Source}
    (hs : SourceOk plugins s) (h : s.loadFromCache env fs = .ok s') : SourceOk plugins s' := by
  obtain ⟨h1, h2⟩ := loadFromCache_ok h
  refine ⟨h1 ▸ hs.1, .inr ⟨s.arguments, by rw [h1]; exact h2⟩⟩

theorem mkSources_spec {plugins : List Spec} {files : List (String × List PVal)} {ss : List Source}
    (h : mkSources plugins files = .ok ss) : ∀ s ∈ ss, s.spec ∈ plugins ∧ s.data = .none ∧ s.spec.verifyArguments s.arguments = .ok () := by
  induction files generalizing ss with
  | nil => simp only [mkSources, Except.ok.injEq] at h; subst h; simp
  | cons x t ih =>
    obtain ⟨file, descrs⟩ := x
    simp only [mkSources] at h
    obtain ⟨a, h1, h⟩ := Except_bind_ok.1 h
    obtain ⟨b, h2, h⟩ := Except_bind_ok.1 h
    rw [pure_ok] at h; subst h
    intro s hs
    rcases List.mem_append.1 hs with hs | hs
    · rw [mapM_ok_iff] at h1
      obtain ⟨descr, _, h3⟩ := forall₂_mem_right h1 hs
      unfold mkSourceOfDescr at h3
      split at h3
      · obtain ⟨sp, h4, h5⟩ := Except_bind_ok.1 h3
        unfold getSpec at h4
        split at h4
        · rename_i sp' h6
          injection h4 with h4; subst h4
          unfold mkSource at h5
          obtain ⟨_, h7, h5⟩ := Except_bind_ok.1 h5
          rw [pure_ok] at h5; subst h5
          exact ⟨List.mem_of_find?_eq_some h6, rfl, h7⟩
        · simp at h4
      · simp at h3
      · simp at h3
    · exact ih h2 s hs

/-- **C23** In every database that can occur, every source's data is unset or has passed the verification of its spec. -/
theorem C23_data_always_verified (plugins : List Spec) (ss : List Source) (h : ReachableDb plugins ss) (s : Source) (hs : s ∈ ss) :
    s.spec ∈ plugins ∧ (s.data = .none ∨ ∃ args, s.spec.verifyData s.data args = .ok ()) := by
  suffices hh : ∀ s ∈ ss, SourceOk plugins s from hh s hs
  clear s hs
  have after : ∀ {l : List (Source × Outcome)}, (∀ s ∈ l.map Prod.fst, SourceOk plugins s) → ∀ so ∈ l, SourceOk plugins (srcAfter so) := by
    intro l hl so hso
    have := hl so.1 (List.mem_map.2 ⟨so, hso, rfl⟩)
    unfold srcAfter
    split
    · exact this
    · rename_i s' h; exact loadFromSource_sourceOk this h
  induction h with
  | init env files ss h =>
    unfold initDatabase at h
    obtain ⟨a, h1, h⟩ := Except_bind_ok.1 h
    obtain ⟨_, _, h⟩ := Except_bind_ok.1 h
    rw [pure_ok] at h; subst h
    intro s hs
    obtain ⟨h2, h3, _⟩ := mkSources_spec h1 s hs
    exact ⟨h2, .inl h3⟩
  | update env b l _ ih =>
    rcases dbUpdate_run env b l with ⟨h, _⟩ | ⟨pre, so, post, e, rfl, _, _, _, h⟩
    · rw [h]
      intro s hs
      obtain ⟨so, hso, rfl⟩ := List.mem_map.1 hs
      exact after ih so hso
    · rw [h]
      intro s hs
      simp only [List.mem_append, List.mem_cons] at hs
      rcases hs with hs | rfl | hs
      · obtain ⟨so, hso, rfl⟩ := List.mem_map.1 hs
        exact after ih so (by simp [hso])
      · exact after ih so (by simp)
      · exact ih s (by simp only [List.map_append, List.map_cons, List.mem_append, List.mem_cons]; exact .inr (.inr hs))
  | loadFromSource b l _ ih =>
    rename_i h0
    clear h0
    induction l with
    | nil => simp [dbLoadFromSource]
    | cons so t iht =>
      obtain ⟨s, o⟩ := so
      have iht := iht (fun x hx => ih x (by simp only [List.map_cons, List.mem_cons]; exact .inr hx))
      have hs0 := ih s (by simp)
      simp only [dbLoadFromSource]
      cases h : s.loadFromSource o.net o.now with
      | error e =>
        simp only
        cases hr : reraises b e with
        | true => rw [if_pos rfl]; simpa using ih
        | false =>
          rw [if_neg (by simp)]
          intro x hx
          rcases List.mem_cons.1 hx with rfl | hx
          · exact hs0
          · exact iht x hx
      | ok s' =>
        intro x hx
        rcases List.mem_cons.1 hx with rfl | hx
        · exact loadFromSource_sourceOk hs0 h
        · exact iht x hx
  | loadFromCache env fs b ss _ ih =>
    rename_i h0
    clear h0
    induction ss with
    | nil => simp [dbLoadFromCache]
    | cons s t iht =>
      have iht := iht (fun x hx => ih x (by simp [hx]))
      have hs0 := ih s (by simp)
      simp only [dbLoadFromCache]
      cases h : s.loadFromCache env fs with
      | error e =>
        simp only
        cases hr : reraises b e with
        | true => rw [if_pos rfl]; simpa using ih
        | false =>
          rw [if_neg (by simp)]
          intro x hx
          rcases List.mem_cons.1 hx with rfl | hx
          · exact hs0
          · exact iht x hx
      | ok s' =>
        intro x hx
        rcases List.mem_cons.1 hx with rfl | hx
        · exact loadFromCache_sourceOk hs0 h
        · exact iht x hx
  | saveToCache env b l _ ih =>
    have : (dbSaveToCache env b l).sources = l.map Prod.fst := by
      clear ih
      rename_i h0; clear h0
      induction l with
      | nil => rfl
      | cons so t iht =>
        obtain ⟨s, o⟩ := so
        simp only [dbSaveToCache]
        cases h : (s.saveToCache env o.write).2 with
        | none => simp [iht]
        | some e => cases hr : reraises b e <;> simp [iht, hr]
    rw [this]; exact ih

/-- **C23** For the `rules` spec: loaded data is always a valid rules dict, so lookups and key listings in a loaded source
never fail with anything but ValueError (missing default installer or an unusable default installer name). -/
theorem C23_rules_data (uni u : Char → Bool) (ss : List Source) (h : ReachableDb [rulesSpec u] ss) (s : Source) (hs : s ∈ ss)
    (hl : s.data ≠ .none) : ValidRules u True s.data ∧ (∃ r : Rules, s.data = r.toVal) ∧
      (∀ key c e, s.lookup uni key c = .error e → e = .valueError) ∧ ∀ c, ∃ ks, s.keys c = .ok ks := by
  obtain ⟨h1, h2⟩ := C23_data_always_verified _ ss h s hs
  have hsp : s.spec = rulesSpec u := by simpa using h1
  have hv : verifyRulesDict u true s.data = .ok () := by
    rcases h2 with h2 | ⟨a, h2⟩
    · exact absurd h2 hl
    · rw [hsp] at h2; exact h2
  obtain ⟨r, hr⟩ := verified_is_typed hv
  refine ⟨verifyRulesDict_iff.1 hv, ⟨r, hr⟩, ?_, ?_⟩
  · intro key c e he
    unfold Source.lookup at he
    rw [hsp, hr] at he
    simp only [rulesSpec, rulesLookup, rulesOfVal_toVal] at he
    rcases Except_bind_err.1 he with he | ⟨v, _, he⟩
    · rcases Except_bind_err.1 he with he | ⟨_, _, he⟩
      · exact lookupRules_error he
      · simp [pure, Except.pure] at he
    · rcases Except_bind_err.1 he with he | ⟨_, h3, he⟩
      · exact verifyInstallerDict_err he
      · obtain ⟨d, rfl⟩ := verifiedInst_typed h3
        rw [instOfVal_toVal] at he
        simp [pure, Except.pure] at he
  · intro c
    unfold Source.keys
    rw [hsp, hr]
    simp only [rulesSpec, rulesKeys, rulesOfVal_toVal]
    exact ⟨_, rfl⟩

/-- **C23** A cache file without the expected structure, or of another spec, is rejected with ValueError; an unreadable or
missing file with an error. In each case the source is unchanged (the model returns no new source). -/
theorem C23_bad_cache_rejected (env : CacheEnv) (fs : FileSys) (s : Source) (p : String) (hp : s.cachePath env = .ok p) :
    (fs p = none → s.loadFromCache env fs = .error .ioError) ∧
    (fs p = some .broken → s.loadFromCache env fs = .error .unpicklingError) ∧
    (∀ v, fs p = some (.pickled v) →
      (¬ ∃ d, v = .dict d ∧ ∀ k ∈ ["xylem_version", "spec_name", "spec_version", "arguments", "origin", "data", "time_data_loaded"],
        ∃ w, dget d (.str k) = some w) → s.loadFromCache env fs = .error .valueError) ∧
    (∀ d n, fs p = some (.pickled (.dict d)) → dget d (.str "spec_name") = some n → n ≠ .str s.spec.name →
      s.loadFromCache env fs = .error .valueError) := by
  refine ⟨?_, ?_, ?_, ?_⟩
  · intro h; unfold Source.loadFromCache; simp [hp, bind, Except.bind, readCache, h]
  · intro h; unfold Source.loadFromCache; simp [hp, bind, Except.bind, readCache, h]
  · intro v h hn
    have : verifyCacheDataStructure v = .error .valueError := by
      cases v with
      | dict d =>
        simp only [verifyCacheDataStructure]
        rw [if_neg]
        intro hall
        refine hn ⟨d, rfl, fun k hk => ?_⟩
        have := List.all_eq_true.1 hall k hk
        exact Option.isSome_iff_exists.1 this
      | _ => rfl
    unfold Source.loadFromCache; simp [hp, bind, Except.bind, readCache, h, this]
  · intro d n h hn hne
    have hpy : pyEq (.str s.spec.name) n = false := by
      cases n <;> simp only [pyEq, beq_eq_false_iff_ne, ne_eq]
      rintro rfl; exact hne rfl
    unfold Source.loadFromCache
    simp only [hp, bind, Except.bind, readCache, h]
    cases hv : verifyCacheDataStructure (.dict d) with
    | error e =>
      have hv' : (if cacheDataKeys.all (fun k => dhas d (.str k)) then Except.ok d else .error Exc.valueError) = Except.error e := hv
      split at hv'
      · simp at hv'
      · injection hv' with hv'; subst hv'; rfl
    | ok d' =>
      have hv' : (if cacheDataKeys.all (fun k => dhas d (.str k)) then Except.ok d else .error Exc.valueError) = Except.ok d' := hv
      split at hv'
      · injection hv' with hv'; subst hv'
        simp [verifyCacheDataSpecName, getItem, hn, bind, Except.bind, hpy]
      · simp at hv'

/-! ## C24 -/

theorem pathJoin_inj {a b c : String} (hb : b.toList.head? ≠ some '/') (hc : c.toList.head? ≠ some '/')
    (h : pathJoin a b = pathJoin a c) : b = c := by
  unfold pathJoin at h
  rw [if_neg hb, if_neg hc] at h
  split at h
  · exact (String.append_right_inj a).1 h
  · exact (String.append_right_inj _).1 h

/-- What the uniqueness check establishes. -/
theorem verifyUniqueIds_spec {env : CacheEnv} {ss : List Source} (h2 : verifyUniqueIds env ss = .ok ()) :
    (∃ ids : List String, List.Forall₂ (fun s i => env.sha1 (s.spec.uniqueId s.arguments) = .ok i) ss ids ∧ ids.Nodup) ∧
    ((∀ v i, env.sha1 v = .ok i → i.toList.head? ≠ some '/') → DistinctCacheFiles env ss) := by
  unfold verifyUniqueIds at h2
  obtain ⟨ids, h3, h4⟩ := Except_bind_ok.1 h2
  rw [mapM_ok_iff] at h3
  have hnd : ids.Nodup := by
    split at h4
    · rename_i h5; exact (eraseDups_length_eq _ ids (Nat.le_refl _)).1 h5
    · simp [throw, throwThe, MonadExceptOf.throw] at h4
  refine ⟨⟨ids, h3, hnd⟩, fun hsl => ⟨ids.map fun i => pathJoin env.cacheDir (i ++ ".pickle"), ?_, ?_⟩⟩
  · rw [List.forall₂_map_right_iff]
    refine h3.imp ?_
    intro s i hi
    simp [Source.cachePath, cacheFilePath, hi, bind, Except.bind, pure, Except.pure]
  · have hsl' : ∀ i ∈ ids, i.toList.head? ≠ some '/' := by
      intro i hi
      obtain ⟨_, _, h5⟩ := forall₂_mem_right h3 hi
      exact hsl _ _ h5
    have hh : ∀ i ∈ ids, (i ++ ".pickle").toList.head? ≠ some '/' := by
      intro i hi
      rw [String.toList_append]
      cases hl : i.toList with
      | nil => decide
      | cons c t => have := hsl' i hi; rw [hl] at this; simpa using this
    refine List.Nodup.map_on ?_ hnd
    intro x hx y hy hxy
    have := pathJoin_inj (hh x hx) (hh y hy) hxy
    exact (String.append_left_inj _).1 this

/-- **C24** A database is only created if all its sources have distinct hash ids; then all sources have distinct cache
files. The only assumption on the hash is that it never starts with a slash (sha1 hex digests). -/
theorem C24_unique_ids (env : CacheEnv) (plugins : List Spec) (files : List (String × List PVal)) (ss : List Source)
    (h : initDatabase env plugins files = .ok ss) :
    (∃ ids : List String, List.Forall₂ (fun s i => env.sha1 (s.spec.uniqueId s.arguments) = .ok i) ss ids ∧ ids.Nodup) ∧
    ((∀ v i, env.sha1 v = .ok i → i.toList.head? ≠ some '/') → DistinctCacheFiles env ss) := by
  unfold initDatabase at h
  obtain ⟨a, h1, h⟩ := Except_bind_ok.1 h
  obtain ⟨_, h2, h⟩ := Except_bind_ok.1 h
  rw [pure_ok] at h; subst h
  exact verifyUniqueIds_spec h2

/-- **C24** Conversely a list of sources with two equal ids is refused with RuntimeError. -/
theorem C24_duplicates_refused (env : CacheEnv) (ss : List Source) (ids : List String)
    (h : List.Forall₂ (fun s i => env.sha1 (s.spec.uniqueId s.arguments) = .ok i) ss ids) :
    verifyUniqueIds env ss = if ids.Nodup then .ok () else .error .runtimeError := by
  unfold verifyUniqueIds
  rw [mapM_ok_iff.2 h]
  simp only [bind, Except.bind]
  by_cases hn : ids.Nodup
  · rw [if_pos hn, if_pos ((eraseDups_length_eq _ ids (Nat.le_refl _)).2 hn)]; rfl
  · rw [if_neg hn, if_neg (fun hc => hn ((eraseDups_length_eq _ ids (Nat.le_refl _)).1 hc))]; rfl

/-! ## C25 -/

/-- **C25** (refuted) Whenever a readable cache file exists, checking whether it is outdated raises TypeError. -/
theorem C25_outdated_check_crashes (env : CacheEnv) (fs : FileSys) (s : Source) (p : String) (d : List (PKey × PVal))
    (hp : s.cachePath env = .ok p) (hr : readCache fs p = .ok d) : s.isCacheOutdated env fs = .error .typeError := by
  have hs : (fs p).isSome = true := by
    cases h : fs p with
    | none => simp [readCache, h] at hr
    | some _ => rfl
  unfold Source.isCacheOutdated Source.isCacheAvailable
  simp [hp, bind, Except.bind, pure, Except.pure, hs, hr, throw, throwThe, MonadExceptOf.throw]

/-- **C25** (refuted) Clearing a source's cache always raises TypeError and removes nothing. -/
theorem C25_clear_crashes (env : CacheEnv) (fs : FileSys) (s : Source) :
    (s.clearCache env).2 = some .typeError ∧ applySteps fs (s.clearCache env).1 = fs := ⟨rfl, rfl⟩

/-- **C25** (what holds) Without a cache file the source counts as outdated. -/
theorem C25_missing_is_outdated_partial (env : CacheEnv) (fs : FileSys) (s : Source) (p : String)
    (hp : s.cachePath env = .ok p) (hn : fs p = none) : s.isCacheOutdated env fs = .ok true := by
  unfold Source.isCacheOutdated Source.isCacheAvailable
  simp [hp, bind, Except.bind, pure, Except.pure, hn]

/-! ## C69 -/

/-- **C69** (refuted) A cache file may replace the source's arguments by something that is not even valid for its spec; the
source then has no cache file any more. -/
theorem C69_identity_lost : ∃ (env : CacheEnv) (fs : FileSys) (s s' : Source), s.spec = rulesSpec (fun _ => false) ∧
    s.spec.verifyArguments s.arguments = .ok () ∧ s.loadFromCache env fs = .ok s' ∧
    s'.spec.verifyArguments s'.arguments = .error .valueError ∧ s'.cachePath env ≠ s.cachePath env := by
  refine ⟨⟨fun v => match v with | .str s => .ok s | _ => .error .typeError, "", "/c"⟩,
    fun p => if p = "/c/u.pickle" then some (.pickled (createCacheData "" "rules" 1 (.int 3) .none (.dict []) .none)) else none,
    ⟨rulesSpec (fun _ => false), .str "u", .none, .none, .none⟩, ⟨rulesSpec (fun _ => false), .int 3, .none, .dict [], .none⟩,
    rfl, rfl, rfl, rfl, ?_⟩
  intro h
  have : (Except.error Exc.typeError : Except Exc String) = .ok "/c/u.pickle" := h
  simp at this

/-- **C69** (what holds) The spec is kept, and the arguments and cache file are kept if the file stores the same arguments —
which is the case for every file written for this source (C21). -/
theorem C69_identity_kept_partial (env : CacheEnv) (fs : FileSys) (s s' : Source) (p : String) (d : List (PKey × PVal))
    (hp : s.cachePath env = .ok p) (hf : fs p = some (.pickled (.dict d))) (ha : dget d (.str "arguments") = some s.arguments)
    (h : s.loadFromCache env fs = .ok s') : s'.spec = s.spec ∧ s'.arguments = s.arguments ∧ s'.cachePath env = .ok p := by
  have h0 := h
  unfold Source.loadFromCache at h
  obtain ⟨q, h1, h⟩ := Except_bind_ok.1 h
  rw [hp] at h1; injection h1 with h1; subst h1
  obtain ⟨d', h2, h⟩ := Except_bind_ok.1 h
  have hd : d' = d := by
    simp only [readCache, hf, verifyCacheDataStructure] at h2
    split at h2
    · injection h2 with h2; exact h2.symm
    · simp at h2
  subst hd
  obtain ⟨_, h3, h⟩ := Except_bind_ok.1 h
  obtain ⟨_, h4, h⟩ := Except_bind_ok.1 h
  obtain ⟨data, h5, h⟩ := Except_bind_ok.1 h
  obtain ⟨_, h6, h⟩ := Except_bind_ok.1 h
  obtain ⟨a, h7, h⟩ := Except_bind_ok.1 h
  obtain ⟨o, h8, h⟩ := Except_bind_ok.1 h
  obtain ⟨t, h9, h⟩ := Except_bind_ok.1 h
  rw [pure_ok] at h; subst h
  simp only [getItem, ha, Except.ok.injEq] at h7
  subst h7
  exact ⟨rfl, rfl, hp⟩

/-! ## Non-vacuity -/

/-- An environment for the examples: the hash of a text is the text. -/
def exEnv : CacheEnv := ⟨fun v => match v with | .str s => .ok s | _ => .error .typeError, "0.1.0", "/cache"⟩
/-- A source list with two urls. -/
def exFiles : List (String × List PVal) :=
  [("a.yaml", [.dict [(.str "rules", .str "u1")], .dict [(.str "rules", .str "u2")]])]
/-- The sources created from it. -/
def exS (url : String) : Source := ⟨rulesSpec (fun _ => false), .str url, .str "a.yaml", .none, .none⟩
/-- The download of u1 works, that of u2 fails. -/
def exNet : PVal → Except Exc PVal
  | .str "u1" => .ok (.dict [(.str "boost", .dict [(.str "ubuntu", .str "libboost")])])
  | _ => .error .downloadFailure
/-- World in which all writes work. -/
def exO : Outcome := ⟨exNet, .other 7, .ok⟩
/-- The list of the examples. -/
def exL : List (Source × Outcome) := [(exS "u1", exO), (exS "u2", exO)]
/-- The data downloaded from u1. -/
def exD : PVal := .dict [(.str "boost", .dict [(.str "ubuntu", .dict [(.str "any_version",
  .dict [(.str "default_installer", .dict [(.str "packages", .list [.str "libboost"])])])])])]

example : initDatabase exEnv [rulesSpec (fun _ => false)] exFiles = .ok [exS "u1", exS "u2"] := by rfl
example : DistinctCacheFiles exEnv (exL.map Prod.fst) :=
  ⟨["/cache/u1.pickle", "/cache/u2.pickle"], .cons rfl (.cons rfl .nil), by decide⟩
example : Downloaded (exS "u1") exO exD := ⟨rfl, rfl⟩
example : ¬ UpdateSucceeds exEnv (exS "u2", exO) := by
  rintro ⟨⟨d, hd, _⟩, _⟩
  have : (Except.error Exc.downloadFailure : Except Exc PVal) = .ok d := hd
  simp at this
example : ReachableDb [rulesSpec (fun _ => false)] (dbUpdate exEnv false exL).sources :=
  .update _ _ _ (.init exEnv exFiles _ (by rfl))

end Verif
