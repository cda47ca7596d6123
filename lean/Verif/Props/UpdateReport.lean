import Verif.Model.Reports
import Verif.Props.CommandMisc
import Verif.Props.Database
/-! # C119: what `xylem update` prints -/
namespace Verif

/-! ## Specification -/

/-- The origins of the sources are texts (names of files), as in every database that has just been opened (`C119_opened`). -/
def TextOrigins (l : List (Source × Outcome)) : Prop := ∀ so ∈ l, ∃ f, so.1.origin = .str f

/-- What is seen of the update of one source after the progress messages. -/
structure SourceReport (env : CacheEnv) (s : Source) (o : Outcome) (body : List UpdateEvent) : Prop where
  saved : ∀ d p, Downloaded s o d → s.cachePath env = .ok p → o.write = .ok →
    ∃ v, goodFile env s d o.now = .pickled v ∧ body = [.step (.truncate p), .step (.fill p v)]
  notOpened : ∀ d p e, Downloaded s o d → s.cachePath env = .ok p → o.write = .openFails e → body = [.notSaved (s.spec.uniqueId s.arguments) e]
  notDumped : ∀ d p e, Downloaded s o d → s.cachePath env = .ok p → o.write = .dumpFails e →
    body = [.step (.truncate p), .notSaved (s.spec.uniqueId s.arguments) e]
  noPath : ∀ d e, Downloaded s o d → s.cachePath env = .error e → body = [.notSaved (s.spec.uniqueId s.arguments) e]
  notLoaded : ∀ e, s.spec.loadData o.net s.arguments = .error e → body = [.notLoaded (s.spec.uniqueId s.arguments) e]
  notVerified : ∀ d e, s.spec.loadData o.net s.arguments = .ok d → s.spec.verifyData d s.arguments = .error e →
    body = [.notLoaded (s.spec.uniqueId s.arguments) e]

/-- The event is a message about a failure. -/
def UpdateEvent.failure : UpdateEvent → Prop
  | .notLoaded _ _ => True
  | .notSaved _ _ => True
  | _ => False

/-- The event is a progress message. -/
def UpdateEvent.progress : UpdateEvent → Bool
  | .processing _ => true
  | .loading _ _ => true
  | _ => false

/-- The change of the file system an event is (if it is one). -/
def UpdateEvent.fsStep : UpdateEvent → Option FsStep
  | .step f => some f
  | _ => none

/-! ## Lemmas -/

theorem originSeen_str (seen : List PVal) (f : String) : originSeen seen (.str f) = .ok (seen.any (pyEq (.str f))) := rfl

open Classical in
theorem announce_str (pi : Bool) (seen : List PVal) (s : Source) {f : String} (hf : s.origin = .str f) :
    announceSource pi seen s = .ok (if pi then (if s.origin ∈ seen then [] else [.processing s.origin]) ++ [.loading s.spec.name s.arguments] else [],
      if s.origin ∈ seen then seen else s.origin :: seen) := by
  unfold announceSource
  rw [hf, originSeen_str]
  by_cases h : PVal.str f ∈ seen
  · rw [(any_pyEq_str _ _).2 h]; simp [h, bind, Except.bind, pure, Except.pure]
  · have : seen.any (pyEq (.str f)) = false := by
      cases hb : seen.any (pyEq (.str f)) with
      | false => rfl
      | true => exact absurd ((any_pyEq_str _ _).1 hb) h
    rw [this]; simp [h, bind, Except.bind, pure, Except.pure]

/-- The events of loading and saving a source. -/
def bodyOf (env : CacheEnv) (b : Bool) (so : Source × Outcome) : List UpdateEvent := (refreshSource env b so.1 so.2).1

theorem refresh_eq (env : CacheEnv) (b : Bool) (so : Source × Outcome) :
    refreshSource env b so.1 so.2 = (bodyOf env b so, srcAfter so, (srcErr env so).filter (reraises b)) := by
  obtain ⟨s, o⟩ := so
  unfold bodyOf
  simp only [refreshSource, srcAfter, srcErr]
  cases h : s.loadFromSource o.net o.now with
  | error e => cases hr : reraises b e <;> simp [hr, Option.filter]
  | ok s' =>
    simp only
    cases h2 : (s'.saveToCache env o.write).2 with
    | none => simp
    | some e => cases hr : reraises b e <;> simp [hr, Option.filter]

theorem body_steps (env : CacheEnv) (b : Bool) (so : Source × Outcome) : (bodyOf env b so).filterMap UpdateEvent.fsStep = srcSteps env so := by
  have hid : ∀ l : List FsStep, (l.map UpdateEvent.step).filterMap UpdateEvent.fsStep = l := by
    intro l
    induction l with
    | nil => rfl
    | cons a t ih => simp [UpdateEvent.fsStep, ih]
  obtain ⟨s, o⟩ := so
  unfold bodyOf
  simp only [refreshSource, srcSteps]
  cases h : s.loadFromSource o.net o.now with
  | error e => cases hr : reraises b e <;> simp [hr, UpdateEvent.fsStep]
  | ok s' =>
    simp only
    cases h2 : (s'.saveToCache env o.write).2 with
    | none => simp [hid]
    | some e => cases hr : reraises b e <;> simp [hr, UpdateEvent.fsStep, hid, List.filterMap_append]

theorem body_progress (env : CacheEnv) (b : Bool) (so : Source × Outcome) : (bodyOf env b so).filter UpdateEvent.progress = [] := by
  have hid : ∀ l : List FsStep, (l.map UpdateEvent.step).filter UpdateEvent.progress = [] := by
    intro l
    induction l with
    | nil => rfl
    | cons a t ih => simp [UpdateEvent.progress]
  obtain ⟨s, o⟩ := so
  unfold bodyOf
  simp only [refreshSource]
  cases h : s.loadFromSource o.net o.now with
  | error e => cases hr : reraises b e <;> simp [hr, UpdateEvent.progress]
  | ok s' =>
    simp only
    cases h2 : (s'.saveToCache env o.write).2 with
    | none => simp only [hid]
    | some e => cases hr : reraises b e <;> simp [hr, UpdateEvent.progress]

open Classical in
/-- The progress messages for a source. -/
noncomputable def headOf (pi : Bool) (seen : List PVal) (s : Source) : List UpdateEvent :=
  if pi then (if s.origin ∈ seen then [] else [.processing s.origin]) ++ [.loading s.spec.name s.arguments] else []

open Classical in
/-- The origins seen after a source. -/
noncomputable def seenNext (seen : List PVal) (s : Source) : List PVal := if s.origin ∈ seen then seen else s.origin :: seen

theorem head_progress (pi : Bool) (seen : List PVal) (s : Source) : (headOf pi seen s).filter UpdateEvent.progress = headOf pi seen s := by
  rw [List.filter_eq_self]
  intro ev he
  unfold headOf at he
  cases pi with
  | false => cases he
  | true =>
    rcases List.mem_append.1 he with he | he
    · split at he
      · cases he
      · rw [List.mem_singleton] at he; subst he; rfl
    · rw [List.mem_singleton] at he; subst he; rfl

theorem mem_seenNext {seen : List PVal} {s : Source} {v : PVal} : v ∈ seenNext seen s ↔ v ∈ seen ∨ v = s.origin := by
  unfold seenNext
  by_cases h : s.origin ∈ seen
  · simp only [h, if_true]; exact ⟨.inl, fun hv => hv.elim id (fun e => e ▸ h)⟩
  · simp only [h, if_false, List.mem_cons]; exact or_comm

theorem telling_cons (env : CacheEnv) (pi b : Bool) (seen : List PVal) (so : Source × Outcome) (t : List (Source × Outcome))
    {f : String} (hf : so.1.origin = .str f) :
    updateTelling env pi b seen (so :: t) =
      match (srcErr env so).filter (reraises b) with
      | some e => ⟨headOf pi seen so.1 ++ bodyOf env b so, srcAfter so :: t.map Prod.fst, some e⟩
      | none => ⟨headOf pi seen so.1 ++ bodyOf env b so ++ (updateTelling env pi b (seenNext seen so.1) t).events,
          srcAfter so :: (updateTelling env pi b (seenNext seen so.1) t).sources, (updateTelling env pi b (seenNext seen so.1) t).raised⟩ := by
  obtain ⟨s, o⟩ := so
  have hr := refresh_eq env b (s, o)
  simp only at hr hf
  simp only [updateTelling, announce_str pi seen s hf, hr]
  rfl

theorem telling_congr (env : CacheEnv) (pi b : Bool) {l : List (Source × Outcome)} (hl : TextOrigins l) :
    ∀ seen seen' : List PVal, (∀ so ∈ l, so.1.origin ∈ seen ↔ so.1.origin ∈ seen') →
      updateTelling env pi b seen l = updateTelling env pi b seen' l := by
  induction l with
  | nil => intro _ _ _; rfl
  | cons so t ih =>
    intro seen seen' h
    obtain ⟨f, hf⟩ := hl so (by simp)
    have hh : headOf pi seen so.1 = headOf pi seen' so.1 := by
      unfold headOf
      have := h so (by simp)
      by_cases h1 : so.1.origin ∈ seen
      · simp [h1, this.1 h1]
      · have h2 : so.1.origin ∉ seen' := fun x => h1 (this.2 x)
        simp [h1, h2]
    rw [telling_cons env pi b seen so t hf, telling_cons env pi b seen' so t hf,
      ih (fun x hx => hl x (List.mem_cons_of_mem _ hx)) (seenNext seen so.1) (seenNext seen' so.1)
        (fun x hx => by rw [mem_seenNext, mem_seenNext, h x (List.mem_cons_of_mem _ hx)]), hh]

theorem telling_append (env : CacheEnv) (pi b : Bool) {rest : List (Source × Outcome)} (hrest : TextOrigins rest) :
    ∀ (pre : List (Source × Outcome)) (seen : List PVal), TextOrigins pre → (∀ x ∈ pre, ∀ e, srcErr env x = some e → reraises b e = false) →
      updateTelling env pi b seen (pre ++ rest) =
        ⟨(updateTelling env pi b seen pre).events ++ (updateTelling env pi b (pre.map (fun so => so.1.origin) ++ seen) rest).events,
         pre.map srcAfter ++ (updateTelling env pi b (pre.map (fun so => so.1.origin) ++ seen) rest).sources,
         (updateTelling env pi b (pre.map (fun so => so.1.origin) ++ seen) rest).raised⟩ := by
  intro pre
  induction pre with
  | nil => intro seen _ _; simp [updateTelling]
  | cons so t ih =>
    intro seen ht hn
    obtain ⟨f, hf⟩ := ht so (by simp)
    have hnone : (srcErr env so).filter (reraises b) = none := by
      cases he : srcErr env so with
      | none => rfl
      | some e => simp [Option.filter, hn so (by simp) e he]
    have key : updateTelling env pi b (t.map (fun so => so.1.origin) ++ seenNext seen so.1) rest =
        updateTelling env pi b ((so :: t).map (fun so => so.1.origin) ++ seen) rest := by
      apply telling_congr env pi b hrest
      intro x _
      simp only [List.mem_append, mem_seenNext, List.map_cons, List.mem_cons]
      tauto
    rw [List.cons_append, telling_cons env pi b seen so _ hf, telling_cons env pi b seen so t hf, hnone,
      ih (seenNext seen so.1) (fun x hx => ht x (List.mem_cons_of_mem _ hx)) (fun x hx => hn x (List.mem_cons_of_mem _ hx)), key]
    simp [List.append_assoc]

theorem body_report (env : CacheEnv) {s : Source} {o : Outcome} (hni : NotInterrupted env (s, o)) : SourceReport env s o (bodyOf env false (s, o)) := by
  have hd : ∀ d, Downloaded s o d → s.loadFromSource o.net o.now = .ok { s with data := d, time := o.now } :=
    fun d h => loadFromSource_ok_iff.2 ⟨d, h, rfl⟩
  constructor
  · intro d p h hp hw
    refine ⟨_, rfl, ?_⟩
    unfold bodyOf
    simp only [refreshSource, hd d h, Source.saveToCache, cachePath_congr, hp, hw, writeCache]
    rfl
  · intro d p e h hp hw
    have := hni.write e (.inl hw)
    unfold bodyOf
    simp [refreshSource, hd d h, Source.saveToCache, cachePath_congr, hp, hw, writeCache, reraises, this]
  · intro d p e h hp hw
    have := hni.write e (.inr hw)
    unfold bodyOf
    simp [refreshSource, hd d h, Source.saveToCache, cachePath_congr, hp, hw, writeCache, reraises, this]
  · intro d e h hp
    have := hni.path e hp
    unfold bodyOf
    simp [refreshSource, hd d h, Source.saveToCache, cachePath_congr, hp, reraises, this]
  · intro e h
    have h1 := hni.load e h
    have h2 : s.loadFromSource o.net o.now = .error e := by
      unfold Source.loadFromSource; rw [h]; rfl
    unfold bodyOf
    simp [refreshSource, h2, reraises, h1]
  · intro d e h h'
    have h1 := hni.verify d e h h'
    have h2 : s.loadFromSource o.net o.now = .error e := by
      unfold Source.loadFromSource; simp only [h, bind, Except.bind, h']
    unfold bodyOf
    simp [refreshSource, h2, reraises, h1]

/-! ## C119 -/

/-- **C119** The messages change nothing: with them an update (with or without `print_info`, `raise_on_error`) has the same changes of the file
system in the same order, the same sources and the same exception as without (the update all other theorems are about). -/
theorem C119_same_update (env : CacheEnv) (pi b : Bool) (l : List (Source × Outcome)) (hl : TextOrigins l) :
    (updateTelling env pi b [] l).events.filterMap UpdateEvent.fsStep = (dbUpdate env b l).steps ∧
    (updateTelling env pi b [] l).sources = (dbUpdate env b l).sources ∧
    (updateTelling env pi b [] l).raised = (dbUpdate env b l).raised := by
  generalize ([] : List PVal) = seen
  induction l generalizing seen with
  | nil => exact ⟨rfl, rfl, rfl⟩
  | cons so t ih =>
    obtain ⟨f, hf⟩ := hl so (by simp)
    obtain ⟨h1, h2, h3⟩ := ih (fun x hx => hl x (List.mem_cons_of_mem _ hx)) (seenNext seen so.1)
    have hh : (headOf pi seen so.1).filterMap UpdateEvent.fsStep = [] := by
      unfold headOf
      cases pi <;> simp [UpdateEvent.fsStep, List.filterMap_append]
      <;> (split <;> rfl)
    rw [telling_cons env pi b seen so t hf, dbUpdate_cons]
    cases (srcErr env so).filter (reraises b) with
    | none => simp only [List.filterMap_append, hh, body_steps, h1, h2, h3, List.nil_append]; simp
    | some e => simp only [List.filterMap_append, hh, body_steps, List.nil_append]; simp

open Classical in
/-- **C119** What an update prints and does, source by source: unless interrupted, with each further source its file is named if none of the sources
before came from that file, the source is named before it is downloaded, and then it is saved or there is exactly one message with its id and the
reason. -/
theorem C119_update_report (env : CacheEnv) (pre : List (Source × Outcome)) (s : Source) (o : Outcome)
    (hl : TextOrigins (pre ++ [(s, o)])) (hni : ∀ so ∈ pre ++ [(s, o)], NotInterrupted env so) :
    (updateTelling env true false [] []).events = [] ∧
    ∃ body, SourceReport env s o body ∧
      (updateTelling env true false [] (pre ++ [(s, o)])).events =
        (updateTelling env true false [] pre).events ++
          ((if ∃ so ∈ pre, so.1.origin = s.origin then [] else [.processing s.origin]) ++ .loading s.spec.name s.arguments :: body) := by
  refine ⟨rfl, bodyOf env false (s, o), body_report env (hni _ (by simp)), ?_⟩
  have hpre : TextOrigins pre := fun x hx => hl x (by simp [hx])
  have hn : ∀ x ∈ pre, ∀ e, srcErr env x = some e → reraises false e = false := by
    intro x hx e he
    simp [reraises, srcErr_isException (hni x (by simp [hx])) he]
  obtain ⟨f, hf⟩ := hl (s, o) (by simp)
  rw [telling_append env true false (rest := [(s, o)]) (fun x hx => hl x (by simp at hx; simp [hx])) pre [] hpre hn,
    telling_cons env true false _ (s, o) [] hf]
  have hnone : (srcErr env (s, o)).filter (reraises false) = none := by
    cases he : srcErr env (s, o) with
    | none => rfl
    | some e => simp [Option.filter, reraises, srcErr_isException (hni (s, o) (by simp)) he]
  rw [hnone]
  simp only [updateTelling, List.append_nil, headOf, if_true, List.mem_map, List.append_assoc, List.cons_append, List.nil_append]

theorem body_failure (env : CacheEnv) (so : Source × Outcome) (hni : NotInterrupted env so) :
    (∃ ev ∈ bodyOf env false so, ev.failure) ↔ ¬ UpdateSucceeds env so := by
  rw [← srcErr_none_iff]
  have hid : ∀ l : List FsStep, ¬ ∃ ev ∈ l.map UpdateEvent.step, ev.failure := by
    rintro l ⟨ev, he, hf⟩
    obtain ⟨st, _, rfl⟩ := List.mem_map.1 he
    exact hf
  have hex := fun e he => srcErr_isException (e := e) hni he
  obtain ⟨s, o⟩ := so
  unfold bodyOf
  simp only [refreshSource]
  simp only [srcErr] at hex ⊢
  cases h : s.loadFromSource o.net o.now with
  | error e =>
    simp only [h] at hex
    simp [reraises, hex e rfl, UpdateEvent.failure]
  | ok s' =>
    simp only [h] at hex
    simp only
    cases h2 : (s'.saveToCache env o.write).2 with
    | none => simp only [not_true, iff_false]; exact hid _
    | some e =>
      simp only [reraises, hex e h2]
      simp [UpdateEvent.failure]

/-- **C119** No news is good news: unless interrupted, an update prints no message about a failure if and only if every source was downloaded and
saved. (The exit status does not tell, see C81.) -/
theorem C119_silent_iff_updated (env : CacheEnv) (pi : Bool) (l : List (Source × Outcome)) (hl : TextOrigins l)
    (hni : ∀ so ∈ l, NotInterrupted env so) :
    (∀ ev ∈ (updateTelling env pi false [] l).events, ¬ ev.failure) ↔ ∀ so ∈ l, UpdateSucceeds env so := by
  generalize ([] : List PVal) = seen
  induction l generalizing seen with
  | nil => simp [updateTelling]
  | cons so t ih =>
    obtain ⟨f, hf⟩ := hl so (by simp)
    have ih := ih (fun x hx => hl x (List.mem_cons_of_mem _ hx)) (fun x hx => hni x (List.mem_cons_of_mem _ hx)) (seenNext seen so.1)
    have hnone : (srcErr env so).filter (reraises false) = none := by
      cases he : srcErr env so with
      | none => rfl
      | some e => simp [Option.filter, reraises, srcErr_isException (hni so (by simp)) he]
    have hb := body_failure env so (hni so (by simp))
    have hh : ∀ ev ∈ headOf pi seen so.1, ¬ ev.failure := by
      intro ev he
      unfold headOf at he
      cases pi with
      | false => simp at he
      | true =>
        simp only [if_true, List.mem_append, List.mem_singleton] at he
        rcases he with he | rfl
        · split at he
          · cases he
          · rw [List.mem_singleton] at he; subst he; exact id
        · exact id
    rw [telling_cons env pi false seen so t hf, hnone]
    simp only [List.mem_append, List.forall_mem_cons]
    rw [← ih]
    constructor
    · intro h
      refine ⟨?_, fun ev he => h ev (.inr he)⟩
      by_contra hc
      obtain ⟨ev, he, hfail⟩ := hb.2 hc
      exact h ev (.inl (.inr he)) hfail
    · rintro ⟨h1, h2⟩ ev ((he | he) | he)
      · exact hh ev he
      · intro hfail; exact hb.1 ⟨ev, he, hfail⟩ h1
      · exact h2 ev he

/-- **C119** Every source is named under the heading of its file: if the sources come file by file (`groups`), and no file occurs twice, the progress
messages are, for each file with sources, its name followed by its sources. -/
theorem C119_under_own_file (env : CacheEnv) (groups : List (String × List (Source × Outcome)))
    (ho : ∀ g ∈ groups, ∀ so ∈ g.2, so.1.origin = .str g.1) (hd : (groups.map Prod.fst).Nodup)
    (hni : ∀ g ∈ groups, ∀ so ∈ g.2, NotInterrupted env so) :
    (updateTelling env true false [] (groups.flatMap Prod.snd)).events.filter UpdateEvent.progress =
      groups.flatMap fun g => if g.2 = [] then [] else
        .processing (.str g.1) :: g.2.map fun so => .loading so.1.spec.name so.1.arguments := by
  have hone : ∀ (seen : List PVal) (f : String) (l rest : List (Source × Outcome)), (∀ so ∈ l, so.1.origin = .str f) → TextOrigins rest →
      (∀ so ∈ l, NotInterrupted env so) →
      (updateTelling env true false seen (l ++ rest)).events.filter UpdateEvent.progress =
        (updateTelling env true false seen l).events.filter UpdateEvent.progress ++
        (updateTelling env true false (l.map (fun so => so.1.origin) ++ seen) rest).events.filter UpdateEvent.progress := by
    intro seen f l rest h1 h2 h3
    rw [telling_append env true false h2 l seen (fun x hx => ⟨f, h1 x hx⟩)
      (fun x hx e he => by simp [reraises, srcErr_isException (h3 x hx) he])]
    simp only [List.filter_append]
  have hin : ∀ (f : String) (l : List (Source × Outcome)) (seen : List PVal), .str f ∈ seen → (∀ so ∈ l, so.1.origin = .str f) →
      (∀ so ∈ l, NotInterrupted env so) →
      (updateTelling env true false seen l).events.filter UpdateEvent.progress = l.map fun so => .loading so.1.spec.name so.1.arguments := by
    intro f l
    induction l with
    | nil => intro _ _ _ _; rfl
    | cons so t ih =>
      intro seen hs h1 h2
      have hf := h1 so (by simp)
      have hnone : (srcErr env so).filter (reraises false) = none := by
        cases he : srcErr env so with
        | none => rfl
        | some e => simp [Option.filter, reraises, srcErr_isException (h2 so (by simp)) he]
      rw [telling_cons env true false seen so t hf, hnone]
      simp only [List.filter_append, body_progress, head_progress]
      rw [ih (seenNext seen so.1) (mem_seenNext.2 (.inl hs)) (fun x hx => h1 x (List.mem_cons_of_mem _ hx)) (fun x hx => h2 x (List.mem_cons_of_mem _ hx))]
      unfold headOf
      rw [hf]
      simp [hs]
  have hfirst : ∀ (f : String) (l : List (Source × Outcome)) (seen : List PVal), .str f ∉ seen → l ≠ [] → (∀ so ∈ l, so.1.origin = .str f) →
      (∀ so ∈ l, NotInterrupted env so) →
      (updateTelling env true false seen l).events.filter UpdateEvent.progress =
        .processing (.str f) :: l.map fun so => .loading so.1.spec.name so.1.arguments := by
    intro f l seen hs hne h1 h2
    cases l with
    | nil => exact absurd rfl hne
    | cons so t =>
      have hf := h1 so (by simp)
      have hnone : (srcErr env so).filter (reraises false) = none := by
        cases he : srcErr env so with
        | none => rfl
        | some e => simp [Option.filter, reraises, srcErr_isException (h2 so (by simp)) he]
      rw [telling_cons env true false seen so t hf, hnone]
      simp only [List.filter_append, body_progress, head_progress]
      rw [hin f t (seenNext seen so.1) (mem_seenNext.2 (.inr hf.symm)) (fun x hx => h1 x (List.mem_cons_of_mem _ hx)) (fun x hx => h2 x (List.mem_cons_of_mem _ hx))]
      unfold headOf
      rw [hf]
      simp [hs]
  suffices h : ∀ seen : List PVal, (∀ g ∈ groups, PVal.str g.1 ∉ seen) →
      (updateTelling env true false seen (groups.flatMap Prod.snd)).events.filter UpdateEvent.progress =
      groups.flatMap fun g => if g.2 = [] then [] else .processing (.str g.1) :: g.2.map fun so => .loading so.1.spec.name so.1.arguments from
    h [] (fun _ _ => by simp)
  induction groups with
  | nil => intro _ _; rfl
  | cons g t ih =>
    intro seen hs
    have hd' := List.nodup_cons.1 (by simpa using hd : (g.1 :: t.map Prod.fst).Nodup)
    have ht : TextOrigins (t.flatMap Prod.snd) := by
      intro so hso
      obtain ⟨g', hg', hso⟩ := List.mem_flatMap.1 hso
      exact ⟨g'.1, ho g' (List.mem_cons_of_mem _ hg') so hso⟩
    rw [List.flatMap_cons, hone seen g.1 g.2 _ (ho g (by simp)) ht (hni g (by simp)), List.flatMap_cons]
    rw [ih (fun g' hg' => ho g' (List.mem_cons_of_mem _ hg')) hd'.2 (fun g' hg' => hni g' (List.mem_cons_of_mem _ hg'))]
    · congr 1
      by_cases hne : g.2 = []
      · rw [if_pos hne, hne]; rfl
      · rw [if_neg hne, hfirst g.1 g.2 seen (hs g (by simp)) hne (ho g (by simp)) (hni g (by simp))]
    · intro g' hg' hm
      rcases List.mem_append.1 hm with hm | hm
      · obtain ⟨so, hso, he⟩ := List.mem_map.1 hm
        rw [ho g (by simp) so hso] at he
        injection he with he
        exact hd'.1 (he ▸ List.mem_map_of_mem hg')
      · exact hs g' (List.mem_cons_of_mem _ hg') hm

end Verif
