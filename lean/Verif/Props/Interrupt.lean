import Verif.Props.Cache
/-! # C79: interrupting an update -/
namespace Verif

/-- Splitting distinct cache files at a source: no source before or after it uses its file. -/
theorem DistinctCacheFiles.left {env : CacheEnv} {a b : List Source} (h : DistinctCacheFiles env (a ++ b)) : DistinctCacheFiles env a := by
  obtain ⟨paths, g1, g2⟩ := h
  obtain ⟨x, y, g3, g4, rfl⟩ := forall₂_append_left' g1
  exact ⟨x, g3, (List.nodup_append.1 g2).1⟩

theorem DistinctCacheFiles.apart {env : CacheEnv} {a b : List Source} (h : DistinctCacheFiles env (a ++ b)) {s s' : Source} (hs : s ∈ a)
    (hs' : s' ∈ b) {p : String} (hp : s.cachePath env = .ok p) : s'.cachePath env ≠ .ok p := by
  obtain ⟨paths, g1, g2⟩ := h
  obtain ⟨x, y, g3, g4, rfl⟩ := forall₂_append_left' g1
  have mem : ∀ {l : List Source} {ps : List String} {s : Source}, List.Forall₂ (fun s p => s.cachePath env = .ok p) l ps → s ∈ l →
      ∃ q ∈ ps, s.cachePath env = .ok q := by
    intro l ps s hf hm
    induction hf with
    | nil => simp at hm
    | cons h _ ih =>
      rcases List.mem_cons.1 hm with rfl | hm
      · exact ⟨_, by simp, h⟩
      · obtain ⟨q, h1, h2⟩ := ih hm; exact ⟨q, by simp [h1], h2⟩
  obtain ⟨q, hq, e1⟩ := mem g3 hs
  obtain ⟨q', hq', e2⟩ := mem g4 hs'
  rw [hp] at e1; injection e1 with e1; subst e1
  intro e3
  rw [e3] at e2; injection e2 with e2; subst e2
  exact (List.nodup_append.1 g2).2.2 p hq p hq' rfl

/-- **C79** If a KeyboardInterrupt (or a SystemExit) arrives while a source is being processed, the update ends with it even when errors are
not to be raised, at the source where it arrived: the sources before it have been processed exactly as without the interrupt, each according
to its own outcome, and its later sources are untouched in memory and in the cache. The cache file of the source itself is unchanged,
unreadable or complete. With `raise_on_error` the same holds for every exception. -/
theorem C79_interrupted_update (env : CacheEnv) (b : Bool) (l : List (Source × Outcome)) (fs : FileSys) (e : Exc)
    (hdist : DistinctCacheFiles env (l.map Prod.fst)) (h : (dbUpdate env b l).raised = some e) :
    (b = true ∨ e = .keyboardInterrupt ∨ ∃ c, e = .systemExit c) ∧
    ∃ pre bad post mem badMem, l = pre ++ bad :: post ∧ ¬ UpdateSucceeds env bad ∧ (b = false → ¬ NotInterrupted env bad) ∧
      (dbUpdate env b l).sources = mem ++ badMem :: post.map Prod.fst ∧
      List.Forall₂ (fun so s' => (∀ d, Downloaded so.1 so.2 d → s' = { so.1 with data := d, time := so.2.now }) ∧
        ((∀ d, ¬ Downloaded so.1 so.2 d) → s' = so.1)) pre mem ∧
      (∀ so ∈ pre, ∀ p, so.1.cachePath env = .ok p →
        (∀ d, Downloaded so.1 so.2 d → so.2.write = .ok →
          applySteps fs (dbUpdate env b l).steps p = some (goodFile env so.1 d so.2.now)) ∧
        (∀ d e, Downloaded so.1 so.2 d → so.2.write = .openFails e → applySteps fs (dbUpdate env b l).steps p = fs p) ∧
        ((∀ d, ¬ Downloaded so.1 so.2 d) → applySteps fs (dbUpdate env b l).steps p = fs p)) ∧
      (∀ p, bad.1.cachePath env = .ok p → applySteps fs (dbUpdate env b l).steps p = fs p ∨
        applySteps fs (dbUpdate env b l).steps p = some .broken ∨
        ∃ d, Downloaded bad.1 bad.2 d ∧ applySteps fs (dbUpdate env b l).steps p = some (goodFile env bad.1 d bad.2.now)) ∧
      (∀ so ∈ post, ∀ p, so.1.cachePath env = .ok p → applySteps fs (dbUpdate env b l).steps p = fs p) := by
  rcases dbUpdate_run env b l with ⟨h', _⟩ | ⟨pre, so, post, e', rfl, h1, h2, h5, h3⟩
  · rw [h'] at h; simp at h
  have he : e' = e := by rw [h3] at h; simpa using h
  subst he
  have e1 : (pre ++ so :: post).map Prod.fst = (pre ++ [so]).map Prod.fst ++ post.map Prod.fst := by simp
  have hd1 : DistinctCacheFiles env ((pre ++ [so]).map Prod.fst) := by rw [e1] at hdist; exact hdist.left
  have hfm := fun s o hm p hp => flatMap_cache env (pre ++ [so]) fs hd1 s o hm p hp
  have hst : (dbUpdate env b (pre ++ so :: post)).steps = (pre ++ [so]).flatMap (srcSteps env) := by rw [h3]
  refine ⟨?_, pre, so, post, pre.map srcAfter, srcAfter so, rfl, ?_, ?_, by rw [h3], ?_, ?_, ?_, ?_⟩
  · cases b with
    | true => exact .inl rfl
    | false =>
      right
      rw [reraises_false] at h5
      cases e' <;> simp [Exc.isException] at h5
      · exact .inl rfl
      · exact .inr ⟨_, rfl⟩
  · intro hs; rw [srcErr_none_iff.2 hs] at h2; simp at h2
  · intro hb hn
    subst hb
    rw [reraises_false, srcErr_isException hn h2] at h5
    simp at h5
  · rw [List.forall₂_map_right_iff, List.forall₂_same]
    intro x _
    exact ⟨fun d hd => srcAfter_eq hd, fun hd => srcAfter_fail hd⟩
  · intro x hx p hp
    rw [hst]
    obtain ⟨a1, a2, a3, a4⟩ := hfm x.1 x.2 (by simp [hx]) p hp
    exact ⟨a1, a2, a4⟩
  · intro p hp
    rw [hst]
    obtain ⟨a1, a2, a3, a4⟩ := hfm so.1 so.2 (by simp) p hp
    by_cases hd : ∃ d, Downloaded so.1 so.2 d
    · obtain ⟨d, hd⟩ := hd
      cases hw : so.2.write with
      | ok => exact .inr (.inr ⟨d, hd, a1 d hd hw⟩)
      | openFails x => exact .inl (a2 d x hd hw)
      | dumpFails x => exact .inr (.inl (a3 d x hd hw))
    · exact .inl (a4 fun d hd' => hd ⟨d, hd'⟩)
  · intro x hx p hp
    rw [hst]
    refine applySteps_other (flatMap_other ?_) fs
    intro y hy hp'
    rw [e1] at hdist
    exact hdist.apart (List.mem_map.2 ⟨y, hy, rfl⟩) (List.mem_map.2 ⟨x, hx, rfl⟩) hp' hp

/-- A world in which the network is interrupted by the user. -/
def interruptedNet : Outcome := ⟨fun _ => .error .keyboardInterrupt, .none, .ok⟩
/-- A world in which an empty rules file is downloaded. -/
def emptyNet : Outcome := ⟨fun _ => .ok (.dict []), .none, .ok⟩

/-- An environment for the examples: the hash of a text is the text. -/
def exHashEnv : CacheEnv where
  sha1 v := match v with | .str s => .ok s | _ => .error .typeError
  xylemVersion := "0"
  cacheDir := "/c"

/-- Non-vacuity: the user interrupts while the second of three sources is downloaded; the first has been saved. -/
example : (dbUpdate exHashEnv false
    [(exSource "u" [], emptyNet), (exSource "v" [], interruptedNet), (exSource "w" [], emptyNet)]).raised = some .keyboardInterrupt ∧
  (dbUpdate exHashEnv false
    [(exSource "u" [], emptyNet), (exSource "v" [], interruptedNet), (exSource "w" [], emptyNet)]).steps.length = 2 := ⟨rfl, rfl⟩

/-- Non-vacuity of `NotInterrupted`: an ordinary failing download. -/
example : NotInterrupted exHashEnv (exSource "u" [], ⟨fun _ => .error .downloadFailure, .none, .ok⟩) where
  load e h := by cases h; rfl
  verify d e h := by cases h
  path e h := by cases h
  write e h := by rcases h with h | h <;> cases h

end Verif
