import Verif.Props.Concurrent
/-! # C136: reading a cache file in pieces while it is written -/
namespace Verif

variable {β : Type}

/-- If at all moments the file is a beginning of `D`, a reader that has read a beginning of `D` goes on reading a beginning of `D`. -/
theorem readPieces_prefix {p : String} {D : List β} (moments : List (ByteFiles β × Nat)) (h : ∀ m ∈ moments, (m.1 p).getD [] <+: D) :
    ∀ sofar, sofar <+: D → sofar ++ readPieces p sofar.length moments <+: D := by
  induction moments with
  | nil => intro sofar hs; simpa [readPieces] using hs
  | cons m t ih =>
    intro sofar hs
    obtain ⟨fs, n⟩ := m
    have hc : (fs p).getD [] <+: D := h (fs, n) (by simp)
    rw [readPieces]
    rw [← List.append_assoc, ← List.length_append]
    refine ih (fun m hm => h m (by simp [hm])) _ ?_
    generalize (fs p).getD [] = c at hc
    by_cases hl : sofar.length ≤ c.length
    · have hsc : sofar <+: c := List.prefix_of_prefix_length_le hs hc hl
      obtain ⟨r, rfl⟩ := hsc
      rw [List.drop_left]
      refine List.IsPrefix.trans ?_ hc
      exact (List.prefix_append_right_inj sofar).2 (List.take_prefix n r)
    · rw [List.drop_of_length_le (by omega)]
      simpa using hs

/-- Does the step empty the file? -/
def FsStep.empties (p : String) : FsStep → Bool
  | .truncate q => decide (q = p)
  | .fill _ _ => false

/-- Steps of bytes of a run that never opens the file for writing do not touch it. -/
theorem byteRun_untouched {P : Pickle β} {p : String} {l : List FsStep} {bs : List (ByteStep β)} (h : ByteRun P l bs)
    (hn : l.countP (FsStep.empties p) = 0) : (.create p ∉ bs) ∧ ∀ m, m <+: bs → ∀ fs : ByteFiles β, applyBytes P.zero fs m p = fs p := by
  have block : ∀ (q : String) (pieces : List (List β)), q ≠ p → (.create p ∉ (.create q :: puts q 0 pieces : List (ByteStep β))) ∧
      ∀ m, m <+: (.create q :: puts q 0 pieces) → ∀ fs : ByteFiles β, applyBytes P.zero fs m p = fs p := by
    intro q pieces hq
    constructor
    · have : ∀ (pieces : List (List β)) (off : Nat), (.create p : ByteStep β) ∉ puts q off pieces := by
        intro pieces
        induction pieces with
        | nil => intro off; simp [puts]
        | cons b t ih => intro off; simp [puts, ih]
      simp [Ne.symm hq, this]
    · intro m hm fs
      cases m with
      | nil => rfl
      | cons x m =>
        rw [List.cons_prefix_cons] at hm
        obtain ⟨rfl, hm⟩ := hm
        obtain ⟨pre, h1, rfl⟩ := puts_prefix hm
        rw [create_puts]
        simp [Ne.symm hq]
  have both : ∀ (q : String) (pieces : List (List β)) (bs : List (ByteStep β)), q ≠ p →
      ((.create p ∉ bs) ∧ ∀ m, m <+: bs → ∀ fs : ByteFiles β, applyBytes P.zero fs m p = fs p) →
      (.create p ∉ (.create q :: (puts q 0 pieces ++ bs))) ∧
        ∀ m, m <+: (.create q :: (puts q 0 pieces ++ bs)) → ∀ fs : ByteFiles β, applyBytes P.zero fs m p = fs p := by
    intro q pieces bs hq hb
    obtain ⟨g1, g2⟩ := block q pieces hq
    refine ⟨fun hm => ?_, fun m hm fs => ?_⟩
    · rw [← List.cons_append, List.mem_append] at hm
      exact hm.elim g1 hb.1
    · rw [← List.cons_append] at hm
      rcases prefix_cases hm with hm | ⟨d, hd, rfl⟩
      · exact g2 m hm fs
      · rw [applyBytes_append, hb.2 d hd, g2 _ (List.prefix_refl _)]
  induction h with
  | done =>
    refine ⟨by simp, fun m hm fs => ?_⟩
    rw [List.prefix_nil] at hm; subst hm; rfl
  | whole q v pieces hf l bs _ ih =>
    rw [List.countP_cons, List.countP_cons] at hn
    have hq : q ≠ p := by
      rintro rfl
      simp [FsStep.empties] at hn
    exact both q pieces bs hq (ih (by omega))
  | part q v pieces hf hne l bs _ ih =>
    rw [List.countP_cons] at hn
    have hq : q ≠ p := by
      rintro rfl
      simp [FsStep.empties] at hn
    exact both q pieces bs hq (ih (by omega))

/-- A run that opens the file for writing at most once: before, the file is what it was; afterwards it is at every moment a beginning of one sequence of
bytes, which is an object written by the run, or cannot be read. -/
theorem byteRun_once {P : Pickle β} (hP : PickleWorks P) {p : String} {l : List FsStep} {bs : List (ByteStep β)} (h : ByteRun P l bs)
    (hn : l.countP (FsStep.empties p) ≤ 1) :
    ∃ D, ((∃ v, .fill p v ∈ l ∧ D = P.dump v) ∨ ∃ v, D <+: P.dump v ∧ D ≠ P.dump v) ∧
      ∀ m, m <+: bs → ∀ fs : ByteFiles β, (.create p ∉ m → applyBytes P.zero fs m p = fs p) ∧
        (.create p ∈ m → ∃ c, applyBytes P.zero fs m p = some c ∧ c <+: D) := by
  have first : ∀ (q : String) (pieces : List (List β)) (l : List FsStep) (bs : List (ByteStep β)), q = p → ByteRun P l bs →
      l.countP (FsStep.empties p) = 0 → ∀ m, m <+: (.create q :: (puts q 0 pieces ++ bs)) → ∀ fs : ByteFiles β,
        (.create p ∉ m → applyBytes P.zero fs m p = fs p) ∧ (.create p ∈ m → ∃ c, applyBytes P.zero fs m p = some c ∧ c <+: pieces.flatten) := by
    rintro q pieces l bs rfl hr hz m hm fs
    obtain ⟨g1, g2⟩ := byteRun_untouched hr hz
    cases m with
    | nil => exact ⟨fun _ => rfl, fun h => by simp at h⟩
    | cons x m =>
      rw [List.cons_prefix_cons] at hm
      obtain ⟨rfl, hm⟩ := hm
      refine ⟨fun h => by simp at h, fun _ => ?_⟩
      rcases prefix_cases hm with hm | ⟨d, hd, rfl⟩
      · obtain ⟨pre, h1, rfl⟩ := puts_prefix hm
        refine ⟨pre.flatten, by rw [create_puts]; simp, ?_⟩
        obtain ⟨t, rfl⟩ := h1
        rw [List.flatten_append]; exact List.prefix_append _ _
      · rw [← List.cons_append, applyBytes_append, g2 d hd, create_puts]
        exact ⟨pieces.flatten, by simp, List.prefix_refl _⟩
  have later : ∀ (q : String) (pieces : List (List β)) (bs : List (ByteStep β)) (D : List β), q ≠ p →
      (∀ m, m <+: bs → ∀ fs : ByteFiles β, (.create p ∉ m → applyBytes P.zero fs m p = fs p) ∧
        (.create p ∈ m → ∃ c, applyBytes P.zero fs m p = some c ∧ c <+: D)) →
      ∀ m, m <+: (.create q :: (puts q 0 pieces ++ bs)) → ∀ fs : ByteFiles β, (.create p ∉ m → applyBytes P.zero fs m p = fs p) ∧
        (.create p ∈ m → ∃ c, applyBytes P.zero fs m p = some c ∧ c <+: D) := by
    intro q pieces bs D hq ih m hm fs
    have hput : ∀ (pieces : List (List β)) (off : Nat), (.create p : ByteStep β) ∉ puts q off pieces := by
      intro pieces
      induction pieces with
      | nil => intro off; simp [puts]
      | cons b t ih => intro off; simp [puts, ih]
    have hno : (.create p : ByteStep β) ∉ (.create q :: puts q 0 pieces) := by simp [Ne.symm hq, hput]
    rcases prefix_cases (a := .create q :: puts q 0 pieces) (b := bs) hm with hm' | ⟨d, hd, rfl⟩
    · refine ⟨fun _ => ?_, fun h => absurd (hm'.subset h) hno⟩
      cases m with
      | nil => rfl
      | cons x m =>
        rw [List.cons_prefix_cons] at hm'
        obtain ⟨rfl, hm'⟩ := hm'
        obtain ⟨pre, h1, rfl⟩ := puts_prefix hm'
        rw [create_puts]
        simp [Ne.symm hq]
    · rw [applyBytes_append]
      have e : applyBytes P.zero fs (.create q :: puts q 0 pieces) p = fs p := by
        rw [create_puts]; simp [Ne.symm hq]
      obtain ⟨i1, i2⟩ := ih d hd (applyBytes P.zero fs (.create q :: puts q 0 pieces))
      rw [e] at i1
      refine ⟨fun h => i1 (fun hh => h (List.mem_append_right _ hh)), fun h => i2 ?_⟩
      exact (List.mem_append.1 h).resolve_left hno
  induction h with
  | done =>
    refine ⟨[], .inr ⟨.none, List.nil_prefix, fun e => ?_⟩, fun m hm fs => ?_⟩
    · have h1 := content_whole hP .none
      rw [← e, content_empty hP] at h1
      cases h1
    · rw [List.prefix_nil] at hm; subst hm
      exact ⟨fun _ => rfl, fun h => by simp at h⟩
  | whole q v pieces hf l bs hr ih =>
    rw [List.countP_cons, List.countP_cons] at hn
    by_cases hq : q = p
    · refine ⟨pieces.flatten, .inl ⟨v, by simp [hq], hf⟩, first q pieces l bs hq hr ?_⟩
      simp only [FsStep.empties, hq, decide_true, if_true] at hn
      omega
    · obtain ⟨D, h1, h2⟩ := ih (by omega)
      refine ⟨D, ?_, later q pieces bs D hq h2⟩
      rcases h1 with ⟨w, h1, h3⟩ | h1
      · exact .inl ⟨w, by simp [h1], h3⟩
      · exact .inr h1
  | part q v pieces hf hne l bs hr ih =>
    rw [List.countP_cons] at hn
    by_cases hq : q = p
    · refine ⟨pieces.flatten, .inr ⟨v, hf, hne⟩, first q pieces l bs hq hr ?_⟩
      simp only [FsStep.empties, hq, decide_true, if_true] at hn
      omega
    · obtain ⟨D, h1, h2⟩ := ih (by omega)
      refine ⟨D, ?_, later q pieces bs D hq h2⟩
      rcases h1 with ⟨w, h1, h3⟩ | h1
      · exact .inl ⟨w, by simp [h1], h3⟩
      · exact .inr h1

theorem srcSteps_empties {env : CacheEnv} {so : Source × Outcome} {p : String} (h : so.1.cachePath env ≠ .ok p) :
    (srcSteps env so).countP (FsStep.empties p) = 0 := by
  rw [List.countP_eq_zero]
  intro st hst
  obtain ⟨q, hq, rfl | ⟨d, _, rfl⟩⟩ := srcSteps_mem (s := so.1) (o := so.2) hst
  · have : q ≠ p := by rintro rfl; exact h hq
    simp [FsStep.empties, this]
  · simp [FsStep.empties]

theorem flatMap_empties {env : CacheEnv} {l : List (Source × Outcome)} {p : String} (h : ∀ x ∈ l, x.1.cachePath env ≠ .ok p) :
    (l.flatMap (srcSteps env)).countP (FsStep.empties p) = 0 := by
  induction l with
  | nil => rfl
  | cons x t ih =>
    rw [List.flatMap_cons, List.countP_append, srcSteps_empties (h x (by simp)), ih (fun y hy => h y (by simp [hy]))]

/-- An update opens every cache file at most once. -/
theorem update_opens_once {env : CacheEnv} {b : Bool} {l : List (Source × Outcome)} (hdist : DistinctCacheFiles env (l.map Prod.fst))
    {s : Source} {o : Outcome} (hm : (s, o) ∈ l) {p : String} (hp : s.cachePath env = .ok p) :
    (dbUpdate env b l).steps.countP (FsStep.empties p) ≤ 1 := by
  refine Nat.le_trans ((dbUpdate_steps_prefix env b l).sublist.countP_le) ?_
  obtain ⟨q, pre, post, hq, rfl, h1, h2⟩ := distinct_split hdist hm
  have e : q = p := by
    have hq' : s.cachePath env = .ok q := hq
    rw [hp] at hq'; injection hq' with hq'; exact hq'.symm
  subst e
  rw [List.flatMap_append, List.flatMap_cons, List.countP_append, List.countP_append, flatMap_empties h1, flatMap_empties h2]
  rcases srcSteps_forms env (s, o) with h | ⟨r, _, h, _⟩ | ⟨r, v, _, _, _, h⟩ <;> rw [h]
  · simp
  · by_cases hr : r = q <;> simp [FsStep.empties, hr]
  · by_cases hr : r = q <;> simp [FsStep.empties, hr]

/-- **C136** (what holds) A command reads a cache file in pieces, of any sizes and at any moments, while an update runs that writes it in pieces. If it opened
the file after the update did, it gets the complete data just downloaded, or what cannot be read; never the old data or a mixture. If it has finished when
the update opens the file, it gets (as far as it read on) what was there. -/
theorem C136_read_in_pieces_partial {P : Pickle β} (hP : PickleWorks P) (env : CacheEnv) (b : Bool) (l : List (Source × Outcome))
    (hdist : DistinctCacheFiles env (l.map Prod.fst)) (all : List (ByteStep β)) (hrun : ByteRun P (dbUpdate env b l).steps all)
    (fs : ByteFiles β) (s : Source) (o : Outcome) (hm : (s, o) ∈ l) (p : String) (hp : s.cachePath env = .ok p)
    (moments : List (List (ByteStep β) × Nat)) (hmo : ∀ m ∈ moments, m.1 <+: all) :
    let read := readPieces p 0 (moments.map fun m => (applyBytes P.zero fs m.1, m.2))
    ((∀ m ∈ moments, .create p ∈ m.1) →
      contentOf P read = .broken ∨ ∃ d, Downloaded s o d ∧ contentOf P read = goodFile env s d o.now) ∧
    ((∀ m ∈ moments, .create p ∉ m.1) → read <+: (fs p).getD []) ∧
    (∀ v tail, (∀ m ∈ moments, .create p ∉ m.1) → fs p = some (P.dump v ++ tail) → contentOf P read = .broken ∨ contentOf P read = .pickled v) := by
  intro read
  obtain ⟨D, hD, hall⟩ := byteRun_once hP hrun (update_opens_once hdist hm hp)
  have old : (∀ m ∈ moments, .create p ∉ m.1) → read <+: (fs p).getD [] := by
    intro h
    have := readPieces_prefix (p := p) (D := (fs p).getD []) (moments.map fun m => (applyBytes P.zero fs m.1, m.2)) ?_ [] List.nil_prefix
    · simpa using this
    · intro m hm
      obtain ⟨x, hx, rfl⟩ := List.mem_map.1 hm
      simp only
      rw [(hall x.1 (hmo x hx) fs).1 (h x hx)]
      exact List.prefix_refl _
  refine ⟨fun h => ?_, old, fun v tail h hf => ?_⟩
  · have hpre : read <+: D := by
      have := readPieces_prefix (p := p) (D := D) (moments.map fun m => (applyBytes P.zero fs m.1, m.2)) ?_ [] List.nil_prefix
      · simpa using this
      · intro m hm
        obtain ⟨x, hx, rfl⟩ := List.mem_map.1 hm
        obtain ⟨c, hc, hcD⟩ := (hall x.1 (hmo x hx) fs).2 (h x hx)
        simp only
        rw [hc]
        exact hcD
    rcases hD with ⟨v, hv, rfl⟩ | ⟨v, hv, hne⟩
    · by_cases he : read = P.dump v
      · right
        obtain ⟨s', o', d, hm', hp', hd, _, hv'⟩ := update_fill hv
        obtain ⟨q, pre, post, hq, e, h1, h2⟩ := distinct_split hdist hm
        have eq : q = p := by
          have hq' : s.cachePath env = .ok q := hq
          rw [hp] at hq'; injection hq' with hq'; exact hq'.symm
        subst eq
        have : (s', o') = (s, o) := by
          rw [e, List.mem_append, List.mem_cons] at hm'
          rcases hm' with h | h | h
          · exact absurd hp' (h1 _ h)
          · exact h
          · exact absurd hp' (h2 _ h)
        injection this with e1 e2
        subst e1 e2
        refine ⟨d, hd, ?_⟩
        rw [he, content_whole hP]
        rw [hv']
      · exact .inl (content_part hP hpre he)
    · left
      refine content_part hP (hpre.trans hv) (fun e => ?_)
      rw [e] at hpre
      exact hne (hv.eq_of_length_le hpre.length_le)
  · have hr := old h
    rw [hf] at hr
    rcases prefix_cases (show read <+: P.dump v ++ tail from hr) with hr | ⟨d, hd, e⟩
    · by_cases he : read = P.dump v
      · right; rw [he, content_whole hP]
      · left; exact content_part hP hr he
    · right; rw [e, content_dump hP]

/-- **C136** (refuted) A command that reads a file in two pieces and an update that writes it in one piece: if the update comes in between, the command gets
readable data that nobody has written: the old data with the time of the new. -/
theorem C136_read_in_pieces_refuted : ∃ P : Pickle ItemByte, PickleWorks P ∧
    ∀ (env : CacheEnv) (s : Source) (o : Outcome) (d₁ d₂ t₁ : PVal) (p : String) (fs : ByteFiles ItemByte), s.cachePath env = .ok p →
      Downloaded s o d₂ → o.write = .ok → fs p = some (P.dump (({ s with data := d₁, time := t₁ } : Source).cacheData env)) →
      ∃ all, OneRun P (dbUpdate env false [(s, o)]).steps all ∧
        contentOf P (readPieces p 0 [(applyBytes P.zero fs [], 6), (applyBytes P.zero fs all, 6)]) = goodFile env s d₁ o.now := by
  refine ⟨itemPickle, itemPickle_works, fun env s o d₁ d₂ t₁ p fs hp hd hw hf => ?_⟩
  rw [steps_one hp hd hw]
  refine ⟨_, .whole p _ [] [] .done, ?_⟩
  have e1 : applyBytes itemPickle.zero fs [] p = fs p := rfl
  have e2 : applyBytes itemPickle.zero fs
      [.create p, .put p 0 (itemPickle.dump (({ s with data := d₂, time := o.now } : Source).cacheData env))] p =
      some (itemPickle.dump (({ s with data := d₂, time := o.now } : Source).cacheData env)) := by
    simp [applyBytes, ByteStep.apply, overlay_start]
  simp only [readPieces, e1, e2, hf, Option.getD_some]
  rfl

example : (exS "u1").cachePath exEnv = .ok "/cache/u1.pickle" ∧ Downloaded (exS "u1") exLater (.dict []) ∧ exLater.write = .ok ∧
    goodFile exEnv (exS "u1") exD exLater.now ≠ goodFile exEnv (exS "u1") (.dict []) exLater.now :=
  ⟨rfl, ⟨rfl, rfl⟩, rfl, by simp [goodFile, exD]⟩

end Verif
