import Verif.Spec.CacheBytes
import Verif.Props.Cache
/-! # Properties C22 (bytes), C135, C136: the cache as bytes, several processes at once -/
set_option linter.unusedSimpArgs false
set_option linter.unusedVariables false
namespace Verif

variable {β : Type}

/-! ## Writing -/

theorem applyBytes_append (zero : β) (fs : ByteFiles β) (a b : List (ByteStep β)) :
    applyBytes zero fs (a ++ b) = applyBytes zero (applyBytes zero fs a) b := by simp [applyBytes, List.foldl_append]

theorem applyBytes_cons (zero : β) (fs : ByteFiles β) (x : ByteStep β) (b : List (ByteStep β)) :
    applyBytes zero fs (x :: b) = applyBytes zero (x.apply zero fs) b := rfl

theorem overlay_end (zero : β) (b old : List β) : overlay zero old.length b old = old ++ b := by
  simp [overlay]

theorem overlay_start (zero : β) (b old : List β) : overlay zero 0 b old = b ++ old.drop b.length := by
  simp [overlay]

/-- Consecutive writes append to the file and leave the others alone. -/
theorem puts_apply (zero : β) (p : String) (pieces : List (List β)) (fs : ByteFiles β) (c : List β) (hc : fs p = some c) :
    applyBytes zero fs (puts p c.length pieces) = fun q => if q = p then some (c ++ pieces.flatten) else fs q := by
  induction pieces generalizing fs c with
  | nil =>
    funext q
    by_cases h : q = p
    · subst h; simp [puts, applyBytes, hc]
    · simp [puts, applyBytes, h]
  | cons b t ih =>
    rw [puts, applyBytes_cons]
    have h1 : (ByteStep.put p c.length b).apply zero fs p = some (c ++ b) := by
      simp [ByteStep.apply, hc, overlay_end]
    have h2 := ih _ (c ++ b) h1
    rw [List.length_append] at h2
    rw [h2]
    funext q
    by_cases h : q = p
    · subst h; simp [List.append_assoc]
    · simp [h, ByteStep.apply]

/-- A new file, then consecutive writes. -/
theorem create_puts (zero : β) (p : String) (pieces : List (List β)) (fs : ByteFiles β) :
    applyBytes zero fs (.create p :: puts p 0 pieces) = fun q => if q = p then some pieces.flatten else fs q := by
  rw [applyBytes_cons]
  have h : (ByteStep.create (β := β) p).apply zero fs p = some [] := by simp [ByteStep.apply]
  have := puts_apply zero p pieces _ [] h
  rw [List.length_nil] at this
  rw [this]
  funext q
  by_cases h : q = p <;> simp [h, ByteStep.apply]

theorem seen_set (P : Pickle β) (p : String) (b : List β) (fs : ByteFiles β) :
    seen P (fun q => if q = p then some b else fs q) = fun q => if q = p then some (contentOf P b) else seen P fs q := by
  funext q
  unfold seen
  by_cases h : q = p <;> simp [h]

theorem content_dump {P : Pickle β} (hP : PickleWorks P) (v : PVal) (tail : List β) : contentOf P (P.dump v ++ tail) = .pickled v := by
  simp [contentOf, hP.reads]

theorem content_whole {P : Pickle β} (hP : PickleWorks P) (v : PVal) : contentOf P (P.dump v) = .pickled v := by
  have := content_dump hP v []
  simpa using this

theorem content_part {P : Pickle β} (hP : PickleWorks P) {v : PVal} {b : List β} (h : b <+: P.dump v) (hne : b ≠ P.dump v) : contentOf P b = .broken := by
  obtain ⟨e, he⟩ := hP.needs v b h hne
  simp [contentOf, he]

/-- Nothing can be read from an empty file. -/
theorem content_empty {P : Pickle β} (hP : PickleWorks P) : contentOf P ([] : List β) = .broken := by
  by_cases h : ([] : List β) = P.dump .none
  · -- then every object would be read as None
    have h1 := hP.reads .none (P.dump (.bool true))
    rw [← h, List.nil_append] at h1
    have h2 := hP.reads (.bool true) []
    rw [List.append_nil] at h2
    rw [h2] at h1
    injection h1 with h1
    cases h1
  · exact content_part hP (List.nil_prefix) h

/-! ## C22: one process, any pieces -/

/-- **C22** (bytes) Writing the files byte by byte has the effect the steps of the model have: whatever the pieces are, `_read_cache` sees exactly
`applySteps`. -/
theorem C22_bytes {P : Pickle β} (hP : PickleWorks P) {l : List FsStep} {bs : List (ByteStep β)} (h : ByteRun P l bs) (fs : ByteFiles β) :
    seen P (applyBytes P.zero fs bs) = applySteps (seen P fs) l := by
  induction h generalizing fs with
  | done => rfl
  | whole p v pieces hf l bs _ ih =>
    rw [show ByteStep.create p :: (puts p 0 pieces ++ bs) = (.create p :: puts p 0 pieces) ++ bs from rfl, applyBytes_append, ih, create_puts, seen_set, hf,
      content_whole hP]
    unfold applySteps
    simp only [List.foldl_cons]
    congr 1
    funext q
    by_cases h : q = p <;> simp [FsStep.apply, h]
  | part p v pieces hf hne l bs _ ih =>
    rw [show ByteStep.create p :: (puts p 0 pieces ++ bs) = (.create p :: puts p 0 pieces) ++ bs from rfl, applyBytes_append, ih, create_puts, seen_set,
      content_part hP hf hne]
    rfl

theorem puts_prefix {p : String} {pieces : List (List β)} {off : Nat} {c : List (ByteStep β)} (h : c <+: puts p off pieces) :
    ∃ pre, pre <+: pieces ∧ c = puts p off pre := by
  induction pieces generalizing off c with
  | nil => rw [puts, List.prefix_nil] at h; exact ⟨[], List.prefix_refl _, h⟩
  | cons b t ih =>
    cases c with
    | nil => exact ⟨[], List.nil_prefix, rfl⟩
    | cons x c =>
      rw [puts, List.cons_prefix_cons] at h
      obtain ⟨pre, h1, h2⟩ := ih h.2
      exact ⟨b :: pre, (List.cons_prefix_cons).2 ⟨rfl, h1⟩, by rw [puts, h.1, h2]⟩

theorem prefix_cases {α : Type} {c a b : List α} (h : c <+: a ++ b) : c <+: a ∨ ∃ d, d <+: b ∧ c = a ++ d := by
  induction a generalizing c with
  | nil => exact .inr ⟨c, h, rfl⟩
  | cons x a ih =>
    cases c with
    | nil => exact .inl List.nil_prefix
    | cons y c =>
      rw [List.cons_append, List.cons_prefix_cons] at h
      obtain ⟨rfl, h⟩ := h
      rcases ih h with h | ⟨d, h1, rfl⟩
      · exact .inl (List.cons_prefix_cons.2 ⟨rfl, h⟩)
      · exact .inr ⟨d, h1, rfl⟩

/-- **C22** (bytes) A process killed between any two writes, in the middle of a file or between files: what `_read_cache` sees is the state after some
number of the steps of the model. So what C22 says about crashes holds for crashes at every byte. -/
theorem C22_crash_at_any_byte {P : Pickle β} (hP : PickleWorks P) {l : List FsStep} {bs : List (ByteStep β)} (h : ByteRun P l bs) (fs : ByteFiles β)
    {c : List (ByteStep β)} (hc : c <+: bs) : ∃ n, seen P (applyBytes P.zero fs c) = applySteps (seen P fs) (l.take n) := by
  have one : ∀ (p : String) (v : PVal) (pieces : List (List β)) (c : List (ByteStep β)) (fs : ByteFiles β), pieces.flatten <+: P.dump v →
      c <+: .create p :: puts p 0 pieces → c = [] ∨ (seen P (applyBytes P.zero fs c) = (FsStep.truncate p).apply (seen P fs)) ∨
        (pieces.flatten = P.dump v ∧ seen P (applyBytes P.zero fs c) = (FsStep.fill p v).apply ((FsStep.truncate p).apply (seen P fs))) := by
    intro p v pieces c fs hp hc
    cases c with
    | nil => exact .inl rfl
    | cons x c =>
      right
      rw [List.cons_prefix_cons] at hc
      obtain ⟨rfl, hc⟩ := hc
      obtain ⟨pre, h1, rfl⟩ := puts_prefix hc
      rw [create_puts, seen_set]
      have h2 : pre.flatten <+: pieces.flatten := by
        obtain ⟨t, rfl⟩ := h1
        rw [List.flatten_append]; exact List.prefix_append _ _
      by_cases he : pre.flatten = P.dump v
      · right
        refine ⟨?_, ?_⟩
        · have l1 := h2.length_le
          rw [he] at h2 l1
          exact hp.eq_of_length_le l1
        · rw [he, content_whole hP]
          funext q
          by_cases h : q = p <;> simp [FsStep.apply, h]
      · left
        rw [content_part hP (h2.trans hp) he]
        rfl
  induction h generalizing fs c with
  | done =>
    rw [List.prefix_nil] at hc; subst hc
    exact ⟨0, rfl⟩
  | whole p v pieces hf l bs hr ih =>
    rcases prefix_cases (a := .create p :: puts p 0 pieces) (b := bs) hc with hc | ⟨d, hd, rfl⟩
    · rcases one p v pieces c fs (hf ▸ List.prefix_refl _) hc with rfl | h | ⟨_, h⟩
      · exact ⟨0, rfl⟩
      · exact ⟨1, h⟩
      · exact ⟨2, h⟩
    · obtain ⟨n, hn⟩ := ih (applyBytes P.zero fs (.create p :: puts p 0 pieces)) hd
      refine ⟨n + 2, ?_⟩
      rw [applyBytes_append, hn]
      have := C22_bytes hP (.whole p v pieces hf [] [] .done) fs
      rw [List.append_nil] at this
      rw [this]
      rfl
  | part p v pieces hf hne l bs hr ih =>
    rcases prefix_cases (a := .create p :: puts p 0 pieces) (b := bs) hc with hc | ⟨d, hd, rfl⟩
    · rcases one p v pieces c fs hf hc with rfl | h | ⟨h, _⟩
      · exact ⟨0, rfl⟩
      · exact ⟨1, h⟩
      · exact absurd h hne
    · obtain ⟨n, hn⟩ := ih (applyBytes P.zero fs (.create p :: puts p 0 pieces)) hd
      refine ⟨n + 1, ?_⟩
      rw [applyBytes_append, hn]
      have := C22_bytes hP (.part p v pieces hf hne [] [] .done) fs
      rw [List.append_nil] at this
      rw [this]
      rfl

/-- Writing in one piece is a special case. -/
theorem OneRun.byteRun {P : Pickle β} (hP : PickleWorks P) {l : List FsStep} {bs : List (ByteStep β)} (h : OneRun P l bs) : ByteRun P l bs := by
  induction h with
  | done => exact .done
  | whole p v l bs _ ih => exact .whole p v [P.dump v] (by simp) l bs ih
  | part p l bs _ ih =>
    refine .part p .none [] List.nil_prefix ?_ l bs ih
    intro e
    have h1 := content_empty hP
    rw [show ([] : List β) = P.dump .none from e, content_whole hP] at h1
    cases h1

/-- The steps of an update can be written byte by byte. -/
theorem oneRun_append {P : Pickle β} {l l' : List FsStep} {bs bs' : List (ByteStep β)} (h : OneRun P l bs) (h' : OneRun P l' bs') :
    OneRun P (l ++ l') (bs ++ bs') := by
  induction h with
  | done => exact h'
  | whole p v l bs _ ih => exact .whole p v _ _ ih
  | part p l bs _ ih => exact .part p _ _ ih

theorem srcSteps_forms (env : CacheEnv) (so : Source × Outcome) :
    srcSteps env so = [] ∨ (∃ p, so.1.cachePath env = .ok p ∧ srcSteps env so = [.truncate p] ∧ ∃ e, so.2.write = .dumpFails e) ∨
      ∃ p d, so.1.cachePath env = .ok p ∧ Downloaded so.1 so.2 d ∧ so.2.write = .ok ∧
        srcSteps env so = [.truncate p, .fill p (({ so.1 with data := d, time := so.2.now } : Source).cacheData env)] := by
  obtain ⟨s, o⟩ := so
  cases hs : srcSteps env (s, o) with
  | nil => exact .inl rfl
  | cons x t =>
    right
    obtain ⟨p, hp, _⟩ := srcSteps_mem (st := x) (by rw [hs]; simp)
    by_cases hd : ∃ d, Downloaded s o d
    · obtain ⟨d, hd⟩ := hd
      have h := srcSteps_eq hd hp
      cases hw : o.write with
      | ok => right; exact ⟨p, d, hp, hd, rfl, by rw [← hs, h, hw]⟩
      | openFails e => rw [hw, hs] at h; simp at h
      | dumpFails e => left; exact ⟨p, hp, by rw [← hs, h, hw], e, rfl⟩
    · exfalso
      have : srcSteps env (s, o) = [] := by
        unfold srcSteps
        cases hl : s.loadFromSource o.net o.now with
        | error e => simp [hl]
        | ok s' =>
          obtain ⟨d, h1, _⟩ := loadFromSource_ok_iff.1 hl
          exact absurd ⟨d, h1⟩ hd
      rw [this] at hs; simp at hs

/-- Every update has a run at the level of bytes. -/
theorem oneRun_exists (P : Pickle β) (env : CacheEnv) (l : List (Source × Outcome)) (hni : ∀ so ∈ l, NotInterrupted env so) :
    ∃ bs, OneRun P (dbUpdate env false l).steps bs := by
  rw [dbUpdate_false env l hni]
  simp only
  clear hni
  induction l with
  | nil => exact ⟨[], .done⟩
  | cons so t ih =>
    obtain ⟨bs, hb⟩ := ih
    rw [List.flatMap_cons]
    rcases srcSteps_forms env so with h | ⟨p, _, h, _⟩ | ⟨p, d, _, _, _, h⟩ <;> rw [h]
    · exact ⟨bs, hb⟩
    · exact ⟨_, oneRun_append (.part p [] [] .done) hb⟩
    · exact ⟨_, oneRun_append (.whole p _ [] [] .done) hb⟩

/-! ## Several processes -/

theorem Interleaving.mem {α : Type} {ls : List (List α)} {r : List α} (h : Interleaving ls r) {x : α} (hx : x ∈ r) : ∃ l ∈ ls, x ∈ l := by
  induction h with
  | done => simp at hx
  | step pre post y t r _ ih =>
    rcases List.mem_cons.1 hx with rfl | hx
    · exact ⟨x :: t, by simp, by simp⟩
    · obtain ⟨l, hl, hm⟩ := ih hx
      rcases List.mem_append.1 hl with hl | hl
      · exact ⟨l, by simp [hl], hm⟩
      · rcases List.mem_cons.1 hl with rfl | hl
        · exact ⟨y :: l, by simp, by simp [hm]⟩
        · exact ⟨l, by simp [hl], hm⟩

/-- The steps of writing in one piece. -/
theorem OneRun.mem {P : Pickle β} {l : List FsStep} {bs : List (ByteStep β)} (h : OneRun P l bs) {x : ByteStep β} (hx : x ∈ bs) :
    (∃ p, x = .create p ∧ .truncate p ∈ l) ∨ ∃ p v, x = .put p 0 (P.dump v) ∧ .fill p v ∈ l := by
  induction h with
  | done => simp at hx
  | whole p v l bs _ ih =>
    rcases List.mem_cons.1 hx with rfl | hx
    · exact .inl ⟨p, rfl, by simp⟩
    rcases List.mem_cons.1 hx with rfl | hx
    · exact .inr ⟨p, v, rfl, by simp⟩
    rcases ih hx with ⟨q, h1, h2⟩ | ⟨q, w, h1, h2⟩
    · exact .inl ⟨q, h1, by simp [h2]⟩
    · exact .inr ⟨q, w, h1, by simp [h2]⟩
  | part p l bs _ ih =>
    rcases List.mem_cons.1 hx with rfl | hx
    · exact .inl ⟨p, rfl, by simp⟩
    rcases ih hx with ⟨q, h1, h2⟩ | ⟨q, w, h1, h2⟩
    · exact .inl ⟨q, h1, by simp [h2]⟩
    · exact .inr ⟨q, w, h1, by simp [h2]⟩

/-- What may be in a file while objects are written in one piece: what was there, nothing, or one of the objects, perhaps with leftovers behind. -/
theorem steps_content {P : Pickle β} (p : String) {r : List (ByteStep β)} {V : PVal → Prop} (fs : ByteFiles β)
    (hr : ∀ x ∈ r, (∃ q, x = .create q) ∨ ∃ q v, x = .put q 0 (P.dump v) ∧ (q = p → V v)) :
    applyBytes P.zero fs r p = fs p ∨ applyBytes P.zero fs r p = some [] ∨ ∃ v tail, V v ∧ applyBytes P.zero fs r p = some (P.dump v ++ tail) := by
  induction r generalizing fs with
  | nil => exact .inl rfl
  | cons x r ih =>
    have ih' := fun fs => ih fs (fun y hy => hr y (by simp [hy]))
    rw [applyBytes_cons]
    rcases hr x (by simp) with ⟨q, rfl⟩ | ⟨q, v, rfl, hv⟩
    · rcases ih' ((ByteStep.create q).apply P.zero fs) with h | h | h
      · by_cases hq : p = q
        · right; left; rw [h]; simp [ByteStep.apply, hq]
        · left; rw [h]; simp [ByteStep.apply, hq]
      · exact .inr (.inl h)
      · exact .inr (.inr h)
    · rcases ih' ((ByteStep.put q 0 (P.dump v)).apply P.zero fs) with h | h | h
      · by_cases hq : p = q
        · subst hq
          cases hf : fs p with
          | none => left; rw [h]; simp [ByteStep.apply, hf]
          | some c =>
            right; right
            refine ⟨v, c.drop (P.dump v).length, hv rfl, ?_⟩
            rw [h]; simp [ByteStep.apply, hf, overlay_start]
        · left; rw [h]; simp [ByteStep.apply, hq]
      · exact .inr (.inl h)
      · exact .inr (.inr h)

/-- What every run contributes to the file `p`. -/
theorem OneRun.forms {P : Pickle β} {p : String} {V : PVal → Prop} {l : List FsStep} {bs : List (ByteStep β)} (h : OneRun P l bs)
    (hv : ∀ v, .fill p v ∈ l → V v) : ∀ x ∈ bs, (∃ q, x = .create q) ∨ ∃ q v, x = .put q 0 (P.dump v) ∧ (q = p → V v) := by
  intro x hx
  rcases h.mem hx with ⟨q, rfl, _⟩ | ⟨q, v, rfl, hm⟩
  · exact .inl ⟨q, rfl⟩
  · exact .inr ⟨q, v, rfl, fun e => hv v (e ▸ hm)⟩

/-- Processes that run at the same time, each writing its objects in one piece and each possibly stopped at any time. -/
def Together (P : Pickle β) (stepss : List (List FsStep)) (schedule : List (ByteStep β)) : Prop :=
  ∃ bss css : List (List (ByteStep β)), List.Forall₂ (OneRun P) stepss bss ∧ List.Forall₂ (fun c b => c <+: b) css bss ∧ Interleaving css schedule

/-- Processes that run at the same time, each writing its objects in one piece, until all of them have finished. -/
def TogetherToTheEnd (P : Pickle β) (stepss : List (List FsStep)) (schedule : List (ByteStep β)) : Prop :=
  ∃ bss : List (List (ByteStep β)), List.Forall₂ (OneRun P) stepss bss ∧ Interleaving bss schedule

theorem forall₂_right {α γ : Type} {R : α → γ → Prop} {l : List α} {m : List γ} (h : List.Forall₂ R l m) {y : γ} (hy : y ∈ m) : ∃ x ∈ l, R x y := by
  induction h with
  | nil => simp at hy
  | cons h _ ih =>
    rcases List.mem_cons.1 hy with rfl | hy
    · exact ⟨_, by simp, h⟩
    · obtain ⟨x, hx, hr⟩ := ih hy
      exact ⟨x, by simp [hx], hr⟩

theorem together_forms {P : Pickle β} {p : String} {stepss : List (List FsStep)} {schedule : List (ByteStep β)} (h : Together P stepss schedule) :
    ∀ x ∈ schedule, (∃ q, x = .create q) ∨ ∃ q v, x = .put q 0 (P.dump v) ∧ (q = p → ∃ l ∈ stepss, .fill p v ∈ l) := by
  obtain ⟨bss, css, h1, h2, h3⟩ := h
  intro x hx
  obtain ⟨c, hc, hxc⟩ := h3.mem hx
  have : ∃ b ∈ bss, c <+: b := by
    clear h1 h3
    induction h2 with
    | nil => simp at hc
    | cons h _ ih =>
      rcases List.mem_cons.1 hc with rfl | hc
      · exact ⟨_, by simp, h⟩
      · obtain ⟨b, hb, hr⟩ := ih hc
        exact ⟨b, by simp [hb], hr⟩
  obtain ⟨b, hb, hcb⟩ := this
  obtain ⟨l, hl, hr⟩ := forall₂_right h1 hb
  exact hr.forms (V := fun v => ∃ l ∈ stepss, .fill p v ∈ l) (fun v hv => ⟨l, hl, hv⟩) x (hcb.subset hxc)

/-- At every moment, `_read_cache` sees in a file what was there before, nothing readable, or an object that one of the processes writes. -/
theorem together_seen {P : Pickle β} (hP : PickleWorks P) {stepss : List (List FsStep)} {schedule : List (ByteStep β)} (h : Together P stepss schedule)
    (fs : ByteFiles β) (p : String) :
    seen P (applyBytes P.zero fs schedule) p = seen P fs p ∨ seen P (applyBytes P.zero fs schedule) p = some .broken ∨
      ∃ l ∈ stepss, ∃ v, .fill p v ∈ l ∧ seen P (applyBytes P.zero fs schedule) p = some (.pickled v) := by
  rcases steps_content p fs (together_forms (p := p) h) with h | h | ⟨v, tail, ⟨l, hl, hv⟩, h⟩
  · left; simp [seen, h]
  · right; left; simp [seen, h, content_empty hP]
  · right; right; exact ⟨l, hl, v, hv, by simp [seen, h, content_dump hP]⟩

/-- No process fails while it writes the file `p`: what it truncates, it fills. -/
def Fills (p : String) : List (ByteStep β) → Prop
  | [] => True
  | .create q :: l => (q = p → ∃ b, .put p 0 b ∈ l) ∧ Fills p l
  | .put _ _ _ :: l => Fills p l

theorem Fills.tail {p : String} {x : ByteStep β} {l : List (ByteStep β)} (h : Fills p (x :: l)) : Fills p l := by
  cases x with
  | create q => exact h.2
  | put => exact h

/-- When all processes have finished, the file holds one of the objects if one of them has created the file (or had it open). -/
theorem finished_content {P : Pickle β} {p : String} {V : PVal → Prop} {bss : List (List (ByteStep β))} {r : List (ByteStep β)} (h : Interleaving bss r)
    (hf : ∀ b ∈ bss, Fills p b)
    (hr : ∀ b ∈ bss, ∀ x ∈ b, (∃ q, x = .create q) ∨ ∃ q v, x = .put q 0 (P.dump v) ∧ (q = p → V v)) (fs : ByteFiles β)
    (hi : (∃ v tail, V v ∧ fs p = some (P.dump v ++ tail)) ∨ (∃ c, fs p = some c ∧ ∃ b ∈ bss, ∃ d, .put p 0 d ∈ b) ∨ ∃ b ∈ bss, .create p ∈ b) :
    ∃ v tail, V v ∧ applyBytes P.zero fs r p = some (P.dump v ++ tail) := by
  induction h generalizing fs with
  | done ls hl =>
    rcases hi with h | ⟨c, _, b, hb, d, hd⟩ | ⟨b, hb, hd⟩
    · exact h
    · rw [hl b hb] at hd; simp at hd
    · rw [hl b hb] at hd; simp at hd
  | step pre post x t r _ ih =>
    rw [applyBytes_cons]
    have hx := hr (x :: t) (by simp) x (by simp)
    have hfx := hf (x :: t) (by simp)
    have hin : ∀ b ∈ pre ++ t :: post, ∃ b' ∈ pre ++ (x :: t) :: post, b = t ∨ b = b' := by
      intro b hb
      rcases List.mem_append.1 hb with h | h
      · exact ⟨b, by simp [h], .inr rfl⟩
      · rcases List.mem_cons.1 h with rfl | h
        · exact ⟨x :: b, by simp, .inl rfl⟩
        · exact ⟨b, by simp [h], .inr rfl⟩
    have hback : ∀ y, y ≠ x → (∃ b ∈ pre ++ (x :: t) :: post, y ∈ b) → ∃ b ∈ pre ++ t :: post, y ∈ b := by
      rintro y hne ⟨b, hb, hy⟩
      rcases List.mem_append.1 hb with h | h
      · exact ⟨b, by simp [h], hy⟩
      · rcases List.mem_cons.1 h with rfl | h
        · exact ⟨t, by simp, (List.mem_cons.1 hy).resolve_left hne⟩
        · exact ⟨b, by simp [h], hy⟩
    have hf' : ∀ b ∈ pre ++ t :: post, Fills p b := by
      intro b hb
      obtain ⟨b', hb', rfl | rfl⟩ := hin b hb
      · exact hfx.tail
      · exact hf _ hb'
    have hr' : ∀ b ∈ pre ++ t :: post, ∀ y ∈ b, (∃ q, y = .create q) ∨ ∃ q v, y = .put q 0 (P.dump v) ∧ (q = p → V v) := by
      intro b hb y hy
      obtain ⟨b', hb', rfl | rfl⟩ := hin b hb
      · exact hr (x :: b) (by simp) y (by simp [hy])
      · exact hr _ hb' y hy
    refine ih hf' hr' _ ?_
    rcases hx with ⟨q, rfl⟩ | ⟨q, v, rfl, hv⟩
    · by_cases hq : q = p
      · subst hq
        right; left
        obtain ⟨b, hb⟩ := hfx.1 rfl
        exact ⟨[], by simp [ByteStep.apply], t, by simp, b, hb⟩
      · have e : (ByteStep.create (β := β) q).apply P.zero fs p = fs p := by
          simp only [ByteStep.apply]; rw [if_neg (fun h => hq h.symm)]
        rw [e]
        rcases hi with h | ⟨c, hc, b, hb, d, hd⟩ | h
        · exact .inl h
        · right; left
          obtain ⟨b', hb', hd'⟩ := hback _ (by simp) ⟨b, hb, hd⟩
          exact ⟨c, hc, b', hb', d, hd'⟩
        · right; right
          refine hback _ ?_ h
          intro e; injection e with e; exact hq e.symm
    · by_cases hq : q = p
      · subst hq
        cases hc : fs q with
        | some c =>
          left
          exact ⟨v, c.drop (P.dump v).length, hv rfl, by simp [ByteStep.apply, hc, overlay_start]⟩
        | none =>
          right; right
          rcases hi with ⟨_, _, _, h⟩ | ⟨c, h, _⟩ | h
          · rw [hc] at h; cases h
          · rw [hc] at h; cases h
          · exact hback _ (by simp) h
      · have e : (ByteStep.put q 0 (P.dump v)).apply P.zero fs p = fs p := by
          simp only [ByteStep.apply]; rw [if_neg (fun h => hq h.symm)]
        rw [e]
        rcases hi with h | ⟨c, hc, b, hb, d, hd⟩ | h
        · exact .inl h
        · right; left
          obtain ⟨b', hb', hd'⟩ := hback _ (by intro e; injection e with e _ _; exact hq e.symm) ⟨b, hb, hd⟩
          exact ⟨c, hc, b', hb', d, hd'⟩
        · exact .inr (.inr (hback _ (by simp) h))

/-- A file nobody writes keeps its content. -/
theorem untouched_content {zero : β} {p : String} {r : List (ByteStep β)} (fs : ByteFiles β)
    (h : ∀ x ∈ r, (∀ q, x = .create q → q ≠ p) ∧ ∀ q off b, x = .put q off b → q ≠ p) : applyBytes zero fs r p = fs p := by
  induction r generalizing fs with
  | nil => rfl
  | cons x r ih =>
    rw [applyBytes_cons, ih _ (fun y hy => h y (by simp [hy]))]
    obtain ⟨h1, h2⟩ := h x (by simp)
    cases x with
    | create q => simp only [ByteStep.apply]; rw [if_neg (fun e => h1 q rfl e.symm)]
    | put q off b => simp only [ByteStep.apply]; rw [if_neg (fun e => h2 q off b rfl e.symm)]

/-! ## Updates as processes -/

/-- The source with a given cache file. -/
theorem distinct_source {env : CacheEnv} {sources : List Source} (h : DistinctCacheFiles env sources) {s s' : Source} (hs : s ∈ sources) (hs' : s' ∈ sources)
    {p : String} (hp : s.cachePath env = .ok p) (hp' : s'.cachePath env = .ok p) : s' = s := by
  obtain ⟨paths, h1, h2⟩ := h
  induction h1 with
  | nil => simp at hs
  | cons h3 h4 ih =>
    rename_i a q as qs
    rw [List.nodup_cons] at h2
    have other : ∀ x ∈ as, x.cachePath env ≠ .ok q := by
      intro x hx he
      have : ∀ {as : List Source} {qs : List String}, List.Forall₂ (fun s p => s.cachePath env = .ok p) as qs → x ∈ as → q ∈ qs := by
        intro as qs h hx
        induction h with
        | nil => simp at hx
        | cons g _ ig =>
          rcases List.mem_cons.1 hx with rfl | hx
          · rw [he] at g; injection g with g; simp [g]
          · exact List.mem_cons_of_mem _ (ig hx)
      exact h2.1 (this h4 hx)
    rcases List.mem_cons.1 hs with rfl | g <;> rcases List.mem_cons.1 hs' with rfl | g'
    · rfl
    · rw [h3] at hp; injection hp with hp; subst hp
      exact absurd hp' (other _ g')
    · rw [h3] at hp'; injection hp' with hp'; subst hp'
      exact absurd hp (other _ g)
    · exact ih g g' h2.2

theorem update_fill {env : CacheEnv} {b : Bool} {l : List (Source × Outcome)} {p : String} {v : PVal} (h : .fill p v ∈ (dbUpdate env b l).steps) :
    ∃ s o d, (s, o) ∈ l ∧ s.cachePath env = .ok p ∧ Downloaded s o d ∧ o.write = .ok ∧ FileContent.pickled v = goodFile env s d o.now := by
  obtain ⟨⟨s, o⟩, hm, h⟩ := List.mem_flatMap.1 ((dbUpdate_steps_prefix env b l).subset h)
  rcases srcSteps_forms env (s, o) with e | ⟨q, _, e, _⟩ | ⟨q, d, hq, hd, hw, e⟩ <;> rw [e] at h
  · simp at h
  · simp at h
  · simp only [List.mem_cons, List.not_mem_nil, or_false] at h
    rcases h with h | h
    · cases h
    · injection h with h1 h2
      subst h1; subst h2
      exact ⟨s, o, d, hm, hq, hd, hw, rfl⟩

theorem update_truncate {env : CacheEnv} {b : Bool} {l : List (Source × Outcome)} {p : String} (h : .truncate p ∈ (dbUpdate env b l).steps) :
    ∃ s o, (s, o) ∈ l ∧ s.cachePath env = .ok p ∧ ((∃ e, o.write = .dumpFails e) ∨ ∃ d, Downloaded s o d ∧ o.write = .ok) := by
  obtain ⟨⟨s, o⟩, hm, h⟩ := List.mem_flatMap.1 ((dbUpdate_steps_prefix env b l).subset h)
  rcases srcSteps_forms env (s, o) with e | ⟨q, hq, e, hw⟩ | ⟨q, d, hq, hd, hw, e⟩ <;> rw [e] at h
  · simp at h
  · simp only [List.mem_cons, List.not_mem_nil, or_false] at h
    injection h with h; subst h
    exact ⟨s, o, hm, hq, .inl hw⟩
  · simp only [List.mem_cons, List.not_mem_nil, or_false] at h
    rcases h with h | h
    · injection h with h; subst h
      exact ⟨s, o, hm, hq, .inr ⟨d, hd, hw⟩⟩
    · cases h

theorem fills_append {p : String} {a b : List (ByteStep β)} (ha : Fills p a) (hb : Fills p b) : Fills p (a ++ b) := by
  induction a with
  | nil => exact hb
  | cons x a ih =>
    cases x with
    | create q => exact ⟨fun e => (ha.1 e).imp fun c hc => by simp [hc], ih ha.2⟩
    | put q off c => exact ih ha

/-- If writing does not fail half-way, every file that is truncated is filled. -/
theorem update_fills {P : Pickle β} {env : CacheEnv} {l : List (Source × Outcome)} (hw : ∀ so ∈ l, ∀ e, so.2.write ≠ .dumpFails e) {bs : List (ByteStep β)}
    (h : OneRun P (l.flatMap (srcSteps env)) bs) (p : String) : Fills p bs := by
  induction l generalizing bs with
  | nil => cases h; trivial
  | cons so t ih =>
    have ih' := fun bs => ih (bs := bs) (fun x hx => hw x (by simp [hx]))
    rw [List.flatMap_cons] at h
    rcases srcSteps_forms env so with e | ⟨q, _, e, x, hx⟩ | ⟨q, d, hq, hd, hwr, e⟩
    · rw [e] at h; exact ih' _ h
    · exact absurd hx (hw so (by simp) x)
    · rw [e] at h
      cases h with
      | whole _ v _ bs' h => exact ⟨fun e => ⟨_, by subst e; exact List.mem_cons_self⟩, show Fills p bs' from ih' bs' h⟩
      | part p l bs h => cases h

theorem oneRun_create {P : Pickle β} {l : List FsStep} {bs : List (ByteStep β)} (h : OneRun P l bs) {p : String} (hp : .truncate p ∈ l) : .create p ∈ bs := by
  induction h with
  | done => simp at hp
  | whole q v l bs _ ih =>
    simp only [List.mem_cons] at hp ⊢
    rcases hp with h | h | h
    · injection h with h; exact .inl (by rw [h])
    · cases h
    · exact .inr (.inr (ih h))
  | part q l bs _ ih =>
    simp only [List.mem_cons] at hp ⊢
    rcases hp with h | h
    · injection h with h; exact .inl (by rw [h])
    · exact .inr (ih h)

theorem forall₂_left {α γ : Type} {R : α → γ → Prop} {l : List α} {m : List γ} (h : List.Forall₂ R l m) {x : α} (hx : x ∈ l) : ∃ y ∈ m, R x y := by
  induction h with
  | nil => simp at hx
  | cons h _ ih =>
    rcases List.mem_cons.1 hx with rfl | hx
    · exact ⟨_, by simp, h⟩
    · obtain ⟨y, hy, hr⟩ := ih hx
      exact ⟨y, by simp [hy], hr⟩

/-! ## C135 -/

/-- **C135** (what holds) Any number of updates of the same sources run at the same time, their steps in any order, each writing a file in one piece and none failing
half-way. When all have finished, the cache file of every source holds complete data that one of the updates has downloaded (with the time of that
download), and is byte for byte what it was if no update could download and write it. -/
theorem C135_finished_partial {P : Pickle β} (hP : PickleWorks P) (env : CacheEnv) (sources : List Source) (us : List (List (Source × Outcome)))
    (hus : ∀ l ∈ us, l.map Prod.fst = sources) (hni : ∀ l ∈ us, ∀ so ∈ l, NotInterrupted env so)
    (hw : ∀ l ∈ us, ∀ so ∈ l, ∀ e, so.2.write ≠ .dumpFails e) (hdist : DistinctCacheFiles env sources) (schedule : List (ByteStep β))
    (h : TogetherToTheEnd P (us.map fun l => (dbUpdate env false l).steps) schedule) (fs : ByteFiles β) (s : Source) (hs : s ∈ sources) (p : String)
    (hp : s.cachePath env = .ok p) :
    (∃ l ∈ us, ∃ o d, (s, o) ∈ l ∧ Downloaded s o d ∧ o.write = .ok ∧ seen P (applyBytes P.zero fs schedule) p = some (goodFile env s d o.now)) ∨
      ((∀ l ∈ us, ∀ o d, (s, o) ∈ l → Downloaded s o d → o.write ≠ .ok) ∧ applyBytes P.zero fs schedule p = fs p) := by
  obtain ⟨bss, h1, h2⟩ := h
  have same : ∀ {l : List (Source × Outcome)} {s' : Source} {o : Outcome}, l ∈ us → (s', o) ∈ l → s'.cachePath env = .ok p → s' = s := by
    intro l s' o hl hm hp'
    refine distinct_source hdist hs ?_ hp hp'
    rw [← hus l hl]
    exact List.mem_map.2 ⟨(s', o), hm, rfl⟩
  have hrun : ∀ b ∈ bss, ∃ l ∈ us, OneRun P (dbUpdate env false l).steps b := by
    intro b hb
    obtain ⟨st, hst, hr⟩ := forall₂_right h1 hb
    obtain ⟨l, hl, rfl⟩ := List.mem_map.1 hst
    exact ⟨l, hl, hr⟩
  by_cases hc : ∃ b ∈ bss, .create p ∈ b
  · left
    obtain ⟨v, tail, ⟨l, hl, o, d, hm, hd, hwr, hv⟩, he⟩ := finished_content (P := P) (p := p)
      (V := fun v => ∃ l ∈ us, ∃ o d, (s, o) ∈ l ∧ Downloaded s o d ∧ o.write = .ok ∧ FileContent.pickled v = goodFile env s d o.now) h2
      (by
        intro b hb
        obtain ⟨l, hl, hr⟩ := hrun b hb
        rw [dbUpdate_false env l (hni l hl)] at hr
        exact update_fills (hw l hl) hr p)
      (by
        intro b hb
        obtain ⟨l, hl, hr⟩ := hrun b hb
        refine hr.forms fun v hv => ?_
        obtain ⟨s', o, d, hm, hp', hd, hwr, hv⟩ := update_fill hv
        have := same hl hm hp'; subst this
        exact ⟨l, hl, o, d, hm, hd, hwr, hv⟩)
      fs (.inr (.inr hc))
    refine ⟨l, hl, o, d, hm, hd, hwr, ?_⟩
    rw [← hv]
    simp [seen, he, content_dump hP]
  · right
    refine ⟨?_, ?_⟩
    · intro l hl o d hm hd hwr
      obtain ⟨b, hb, hr⟩ := forall₂_left h1 (List.mem_map.2 ⟨l, hl, rfl⟩)
      refine hc ⟨b, hb, oneRun_create hr ?_⟩
      rw [dbUpdate_false env l (hni l hl)]
      refine List.mem_flatMap.2 ⟨(s, o), hm, ?_⟩
      rw [srcSteps_eq hd hp, hwr]
      simp
    · refine untouched_content fs fun x hx => ?_
      obtain ⟨b, hb, hxb⟩ := h2.mem hx
      obtain ⟨l, hl, hr⟩ := hrun b hb
      refine ⟨?_, ?_⟩
      · rintro q rfl rfl
        exact hc ⟨b, hb, hxb⟩
      · rintro q off c rfl rfl
        rcases hr.mem hxb with ⟨_, h, _⟩ | ⟨q', v, h, hf⟩
        · cases h
        · injection h with e1 e2 e3
          subst e1
          obtain ⟨s', o, d, hm, hp', hd, hwr, _⟩ := update_fill hf
          refine hc ⟨b, hb, oneRun_create hr ?_⟩
          rw [dbUpdate_false env l (hni l hl)]
          refine List.mem_flatMap.2 ⟨(s', o), hm, ?_⟩
          rw [srcSteps_eq hd hp', hwr]
          simp

/-- **C135** (what holds) ... and a source loads from it exactly what one of the updates has downloaded. -/
theorem C135_loads_partial {P : Pickle β} (hP : PickleWorks P) (env : CacheEnv) (sources : List Source) (us : List (List (Source × Outcome)))
    (hus : ∀ l ∈ us, l.map Prod.fst = sources) (hni : ∀ l ∈ us, ∀ so ∈ l, NotInterrupted env so)
    (hw : ∀ l ∈ us, ∀ so ∈ l, ∀ e, so.2.write ≠ .dumpFails e) (hdist : DistinctCacheFiles env sources) (schedule : List (ByteStep β))
    (h : TogetherToTheEnd P (us.map fun l => (dbUpdate env false l).steps) schedule) (fs : ByteFiles β) (s : Source) (hs : s ∈ sources)
    (hargs : s.spec.verifyArguments s.arguments = .ok ()) (hone : ∃ l ∈ us, ∃ o, (s, o) ∈ l ∧ (∃ d, Downloaded s o d) ∧ o.write = .ok)
    (fresh : Source) (hfresh : mkSource s.spec s.arguments s.origin = .ok fresh) :
    ∃ l ∈ us, ∃ o d, (s, o) ∈ l ∧ Downloaded s o d ∧
      fresh.loadFromCache env (seen P (applyBytes P.zero fs schedule)) = .ok { s with data := d, time := o.now } := by
  have : ∃ p, s.cachePath env = .ok p := by
    obtain ⟨l, hl, o, hm, _⟩ := hone
    obtain ⟨p, _, _, hp, _⟩ := distinct_split (hus l hl ▸ hdist) hm
    exact ⟨p, hp⟩
  obtain ⟨p, hp⟩ := this
  unfold mkSource at hfresh
  obtain ⟨_, _, hfresh⟩ := Except_bind_ok.1 hfresh
  rw [pure_ok] at hfresh; subst hfresh
  rcases C135_finished_partial hP env sources us hus hni hw hdist schedule h fs s hs p hp with ⟨l, hl, o, d, hm, hd, _, he⟩ | ⟨h1, _⟩
  · exact ⟨l, hl, o, d, hm, hd, loadFromCache_good rfl rfl hargs hd hp he⟩
  · obtain ⟨l, hl, o, hm, ⟨d, hd⟩, hwr⟩ := hone
    exact absurd hwr (h1 l hl o d hm hd)

/-! ## C136 -/

/-- **C136** (what holds) While any number of updates run, each writing a file in one piece, at every moment (also if some of the processes are killed) the cache file of a
source is what it was, unreadable, or complete data that one of the updates has downloaded; never a mixture. -/
theorem C136_meanwhile_partial {P : Pickle β} (hP : PickleWorks P) (env : CacheEnv) (b : Bool) (sources : List Source) (us : List (List (Source × Outcome)))
    (hus : ∀ l ∈ us, l.map Prod.fst = sources) (hdist : DistinctCacheFiles env sources) (sofar : List (ByteStep β))
    (h : Together P (us.map fun l => (dbUpdate env b l).steps) sofar) (fs : ByteFiles β) (s : Source) (hs : s ∈ sources) (p : String)
    (hp : s.cachePath env = .ok p) :
    seen P (applyBytes P.zero fs sofar) p = seen P fs p ∨ seen P (applyBytes P.zero fs sofar) p = some .broken ∨
      ∃ l ∈ us, ∃ o d, (s, o) ∈ l ∧ Downloaded s o d ∧ seen P (applyBytes P.zero fs sofar) p = some (goodFile env s d o.now) := by
  rcases together_seen hP h fs p with h | h | ⟨st, hst, v, hv, h⟩
  · exact .inl h
  · exact .inr (.inl h)
  · right; right
    obtain ⟨l, hl, rfl⟩ := List.mem_map.1 hst
    obtain ⟨s', o, d, hm, hp', hd, _, hv⟩ := update_fill hv
    have : s' = s := distinct_source hdist hs (by rw [← hus l hl]; exact List.mem_map.2 ⟨_, hm, rfl⟩) hp hp'
    subst this
    exact ⟨l, hl, o, d, hm, hd, by rw [h, hv]⟩

/-- **C136** (what holds) While one update runs, whatever the pieces are in which it writes the files, at every moment the cache file of a source is what it was,
unreadable, or the complete data just downloaded. -/
theorem C136_one_writer_partial {P : Pickle β} (hP : PickleWorks P) (env : CacheEnv) (b : Bool) (l : List (Source × Outcome))
    (hdist : DistinctCacheFiles env (l.map Prod.fst)) (all sofar : List (ByteStep β)) (hrun : ByteRun P (dbUpdate env b l).steps all) (hso : sofar <+: all)
    (fs : ByteFiles β) (s : Source) (o : Outcome) (hm : (s, o) ∈ l) (p : String) (hp : s.cachePath env = .ok p) :
    seen P (applyBytes P.zero fs sofar) p = seen P fs p ∨ seen P (applyBytes P.zero fs sofar) p = some .broken ∨
      ∃ d, Downloaded s o d ∧ seen P (applyBytes P.zero fs sofar) p = some (goodFile env s d o.now) := by
  obtain ⟨n, hn⟩ := C22_crash_at_any_byte hP hrun fs hso
  rw [hn]
  exact C22_crash_contents_partial env b l (seen P fs) n hdist s o hm p hp

theorem byteRun_prefix {P : Pickle β} (hP : PickleWorks P) {l : List FsStep} {bs : List (ByteStep β)} (h : ByteRun P l bs) {pre post : List FsStep} {p : String}
    {v : PVal} (e : l = pre ++ .truncate p :: .fill p v :: post) :
    ∃ before after, bs = before ++ .create p :: after := by
  induction h generalizing pre with
  | done => simp at e
  | whole q w pieces hf l bs _ ih =>
    match pre, e with
    | [], e =>
      simp only [List.nil_append, List.cons.injEq] at e
      obtain ⟨e, _⟩ := e; injection e with e; subst e
      exact ⟨[], _, rfl⟩
    | [x], e => simp at e
    | x :: y :: pre, e =>
      simp only [List.cons_append, List.cons.injEq] at e
      obtain ⟨bf, af, rfl⟩ := ih e.2.2
      exact ⟨.create q :: (puts q 0 pieces ++ bf), af, by simp⟩
  | part q w pieces hf hne l bs _ ih =>
    match pre, e with
    | [], e =>
      simp only [List.nil_append, List.cons.injEq] at e
      obtain ⟨e, _⟩ := e; injection e with e; subst e
      exact ⟨[], _, rfl⟩
    | x :: pre, e =>
      simp only [List.cons_append, List.cons.injEq] at e
      obtain ⟨bf, af, rfl⟩ := ih e.2
      exact ⟨.create q :: (puts q 0 pieces ++ bf), af, by simp⟩

/-- **C136** (refuted) Every update that downloads and writes a source has a moment at which the file of that source is unreadable and loading it fails,
however complete its old content was; the moment exists for all pieces in which the files are written. -/
theorem C136_empty_file_refuted {P : Pickle β} (hP : PickleWorks P) (env : CacheEnv) (l : List (Source × Outcome)) (hni : ∀ so ∈ l, NotInterrupted env so)
    (all : List (ByteStep β)) (hrun : ByteRun P (dbUpdate env false l).steps all) (s : Source) (o : Outcome) (hm : (s, o) ∈ l) (p : String)
    (hp : s.cachePath env = .ok p) (d : PVal) (hd : Downloaded s o d) (hw : o.write = .ok) (fs : ByteFiles β) :
    ∃ sofar, sofar <+: all ∧ seen P (applyBytes P.zero fs sofar) p = some .broken ∧
      ∀ fresh : Source, fresh.cachePath env = .ok p → fresh.loadFromCache env (seen P (applyBytes P.zero fs sofar)) = .error .unpicklingError := by
  obtain ⟨pre, post, rfl⟩ := List.append_of_mem hm
  rw [dbUpdate_false env _ hni] at hrun
  simp only [List.flatMap_append, List.flatMap_cons] at hrun
  rw [srcSteps_eq hd hp, hw] at hrun
  obtain ⟨bf, af, rfl⟩ := byteRun_prefix hP hrun rfl
  have hb : seen P (applyBytes P.zero fs (bf ++ [.create p])) p = some .broken := by
    rw [applyBytes_append]
    simp [seen, applyBytes, ByteStep.apply, content_empty hP]
  refine ⟨bf ++ [.create p], ⟨af, by simp⟩, hb, fun fresh hf => ?_⟩
  unfold Source.loadFromCache
  rw [hf]
  simp only [bind, Except.bind, readCache]
  rw [hb]

/-! ## C135: what goes wrong -/

/-- **C135** (refuted) If an object is written in two pieces, two processes that both finish can leave a file that begins with the object of one and ends
with the object of the other. -/
theorem C135_pieces_mix (P : Pickle β) (p : String) (v w : PVal) (a₁ a₂ b₁ b₂ : List β) (ha : a₁ ++ a₂ = P.dump v) (hb : b₁ ++ b₂ = P.dump w)
    (hl : a₁.length = b₁.length) (hl₂ : a₂.length = b₂.length) (fs : ByteFiles β) :
    ∃ bs bs' schedule, ByteRun P [.truncate p, .fill p v] bs ∧ ByteRun P [.truncate p, .fill p w] bs' ∧ Interleaving [bs, bs'] schedule ∧
      applyBytes P.zero fs schedule p = some (b₁ ++ a₂) := by
  refine ⟨[.create p, .put p 0 a₁, .put p a₁.length a₂], [.create p, .put p 0 b₁, .put p b₁.length b₂],
    [.create p, .create p, .put p 0 a₁, .put p 0 b₁, .put p b₁.length b₂, .put p a₁.length a₂], ?_, ?_, ?_, ?_⟩
  · have := ByteRun.whole (P := P) p v [a₁, a₂] (by simpa using ha) [] [] .done
    simpa [puts] using this
  · have := ByteRun.whole (P := P) p w [b₁, b₂] (by simpa using hb) [] [] .done
    simpa [puts] using this
  · refine .step [] _ _ _ _ ?_
    refine .step [_] [] _ _ _ ?_
    refine .step [] _ _ _ _ ?_
    refine .step [_] [] _ _ _ ?_
    refine .step [_] [] _ _ _ ?_
    refine .step [] _ _ _ _ ?_
    exact .done _ (by simp)
  · simp [applyBytes, ByteStep.apply, overlay, hl, hl₂]

/-- The pieces of a dict as the pickler of the examples writes it: one byte for every item, a STOP mark at the end; anything else is one byte. -/
inductive ItemByte
  | item (k : PKey) (v : PVal)
  | atom (v : PVal)
  | stop

/-- The items up to the STOP mark. -/
def readItems : List ItemByte → Except Exc (List (PKey × PVal))
  | .stop :: _ => .ok []
  | .item k v :: t => (readItems t).map ((k, v) :: ·)
  | .atom _ :: _ => .error .unpicklingError
  | [] => .error .unpicklingError

/-- Writing one object. -/
def dumpItems : PVal → List ItemByte
  | .dict l => l.map (fun kv => .item kv.1 kv.2) ++ [.stop]
  | v => [.atom v]

/-- Reading one object. -/
def loadItems : List ItemByte → Except Exc PVal
  | .atom v :: _ => .ok v
  | l => (readItems l).map .dict

/-- A pickler that writes dicts item by item, as Python does. -/
def itemPickle : Pickle ItemByte := ⟨.stop, dumpItems, loadItems⟩

theorem readItems_dump (l : List (PKey × PVal)) (tail : List ItemByte) :
    readItems (l.map (fun kv => .item kv.1 kv.2) ++ .stop :: tail) = .ok l := by
  induction l with
  | nil => rfl
  | cons kv l ih => simp [readItems, ih, Except.map]

theorem readItems_short (l : List (PKey × PVal)) (b : List ItemByte) (h : b <+: l.map (fun kv => ItemByte.item kv.1 kv.2)) :
    readItems b = .error .unpicklingError := by
  induction l generalizing b with
  | nil => rw [List.map_nil, List.prefix_nil] at h; subst h; rfl
  | cons kv l ih =>
    cases b with
    | nil => rfl
    | cons x b =>
      rw [List.map_cons, List.cons_prefix_cons] at h
      obtain ⟨rfl, h⟩ := h
      simp [readItems, ih b h, Except.map]

theorem loadItems_eq (l : List ItemByte) (h : ∀ v t, l ≠ .atom v :: t) : loadItems l = (readItems l).map .dict := by
  match l, h with
  | [], _ => rfl
  | .atom v :: t, h => exact absurd rfl (h v t)
  | .item k v :: t, _ => rfl
  | .stop :: t, _ => rfl

theorem itemPickle_works : PickleWorks itemPickle := by
  have hd : ∀ (l : List (PKey × PVal)) tail v t, l.map (fun kv => ItemByte.item kv.1 kv.2) ++ .stop :: tail ≠ .atom v :: t := by
    intro l tail v t
    cases l <;> simp
  constructor
  · intro v tail
    show loadItems (dumpItems v ++ tail) = .ok v
    cases v with
    | dict l =>
      show loadItems ((l.map (fun kv => ItemByte.item kv.1 kv.2) ++ [.stop]) ++ tail) = _
      rw [List.append_assoc, List.singleton_append, loadItems_eq _ (hd l tail), readItems_dump]
      rfl
    | _ => rfl
  · intro v b h hne
    refine ⟨.unpicklingError, ?_⟩
    show loadItems b = _
    have single : ∀ x : ItemByte, b <+: [x] → b ≠ [x] → b = [] := by
      intro x h hne
      match b, h with
      | [], _ => rfl
      | y :: t, h =>
        rw [List.cons_prefix_cons, List.prefix_nil] at h
        exact absurd (by rw [h.1, h.2]) hne
    cases v with
    | dict l =>
      have h' : b <+: l.map (fun kv => ItemByte.item kv.1 kv.2) := by
        change b <+: (l.map (fun kv => ItemByte.item kv.1 kv.2) ++ [.stop]) at h
        rcases prefix_cases h with h | ⟨d, h1, rfl⟩
        · exact h
        · have : d ≠ [ItemByte.stop] := fun e => hne (by rw [e]; rfl)
          match d, h1 with
          | [], _ => simp
          | y :: t, h1 =>
            rw [List.cons_prefix_cons, List.prefix_nil] at h1
            exact absurd (by rw [h1.1, h1.2]) this
      rw [loadItems_eq b, readItems_short l b h']
      · rfl
      · rintro w t rfl
        cases l <;> simp at h'
    | _ => rw [single _ h hne]; rfl

theorem steps_one {env : CacheEnv} {s : Source} {o : Outcome} {d : PVal} {p : String} (hp : s.cachePath env = .ok p) (hd : Downloaded s o d)
    (hw : o.write = .ok) :
    (dbUpdate env false [(s, o)]).steps = [.truncate p, .fill p (({ s with data := d, time := o.now } : Source).cacheData env)] := by
  have hu : UpdateSucceeds env (s, o) := ⟨⟨d, hd⟩, ⟨p, hp⟩, hw⟩
  rw [dbUpdate_false env _ (fun so hso => by rw [List.mem_singleton] at hso; rw [hso]; exact hu.notInterrupted)]
  simp only [List.flatMap_cons, List.flatMap_nil, List.append_nil]
  rw [srcSteps_eq hd hp, hw]

/-- **C135** (refuted) With a pickler that writes dicts item by item, two updates of the same source that run at the same time and both finish without an
error can leave a readable cache file that neither has written: the data of one with the time of the other. -/
theorem C135_mixture_refuted : ∃ P : Pickle ItemByte, PickleWorks P ∧
    ∀ (env : CacheEnv) (s : Source) (o₁ o₂ : Outcome) (d₁ d₂ : PVal) (p : String) (fs : ByteFiles ItemByte), s.cachePath env = .ok p →
      Downloaded s o₁ d₁ → Downloaded s o₂ d₂ → o₁.write = .ok → o₂.write = .ok →
      ∃ bs bs' schedule, ByteRun P (dbUpdate env false [(s, o₁)]).steps bs ∧ ByteRun P (dbUpdate env false [(s, o₂)]).steps bs' ∧
        Interleaving [bs, bs'] schedule ∧ seen P (applyBytes P.zero fs schedule) p = some (goodFile env s d₂ o₁.now) := by
  refine ⟨itemPickle, itemPickle_works, fun env s o₁ o₂ d₁ d₂ p fs hp h1 h2 w1 w2 => ?_⟩
  rw [steps_one hp h1 w1, steps_one hp h2 w2]
  obtain ⟨bs, bs', sch, g1, g2, g3, g4⟩ := C135_pieces_mix itemPickle p _ _ _ _ _ _
    (List.take_append_drop 6 (itemPickle.dump (({ s with data := d₁, time := o₁.now } : Source).cacheData env)))
    (List.take_append_drop 6 (itemPickle.dump (({ s with data := d₂, time := o₂.now } : Source).cacheData env))) rfl rfl fs
  refine ⟨bs, bs', sch, g1, g2, g3, ?_⟩
  show (applyBytes itemPickle.zero fs sch p).map _ = _
  rw [g4]
  rfl

/-! ### The directory -/

/-- **C135** (what holds) If the directory exists, `ensure_cache_dir` succeeds for every process, in every order of their steps. -/
theorem C135_directory_there_partial (n : Nat) (schedule : List Nat) :
    ((DirState.run ⟨true, List.replicate n .test⟩ schedule).there = true) ∧
      ∀ c ∈ (DirState.run ⟨true, List.replicate n .test⟩ schedule).procs, ∀ e, c ≠ .done (.error e) := by
  have gen : ∀ s : DirState, (s.there = true ∧ ∀ c ∈ s.procs, c ≠ .make ∧ ∀ e, c ≠ .done (.error e)) →
      ∀ schedule, (DirState.run s schedule).there = true ∧ ∀ c ∈ (DirState.run s schedule).procs, c ≠ .make ∧ ∀ e, c ≠ .done (.error e) := by
    intro s hs schedule
    induction schedule generalizing s with
    | nil => exact hs
    | cons i t ih =>
      refine ih (s.step i) ?_
      unfold DirState.step
      cases hc : s.procs[i]? with
      | none => exact hs
      | some c =>
        have hcm := hs.2 c (List.mem_of_getElem? hc)
        simp only
        rw [hs.1]
        refine ⟨by cases c <;> first | rfl | exact absurd rfl hcm.1, fun d hd => ?_⟩
        rcases List.mem_or_eq_of_mem_set hd with hd | rfl
        · exact hs.2 d hd
        · cases c with
          | test => simp [DirPc.next]
          | make => exact absurd rfl hcm.1
          | retest => simp [DirPc.next]
          | done r => exact hcm
  have := gen ⟨true, List.replicate n .test⟩ ⟨rfl, fun c hc => by rw [List.eq_of_mem_replicate hc]; simp⟩ schedule
  exact ⟨this.1, fun c hc => (this.2 c hc).2⟩

/-- **C135** (what holds) Otherwise, when all processes are through, the directory exists, at least one process has succeeded, and the others have failed because it was
just created. -/
theorem C135_directory_partial (n : Nat) (hn : 0 < n) (schedule : List Nat)
    (hdone : ∀ c ∈ (DirState.run ⟨false, List.replicate n .test⟩ schedule).procs, ∃ r, c = .done r) :
    (DirState.run ⟨false, List.replicate n .test⟩ schedule).there = true ∧
      .done (.ok ()) ∈ (DirState.run ⟨false, List.replicate n .test⟩ schedule).procs ∧
      ∀ c ∈ (DirState.run ⟨false, List.replicate n .test⟩ schedule).procs, c = .done (.ok ()) ∨ c = .done (.error .osError) := by
  -- invariant: without the directory everybody is before or at `makedirs`; with it somebody has got past it
  have inv : ∀ s : DirState,
      ((s.there = false ∧ 0 < s.procs.length ∧ ∀ c ∈ s.procs, c = .test ∨ c = .make) ∨
        (s.there = true ∧ (∃ c ∈ s.procs, c = .retest ∨ c = .done (.ok ())) ∧
          ∀ c ∈ s.procs, c = .test ∨ c = .make ∨ c = .retest ∨ c = .done (.ok ()) ∨ c = .done (.error .osError))) →
      ∀ schedule, ((DirState.run s schedule).there = false ∧ 0 < (DirState.run s schedule).procs.length ∧
          ∀ c ∈ (DirState.run s schedule).procs, c = .test ∨ c = .make) ∨
        ((DirState.run s schedule).there = true ∧ (∃ c ∈ (DirState.run s schedule).procs, c = .retest ∨ c = .done (.ok ())) ∧
          ∀ c ∈ (DirState.run s schedule).procs, c = .test ∨ c = .make ∨ c = .retest ∨ c = .done (.ok ()) ∨ c = .done (.error .osError)) := by
    intro s hs schedule
    induction schedule generalizing s with
    | nil => exact hs
    | cons i t ih =>
      refine ih (s.step i) ?_
      unfold DirState.step
      cases hc : s.procs[i]? with
      | none => exact hs
      | some c =>
        have hmem := List.mem_of_getElem? hc
        have hi : i < s.procs.length := (List.getElem?_eq_some_iff.1 hc).1
        simp only
        rcases hs with ⟨h1, h2, h3⟩ | ⟨h1, ⟨g, hg, hgr⟩, h3⟩
        · rw [h1]
          rcases h3 c hmem with rfl | rfl
          · left
            refine ⟨rfl, by simpa using h2, fun d hd => ?_⟩
            rcases List.mem_or_eq_of_mem_set hd with hd | rfl
            · exact h3 d hd
            · exact .inr rfl
          · right
            refine ⟨rfl, ⟨.retest, List.mem_set hi _, .inl rfl⟩, fun d hd => ?_⟩
            rcases List.mem_or_eq_of_mem_set hd with hd | rfl
            · rcases h3 d hd with h | h <;> simp [h]
            · exact .inr (.inr (.inl rfl))
        · right
          rw [h1]
          have hall : ∀ x : DirPc, (x = .test ∨ x = .make ∨ x = .retest ∨ x = .done (.ok ()) ∨ x = .done (.error .osError)) →
              ∀ d ∈ s.procs.set i x, d = .test ∨ d = .make ∨ d = .retest ∨ d = .done (.ok ()) ∨ d = .done (.error .osError) := by
            intro x hx d hd
            rcases List.mem_or_eq_of_mem_set hd with hd | rfl
            · exact h3 d hd
            · exact hx
          have hgood : ∀ x : DirPc, (c = g → x = .retest ∨ x = .done (.ok ())) → ∃ c ∈ s.procs.set i x, c = .retest ∨ c = .done (.ok ()) := by
            intro x hx
            by_cases hcg : c = g
            · exact ⟨x, List.mem_set hi _, hx hcg⟩
            · obtain ⟨j, hj, hjg⟩ := List.mem_iff_getElem.1 hg
              refine ⟨g, ?_, hgr⟩
              have hij : i ≠ j := by
                rintro rfl
                rw [List.getElem?_eq_getElem hj] at hc
                injection hc with hc
                exact hcg (by rw [← hc, hjg])
              refine List.mem_iff_getElem.2 ⟨j, by simpa using hj, ?_⟩
              rw [List.getElem_set_ne hij]; exact hjg
          rcases h3 c hmem with rfl | rfl | rfl | rfl | rfl
          · exact ⟨rfl, hgood _ (fun e => .inl rfl), hall _ (by simp [DirPc.next])⟩
          · refine ⟨rfl, hgood _ (fun e => ?_), hall _ (by simp [DirPc.next])⟩
            subst e; rcases hgr with h | h <;> cases h
          · exact ⟨rfl, hgood _ (fun e => .inr rfl), hall _ (by simp [DirPc.next])⟩
          · exact ⟨rfl, hgood _ (fun e => .inr rfl), hall _ (by simp [DirPc.next])⟩
          · refine ⟨rfl, hgood _ (fun e => ?_), hall _ (by simp [DirPc.next])⟩
            subst e; rcases hgr with h | h <;> cases h
  rcases inv ⟨false, List.replicate n .test⟩ (.inl ⟨rfl, by simpa using hn, fun c hc => .inl (List.eq_of_mem_replicate hc)⟩) schedule with
    ⟨_, h2, h3⟩ | ⟨h1, ⟨g, hg, hgr⟩, h3⟩
  · exfalso
    obtain ⟨c, hc⟩ := List.exists_mem_of_length_pos h2
    obtain ⟨r, rfl⟩ := hdone c hc
    rcases h3 _ hc with h | h <;> cases h
  · refine ⟨h1, ?_, fun c hc => ?_⟩
    · rcases hgr with rfl | rfl
      · obtain ⟨r, h⟩ := hdone _ hg; cases h
      · exact hg
    · obtain ⟨r, rfl⟩ := hdone c hc
      rcases h3 _ hc with h | h | h | h | h
      · cases h
      · cases h
      · cases h
      · exact .inl h
      · exact .inr h

/-- **C135** (refuted) Two processes that find no cache directory: one may fail with an OSError although the directory exists. -/
theorem C135_directory_refuted :
    (DirState.run ⟨false, [.test, .test]⟩ [0, 1, 0, 1, 0]).there = true ∧
      (DirState.run ⟨false, [.test, .test]⟩ [0, 1, 0, 1, 0]).procs = [.done (.ok ()), .done (.error .osError)] := ⟨rfl, rfl⟩

/-- **C135** A process alone does what `ensure_cache_dir` does in the rest of the model. -/
theorem C135_directory_alone (there : Bool) :
    (DirState.run ⟨there, [.test]⟩ [0, 0, 0]).procs =
      [.done (ensureCacheDir ⟨there, if there then .error .osError else .ok (), true⟩)] := by
  cases there <;> rfl

/-! ## Non-vacuity -/

/-- A later download of u1 with other data. -/
def exLater : Outcome := ⟨fun _ => .ok (.dict []), .other 8, .ok⟩

/-- The data of two updates and their times differ, so the mixture is the result of neither. -/
example : goodFile exEnv (exS "u1") (.dict []) (.other 7) ≠ goodFile exEnv (exS "u1") exD (.other 7) ∧
    goodFile exEnv (exS "u1") (.dict []) (.other 7) ≠ goodFile exEnv (exS "u1") (.dict []) (.other 8) := by
  constructor <;> (intro h; simp [goodFile, exD] at h)
example : Downloaded (exS "u1") exO exD ∧ Downloaded (exS "u1") exLater (.dict []) ∧ (exS "u1").cachePath exEnv = .ok "/cache/u1.pickle" :=
  ⟨⟨rfl, rfl⟩, ⟨rfl, rfl⟩, rfl⟩

theorem exL_notInterrupted : ∀ l ∈ [exL, [(exS "u1", exLater), (exS "u2", exLater)]], ∀ so ∈ l, NotInterrupted exEnv so := by
  intro l hl so hso
  have h2 : NotInterrupted exEnv (exS "u2", exO) := by
    refine ⟨fun e h => ?_, fun d e h _ => ?_, fun e h => ?_, fun e h => ?_⟩
    · have : (Except.error Exc.downloadFailure : Except Exc PVal) = .error e := h
      injection this with this; subst this; rfl
    · have : (Except.error Exc.downloadFailure : Except Exc PVal) = .ok d := h
      cases this
    · have : (Except.ok "/cache/u2.pickle" : Except Exc String) = .error e := h
      cases this
    · rcases h with h | h <;> cases h
  have h1 : ∀ u o d, Downloaded (exS u) o d → o.write = .ok → NotInterrupted exEnv (exS u, o) := fun u o d h1 h2 =>
    UpdateSucceeds.notInterrupted ⟨⟨d, h1⟩, ⟨_, rfl⟩, h2⟩
  simp only [List.mem_cons, List.not_mem_nil, or_false] at hl
  rcases hl with rfl | rfl
  · simp only [exL, List.mem_cons, List.not_mem_nil, or_false] at hso
    rcases hso with rfl | rfl
    · exact h1 _ _ exD ⟨rfl, rfl⟩ rfl
    · exact h2
  · simp only [List.mem_cons, List.not_mem_nil, or_false] at hso
    rcases hso with rfl | rfl
    · exact h1 _ _ (.dict []) ⟨rfl, rfl⟩ rfl
    · exact h1 _ _ (.dict []) ⟨rfl, rfl⟩ rfl

/-- Two updates of the sources u1, u2 that run at the same time; the download of u2 fails in the first. All hypotheses of `C135_finished_partial`. -/
example : ∃ schedule, TogetherToTheEnd itemPickle
    ([exL, [(exS "u1", exLater), (exS "u2", exLater)]].map fun l => (dbUpdate exEnv false l).steps) schedule ∧ schedule ≠ [] ∧
    (∀ l ∈ [exL, [(exS "u1", exLater), (exS "u2", exLater)]], l.map Prod.fst = [exS "u1", exS "u2"] ∧
      ∀ so ∈ l, NotInterrupted exEnv so ∧ ∀ e, so.2.write ≠ .dumpFails e) ∧
    DistinctCacheFiles exEnv [exS "u1", exS "u2"] := by
  have hs1 : (dbUpdate exEnv false exL).steps = [.truncate "/cache/u1.pickle",
      .fill "/cache/u1.pickle" (({ exS "u1" with data := exD, time := exO.now } : Source).cacheData exEnv)] := rfl
  have hs2 : (dbUpdate exEnv false [(exS "u1", exLater), (exS "u2", exLater)]).steps = [.truncate "/cache/u1.pickle",
      .fill "/cache/u1.pickle" (({ exS "u1" with data := .dict [], time := exLater.now } : Source).cacheData exEnv), .truncate "/cache/u2.pickle",
      .fill "/cache/u2.pickle" (({ exS "u2" with data := .dict [], time := exLater.now } : Source).cacheData exEnv)] := rfl
  have r1 := OneRun.whole (P := itemPickle) "/cache/u1.pickle" (({ exS "u1" with data := exD, time := exO.now } : Source).cacheData exEnv) [] [] .done
  have r2 := OneRun.whole (P := itemPickle) "/cache/u1.pickle" (({ exS "u1" with data := .dict [], time := exLater.now } : Source).cacheData exEnv) _ _
    (OneRun.whole "/cache/u2.pickle" (({ exS "u2" with data := .dict [], time := exLater.now } : Source).cacheData exEnv) [] [] .done)
  rw [← hs1] at r1
  rw [← hs2] at r2
  have hint : ∀ a b c d e f : ByteStep ItemByte, Interleaving [[a, b], [c, d, e, f]] [a, c, d, e, b, f] := fun a b c d e f =>
    .step [] _ _ _ _ (.step [_] [] _ _ _ (.step [_] [] _ _ _ (.step [_] [] _ _ _ (.step [] _ _ _ _ (.step [_] [] _ _ _ (.done _ (by simp)))))))
  refine ⟨_, ⟨_, .cons r1 (.cons r2 .nil), hint _ _ _ _ _ _⟩, by simp, ?_, ⟨["/cache/u1.pickle", "/cache/u2.pickle"], .cons rfl (.cons rfl .nil), by decide⟩⟩
  intro l hl
  refine ⟨?_, fun so hso => ⟨exL_notInterrupted l hl so hso, ?_⟩⟩
  · simp only [List.mem_cons, List.not_mem_nil, or_false] at hl
    rcases hl with rfl | rfl <;> rfl
  · intro e h
    simp only [List.mem_cons, List.not_mem_nil, or_false] at hl
    rcases hl with rfl | rfl <;> simp [exL] at hso <;> rcases hso with rfl | rfl <;> cases h

end Verif
