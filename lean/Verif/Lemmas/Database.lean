import Verif.Spec.Database
import Verif.Props.Verify
import Verif.Lemmas.Lookup
import Verif.Lemmas.Expand
import Mathlib.Data.List.Nodup
/-! Helper lemmas about the database model. -/
namespace Verif

theorem nodup_eraseDups' {α : Type} [BEq α] [LawfulBEq α] (n : Nat) : ∀ l : List α, l.length ≤ n → l.eraseDups.Nodup := by
  induction n with
  | zero => intro l h; simp at h; simp [h]
  | succ n ih =>
    intro l h
    cases l with
    | nil => simp
    | cons a t =>
      rw [List.eraseDups_cons, List.nodup_cons]
      refine ⟨?_, ih _ ?_⟩
      · rw [List.mem_eraseDups]; simp
      · have := List.length_filter_le (fun b => !b == a) t
        simp at h; omega

theorem nodup_eraseDups {α : Type} [BEq α] [LawfulBEq α] (l : List α) : l.eraseDups.Nodup :=
  nodup_eraseDups' _ l (Nat.le_refl _)

theorem eraseDups_length_le {α : Type} [BEq α] [LawfulBEq α] (n : Nat) : ∀ l : List α, l.length ≤ n → l.eraseDups.length ≤ l.length := by
  induction n with
  | zero => intro l h; simp at h; simp [h]
  | succ n ih =>
    intro l h
    cases l with
    | nil => simp
    | cons a t =>
      rw [List.eraseDups_cons]
      have h1 := List.length_filter_le (fun b => !b == a) t
      have h2 := ih (t.filter fun b => !b == a) (by simp at h; omega)
      simp only [List.length_cons]; omega

theorem eraseDups_length_eq {α : Type} [BEq α] [LawfulBEq α] (n : Nat) :
    ∀ l : List α, l.length ≤ n → (l.length = l.eraseDups.length ↔ l.Nodup) := by
  induction n with
  | zero => intro l h; simp at h; simp [h]
  | succ n ih =>
    intro l h
    cases l with
    | nil => simp
    | cons a t =>
      rw [List.eraseDups_cons, List.nodup_cons]
      have h1 := List.length_filter_le (fun b => !b == a) t
      have hle : (t.filter fun b => !b == a).length ≤ n := by simp at h; omega
      have h2 := eraseDups_length_le n (t.filter fun b => !b == a) hle
      simp only [List.length_cons, Nat.add_right_cancel_iff]
      constructor
      · intro he
        have hf : (t.filter fun b => !b == a).length = t.length := by omega
        have hft : t.filter (fun b => !b == a) = t := List.filter_eq_self.2 (by
          intro x hx
          exact (List.length_filter_eq_length_iff.1 hf) x hx)
        rw [hft] at he hle
        refine ⟨fun hm => ?_, (ih t hle).1 he⟩
        have := List.filter_eq_self.1 hft a hm
        simp at this
      · rintro ⟨hm, hn⟩
        have hft : t.filter (fun b => !b == a) = t := List.filter_eq_self.2 (by
          intro x hx
          have : x ≠ a := fun e => hm (e ▸ hx)
          simp [this])
        rw [hft] at hle ⊢
        exact (ih t hle).2 hn

theorem forall₂_append_left' {α β : Type} {R : α → β → Prop} {a b : List α} {l : List β} (h : List.Forall₂ R (a ++ b) l) :
    ∃ l1 l2, List.Forall₂ R a l1 ∧ List.Forall₂ R b l2 ∧ l = l1 ++ l2 := by
  induction a generalizing l with
  | nil => exact ⟨[], l, .nil, h, rfl⟩
  | cons x a ih =>
    rw [List.cons_append] at h
    cases h with
    | cons h1 h2 =>
      obtain ⟨l1, l2, h3, h4, rfl⟩ := ih h2
      exact ⟨_ :: l1, l2, .cons h1 h3, h4, rfl⟩

theorem forall₂_mem_right {α β : Type} {R : α → β → Prop} {a : List α} {b : List β} (h : List.Forall₂ R a b) {y : β}
    (hy : y ∈ b) : ∃ x ∈ a, R x y := by
  induction h with
  | nil => simp at hy
  | cons h _ ih =>
    rcases List.mem_cons.1 hy with rfl | hy
    · exact ⟨_, by simp, h⟩
    · obtain ⟨x, hx, hr⟩ := ih hy; exact ⟨x, by simp [hx], hr⟩

/-! ### mapM in Except -/
theorem mapM_ok_iff {α β : Type} {f : α → Except Exc β} {l : List α} {r : List β} :
    l.mapM f = .ok r ↔ List.Forall₂ (fun a b => f a = .ok b) l r := by
  induction l generalizing r with
  | nil => simp [pure, Except.pure, eq_comm]
  | cons a t ih =>
    rw [List.mapM_cons, Except_bind_ok, List.forall₂_cons_left_iff]
    constructor
    · rintro ⟨b, h1, h2⟩
      obtain ⟨c, h3, h4⟩ := Except_bind_ok.1 h2
      rw [pure_ok] at h4
      exact ⟨b, c, h1, ih.1 h3, h4.symm⟩
    · rintro ⟨b, c, h1, h2, rfl⟩
      exact ⟨b, h1, Except_bind_ok.2 ⟨c, ih.2 h2, rfl⟩⟩

theorem mapM_error {α β : Type} {f : α → Except Exc β} {l : List α} {e : Exc}
    (h : l.mapM f = .error e) : ∃ a ∈ l, f a = .error e := by
  induction l with
  | nil => simp [pure, Except.pure] at h
  | cons a t ih =>
    rw [List.mapM_cons, Except_bind_err] at h
    rcases h with h | ⟨b, _, h⟩
    · exact ⟨a, by simp, h⟩
    · rw [Except_bind_err] at h
      rcases h with h | ⟨c, _, h⟩
      · obtain ⟨x, hx, hf⟩ := ih h; exact ⟨x, by simp [hx], hf⟩
      · simp [pure, Except.pure] at h

theorem mapM_mem_error {α β : Type} {f : α → Except Exc β} {l : List α} {a : α} {e : Exc}
    (ha : a ∈ l) (h : f a = .error e) : ∃ e', l.mapM f = .error e' := by
  cases hm : l.mapM f with
  | error e' => exact ⟨e', rfl⟩
  | ok r =>
    exfalso
    have := mapM_ok_iff.1 hm
    clear hm
    induction this with
    | nil => simp at ha
    | cons h1 _ ih =>
      rcases List.mem_cons.1 ha with rfl | ha
      · simp [h] at h1
      · exact ih ha

/-! ### typed view -/

theorem ofDictVal_dictVal {β : Type} {f : PVal → Option β} {g : β → PVal} (h : ∀ b, f (g b) = some b) (t : Dict String β) :
    ofDictVal f (t.map fun kv => (PKey.str kv.1, g kv.2)) = some t := by
  induction t with
  | nil => rfl
  | cons x t ih => simp [ofDictVal, h, ih]

theorem ruleOfVal_toVal (r : Rule) : ruleOfVal r.toVal = some r := ofDictVal_dictVal (fun _ => rfl) r
theorem instOfVal_toVal (r : InstDict) : instOfVal r.toVal = some r := ofDictVal_dictVal ruleOfVal_toVal r
theorem verOfVal_toVal (r : VerDict) : verOfVal r.toVal = some r := ofDictVal_dictVal instOfVal_toVal r
theorem osOfVal_toVal (r : OsDict) : osOfVal r.toVal = some r := ofDictVal_dictVal verOfVal_toVal r
theorem rulesOfVal_toVal (r : Rules) : rulesOfVal r.toVal = some r := ofDictVal_dictVal osOfVal_toVal r

theorem ofDictVal_some {β : Type} {f : PVal → Option β} {g : β → PVal} (h : ∀ v b, f v = some b → v = g b)
    {d : List (PKey × PVal)} {t : Dict String β} (hd : ofDictVal f d = some t) :
    d = t.map fun kv => (PKey.str kv.1, g kv.2) := by
  induction d generalizing t with
  | nil => simp [ofDictVal] at hd; subst hd; rfl
  | cons x d ih =>
    obtain ⟨k, v⟩ := x
    cases k with
    | str k =>
      simp only [ofDictVal] at hd
      cases h1 : f v with
      | none => simp [h1] at hd
      | some b =>
        cases h2 : ofDictVal f d with
        | none => simp [h1, h2] at hd
        | some t' =>
          simp only [h1, h2, Option.some.injEq] at hd
          subst hd
          simp [← ih h2, ← h v b h1]
    | none => simp [ofDictVal] at hd
    | int => simp [ofDictVal] at hd
    | other => simp [ofDictVal] at hd

theorem ruleOfVal_some (v : PVal) (r : Rule) (h : ruleOfVal v = some r) : v = r.toVal := by
  cases v with
  | dict d =>
    simp only [ruleOfVal] at h
    rw [ofDictVal_some (g := id) (by simp) h]; rfl
  | _ => simp [ruleOfVal] at h
theorem instOfVal_some (v : PVal) (r : InstDict) (h : instOfVal v = some r) : v = r.toVal := by
  cases v with
  | dict d =>
    simp only [instOfVal] at h
    rw [ofDictVal_some (g := Rule.toVal) ruleOfVal_some h]; rfl
  | _ => simp [instOfVal] at h

/-- Verified installer dicts are typed. -/
theorem verifiedInst_typed {uni : Char → Bool} {b : Bool} {v : PVal} (h : verifyInstallerDict uni b v = .ok ()) :
    ∃ d : InstDict, v = d.toVal := by
  rw [verifyInstallerDict_iff] at h
  obtain ⟨d, rfl, h⟩ := h
  have h1 : ∀ w, ValidRule uni w → ∃ r : Rule, w = r.toVal := by
    rintro w ⟨d, rfl, h⟩
    exact typed_dict (P := fun _ => True) d (fun k w hm => ⟨(h k w hm).1, trivial⟩) (fun w _ => ⟨w, rfl⟩)
  refine typed_dict (P := ValidRule uni) d (fun k w hm => ⟨?_, (h k w hm).2.2⟩) h1
  obtain ⟨s, hs, _⟩ := (h k w hm).1
  exact ⟨s, hs⟩

/-- A source lookup succeeds with `d` iff the spec's lookup gives the valid installer dict `d`. -/
theorem sourceLookup_ok_iff {uni : Char → Bool} {s : Source} {key : String} {c : LookupCtx} {d : InstDict} :
    s.lookup uni key c = .ok d ↔ s.spec.lookup s.data key c = .ok d.toVal ∧ verifyInstallerDict uni false d.toVal = .ok () := by
  unfold Source.lookup
  constructor
  · intro h
    obtain ⟨v, h1, h⟩ := Except_bind_ok.1 h
    obtain ⟨_, h2, h⟩ := Except_bind_ok.1 h
    obtain ⟨d', rfl⟩ := verifiedInst_typed h2
    rw [instOfVal_toVal] at h
    rw [pure_ok] at h; subst h
    exact ⟨h1, h2⟩
  · rintro ⟨h1, h2⟩
    simp only [h1, h2, bind, Except.bind, instOfVal_toVal, pure, Except.pure]

theorem sourceLookup_noDefault {uni : Char → Bool} {s : Source} {key : String} {c : LookupCtx} {d : InstDict}
    (h : s.lookup uni key c = .ok d) : "default_installer" ∉ dkeys d := by
  obtain ⟨_, h2⟩ := sourceLookup_ok_iff.1 h
  rw [verifyInstallerDict_iff] at h2
  obtain ⟨d', e, h⟩ := h2
  intro hm
  obtain ⟨⟨k, r⟩, hm, hk⟩ := List.mem_map.1 hm
  simp only at hk; subst hk
  have e' : d.map (fun kv => (PKey.str kv.1, Rule.toVal kv.2)) = d' := by injection e
  have := (h (.str "default_installer") r.toVal (e' ▸ List.mem_map.2 ⟨_, hm, rfl⟩)).2.1 rfl
  simp at this

theorem effLast_none {d : InstDict} (hd : DWF d) (h : "default_installer" ∉ dkeys d) (inst : String) :
    effLast none inst d = dget d inst := by
  have hu : Unambiguous d none := fun _ h => by simp at h
  have hD : dget d "default_installer" = none := dget_eq_none.2 h
  have : ∀ r, effLast none inst d = some r ↔ dget d inst = some r := by
    intro r
    rw [effLast_eq_iff hd hu]
    unfold Offers
    simp only [hD, reduceCtorEq, and_false, or_false, and_iff_right_iff_imp]
    rintro hr rfl
    rw [hD] at hr; simp at hr
  cases h1 : effLast none inst d with
  | some r => exact ((this r).1 h1).symm
  | none =>
    cases h2 : dget d inst with
    | none => rfl
    | some r => rw [(this r).2 h2] at h1; simp at h1

/-! ### file system steps -/

/-- The path a step touches. -/
def FsStep.path : FsStep → String
  | .truncate p => p
  | .fill p _ => p

theorem apply_other {fs : FileSys} {st : FsStep} {p : String} (h : st.path ≠ p) : st.apply fs p = fs p := by
  cases st <;> simp only [FsStep.path] at h <;> simp [FsStep.apply, Ne.symm h]

theorem applySteps_append (fs : FileSys) (a b : List FsStep) : applySteps fs (a ++ b) = applySteps (applySteps fs a) b := by
  simp [applySteps, List.foldl_append]

theorem applySteps_other {l : List FsStep} {p : String} (h : ∀ st ∈ l, st.path ≠ p) (fs : FileSys) :
    applySteps fs l p = fs p := by
  induction l generalizing fs with
  | nil => rfl
  | cons a t ih =>
    rw [show applySteps fs (a :: t) = applySteps (a.apply fs) t from rfl, ih (fun st hs => h st (by simp [hs]))]
    exact apply_other (h a (by simp))

/-! ### sources -/

theorem loadFromSource_ok_iff {s s' : Source} {o : Outcome} :
    s.loadFromSource o.net o.now = .ok s' ↔ ∃ d, Downloaded s o d ∧ s' = { s with data := d, time := o.now } := by
  unfold Source.loadFromSource Downloaded
  constructor
  · intro h
    obtain ⟨d, h1, h⟩ := Except_bind_ok.1 h
    obtain ⟨_, h2, h⟩ := Except_bind_ok.1 h
    rw [pure_ok] at h
    exact ⟨d, ⟨h1, h2⟩, h.symm⟩
  · rintro ⟨d, ⟨h1, h2⟩, rfl⟩
    simp only [h1, h2, bind, Except.bind, pure, Except.pure]

theorem loadFromSource_error {s : Source} {o : Outcome} {e : Exc} (h : s.loadFromSource o.net o.now = .error e) (d : PVal) :
    ¬ Downloaded s o d := by
  intro hd
  have := loadFromSource_ok_iff.2 ⟨d, hd, rfl⟩
  rw [h] at this; simp at this

theorem downloaded_unique {s : Source} {o : Outcome} {d d' : PVal} (h : Downloaded s o d) (h' : Downloaded s o d') : d = d' := by
  have := h.1.symm.trans h'.1
  injection this

theorem cachePath_congr {env : CacheEnv} {s : Source} {d t : PVal} : ({ s with data := d, time := t } : Source).cachePath env = s.cachePath env := rfl

/-- The steps of updating one source. -/
def srcSteps (env : CacheEnv) (so : Source × Outcome) : List FsStep :=
  match so.1.loadFromSource so.2.net so.2.now with
  | .error _ => []
  | .ok s' => (s'.saveToCache env so.2.write).1
/-- The source after updating it. -/
def srcAfter (so : Source × Outcome) : Source :=
  match so.1.loadFromSource so.2.net so.2.now with
  | .error _ => so.1
  | .ok s' => s'
/-- The exception of updating one source. -/
def srcErr (env : CacheEnv) (so : Source × Outcome) : Option Exc :=
  match so.1.loadFromSource so.2.net so.2.now with
  | .error e => some e
  | .ok s' => (s'.saveToCache env so.2.write).2

theorem reraises_true (e : Exc) : reraises true e = true := rfl
theorem reraises_false (e : Exc) : reraises false e = !e.isException := rfl

theorem dbUpdate_cons (env : CacheEnv) (b : Bool) (so : Source × Outcome) (t : List (Source × Outcome)) :
    dbUpdate env b (so :: t) =
      match (srcErr env so).filter (reraises b) with
      | some e => ⟨srcAfter so :: t.map Prod.fst, srcSteps env so, some e⟩
      | none => ⟨srcAfter so :: (dbUpdate env b t).sources, srcSteps env so ++ (dbUpdate env b t).steps,
          (dbUpdate env b t).raised⟩ := by
  obtain ⟨s, o⟩ := so
  simp only [dbUpdate, srcAfter, srcSteps, srcErr]
  cases h : s.loadFromSource o.net o.now with
  | error e => cases hr : reraises b e <;> simp [hr, Option.filter]
  | ok s' =>
    simp only
    cases h2 : (s'.saveToCache env o.write).2 with
    | none => simp
    | some e => cases hr : reraises b e <;> simp [hr, Option.filter]

/-- What happens in an update: the run of a prefix in which no exception leaves the loop, plus the first source whose exception does. -/
theorem dbUpdate_run (env : CacheEnv) (b : Bool) (l : List (Source × Outcome)) :
    (dbUpdate env b l = ⟨l.map srcAfter, l.flatMap (srcSteps env), none⟩ ∧ ∀ x ∈ l, ∀ e, srcErr env x = some e → reraises b e = false) ∨
    ∃ pre so post e, l = pre ++ so :: post ∧ (∀ x ∈ pre, ∀ e, srcErr env x = some e → reraises b e = false) ∧
      srcErr env so = some e ∧ reraises b e = true ∧
      dbUpdate env b l = ⟨pre.map srcAfter ++ srcAfter so :: post.map Prod.fst, (pre ++ [so]).flatMap (srcSteps env), some e⟩ := by
  induction l with
  | nil => left; exact ⟨rfl, by simp⟩
  | cons so t ih =>
    rw [dbUpdate_cons]
    cases he : (srcErr env so).filter (reraises b) with
    | some e =>
      right
      obtain ⟨h1, h2⟩ := Option.filter_eq_some_iff.1 he
      exact ⟨[], so, t, e, rfl, by simp, h1, h2, by simp⟩
    | none =>
      have he' : ∀ e, srcErr env so = some e → reraises b e = false := by
        intro e h
        rw [h] at he
        simpa using he
      rcases ih with ⟨h1, h2⟩ | ⟨pre, x, post, e, rfl, h2, h3, h5, h4⟩
      · left
        refine ⟨by rw [h1]; simp, ?_⟩
        intro x hx
        rcases List.mem_cons.1 hx with rfl | hx
        · exact he'
        · exact h2 x hx
      · right
        refine ⟨so :: pre, x, post, e, rfl, ?_, h3, h5, by rw [h4]; simp⟩
        intro y hy
        rcases List.mem_cons.1 hy with rfl | hy
        · exact he'
        · exact h2 y hy

/-- With `raise_on_error`, what happens is the run of a prefix whose sources work, plus the first failing source. -/
theorem dbUpdate_true (env : CacheEnv) (l : List (Source × Outcome)) :
    (dbUpdate env true l = ⟨l.map srcAfter, l.flatMap (srcSteps env), none⟩ ∧ ∀ x ∈ l, srcErr env x = none) ∨
    ∃ pre so post e, l = pre ++ so :: post ∧ (∀ x ∈ pre, srcErr env x = none) ∧ srcErr env so = some e ∧
      dbUpdate env true l = ⟨pre.map srcAfter ++ srcAfter so :: post.map Prod.fst, (pre ++ [so]).flatMap (srcSteps env), some e⟩ := by
  have key : ∀ x, (∀ e, srcErr env x = some e → reraises true e = false) → srcErr env x = none := by
    intro x h
    cases he : srcErr env x with
    | none => rfl
    | some e => have := h e he; simp [reraises] at this
  rcases dbUpdate_run env true l with ⟨h1, h2⟩ | ⟨pre, x, post, e, rfl, h2, h3, h5, h4⟩
  · exact .inl ⟨h1, fun x hx => key x (h2 x hx)⟩
  · exact .inr ⟨pre, x, post, e, rfl, fun y hy => key y (h2 y hy), h3, h4⟩

theorem dbUpdate_steps_prefix (env : CacheEnv) (b : Bool) (l : List (Source × Outcome)) :
    (dbUpdate env b l).steps <+: l.flatMap (srcSteps env) := by
  rcases dbUpdate_run env b l with ⟨h, _⟩ | ⟨pre, so, post, e, rfl, _, _, _, h⟩
  · rw [h]; exact List.prefix_refl _
  · rw [h]
    have : pre ++ so :: post = (pre ++ [so]) ++ post := by simp
    rw [this]
    show List.flatMap _ (pre ++ [so]) <+: List.flatMap _ (pre ++ [so] ++ post)
    rw [List.flatMap_append (xs := pre ++ [so])]
    exact List.prefix_append _ _

theorem srcErr_isException {env : CacheEnv} {so : Source × Outcome} (h : NotInterrupted env so) {e : Exc} (he : srcErr env so = some e) :
    e.isException = true := by
  obtain ⟨s, o⟩ := so
  unfold srcErr at he
  simp only at he
  cases hl : s.loadFromSource o.net o.now with
  | error x =>
    rw [hl] at he
    simp only [Option.some.injEq] at he
    subst he
    unfold Source.loadFromSource at hl
    cases h1 : s.spec.loadData o.net s.arguments with
    | error y =>
      rw [h1] at hl
      simp only [bind, Except.bind, Except.error.injEq] at hl
      subst hl
      exact h.load _ h1
    | ok d =>
      rw [h1] at hl
      cases h2 : s.spec.verifyData d s.arguments with
      | error y =>
        simp only [bind, Except.bind, h2, Except.error.injEq] at hl
        subst hl
        exact h.verify _ _ h1 h2
      | ok u => simp [bind, Except.bind, h2, pure, Except.pure] at hl
  | ok s' =>
    rw [hl] at he
    obtain ⟨d, hd, rfl⟩ := loadFromSource_ok_iff.1 hl
    simp only [Source.saveToCache, cachePath_congr] at he
    cases hp : s.cachePath env with
    | error x => rw [hp] at he; simp only [Option.some.injEq] at he; subst he; exact h.path _ hp
    | ok p =>
      rw [hp] at he
      cases hw : o.write with
      | ok => rw [hw] at he; simp [writeCache] at he
      | openFails x => rw [hw] at he; simp only [writeCache, Option.some.injEq] at he; subst he; exact h.write _ (.inl hw)
      | dumpFails x => rw [hw] at he; simp only [writeCache, Option.some.injEq] at he; subst he; exact h.write _ (.inr hw)

/-- Without interrupts and without `raise_on_error` every source is processed. -/
theorem dbUpdate_false (env : CacheEnv) (l : List (Source × Outcome)) (hni : ∀ so ∈ l, NotInterrupted env so) :
    dbUpdate env false l = ⟨l.map srcAfter, l.flatMap (srcSteps env), none⟩ := by
  rcases dbUpdate_run env false l with ⟨h1, h2⟩ | ⟨pre, x, post, e, rfl, h2, h3, h5, h4⟩
  · exact h1
  · have := srcErr_isException (hni x (by simp)) h3
    simp [reraises, this] at h5

theorem UpdateSucceeds.notInterrupted {env : CacheEnv} {so : Source × Outcome} (h : UpdateSucceeds env so) : NotInterrupted env so := by
  obtain ⟨⟨d, h1, h2⟩, ⟨p, h3⟩, h4⟩ := h
  refine ⟨fun e h => ?_, fun d' e h h' => ?_, fun e h => ?_, fun e h => ?_⟩
  · rw [h1] at h; simp at h
  · rw [h1] at h; injection h with h; subst h; rw [h2] at h'; simp at h'
  · rw [h3] at h; simp at h
  · rw [h4] at h; simp at h

theorem srcErr_none_iff {env : CacheEnv} {so : Source × Outcome} : srcErr env so = none ↔ UpdateSucceeds env so := by
  obtain ⟨s, o⟩ := so
  unfold srcErr UpdateSucceeds
  simp only
  cases h : s.loadFromSource o.net o.now with
  | error e =>
    simp only [reduceCtorEq, false_iff]
    rintro ⟨⟨d, hd⟩, _⟩
    exact loadFromSource_error h d hd
  | ok s' =>
    obtain ⟨d, hd, rfl⟩ := loadFromSource_ok_iff.1 h
    simp only [Source.saveToCache, cachePath_congr]
    cases hp : s.cachePath env with
    | error e => simp
    | ok p =>
      have : ∃ d, Downloaded s o d := ⟨d, hd⟩
      cases hw : o.write <;> simp [writeCache, this]

theorem srcSteps_eq {env : CacheEnv} {s : Source} {o : Outcome} {d : PVal} {p : String} (hd : Downloaded s o d)
    (hp : s.cachePath env = .ok p) :
    srcSteps env (s, o) = match o.write with
      | .ok => [.truncate p, .fill p (({ s with data := d, time := o.now } : Source).cacheData env)]
      | .openFails _ => []
      | .dumpFails _ => [.truncate p] := by
  unfold srcSteps
  simp only [loadFromSource_ok_iff.2 ⟨d, hd, rfl⟩, Source.saveToCache, cachePath_congr, hp]
  cases o.write <;> rfl

theorem srcSteps_nil {env : CacheEnv} {s : Source} {o : Outcome} (hd : ∀ d, ¬ Downloaded s o d) : srcSteps env (s, o) = [] := by
  unfold srcSteps
  cases h : s.loadFromSource o.net o.now with
  | error e => rfl
  | ok s' =>
    obtain ⟨d, hd', _⟩ := loadFromSource_ok_iff.1 h
    exact absurd hd' (hd d)

theorem srcSteps_path {env : CacheEnv} {so : Source × Outcome} {st : FsStep} (h : st ∈ srcSteps env so) :
    so.1.cachePath env = .ok st.path := by
  obtain ⟨s, o⟩ := so
  by_cases hd : ∃ d, Downloaded s o d
  · obtain ⟨d, hd⟩ := hd
    cases hp : s.cachePath env with
    | error e =>
      unfold srcSteps at h
      simp [loadFromSource_ok_iff.2 ⟨d, hd, rfl⟩, Source.saveToCache, cachePath_congr, hp] at h
    | ok p =>
      rw [srcSteps_eq hd hp] at h
      cases hw : o.write <;> simp only [hw, List.mem_cons, List.not_mem_nil, or_false] at h
      · rcases h with rfl | rfl <;> rfl
      · subst h; rfl
  · rw [srcSteps_nil (fun d hd' => hd ⟨d, hd'⟩)] at h
    simp at h

theorem srcAfter_eq {s : Source} {o : Outcome} {d : PVal} (hd : Downloaded s o d) :
    srcAfter (s, o) = { s with data := d, time := o.now } := by
  unfold srcAfter
  rw [loadFromSource_ok_iff.2 ⟨d, hd, rfl⟩]

theorem srcAfter_fail {s : Source} {o : Outcome} (hd : ∀ d, ¬ Downloaded s o d) : srcAfter (s, o) = s := by
  unfold srcAfter
  cases h : s.loadFromSource o.net o.now with
  | error e => rfl
  | ok s' =>
    obtain ⟨d, hd', _⟩ := loadFromSource_ok_iff.1 h
    exact absurd hd' (hd d)

end Verif
