import Verif.Spec.Resolve
import Mathlib.Data.List.Basic
import Mathlib.Data.List.Nodup
import Mathlib.Data.String.Basic
/-! # Properties C27–C30, C41: resolving keys -/
namespace Verif

/-! ## C41 -/

theorem removeDuplicatesGo_mem {α : Type} [DecidableEq α] (items l : List α) (x : α) :
    x ∈ removeDuplicatesGo items l ↔ x ∈ l ∧ x ∉ items := by
  induction l generalizing items with
  | nil => simp [removeDuplicatesGo]
  | cons a t ih =>
    unfold removeDuplicatesGo
    by_cases h : a ∈ items
    · rw [if_pos h, ih]
      constructor
      · rintro ⟨h1, h2⟩; exact ⟨List.mem_cons_of_mem _ h1, h2⟩
      · rintro ⟨h1, h2⟩
        rcases List.mem_cons.1 h1 with rfl | h1
        · exact absurd h h2
        · exact ⟨h1, h2⟩
    · rw [if_neg h, List.mem_cons, ih]
      by_cases hx : x = a
      · subst hx; simp [h]
      · simp [hx]

theorem removeDuplicatesGo_nodup {α : Type} [DecidableEq α] (items l : List α) : (removeDuplicatesGo items l).Nodup := by
  induction l generalizing items with
  | nil => simp [removeDuplicatesGo]
  | cons a t ih =>
    unfold removeDuplicatesGo
    split
    · exact ih _
    · rw [List.nodup_cons]
      exact ⟨by rw [removeDuplicatesGo_mem]; simp, ih _⟩

theorem removeDuplicatesGo_order {α : Type} [DecidableEq α] (items l : List α) (x y : α) (hx : x ∉ items) (hy : y ∉ items) :
    (removeDuplicatesGo items l).idxOf x < (removeDuplicatesGo items l).idxOf y ↔ l.idxOf x < l.idxOf y := by
  induction l generalizing items with
  | nil => simp [removeDuplicatesGo]
  | cons a t ih =>
    unfold removeDuplicatesGo
    by_cases h : a ∈ items
    · have hxa : a ≠ x := by rintro rfl; exact hx h
      have hya : a ≠ y := by rintro rfl; exact hy h
      rw [if_pos h, ih items hx hy, List.idxOf_cons_ne _ hxa, List.idxOf_cons_ne _ hya]
      omega
    · rw [if_neg h]
      by_cases hxa : a = x
      · subst hxa
        rw [List.idxOf_cons_self, List.idxOf_cons_self]
        by_cases hya : a = y
        · subst hya; simp
        · rw [List.idxOf_cons_ne _ hya, List.idxOf_cons_ne _ hya]; simp
      · by_cases hya : a = y
        · subst hya; rw [List.idxOf_cons_self, List.idxOf_cons_self]; simp
        · rw [List.idxOf_cons_ne _ hxa, List.idxOf_cons_ne _ hya, List.idxOf_cons_ne _ hxa, List.idxOf_cons_ne _ hya]
          have := ih (a :: items) (by simp [Ne.symm hxa, hx]) (by simp [Ne.symm hya, hy])
          omega

theorem removeDuplicatesGo_of_nodup {α : Type} [DecidableEq α] (items l : List α) (hl : l.Nodup) (hd : ∀ x ∈ l, x ∉ items) :
    removeDuplicatesGo items l = l := by
  induction l generalizing items with
  | nil => rfl
  | cons a t ih =>
    rw [List.nodup_cons] at hl
    unfold removeDuplicatesGo
    rw [if_neg (hd a (by simp)), ih _ hl.2]
    intro x hx
    rw [List.mem_cons, not_or]
    exact ⟨by rintro rfl; exact hl.1 hx, hd x (List.mem_cons_of_mem _ hx)⟩

/-- **C41** Removing duplicates keeps exactly the elements, each once, in order of first occurrence, and is idempotent. -/
theorem C41_remove_duplicates {α : Type} [DecidableEq α] (l : List α) :
    (∀ x, x ∈ removeDuplicates l ↔ x ∈ l) ∧ (removeDuplicates l).Nodup ∧
    (∀ x y, (removeDuplicates l).idxOf x < (removeDuplicates l).idxOf y ↔ l.idxOf x < l.idxOf y) ∧
    removeDuplicates (removeDuplicates l) = removeDuplicates l := by
  refine ⟨fun x => by simp [removeDuplicates, removeDuplicatesGo_mem], removeDuplicatesGo_nodup _ _, fun x y => ?_, ?_⟩
  · exact removeDuplicatesGo_order _ _ _ _ (by simp) (by simp)
  · exact removeDuplicatesGo_of_nodup _ _ (removeDuplicatesGo_nodup _ _) (by simp)

example : removeDuplicates ["b", "a", "b", "c", "a"] = ["b", "a", "c"] := by decide

/-! ## C29: the install-from mapping -/

theorem dget_dset_self' {κ β : Type} [DecidableEq κ] (d : Dict κ β) (k : κ) (v : β) : dget (dset d k v) k = some v := by
  induction d with
  | nil => simp [dset, dget]
  | cons x t ih => obtain ⟨k', w⟩ := x; unfold dset; split <;> simp_all [dget]

theorem dget_dset_ne' {κ β : Type} [DecidableEq κ] (d : Dict κ β) {k k' : κ} (v : β) (h : k ≠ k') : dget (dset d k v) k' = dget d k' := by
  induction d with
  | nil => simp [dset, dget, h]
  | cons x t ih =>
    obtain ⟨j, w⟩ := x
    unfold dset
    split
    · rename_i hj; subst hj; simp [dget, h]
    · simp only [dget, ih]

theorem installFromKey_fold (inst : String) (m : Dict String String) (keys : List String) (key : String) :
    dget (keys.foldl (installFromKey inst) m) key =
      match dget m key with
      | some i => some i
      | none => if key ∈ keys then some inst else none := by
  induction keys generalizing m with
  | nil => cases h : dget m key <;> simp [h]
  | cons k t ih =>
    rw [List.foldl_cons, ih]
    unfold installFromKey
    by_cases hk : dhas m k = true
    · rw [if_pos hk]
      cases h : dget m key with
      | some i => rfl
      | none =>
        have : key ≠ k := by rintro rfl; simp [dhas, h] at hk
        simp [this]
    · rw [if_neg hk]
      by_cases hkk : k = key
      · subst hkk
        have : dget m k = none := by simpa [dhas] using hk
        rw [dget_dset_self', this]; simp
      · rw [dget_dset_ne' _ _ hkk]
        simp [Ne.symm hkk]

/-- The value of the inverse mapping. -/
theorem installFromMap_get (f : Dict String (List String)) (key : String) :
    dget (installFromMap f) key = (f.find? fun p => decide (key ∈ p.2)).map Prod.fst := by
  have gen : ∀ m : Dict String String, dget (f.foldl installFromStep m) key =
      match dget m key with
      | some i => some i
      | none => (f.find? fun p => decide (key ∈ p.2)).map Prod.fst := by
    induction f with
    | nil => intro m; cases h : dget m key <;> simp [h]
    | cons p t ih =>
      intro m
      rw [List.foldl_cons, ih, installFromStep, installFromKey_fold]
      cases h : dget m key with
      | some i => rfl
      | none =>
        by_cases hk : key ∈ p.2
        · simp [hk]
        · simp [hk]
  rw [installFromMap, gen []]
  simp [dget]

theorem installFromMap_some {f : Dict String (List String)} {key inst : String} :
    dget (installFromMap f) key = some inst ↔ InstallFrom f key inst := by
  rw [installFromMap_get, Option.map_eq_some_iff]
  constructor
  · rintro ⟨p, hp, rfl⟩
    obtain ⟨h1, pre, post, h2, h3⟩ := List.find?_eq_some_iff_append.1 hp
    exact ⟨pre, p.2, post, h2, by simpa using h1, fun q hq => by simpa using h3 q hq⟩
  · rintro ⟨pre, keys, post, h2, h1, h3⟩
    exact ⟨(inst, keys), List.find?_eq_some_iff_append.2 ⟨by simpa using h1, pre, post, h2, fun q hq => by simpa using h3 q hq⟩, rfl⟩

theorem installFromMap_none {f : Dict String (List String)} {key : String} :
    dget (installFromMap f) key = none ↔ NotInstallFrom f key := by
  rw [installFromMap_get, Option.map_eq_none_iff, List.find?_eq_none]
  unfold NotInstallFrom
  simp

/-! ## The loops over installers -/

theorem coreLoop_some {σ : Type} {d : InstDict} {l : List (Installer σ)} {i : Installer σ} {rule : Rule} :
    coreLoop d l = some (i, rule) ↔ FirstWithRule d l i rule := by
  induction l with
  | nil => simp [coreLoop, FirstWithRule]
  | cons j t ih =>
    unfold coreLoop
    cases hj : dget d j.name with
    | some r =>
      simp only [Option.some.injEq, Prod.mk.injEq]
      constructor
      · rintro ⟨rfl, rfl⟩; exact ⟨[], t, rfl, hj, by simp⟩
      · rintro ⟨pre, post, h1, h2, h3⟩
        cases pre with
        | nil =>
          simp only [List.nil_append, List.cons.injEq] at h1
          obtain ⟨rfl, rfl⟩ := h1
          rw [hj] at h2; exact ⟨rfl, by simpa using h2⟩
        | cons a pre =>
          simp only [List.cons_append, List.cons.injEq] at h1
          have := h3 a (by simp); rw [← h1.1, hj] at this; simp at this
    | none =>
      simp only
      rw [ih]
      constructor
      · rintro ⟨pre, post, rfl, h2, h3⟩
        exact ⟨j :: pre, post, rfl, h2, fun k hk => by rcases List.mem_cons.1 hk with rfl | hk; exact hj; exact h3 k hk⟩
      · rintro ⟨pre, post, h1, h2, h3⟩
        cases pre with
        | nil =>
          simp only [List.nil_append, List.cons.injEq] at h1
          rw [← h1.1, hj] at h2; simp at h2
        | cons a pre =>
          simp only [List.cons_append, List.cons.injEq] at h1
          exact ⟨pre, post, h1.2, h2, fun k hk => h3 k (List.mem_cons_of_mem _ hk)⟩

theorem coreLoop_none {σ : Type} {d : InstDict} {l : List (Installer σ)} : coreLoop d l = none ↔ NoneWithRule d l := by
  induction l with
  | nil => simp [coreLoop, NoneWithRule]
  | cons j t ih =>
    unfold coreLoop
    cases hj : dget d j.name with
    | some r => simp [NoneWithRule, hj]
    | none => simp only; rw [ih]; simp [NoneWithRule, hj]

theorem additionalLoop_eq {σ : Type} (d : InstDict) (acc : Option (Installer σ × Rule)) (l : List (Installer σ)) :
    additionalLoop d acc l = (coreLoop d l.reverse).or acc := by
  have app : ∀ (a b : List (Installer σ)), coreLoop d (a ++ b) = (coreLoop d a).or (coreLoop d b) := by
    intro a b
    induction a with
    | nil => simp [coreLoop]
    | cons x a ih =>
      simp only [List.cons_append, coreLoop]
      cases dget d x.name <;> simp [ih]
  induction l generalizing acc with
  | nil => simp [additionalLoop, coreLoop]
  | cons i t ih =>
    rw [List.reverse_cons, app]
    unfold additionalLoop
    cases h : dget d i.name with
    | some rule => simp only [ih, coreLoop, h]; cases coreLoop d t.reverse <;> simp
    | none => simp only [ih, coreLoop, h]; cases coreLoop d t.reverse <;> simp

theorem additionalLoop_some {σ : Type} {d : InstDict} {l : List (Installer σ)} {i : Installer σ} {rule : Rule} :
    additionalLoop d none l = some (i, rule) ↔ LastWithRule d l i rule := by
  rw [additionalLoop_eq, Option.or_none, coreLoop_some]
  constructor
  · rintro ⟨pre, post, h1, h2, h3⟩
    refine ⟨post.reverse, pre.reverse, ?_, h2, fun j hj => h3 j (by simpa using hj)⟩
    have := congrArg List.reverse h1
    simpa using this
  · rintro ⟨pre, post, rfl, h2, h3⟩
    exact ⟨post.reverse, pre.reverse, by simp, h2, fun j hj => h3 j (by simpa using hj)⟩

theorem additionalLoop_none {σ : Type} {d : InstDict} {l : List (Installer σ)} :
    additionalLoop d none l = none ↔ NoneWithRule d l := by
  rw [additionalLoop_eq, Option.or_none, coreLoop_none]
  simp [NoneWithRule]

/-! ## The loop over the keys -/

/-- The part of an outcome that goes to the results. -/
def okPart (o : String → Except Exc KeyOutcome) (k : String) : Option (String × (String × List Resolution)) :=
  match o k with
  | .ok (.ok r) => some (k, r)
  | _ => none

/-- The part of an outcome that goes to the errors. -/
def errPart (o : String → Except Exc KeyOutcome) (k : String) : Option (String × ResErr) :=
  match o k with
  | .ok (.error e) => some (k, e)
  | _ => none

theorem resolveLoop_ok {σ : Type} {ic : InstallerCtx σ} {lookup : String → Except Exc InstDict} {ifm : Dict String String}
    {acc r : Resolved} {ks : List String} :
    resolveLoop ic lookup ifm acc ks = .ok r ↔
      (∀ k ∈ ks, ∃ o, resolveKey ic lookup ifm k = .ok o) ∧
      r = ⟨acc.results ++ ks.filterMap (okPart (resolveKey ic lookup ifm)), acc.errors ++ ks.filterMap (errPart (resolveKey ic lookup ifm))⟩ := by
  induction ks generalizing acc with
  | nil => cases acc; simp [resolveLoop, eq_comm]
  | cons k t ih =>
    unfold resolveLoop
    cases h : resolveKey ic lookup ifm k with
    | error e => simp [h]
    | ok o =>
      cases o with
      | ok x => simp only; rw [ih]; simp [h, okPart, errPart]
      | error x => simp only; rw [ih]; simp [h, okPart, errPart]

/-- Every outcome of a key is in the result or the errors. -/
theorem resolve_ok {σ : Type} {ic : InstallerCtx σ} {db : Database} {f : Dict String (List String)} {ks : List String} {all : Bool}
    {r : Resolved} (h : resolve ic db f ks all = .ok r) :
    ∃ l, lookupKeys db ks all = .ok l ∧ (∀ k ∈ l, ∃ o, resolveKey ic db.lookup (installFromMap f) k = .ok o) ∧
      r.results = l.filterMap (okPart (resolveKey ic db.lookup (installFromMap f))) ∧
      r.errors = l.filterMap (errPart (resolveKey ic db.lookup (installFromMap f))) := by
  unfold resolve at h
  cases hl : lookupKeys db ks all with
  | error e => rw [hl] at h; simp [bind, Except.bind] at h
  | ok l =>
    rw [hl] at h
    simp only [bind, Except.bind] at h
    obtain ⟨h1, rfl⟩ := resolveLoop_ok.1 h
    exact ⟨l, rfl, h1, by simp, by simp⟩

theorem lookupKeys_ok {db : Database} {ks : List String} {all : Bool} {l : List String} (h : lookupKeys db ks all = .ok l) :
    ∃ l', RequestedKeys db ks all l' ∧ l = removeDuplicates l' := by
  unfold lookupKeys at h
  unfold RequestedKeys
  cases all with
  | false => simp only [Bool.false_eq_true, if_false, pure, Except.pure, Except.ok.injEq] at h ⊢; exact ⟨ks, rfl, h.symm⟩
  | true =>
    simp only [if_true] at h ⊢
    cases hk : db.keys with
    | error e => simp [hk, bind, Except.bind] at h
    | ok kk =>
      simp only [hk, bind, Except.bind, pure, Except.pure, Except.ok.injEq] at h
      refine ⟨_, ⟨kk, _, rfl, List.mergeSort_perm kk _, ?_, rfl⟩, h.symm⟩
      have := List.pairwise_mergeSort (le := fun a b : String => decide (a ≤ b)) (fun a b c h1 h2 => by
        simp only [decide_eq_true_eq] at *; exact le_trans h1 h2) (fun a b => by
        simp only [Bool.or_eq_true, decide_eq_true_eq]; exact le_total a b) kk
      exact this.imp (by simp)

/-- **C27** If resolve returns, then with the requested keys stripped of duplicates (in request order, database keys of all-keys in
alphabetical order after them), every key is exactly once either among the results or among the errors, both in that order. -/
theorem C27_partition {σ : Type} (ic : InstallerCtx σ) (db : Database) (installFrom : Dict String (List String))
    (xylemKeys : List String) (allKeys : Bool) (r : Resolved) (h : resolve ic db installFrom xylemKeys allKeys = .ok r) :
    ∃ requested, RequestedKeys db xylemKeys allKeys requested ∧
      (r.results.map Prod.fst).Sublist (removeDuplicates requested) ∧ (r.errors.map Prod.fst).Sublist (removeDuplicates requested) ∧
      (∀ k ∈ requested, (k ∈ r.results.map Prod.fst ∧ k ∉ r.errors.map Prod.fst) ∨
        (k ∉ r.results.map Prod.fst ∧ k ∈ r.errors.map Prod.fst)) := by
  obtain ⟨l, hl, ho, hr, he⟩ := resolve_ok h
  obtain ⟨l', hl', rfl⟩ := lookupKeys_ok hl
  refine ⟨l', hl', ?_, ?_, ?_⟩
  · rw [hr]
    clear hl ho hr he
    generalize removeDuplicates l' = m
    induction m with
    | nil => simp
    | cons k t ih =>
      rw [List.filterMap_cons]
      cases hx : okPart (resolveKey ic db.lookup (installFromMap installFrom)) k with
      | none => exact ih.trans (List.sublist_cons_self _ _)
      | some p =>
        have : p.1 = k := by unfold okPart at hx; split at hx <;> simp at hx; rw [← hx]
        simp only [List.map_cons, this]
        exact ih.cons_cons k
  · rw [he]
    clear hl ho hr he
    generalize removeDuplicates l' = m
    induction m with
    | nil => simp
    | cons k t ih =>
      rw [List.filterMap_cons]
      cases hx : errPart (resolveKey ic db.lookup (installFromMap installFrom)) k with
      | none => exact ih.trans (List.sublist_cons_self _ _)
      | some p =>
        have : p.1 = k := by unfold errPart at hx; split at hx <;> simp at hx; rw [← hx]
        simp only [List.map_cons, this]
        exact ih.cons_cons k
  · intro k hk
    have hk' : k ∈ removeDuplicates l' := ((C41_remove_duplicates l').1 k).2 hk
    obtain ⟨o, hko⟩ := ho k hk'
    have key1 : ∀ k, k ∈ r.results.map Prod.fst ↔ k ∈ removeDuplicates l' ∧ (okPart (resolveKey ic db.lookup (installFromMap installFrom)) k).isSome := by
      intro k
      rw [hr, List.mem_map]
      constructor
      · rintro ⟨p, hp, rfl⟩
        obtain ⟨a, ha, hpa⟩ := List.mem_filterMap.1 hp
        have : p.1 = a := by
          unfold okPart at hpa; split at hpa <;> simp at hpa; rw [← hpa]
        rw [this, hpa]; exact ⟨ha, rfl⟩
      · rintro ⟨h1, h2⟩
        obtain ⟨p, hp⟩ := Option.isSome_iff_exists.1 h2
        refine ⟨p, List.mem_filterMap.2 ⟨k, h1, hp⟩, ?_⟩
        unfold okPart at hp; split at hp <;> simp at hp; rw [← hp]
    have key2 : ∀ k, k ∈ r.errors.map Prod.fst ↔ k ∈ removeDuplicates l' ∧ (errPart (resolveKey ic db.lookup (installFromMap installFrom)) k).isSome := by
      intro k
      rw [he, List.mem_map]
      constructor
      · rintro ⟨p, hp, rfl⟩
        obtain ⟨a, ha, hpa⟩ := List.mem_filterMap.1 hp
        have : p.1 = a := by
          unfold errPart at hpa; split at hpa <;> simp at hpa; rw [← hpa]
        rw [this, hpa]; exact ⟨ha, rfl⟩
      · rintro ⟨h1, h2⟩
        obtain ⟨p, hp⟩ := Option.isSome_iff_exists.1 h2
        refine ⟨p, List.mem_filterMap.2 ⟨k, h1, hp⟩, ?_⟩
        unfold errPart at hp; split at hp <;> simp at hp; rw [← hp]
    rw [key1, key2]
    cases o with
    | ok x => exact Or.inl ⟨⟨hk', by simp [okPart, hko]⟩, by simp [errPart, hko]⟩
    | error x => exact Or.inr ⟨by simp [okPart, hko], ⟨hk', by simp [errPart, hko]⟩⟩

theorem count_sublist {a : String} {l m : List String} (h : l.Sublist m) (hm : m.Nodup) : l.count a = if a ∈ l then 1 else 0 := by
  have := List.Nodup.sublist h hm
  split
  · rename_i hx; exact List.count_eq_one_of_mem this hx
  · rename_i hx; exact List.count_eq_zero_of_not_mem hx

/-- **C27** Counted: a key appears exactly once in the results and the errors together if it was requested (however often), and not at all
otherwise. -/
theorem C27_exactly_once {σ : Type} (ic : InstallerCtx σ) (db : Database) (installFrom : Dict String (List String))
    (xylemKeys : List String) (allKeys : Bool) (r : Resolved) (h : resolve ic db installFrom xylemKeys allKeys = .ok r) :
    ∃ requested, RequestedKeys db xylemKeys allKeys requested ∧
      ∀ k, (r.results.map Prod.fst).count k + (r.errors.map Prod.fst).count k = if k ∈ requested then 1 else 0 := by
  obtain ⟨req, hq, h1, h2, h3⟩ := C27_partition ic db installFrom xylemKeys allKeys r h
  refine ⟨req, hq, fun k => ?_⟩
  have hn := (C41_remove_duplicates req).2.1
  rw [count_sublist h1 hn, count_sublist h2 hn]
  by_cases hk : k ∈ req
  · rw [if_pos hk]
    rcases h3 k hk with ⟨ha, hb⟩ | ⟨ha, hb⟩
    · rw [if_pos ha, if_neg hb]
    · rw [if_neg ha, if_pos hb]
  · have ha : k ∉ r.results.map Prod.fst := fun hx => hk (((C41_remove_duplicates req).1 k).1 (h1.subset hx))
    have hb : k ∉ r.errors.map Prod.fst := fun hx => hk (((C41_remove_duplicates req).1 k).1 (h2.subset hx))
    rw [if_neg hk, if_neg ha, if_neg hb]

theorem mem_results {σ : Type} {ic : InstallerCtx σ} {db : Database} {f : Dict String (List String)} {ks : List String} {all : Bool}
    {r : Resolved} (h : resolve ic db f ks all = .ok r) {key : String} {x : String × List Resolution} (hm : (key, x) ∈ r.results) :
    resolveKey ic db.lookup (installFromMap f) key = .ok (.ok x) := by
  obtain ⟨l, _, _, hr, _⟩ := resolve_ok h
  rw [hr] at hm
  obtain ⟨a, _, ha⟩ := List.mem_filterMap.1 hm
  unfold okPart at ha
  split at ha
  · rename_i r' hr'; simp only [Option.some.injEq, Prod.mk.injEq] at ha; obtain ⟨rfl, rfl⟩ := ha; exact hr'
  · simp at ha

theorem mem_errors {σ : Type} {ic : InstallerCtx σ} {db : Database} {f : Dict String (List String)} {ks : List String} {all : Bool}
    {r : Resolved} (h : resolve ic db f ks all = .ok r) {key : String} {x : ResErr} (hm : (key, x) ∈ r.errors) :
    resolveKey ic db.lookup (installFromMap f) key = .ok (.error x) := by
  obtain ⟨l, _, _, _, he⟩ := resolve_ok h
  rw [he] at hm
  obtain ⟨a, _, ha⟩ := List.mem_filterMap.1 hm
  unfold errPart at ha
  split at ha
  · rename_i r' hr'; simp only [Option.some.injEq, Prod.mk.injEq] at ha; obtain ⟨rfl, rfl⟩ := ha; exact hr'
  · simp at ha

theorem resolveWith_ok {σ : Type} {inst : Installer σ} {rule : Rule} {x : String × List Resolution} :
    resolveWith inst rule = .ok (.ok x) ↔ ∃ rs, inst.resolve rule = .ok rs ∧ x = (inst.name, rs) := by
  unfold resolveWith
  cases h : inst.resolve rule with
  | ok rs => simp [eq_comm]
  | error e => simp; split <;> simp

/-- A resolved key: what the lookup found, what was chosen, what it gave. -/
theorem resolveKey_ok {σ : Type} {ic : InstallerCtx σ} {lookup : String → Except Exc InstDict} {ifm : Dict String String} {key : String}
    {x : String × List Resolution} (h : resolveKey ic lookup ifm key = .ok (.ok x)) :
    ∃ d inst rule, lookup key = .ok d ∧ d ≠ [] ∧ chooseInstaller ic ifm key d = .ok (inst, rule) ∧
      inst.resolve rule = .ok x.2 ∧ x.1 = inst.name := by
  unfold resolveKey at h
  split at h
  · split at h <;> simp at h
  · split at h
    · split at h <;> simp at h
    · simp at h
  · rename_i y d hd
    split at h
    · simp at h
    · rename_i inst rule hc
      obtain ⟨rs, h1, rfl⟩ := resolveWith_ok.1 h
      exact ⟨y :: d, inst, rule, hd, by simp, hc, h1, rfl⟩

/-- **C28 (what holds)** A key that is not listed in install_from and was resolved: the result is from the first core installer the
looked up rules have a rule for; or no core installer has one and it is from the **last** additional installer that has one. -/
theorem C28_installer_choice {σ : Type} (ic : InstallerCtx σ) (db : Database) (installFrom : Dict String (List String))
    (xylemKeys : List String) (allKeys : Bool) (r : Resolved) (h : resolve ic db installFrom xylemKeys allKeys = .ok r)
    (key name : String) (rs : List Resolution) (hm : (key, (name, rs)) ∈ r.results) (hn : NotInstallFrom installFrom key) :
    ∃ d inst rule, db.lookup key = .ok d ∧ inst.name = name ∧ inst.resolve rule = .ok rs ∧
      (FirstWithRule d ic.core inst rule ∨ (NoneWithRule d ic.core ∧ LastWithRule d ic.additional inst rule)) := by
  obtain ⟨d, inst, rule, h1, _, hc, h2, h3⟩ := resolveKey_ok (mem_results h hm)
  refine ⟨d, inst, rule, h1, h3.symm, h2, ?_⟩
  unfold chooseInstaller at hc
  rw [installFromMap_none.2 hn] at hc
  simp only at hc
  split at hc
  · rename_i r' hr'
    simp only [Except.ok.injEq] at hc; subst hc
    exact Or.inl (coreLoop_some.1 hr')
  · rename_i hcore
    split at hc
    · rename_i r' hr'
      simp only [Except.ok.injEq] at hc; subst hc
      exact Or.inr ⟨coreLoop_none.1 hcore, additionalLoop_some.1 hr'⟩
    · simp at hc

theorem requested_mem {σ : Type} {ic : InstallerCtx σ} {db : Database} {f : Dict String (List String)} {ks : List String} {all : Bool}
    {r : Resolved} (h : resolve ic db f ks all = .ok r) {key : String} (hk : key ∈ ks) :
    (∃ x, resolveKey ic db.lookup (installFromMap f) key = .ok (.ok x) ∧ (key, x) ∈ r.results) ∨
    (∃ e, resolveKey ic db.lookup (installFromMap f) key = .ok (.error e) ∧ (key, e) ∈ r.errors) := by
  obtain ⟨l, hl, ho, hr, he⟩ := resolve_ok h
  obtain ⟨l', hl', rfl⟩ := lookupKeys_ok hl
  have hk' : key ∈ removeDuplicates l' := by
    rw [(C41_remove_duplicates l').1]
    unfold RequestedKeys at hl'
    cases all with
    | false => simp only [Bool.false_eq_true, if_false] at hl'; exact hl' ▸ hk
    | true =>
      simp only [if_true] at hl'
      obtain ⟨_, _, _, _, _, rfl⟩ := hl'
      exact List.mem_append_left _ hk
  obtain ⟨o, hko⟩ := ho key hk'
  cases o with
  | ok x => exact Or.inl ⟨x, hko, hr ▸ List.mem_filterMap.2 ⟨key, hk', by simp [okPart, hko]⟩⟩
  | error x => exact Or.inr ⟨x, hko, he ▸ List.mem_filterMap.2 ⟨key, hk', by simp [errPart, hko]⟩⟩

/-- **C28 (partial)** The core installers: the first core installer with a rule resolves the key (or reports its failure, or the whole
resolve raised). Missing for the full claim: among additional installers the first should be used, which is refuted below. -/
theorem C28_first_core_installer_partial {σ : Type} (ic : InstallerCtx σ) (db : Database) (installFrom : Dict String (List String))
    (xylemKeys : List String) (allKeys : Bool) (r : Resolved) (h : resolve ic db installFrom xylemKeys allKeys = .ok r)
    (key : String) (hk : key ∈ xylemKeys) (hn : NotInstallFrom installFrom key) (d : InstDict) (hd : db.lookup key = .ok d)
    (inst : Installer σ) (rule : Rule) :
    (FirstWithRule d ic.core inst rule ∨ (NoneWithRule d ic.core ∧ LastWithRule d ic.additional inst rule) →
      (∃ rs, inst.resolve rule = .ok rs ∧ (key, (inst.name, rs)) ∈ r.results) ∨
      (∃ e, inst.resolve rule = .error e ∧ e.isInstallerError = true ∧ (key, .resolveFailed inst.name e) ∈ r.errors)) ∧
    (d ≠ [] → NoneWithRule d ic.core → NoneWithRule d ic.additional → (key, .noInstaller) ∈ r.errors) := by
  have hne : FirstWithRule d ic.core inst rule ∨ (NoneWithRule d ic.core ∧ LastWithRule d ic.additional inst rule) → d ≠ [] := by
    rintro (⟨_, _, _, h2, _⟩ | ⟨_, _, _, _, h2, _⟩) <;> (rintro rfl; simp [dget] at h2)
  have hstep : ∀ o, d ≠ [] → resolveKey ic db.lookup (installFromMap installFrom) key = .ok o →
      (match chooseInstaller ic (installFromMap installFrom) key d with
        | .error err => (.ok (.error err) : Except Exc KeyOutcome)
        | .ok (inst, rule) => resolveWith inst rule) = .ok o := by
    intro o hne ho
    unfold resolveKey at ho
    rw [hd] at ho
    cases d with
    | nil => exact absurd rfl hne
    | cons x d => exact ho
  constructor
  · intro hc
    have hch : chooseInstaller ic (installFromMap installFrom) key d = .ok (inst, rule) := by
      unfold chooseInstaller
      rw [installFromMap_none.2 hn]
      rcases hc with hc | ⟨hc1, hc2⟩
      · simp only [coreLoop_some.2 hc]
      · simp only [coreLoop_none.2 hc1, additionalLoop_some.2 hc2]
    rcases requested_mem h hk with ⟨x, h1, h2⟩ | ⟨e, h1, h2⟩
    · have := hstep _ (hne hc) h1
      rw [hch] at this
      obtain ⟨rs, h3, rfl⟩ := resolveWith_ok.1 this
      exact Or.inl ⟨rs, h3, h2⟩
    · have := hstep _ (hne hc) h1
      rw [hch] at this
      simp only [resolveWith] at this
      cases hr : inst.resolve rule with
      | ok rs => simp [hr] at this
      | error e' =>
        simp only [hr] at this
        split at this
        · rename_i hi; simp only [Except.ok.injEq, Except.error.injEq] at this; subst this
          exact Or.inr ⟨e', rfl, hi, h2⟩
        · simp at this
  · intro hd0 hc1 hc2
    have hch : chooseInstaller ic (installFromMap installFrom) key d = .error .noInstaller := by
      unfold chooseInstaller
      rw [installFromMap_none.2 hn]
      simp only [coreLoop_none.2 hc1, additionalLoop_none.2 hc2]
    rcases requested_mem h hk with ⟨x, h1, h2⟩ | ⟨e, h1, h2⟩
    · have := hstep _ hd0 h1; rw [hch] at this; simp at this
    · have := hstep _ hd0 h1; rw [hch] at this
      simp only [Except.ok.injEq, Except.error.injEq] at this; subst this; exact h2

/-- **C28 refuted** for additional installers, whatever the plugins: if no core installer has a rule, and an additional installer and a
later one with another name both have one, the earlier one is never used (when the resolve works at all). -/
theorem C28_first_additional_never_used {σ : Type} (ic : InstallerCtx σ) (db : Database) (installFrom : Dict String (List String))
    (xylemKeys : List String) (allKeys : Bool) (r : Resolved) (h : resolve ic db installFrom xylemKeys allKeys = .ok r)
    (key : String) (hn : NotInstallFrom installFrom key) (d : InstDict) (hd : db.lookup key = .ok d)
    (hcore : NoneWithRule d ic.core) (a b : Installer σ) (pre mid post : List (Installer σ))
    (hadd : ic.additional = pre ++ a :: mid ++ b :: post) (hb : dget d b.name ≠ none)
    (hnames : (ic.additional.map (·.name)).Nodup) (rs : List Resolution) : (key, (a.name, rs)) ∉ r.results := by
  intro hm
  obtain ⟨d', inst, rule, h1, h2, _, h3⟩ := C28_installer_choice ic db installFrom xylemKeys allKeys r h key a.name rs hm hn
  rw [hd] at h1; simp only [Except.ok.injEq] at h1; subst h1
  rcases h3 with ⟨p, q, hp, hr, _⟩ | ⟨_, p, q, hp, hr, hl⟩
  · have := hcore inst (by rw [hp]; simp); rw [hr] at this; simp at this
  · have hbq : b ∈ q := by
      rw [hadd] at hp
      -- `inst` has the name of `a`, so `p` is `pre`
      rw [hadd] at hnames
      have key : ∀ (pre p : List (Installer σ)) (s q : List (Installer σ)), ((pre ++ a :: s).map (·.name)).Nodup →
          pre ++ a :: s = p ++ inst :: q → s = q := by
        intro pre
        induction pre with
        | nil =>
          intro p s q hnd he
          cases p with
          | nil => simp at he; exact he.2
          | cons y p =>
            simp only [List.nil_append, List.cons_append, List.cons.injEq] at he
            simp only [List.nil_append, List.map_cons, List.nodup_cons] at hnd
            exact absurd (by rw [he.2]; simp [h2]) hnd.1
        | cons z pre ih =>
          intro p s q hnd he
          cases p with
          | nil =>
            simp only [List.nil_append, List.cons_append, List.cons.injEq] at he
            simp only [List.cons_append, List.map_cons, List.nodup_cons] at hnd
            exact absurd (by rw [he.1, h2]; simp) hnd.1
          | cons y p =>
            simp only [List.cons_append, List.cons.injEq] at he
            simp only [List.cons_append, List.map_cons, List.nodup_cons] at hnd
            exact ih p s q hnd.2 he.2
      have := key pre p (mid ++ b :: post) q (by simpa using hnames) (by simpa using hp)
      rw [← this]; simp
    exact hb (hl b hbq)

/-- **C29** A key listed in install_from: if it was resolved then by the installer of the first entry listing it, which is loaded and
for which the looked up rules have a rule; if that installer is not loaded or has no rule this is reported. -/
theorem C29_install_from {σ : Type} (ic : InstallerCtx σ) (db : Database) (installFrom : Dict String (List String))
    (xylemKeys : List String) (allKeys : Bool) (r : Resolved) (h : resolve ic db installFrom xylemKeys allKeys = .ok r)
    (key inst : String) (hi : InstallFrom installFrom key inst) :
    (∀ name rs, (key, (name, rs)) ∈ r.results → name = inst ∧
      ∃ d i rule, db.lookup key = .ok d ∧ i ∈ ic.plugins ∧ i.name = inst ∧ dget d inst = some rule ∧ i.resolve rule = .ok rs) ∧
    (∀ d, key ∈ xylemKeys → db.lookup key = .ok d → d ≠ [] → (∀ i ∈ ic.plugins, i.name ≠ inst) →
      (key, .notLoaded inst) ∈ r.errors) ∧
    (∀ d, key ∈ xylemKeys → db.lookup key = .ok d → d ≠ [] → (∃ i ∈ ic.plugins, i.name = inst) → dget d inst = none →
      (key, .noRuleForRequested inst) ∈ r.errors) := by
  have hif := installFromMap_some.2 hi
  refine ⟨?_, ?_, ?_⟩
  · intro name rs hm
    obtain ⟨d, i, rule, h1, _, hc, h2, h3⟩ := resolveKey_ok (mem_results h hm)
    unfold chooseInstaller at hc
    simp only [hif] at hc
    split at hc
    · simp at hc
    · rename_i i' hi'
      split at hc
      · simp at hc
      · rename_i rule' hr'
        simp only [Except.ok.injEq, Prod.mk.injEq] at hc
        obtain ⟨rfl, rfl⟩ := hc
        have hname : i'.name = inst := by have := List.find?_some hi'; simpa using this
        exact ⟨by rw [← hname]; exact h3, d, i', rule', h1, List.mem_of_find?_eq_some hi', hname, hr', h2⟩
  all_goals
    intro d hk hd hd0
  · intro hno
    have hl : lookupInstaller ic inst = none := by
      unfold lookupInstaller; rw [List.find?_eq_none]; intro i hi'; simpa using hno i hi'
    have hr : resolveKey ic db.lookup (installFromMap installFrom) key = .ok (.error (.notLoaded inst)) := by
      unfold resolveKey
      rw [hd]
      cases d with
      | nil => exact absurd rfl hd0
      | cons x d => simp only [chooseInstaller, hif, hl]
    rcases requested_mem h hk with ⟨x, h1, h2⟩ | ⟨e, h1, h2⟩
    · rw [hr] at h1; simp at h1
    · rw [hr] at h1; simp only [Except.ok.injEq, Except.error.injEq] at h1; exact h1 ▸ h2
  · rintro ⟨i, hip, hin⟩ hno
    have hl : ∃ i', lookupInstaller ic inst = some i' := by
      unfold lookupInstaller
      rw [← Option.isSome_iff_exists, List.find?_isSome]
      exact ⟨i, hip, by simpa using hin⟩
    obtain ⟨i', hl⟩ := hl
    have hr : resolveKey ic db.lookup (installFromMap installFrom) key = .ok (.error (.noRuleForRequested inst)) := by
      unfold resolveKey
      rw [hd]
      cases d with
      | nil => exact absurd rfl hd0
      | cons x d => simp only [chooseInstaller, hif, hl, hno]
    rcases requested_mem h hk with ⟨x, h1, h2⟩ | ⟨e, h1, h2⟩
    · rw [hr] at h1; simp at h1
    · rw [hr] at h1; simp only [Except.ok.injEq, Except.error.injEq] at h1; exact h1 ▸ h2

/-- **C30 (partial)** Two resolves with the same context, database and install_from that both return agree on every key requested in both,
and a key's outcome is that of resolving it alone. Missing for the full claim: the failure of another key can make the whole resolve raise
(refuted below). -/
theorem C30_keys_independent_partial {σ : Type} (ic : InstallerCtx σ) (db : Database) (installFrom : Dict String (List String))
    (keys keys' : List String) (all all' : Bool) (r r' : Resolved) (h : resolve ic db installFrom keys all = .ok r)
    (h' : resolve ic db installFrom keys' all' = .ok r') (key : String) (hk : key ∈ keys) (hk' : key ∈ keys') :
    (∀ x, (key, x) ∈ r.results ↔ (key, x) ∈ r'.results) ∧ (∀ e, (key, e) ∈ r.errors ↔ (key, e) ∈ r'.errors) := by
  constructor
  · intro x
    constructor
    · intro hm
      have := mem_results h hm
      rcases requested_mem h' hk' with ⟨y, h1, h2⟩ | ⟨e, h1, h2⟩
      · rw [this] at h1; simp only [Except.ok.injEq] at h1; exact h1 ▸ h2
      · rw [this] at h1; simp at h1
    · intro hm
      have := mem_results h' hm
      rcases requested_mem h hk with ⟨y, h1, h2⟩ | ⟨e, h1, h2⟩
      · rw [this] at h1; simp only [Except.ok.injEq] at h1; exact h1 ▸ h2
      · rw [this] at h1; simp at h1
  · intro x
    constructor
    · intro hm
      have := mem_errors h hm
      rcases requested_mem h' hk' with ⟨y, h1, h2⟩ | ⟨e, h1, h2⟩
      · rw [this] at h1; simp at h1
      · rw [this] at h1; simp only [Except.ok.injEq, Except.error.injEq] at h1; exact h1 ▸ h2
    · intro hm
      have := mem_errors h' hm
      rcases requested_mem h hk with ⟨y, h1, h2⟩ | ⟨e, h1, h2⟩
      · rw [this] at h1; simp at h1
      · rw [this] at h1; simp only [Except.ok.injEq, Except.error.injEq] at h1; exact h1 ▸ h2

/-- **C30 (exactly when resolve raises)** Resolve of listed keys raises iff some key alone makes it raise; then no key gets an outcome. -/
theorem C30_raises_iff {σ : Type} (ic : InstallerCtx σ) (db : Database) (installFrom : Dict String (List String)) (keys : List String) :
    (∃ e, resolve ic db installFrom keys false = .error e) ↔ ∃ key ∈ keys, ∃ e, resolve ic db installFrom [key] false = .error e := by
  have one : ∀ key, (∃ e, resolve ic db installFrom [key] false = .error e) ↔
      ∃ e, resolveKey ic db.lookup (installFromMap installFrom) key = .error e := by
    intro key
    have : resolve ic db installFrom [key] false = resolveLoop ic db.lookup (installFromMap installFrom) ⟨[], []⟩ [key] := rfl
    rw [this]
    unfold resolveLoop
    cases hk : resolveKey ic db.lookup (installFromMap installFrom) key with
    | error e => simp
    | ok o => cases o <;> simp [resolveLoop]
  have many : (∃ e, resolve ic db installFrom keys false = .error e) ↔
      ∃ key ∈ removeDuplicates keys, ∃ e, resolveKey ic db.lookup (installFromMap installFrom) key = .error e := by
    have : resolve ic db installFrom keys false =
      resolveLoop ic db.lookup (installFromMap installFrom) ⟨[], []⟩ (removeDuplicates keys) := rfl
    rw [this]
    constructor
    · rintro ⟨e, he⟩
      by_contra hno
      have : ∀ k ∈ removeDuplicates keys, ∃ o, resolveKey ic db.lookup (installFromMap installFrom) k = .ok o := by
        intro k hk
        cases hr : resolveKey ic db.lookup (installFromMap installFrom) k with
        | ok o => exact ⟨o, rfl⟩
        | error e => exact absurd ⟨k, hk, e, hr⟩ hno
      have hok := resolveLoop_ok (acc := ⟨[], []⟩).2 ⟨this, rfl⟩
      rw [he] at hok; simp at hok
    · rintro ⟨k, hk, e, he⟩
      cases hr : resolveLoop ic db.lookup (installFromMap installFrom) ⟨[], []⟩ (removeDuplicates keys) with
      | error e' => exact ⟨e', rfl⟩
      | ok r =>
        obtain ⟨o, ho⟩ := (resolveLoop_ok.1 hr).1 k hk
        rw [he] at ho; simp at ho
  rw [many]
  constructor
  · rintro ⟨k, hk, h⟩; exact ⟨k, ((C41_remove_duplicates keys).1 k).1 hk, (one k).2 h⟩
  · rintro ⟨k, hk, h⟩; exact ⟨k, ((C41_remove_duplicates keys).1 k).2 hk, (one k).1 h⟩

/-! ### Examples: an os with a core installer and two additional ones -/

/-- A plugin that resolves a rule to one resolution, for the examples. -/
def exInst (n : String) : Installer Unit where
  name := n
  resolve rule := .ok [rule]
  useAsAdditional _ := .ok true
  filterUninstalled rs s := (.ok rs, s)
  isInstalled _ s := (.ok false, s)
  getInstallCommands _ _ _ s := (.ok [], s)
  checkGeneral _ _ _ s := (.ok (), s)
  checkInstall _ _ _ _ s := (.ok (), s)

/-- Context of the examples. -/
def exIc : InstallerCtx Unit :=
  ⟨[exInst "apt", exInst "pip", exInst "gem"], [exInst "apt"], [exInst "pip", exInst "gem"], .ok ("ubuntu", "14.04")⟩

/-- Database of the examples: `boom` cannot be looked up. -/
def exDb : Database where
  lookup k :=
    if k = "core" then .ok [("pip", []), ("apt", [])] else if k = "extra" then .ok [("gem", []), ("pip", [])]
    else if k = "boom" then .error .valueError else .ok []
  keys := .ok ["extra", "core"]

example : resolve exIc exDb [] ["extra", "nope", "core", "extra"] false =
    .ok ⟨[("extra", ("gem", [[]])), ("core", ("apt", [[]]))], [("nope", .noRule)]⟩ := rfl

/-- **C28 refuted**, concretely: `pip` is listed before `gem`, both have a rule, `gem` is used. -/
theorem C28_last_additional_witness : ∃ r, resolve exIc exDb [] ["extra"] false = .ok r ∧ r.results = [("extra", ("gem", [[]]))] ∧
    FirstWithRule [("gem", []), ("pip", [])] exIc.additional (exInst "pip") [] := by
  refine ⟨_, rfl, rfl, [], [exInst "gem"], rfl, rfl, by simp⟩

/-- **C30 refuted**: a key whose lookup raises something else than a LookupError takes the other keys with it. -/
theorem C30_one_failure_aborts_all :
    (∃ r, resolve exIc exDb [] ["core"] false = .ok r ∧ r.errors = []) ∧
    resolve exIc exDb [] ["core", "boom"] false = .error .valueError := ⟨⟨_, rfl, rfl⟩, rfl⟩

example : InstallFrom [("apt", ["x"]), ("pip", ["core", "y"]), ("gem", ["core"])] "core" "pip" :=
  ⟨[("apt", ["x"])], ["core", "y"], [("gem", ["core"])], rfl, by simp, by simp⟩
example : resolve exIc exDb [("apt", ["x"]), ("pip", ["core", "y"]), ("gem", ["core"])] ["core"] true =
    .ok ⟨[("core", ("pip", [[]])), ("extra", ("gem", [[]]))], []⟩ := by
  have : ["extra", "core"].mergeSort (fun a b => decide (a ≤ b)) = ["core", "extra"] := by
    simp [List.mergeSort, List.MergeSort.Internal.splitInTwo]
  simp only [resolve, lookupKeys, exDb, bind, Except.bind, this, if_true]
  rfl

end Verif
