import Verif.Py.Dict
import Mathlib.Data.List.Forall2
set_option linter.unusedSectionVars false
/-! Helper lemmas about dictionaries. -/
namespace Verif
section
variable {κ : Type} {β : Type} [DecidableEq κ]

@[simp] theorem dget_nil (k : κ) : dget ([] : Dict κ β) k = none := rfl
@[simp] theorem dkeys_nil : dkeys ([] : Dict κ β) = [] := rfl
@[simp] theorem dkeys_cons (x : κ × β) (d : Dict κ β) : dkeys (x :: d) = x.1 :: dkeys d := rfl
@[simp] theorem dkeys_append (d e : Dict κ β) : dkeys (d ++ e) = dkeys d ++ dkeys e := by simp [dkeys]

theorem dget_cons (x : κ × β) (d : Dict κ β) (k : κ) :
    dget (x :: d) k = if x.1 = k then some x.2 else dget d k := by cases x; rfl

theorem dget_append (d e : Dict κ β) (k : κ) : dget (d ++ e) k = (dget d k).or (dget e k) := by
  induction d with
  | nil => simp
  | cons x d ih => simp only [List.cons_append, dget_cons]; split <;> simp [ih]

theorem dget_set (d : Dict κ β) (k k' : κ) (v : β) :
    dget (dset d k v) k' = if k = k' then some v else dget d k' := by
  induction d with
  | nil => simp [dset, dget]
  | cons x d ih =>
    obtain ⟨a, w⟩ := x
    simp only [dset]
    split
    · subst_vars; simp only [dget]; split <;> simp_all
    · simp only [dget, ih]; split
      · subst_vars; split
        · exact absurd (by simp_all) ‹_›
        · rfl
      · rfl

@[simp] theorem dget_set_self (d : Dict κ β) (k : κ) (v : β) : dget (dset d k v) k = some v := by
  simp [dget_set]

theorem dget_del (d : Dict κ β) (k k' : κ) :
    dget (ddel d k) k' = if k = k' then none else dget d k' := by
  induction d with
  | nil => simp [ddel]
  | cons x d ih =>
    obtain ⟨a, w⟩ := x
    simp only [ddel]
    split
    · subst_vars; rw [ih]; split <;> simp_all [dget]
    · simp only [dget, ih]; split
      · subst_vars; split
        · exact absurd (by simp_all) ‹_›
        · rfl
      · rfl

theorem dget_some_mem {d : Dict κ β} {k : κ} {v : β} (h : dget d k = some v) : (k, v) ∈ d := by
  induction d with
  | nil => simp at h
  | cons x d ih =>
    obtain ⟨a, w⟩ := x
    simp only [dget] at h
    split at h
    · simp_all
    · exact List.mem_cons_of_mem _ (ih h)

theorem dget_eq_none {d : Dict κ β} {k : κ} : dget d k = none ↔ k ∉ dkeys d := by
  induction d with
  | nil => simp
  | cons x d ih =>
    obtain ⟨a, w⟩ := x
    simp only [dget, dkeys_cons, List.mem_cons, not_or]
    split
    · simp_all
    · rw [ih]; constructor
      · intro h; exact ⟨fun e => by simp_all, h⟩
      · exact fun h => h.2

theorem mem_dkeys_iff {d : Dict κ β} {k : κ} : k ∈ dkeys d ↔ (dget d k).isSome := by
  have := dget_eq_none (d := d) (k := k)
  cases h : dget d k <;> simp_all

theorem dhas_iff {d : Dict κ β} {k : κ} : dhas d k = true ↔ k ∈ dkeys d := by
  rw [mem_dkeys_iff]; rfl

theorem dhas_false {d : Dict κ β} {k : κ} : dhas d k = false ↔ dget d k = none := by
  simp [dhas]

theorem mem_dkeys_of_mem {d : Dict κ β} {k : κ} {v : β} (h : (k, v) ∈ d) : k ∈ dkeys d :=
  List.mem_map_of_mem (f := Prod.fst) h

@[simp] theorem DWF_nil : DWF ([] : Dict κ β) := by simp [DWF]
@[simp] theorem DWF_cons (x : κ × β) (d : Dict κ β) : DWF (x :: d) ↔ x.1 ∉ dkeys d ∧ DWF d := by
  simp [DWF]

theorem mem_dget {d : Dict κ β} (hd : DWF d) {k : κ} {v : β} (h : (k, v) ∈ d) : dget d k = some v := by
  induction d with
  | nil => simp at h
  | cons x d ih =>
    obtain ⟨a, w⟩ := x
    simp only [DWF_cons] at hd
    simp only [dget]
    rcases List.mem_cons.1 h with h | h
    · simp_all
    · split
      · exact absurd (by subst_vars; exact mem_dkeys_of_mem h) hd.1
      · exact ih hd.2 h

theorem mem_iff_dget {d : Dict κ β} (hd : DWF d) {k : κ} {v : β} : (k, v) ∈ d ↔ dget d k = some v :=
  ⟨mem_dget hd, dget_some_mem⟩

theorem mem_dkeys_set {d : Dict κ β} {k a : κ} {v : β} :
    a ∈ dkeys (dset d k v) ↔ a = k ∨ a ∈ dkeys d := by
  rw [mem_dkeys_iff, mem_dkeys_iff, dget_set]
  split
  · simp_all
  · constructor
    · exact Or.inr
    · rintro (h | h)
      · simp_all
      · exact h

theorem DWF_set {d : Dict κ β} (hd : DWF d) (k : κ) (v : β) : DWF (dset d k v) := by
  induction d with
  | nil => simp [dset]
  | cons x d ih =>
    obtain ⟨a, w⟩ := x
    simp only [DWF_cons] at hd
    simp only [dset]
    split
    · simpa using hd
    · simp only [DWF_cons, mem_dkeys_set, not_or]
      exact ⟨⟨by assumption, hd.1⟩, ih hd.2⟩

theorem mem_dkeys_del {d : Dict κ β} {k a : κ} : a ∈ dkeys (ddel d k) ↔ a ≠ k ∧ a ∈ dkeys d := by
  rw [mem_dkeys_iff, mem_dkeys_iff, dget_del]
  split
  · simp_all
  · constructor
    · intro h; exact ⟨fun e => by simp_all, h⟩
    · exact fun h => h.2

theorem DWF_del {d : Dict κ β} (hd : DWF d) (k : κ) : DWF (ddel d k) := by
  induction d with
  | nil => simp [ddel]
  | cons x d ih =>
    obtain ⟨a, w⟩ := x
    simp only [DWF_cons] at hd
    simp only [ddel]
    split
    · exact ih hd.2
    · simp only [DWF_cons, mem_dkeys_del, not_and]
      exact ⟨fun _ => hd.1, ih hd.2⟩

theorem dset_append_of_not_mem {d e : Dict κ β} {k : κ} {v : β} (h : k ∉ dkeys d) :
    dset (d ++ e) k v = d ++ dset e k v := by
  induction d with
  | nil => rfl
  | cons x d ih =>
    obtain ⟨a, w⟩ := x
    simp only [dkeys_cons, List.mem_cons, not_or] at h
    simp only [List.cons_append, dset]
    rw [if_neg (fun e => h.1 e.symm), ih h.2]

theorem dset_self_of_dget {d : Dict κ β} {k : κ} {v : β} (h : dget d k = some v) : dset d k v = d := by
  induction d with
  | nil => simp at h
  | cons x d ih =>
    obtain ⟨a, w⟩ := x
    simp only [dget] at h
    simp only [dset]
    split at h
    · simp_all
    · rw [if_neg (by assumption), ih h]

/-- The value-wise map of a dict, the meaning of the item loop. -/
def mapVals {ε : Type} (f : κ → β → Except ε β) : Dict κ β → Except ε (Dict κ β)
  | [] => .ok []
  | (k, v) :: t =>
    match f k v with
    | .error e => .error e
    | .ok v' => match mapVals f t with
      | .error e => .error e
      | .ok t' => .ok ((k, v') :: t')

theorem forItems_aux {ε : Type} {β : Type} (f : κ → β → Except ε β) (pre rest : Dict κ β)
    (h : DWF (pre ++ rest)) :
    rest.foldlM (fun acc kv => do let v ← f kv.1 kv.2; pure (dset acc kv.1 v)) (pre ++ rest)
      = (mapVals f rest).map (fun r => pre ++ r) := by
  induction rest generalizing pre with
  | nil => simp [mapVals, Except.map, pure, Except.pure]
  | cons x rest ih =>
    obtain ⟨k, v⟩ := x
    simp only [List.foldlM_cons, mapVals]
    cases hf : f k v with
    | error e => simp [bind, Except.bind, Except.map]
    | ok v' =>
      have hk : k ∉ dkeys pre := by
        simp only [DWF, dkeys_append, dkeys_cons, List.nodup_append] at h
        exact fun hh => h.2.2 k hh k (by simp) rfl
      have e1 : dset (pre ++ (k, v) :: rest) k v' = (pre ++ [(k, v')]) ++ rest := by
        rw [dset_append_of_not_mem hk]; simp [dset]
      have h' : DWF ((pre ++ [(k, v')]) ++ rest) := by simpa [DWF] using h
      simp only [bind, Except.bind, pure, Except.pure]
      rw [e1]
      have := ih _ h'
      simp only [bind, Except.bind, pure, Except.pure] at this
      rw [this]
      cases mapVals f rest <;> simp [Except.map]

theorem forItems_eq {ε : Type} {β : Type} (f : κ → β → Except ε β) {d : Dict κ β} (h : DWF d) :
    forItems f d = mapVals f d := by
  have := forItems_aux f [] d (by simpa using h)
  simp only [List.nil_append] at this
  rw [forItems, this]; cases mapVals f d <;> simp [Except.map]

theorem mapVals_ok_iff {ε : Type} {f : κ → β → Except ε β} {d d' : Dict κ β} :
    mapVals f d = .ok d' ↔ List.Forall₂ (fun x y => x.1 = y.1 ∧ f x.1 x.2 = .ok y.2) d d' := by
  induction d generalizing d' with
  | nil => cases d' <;> simp [mapVals]
  | cons x d ih =>
    obtain ⟨k, v⟩ := x
    simp only [mapVals]
    cases hf : f k v with
    | error e => 
      simp only [reduceCtorEq, false_iff]
      intro h; cases h; simp_all
    | ok v' =>
      cases hm : mapVals f d with
      | error e =>
        simp only [reduceCtorEq, false_iff]
        intro h; cases h with
        | cons h1 h2 => have := ih.2 h2; simp_all
      | ok t' =>
        simp only [Except.ok.injEq]
        constructor
        · rintro rfl; exact .cons ⟨rfl, hf⟩ (ih.1 hm)
        · intro h; cases h with
          | cons h1 h2 =>
            have h4 := ih.2 h2
            rw [hm] at h4; injection h4 with h4
            obtain ⟨h1, h3⟩ := h1
            simp only at h1 h3
            rw [hf] at h3; injection h3 with h3
            subst h4 h1 h3; rfl

theorem mapVals_keys {ε : Type} {f : κ → β → Except ε β} {d d' : Dict κ β}
    (h : mapVals f d = .ok d') : dkeys d' = dkeys d := by
  rw [mapVals_ok_iff] at h
  induction h with
  | nil => rfl
  | cons h _ ih => simp [ih, h.1]

theorem mapVals_dget {ε : Type} {f : κ → β → Except ε β} {d d' : Dict κ β}
    (h : mapVals f d = .ok d') (k : κ) :
    (dget d k = none ∧ dget d' k = none) ∨
    ∃ v v', dget d k = some v ∧ dget d' k = some v' ∧ f k v = .ok v' := by
  rw [mapVals_ok_iff] at h
  induction h with
  | nil => simp
  | @cons x y l l' h _ ih =>
    obtain ⟨a, v⟩ := x; obtain ⟨b, w⟩ := y
    obtain ⟨h1, h2⟩ := h
    simp only at h1 h2; subst h1
    simp only [dget]
    split
    · subst_vars; exact .inr ⟨_, _, rfl, rfl, h2⟩
    · exact ih

theorem mapVals_error {ε : Type} {f : κ → β → Except ε β} {d : Dict κ β} {e : ε}
    (h : mapVals f d = .error e) : ∃ k v, (k, v) ∈ d ∧ f k v = .error e := by
  induction d with
  | nil => simp [mapVals] at h
  | cons x d ih =>
    obtain ⟨k, v⟩ := x
    simp only [mapVals] at h
    cases hf : f k v with
    | error e' => rw [hf] at h; simp at h; subst h; exact ⟨k, v, by simp, hf⟩
    | ok v' =>
      rw [hf] at h
      cases hm : mapVals f d with
      | error e' =>
        rw [hm] at h; simp at h; subst h
        obtain ⟨a, b, h1, h2⟩ := ih hm
        exact ⟨a, b, List.mem_cons_of_mem _ h1, h2⟩
      | ok t => rw [hm] at h; simp at h

theorem mapVals_mem_error {ε : Type} {f : κ → β → Except ε β} {d : Dict κ β} {k : κ} {v : β} {e : ε}
    (hm : (k, v) ∈ d) (h : f k v = .error e) : ∃ e', mapVals f d = .error e' := by
  cases hd : mapVals f d with
  | error e' => exact ⟨e', rfl⟩
  | ok d' =>
    rw [mapVals_ok_iff] at hd
    exfalso
    induction hd with
    | nil => simp at hm
    | cons h1 _ ih =>
      rcases List.mem_cons.1 hm with h2 | h2
      · subst h2; simp_all
      · exact ih h2

theorem mapVals_mem {ε : Type} {f : κ → β → Except ε β} {d d' : Dict κ β} (h : mapVals f d = .ok d')
    {k : κ} {v' : β} (hm : (k, v') ∈ d') : ∃ v, (k, v) ∈ d ∧ f k v = .ok v' := by
  rw [mapVals_ok_iff] at h
  induction h with
  | nil => simp at hm
  | @cons x y _ _ h1 _ ih =>
    rcases List.mem_cons.1 hm with h2 | h2
    · subst h2; obtain ⟨h3, h4⟩ := h1; obtain ⟨a, b⟩ := x
      simp only at h3 h4; subst h3; exact ⟨b, by simp, h4⟩
    · obtain ⟨v, h3, h4⟩ := ih h2; exact ⟨v, List.mem_cons_of_mem _ h3, h4⟩

theorem mapVals_mem' {ε : Type} {f : κ → β → Except ε β} {d d' : Dict κ β} (h : mapVals f d = .ok d')
    {k : κ} {v : β} (hm : (k, v) ∈ d) : ∃ v', (k, v') ∈ d' ∧ f k v = .ok v' := by
  rw [mapVals_ok_iff] at h
  induction h with
  | nil => simp at hm
  | @cons x y _ _ h1 _ ih =>
    rcases List.mem_cons.1 hm with h2 | h2
    · subst h2; obtain ⟨h3, h4⟩ := h1; obtain ⟨a, b⟩ := y
      simp only at h3 h4; subst h3; exact ⟨b, by simp, h4⟩
    · obtain ⟨v, h3, h4⟩ := ih h2; exact ⟨v, List.mem_cons_of_mem _ h3, h4⟩

theorem mapVals_id {ε : Type} {f : κ → β → Except ε β} {d : Dict κ β}
    (h : ∀ k v, (k, v) ∈ d → f k v = .ok v) : mapVals f d = .ok d := by
  induction d with
  | nil => rfl
  | cons x d ih =>
    obtain ⟨k, v⟩ := x
    simp only [mapVals, h k v (by simp), ih (fun k v hm => h k v (List.mem_cons_of_mem _ hm))]

theorem mapVals_DWF {ε : Type} {f : κ → β → Except ε β} {d d' : Dict κ β}
    (h : mapVals f d = .ok d') (hd : DWF d) : DWF d' := by
  unfold DWF; rw [mapVals_keys h]; exact hd

theorem dget_perm {d e : Dict κ β} (h : d.Perm e) (hd : DWF d) : DictEquiv d e := by
  have he : DWF e := by
    unfold DWF dkeys at *
    exact (h.map Prod.fst).nodup_iff.1 hd
  intro k
  cases h1 : dget e k with
  | none =>
    rw [dget_eq_none] at *
    intro h2; apply h1
    unfold dkeys at *
    exact (h.map Prod.fst).mem_iff.1 h2
  | some v => exact mem_dget hd (h.mem_iff.2 (dget_some_mem h1))

end
end Verif
