import Verif.Lemmas.Compact2
/-! # Python equality is an equivalence relation on values (whose dicts have distinct keys) -/
namespace Verif

theorem pyEqItems_iff {d e : List (PKey × PVal)} :
    pyEqItems d e = true ↔ ∀ k v, (k, v) ∈ d → ∃ w, dget e k = some w ∧ pyEq v w = true := by
  constructor
  · intro h k v hm; exact pyEqItems_dget h hm
  · intro h
    induction d with
    | nil => rfl
    | cons x d ih =>
      obtain ⟨k, v⟩ := x
      obtain ⟨w, hw, hv⟩ := h k v (by simp)
      simp only [pyEqItems, hw, hv, Bool.true_and]
      exact ih fun k v hm => h k v (List.mem_cons_of_mem _ hm)

theorem keys_of_length {d e : List (PKey × PVal)} (hd : DWF d) (hl : d.length = e.length)
    (h : ∀ k v, (k, v) ∈ d → ∃ w, dget e k = some w) (k : PKey) (hk : k ∈ dkeys e) : k ∈ dkeys d := by
  have h1 : dkeys d ⊆ dkeys e := by
    intro a ha
    obtain ⟨⟨a', v⟩, hm, rfl⟩ := List.mem_map.1 ha
    obtain ⟨w, hw⟩ := h a' v hm
    exact mem_dkeys_iff.2 (by rw [hw]; rfl)
  have h2 : (dkeys e).length ≤ (dkeys d).length := by simp [dkeys, hl]
  exact ((List.Nodup.subperm hd h1).perm_of_length_le h2).symm.subset hk

theorem num_bool {w : PVal} {i : Int} (h : w.num? = some i) : (∃ b, w = .bool b ∧ i = if b then 1 else 0) ∨ w = .int i := by
  cases w <;> simp [PVal.num?] at h
  · exact .inl ⟨_, rfl, h.symm⟩
  · exact .inr (by rw [h])

theorem pyEq_dict {d e : List (PKey × PVal)} : pyEq (.dict d) (.dict e) = true ↔
    d.length = e.length ∧ ∀ k v, (k, v) ∈ d → ∃ w, dget e k = some w ∧ pyEq v w = true := by
  simp only [pyEq, Bool.and_eq_true, beq_iff_eq, pyEqItems_iff]

mutual
theorem pyEq_symm : (v : PVal) → (w : PVal) → v.WF → w.WF → pyEq v w = true → pyEq w v = true
  | .none, w, _, _, h => by cases w <;> simp_all [pyEq]
  | .str s, w, _, _, h => by cases w <;> simp_all [pyEq]
  | .other n, w, _, _, h => by cases w <;> simp_all [pyEq]
  | .bool b, w, _, _, h => by
    simp only [pyEq, beq_iff_eq] at h
    rcases num_bool h with ⟨b', rfl, hb⟩ | rfl
    · simp only [pyEq, PVal.num?, beq_iff_eq]; rw [hb]
    · simp [pyEq, PVal.num?]
  | .int i, w, _, _, h => by
    simp only [pyEq, beq_iff_eq] at h
    rcases num_bool h with ⟨b', rfl, hb⟩ | rfl
    · simp [pyEq, PVal.num?, hb]
    · simp [pyEq, PVal.num?]
  | .list l, w, hv, hw, h => by
    cases w with
    | list m => exact pyEqList_symm l m hv hw h
    | _ => simp [pyEq] at h
  | .dict d, w, hv, hw, h => by
    cases w with
    | dict e =>
      rw [pyEq_dict] at h ⊢
      refine ⟨h.1.symm, fun k w hm => ?_⟩
      have hk := keys_of_length hv.1 h.1 (fun k v hm => (h.2 k v hm).imp fun _ x => x.1) k (List.mem_map.2 ⟨_, hm, rfl⟩)
      obtain ⟨⟨k', v⟩, hmv, rfl⟩ := List.mem_map.1 hk
      obtain ⟨w', hw', hsym⟩ := pyEqItems_symm d e hv.2 hw (pyEqItems_iff.2 h.2) k' v hmv
      rw [mem_dget hw.1 hm] at hw'
      cases hw'
      exact ⟨v, mem_dget hv.1 hmv, hsym⟩
    | _ => simp [pyEq] at h
theorem pyEqList_symm : (l m : List PVal) → PVal.WFList l → PVal.WFList m → pyEqList l m = true → pyEqList m l = true
  | [], m, _, _, h => by cases m <;> simp_all [pyEqList]
  | v :: l, m, hv, hw, h => by
    cases m with
    | nil => simp [pyEqList] at h
    | cons w m =>
      simp only [pyEqList, Bool.and_eq_true] at h ⊢
      exact ⟨pyEq_symm v w hv.1 hw.1 h.1, pyEqList_symm l m hv.2 hw.2 h.2⟩
theorem pyEqItems_symm : (d e : List (PKey × PVal)) → PVal.WFItems d → PVal.WF (.dict e) → pyEqItems d e = true →
    ∀ k v, (k, v) ∈ d → ∃ w, dget e k = some w ∧ pyEq w v = true
  | [], _, _, _, _ => by simp
  | (a, b) :: d, e, hd, he, h => by
    intro k v hm
    simp only [pyEqItems, Bool.and_eq_true] at h
    rcases List.mem_cons.1 hm with h1 | h1
    · injection h1 with h1 h2; subst h1; subst h2
      have h3 := h.1
      cases hg : dget e k with
      | none => rw [hg] at h3; simp at h3
      | some w =>
        rw [hg] at h3
        exact ⟨w, rfl, pyEq_symm v w hd.1 (PVal.WFItems_iff.1 he.2 _ _ (dget_some_mem hg)) h3⟩
    · exact pyEqItems_symm d e hd.2 he h.2 k v h1
end

mutual
theorem pyEq_trans : (u : PVal) → (v w : PVal) → pyEq u v = true → pyEq v w = true → pyEq u w = true
  | .none, v, w, h, h' => by cases v <;> simp_all [pyEq]
  | .str s, v, w, h, h' => by cases v <;> simp_all [pyEq]
  | .other n, v, w, h, h' => by cases v <;> simp_all [pyEq]
  | .bool b, v, w, h, h' => by
    simp only [pyEq, beq_iff_eq] at h ⊢
    rcases num_bool h with ⟨b', rfl, hb⟩ | rfl
    · simp only [pyEq, beq_iff_eq] at h'; rw [h', hb]
    · simp only [pyEq, beq_iff_eq] at h'; rw [h']
  | .int i, v, w, h, h' => by
    simp only [pyEq, beq_iff_eq] at h ⊢
    rcases num_bool h with ⟨b', rfl, hb⟩ | rfl
    · simp only [pyEq, beq_iff_eq] at h'; rw [h', hb]
    · simp only [pyEq, beq_iff_eq] at h'; rw [h']
  | .list l, v, w, h, h' => by
    cases v with
    | list m =>
      cases w with
      | list n => exact pyEqList_trans l m n h h'
      | _ => simp [pyEq] at h'
    | _ => simp [pyEq] at h
  | .dict d, v, w, h, h' => by
    cases v with
    | dict e =>
      cases w with
      | dict f =>
        rw [pyEq_dict] at h h' ⊢
        refine ⟨h.1.trans h'.1, fun k x hm => ?_⟩
        obtain ⟨y, hy, hyw⟩ := pyEqItems_trans d e (pyEqItems_iff.2 h.2) k x hm
        obtain ⟨z, hz, hyz⟩ := h'.2 k y (dget_some_mem hy)
        exact ⟨z, hz, hyw z hyz⟩
      | _ => simp [pyEq] at h'
    | _ => simp [pyEq] at h
theorem pyEqList_trans : (l m n : List PVal) → pyEqList l m = true → pyEqList m n = true → pyEqList l n = true
  | [], m, n, h, h' => by cases m <;> simp_all [pyEqList]
  | v :: l, m, n, h, h' => by
    cases m with
    | nil => simp [pyEqList] at h
    | cons w m =>
      cases n with
      | nil => simp [pyEqList] at h'
      | cons x n =>
        simp only [pyEqList, Bool.and_eq_true] at h h' ⊢
        exact ⟨pyEq_trans v w x h.1 h'.1, pyEqList_trans l m n h.2 h'.2⟩
theorem pyEqItems_trans : (d e : List (PKey × PVal)) → pyEqItems d e = true →
    ∀ k v, (k, v) ∈ d → ∃ w, dget e k = some w ∧ ∀ z, pyEq w z = true → pyEq v z = true
  | [], _, _ => by simp
  | (a, b) :: d, e, h => by
    intro k v hm
    simp only [pyEqItems, Bool.and_eq_true] at h
    rcases List.mem_cons.1 hm with h1 | h1
    · injection h1 with h1 h2; subst h1; subst h2
      have h3 := h.1
      cases hg : dget e k with
      | none => rw [hg] at h3; simp at h3
      | some w =>
        rw [hg] at h3
        exact ⟨w, rfl, fun z hz => pyEq_trans v w z h3 hz⟩
    · exact pyEqItems_trans d e h.2 k v h1
end

end Verif
