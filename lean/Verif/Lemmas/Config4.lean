import Verif.Lemmas.Config3
/-! Helper lemmas about reading and verifying values. -/
namespace Verif

theorem PKey.keyOfVal_toVal (k : PKey) : keyOfVal k.toVal = .ok k := by cases k <;> rfl

theorem verifyElems_ok {f : PVal → Except Exc PVal} {l : List PVal} : verifyElems f l = .ok () ↔ ∀ x ∈ l, ∃ w, f x = .ok w := by
  induction l with
  | nil => simp [verifyElems]
  | cons x l ih =>
    constructor
    · intro h
      obtain ⟨w, hw, h⟩ := Except_bind_ok.1 h
      intro y hy
      rcases List.mem_cons.1 hy with rfl | hy
      · exact ⟨w, hw⟩
      · exact ih.1 h y hy
    · intro h
      obtain ⟨w, hw⟩ := h x (by simp)
      exact Except_bind_ok.2 ⟨w, hw, ih.2 fun y hy => h y (List.mem_cons_of_mem _ hy)⟩

theorem verifyItemsOf_ok {fk fv : PVal → Except Exc PVal} {d : List (PKey × PVal)} :
    verifyItemsOf fk fv d = .ok () ↔ ∀ k x, (k, x) ∈ d → (∃ w, fk k.toVal = .ok w) ∧ ∃ w, fv x = .ok w := by
  induction d with
  | nil => simp [verifyItemsOf]
  | cons x d ih =>
    obtain ⟨k0, v0⟩ := x
    constructor
    · intro h
      obtain ⟨w, hw, h⟩ := Except_bind_ok.1 h
      obtain ⟨w2, hw2, h⟩ := Except_bind_ok.1 h
      intro k y hy
      rcases List.mem_cons.1 hy with e | hy
      · cases e; exact ⟨⟨w, hw⟩, w2, hw2⟩
      · exact ih.1 h k y hy
    · intro h
      obtain ⟨⟨w, hw⟩, w2, hw2⟩ := h k0 v0 (by simp)
      exact Except_bind_ok.2 ⟨w, hw, Except_bind_ok.2 ⟨w2, hw2, ih.2 fun k y hy => h k y (List.mem_cons_of_mem _ hy)⟩⟩

theorem unit_bind_ok {x : Except Exc Unit} {v w : PVal} : (x >>= fun _ => Except.ok v) = .ok w ↔ w = v ∧ x = .ok () := by
  cases x with
  | error e => simp [bind, Except.bind]
  | ok u => simp [bind, Except.bind, eq_comm]

theorem pyEq_empty {v : PVal} : pyEq v (.dict []) = true ↔ v = .dict [] := by
  cases v with
  | dict d => cases d <;> simp [pyEq, pyEqItems]
  | _ => simp [pyEq, PVal.num?]

/-- Verification accepts exactly the valid values and returns them unchanged. -/
theorem verify_iff {t : CType} {v w : PVal} : t.verify v = .ok w ↔ w = v ∧ Valid t v := by
  induction t generalizing v w with
  | any => simp [CType.verify, Valid, eq_comm]
  | string => cases v <;> simp [CType.verify, PVal.isNone, Valid, eq_comm]
  | path => cases v <;> simp [CType.verify, PVal.isNone, Valid, eq_comm]
  | boolean => cases v <;> simp [CType.verify, PVal.isNone, Valid, eq_comm]
  | list e ih =>
    cases v with
    | list l =>
      simp only [CType.verify, PVal.isNone, Bool.false_eq_true, if_false, unit_bind_ok, verifyElems_ok, ih, Valid]
      simp
    | _ => simp [CType.verify, PVal.isNone, Valid, eq_comm]
  | dict vt kt ihv ihk =>
    cases v with
    | dict d =>
      simp only [CType.verify, PVal.isNone, Bool.false_eq_true, if_false, unit_bind_ok, verifyItemsOf_ok, ihv, ihk, Valid]
      simp
    | _ => simp [CType.verify, PVal.isNone, Valid, eq_comm]
  | mergingDict vt kt ihv ihk =>
    cases v with
    | dict d =>
      by_cases hd : d = []
      · subst hd
        have : pyEq (.dict []) (.dict []) = true := pyEq_empty.2 rfl
        simp [CType.verify, this, Valid, eq_comm]
      · have : pyEq (.dict d) (.dict []) = false := by
          rw [← Bool.not_eq_true, pyEq_empty]; simpa using hd
        simp only [CType.verify, this, Bool.false_eq_true, if_false, unit_bind_ok, verifyItemsOf_ok, ihv, ihk, Valid]
        simp
    | _ => simp [CType.verify, Valid, pyEq, PVal.num?]

theorem verifyElems_err {f : PVal → Except Exc PVal} {l : List PVal} {e : Exc} (h : verifyElems f l = .error e) : ∃ x ∈ l, f x = .error e := by
  induction l with
  | nil => cases h
  | cons x l ih =>
    rcases Except_bind_err.1 h with h | ⟨_, -, h⟩
    · exact ⟨x, by simp, h⟩
    · obtain ⟨y, hy, he⟩ := ih h
      exact ⟨y, List.mem_cons_of_mem _ hy, he⟩

theorem verifyItemsOf_err {fk fv : PVal → Except Exc PVal} {d : List (PKey × PVal)} {e : Exc} (h : verifyItemsOf fk fv d = .error e) :
    ∃ v, fk v = .error e ∨ fv v = .error e := by
  induction d with
  | nil => cases h
  | cons x d ih =>
    obtain ⟨k0, v0⟩ := x
    rcases Except_bind_err.1 h with h | ⟨_, -, h⟩
    · exact ⟨_, .inl h⟩
    · rcases Except_bind_err.1 h with h | ⟨_, -, h⟩
      · exact ⟨_, .inr h⟩
      · exact ih h

theorem unit_bind_err {x : Except Exc Unit} {v : PVal} {e : Exc} (h : (x >>= fun _ => Except.ok v) = .error e) : x = .error e := by
  cases x with
  | error e => simpa [bind, Except.bind] using h
  | ok u => simp [bind, Except.bind] at h

/-- Verification raises nothing but `ConfigValueError`. -/
theorem verify_err {t : CType} {v : PVal} {e : Exc} (h : t.verify v = .error e) : e = .configValueError := by
  induction t generalizing v e with
  | any => simp [CType.verify] at h
  | string => cases v <;> simp [CType.verify, PVal.isNone] at h <;> exact h.symm
  | path => cases v <;> simp [CType.verify, PVal.isNone] at h <;> exact h.symm
  | boolean => cases v <;> simp [CType.verify, PVal.isNone] at h <;> exact h.symm
  | list t ih =>
    cases v with
    | list l =>
      simp only [CType.verify, PVal.isNone, Bool.false_eq_true, if_false] at h
      obtain ⟨x, -, hx⟩ := verifyElems_err (unit_bind_err h)
      exact ih hx
    | none => simp [CType.verify, PVal.isNone] at h
    | _ => simp [CType.verify, PVal.isNone] at h; exact h.symm
  | dict vt kt ihv ihk =>
    cases v with
    | dict l =>
      simp only [CType.verify, PVal.isNone, Bool.false_eq_true, if_false] at h
      obtain ⟨x, hx | hx⟩ := verifyItemsOf_err (unit_bind_err h)
      · exact ihk hx
      · exact ihv hx
    | none => simp [CType.verify, PVal.isNone] at h
    | _ => simp [CType.verify, PVal.isNone] at h; exact h.symm
  | mergingDict vt kt ihv ihk =>
    simp only [CType.verify] at h
    split at h
    · cases h
    · cases v with
      | dict l =>
        obtain ⟨x, hx | hx⟩ := verifyItemsOf_err (unit_bind_err h)
        · exact ihk hx
        · exact ihv hx
      | _ => simp at h; exact h.symm

/-! ## Reading -/

/-- Reading a dict key gives something that can be a key again. -/
theorem fromYaml_key {expand : String → String} {kt : CType} (hk : ∀ a b, kt ≠ .mergingDict a b) {k : PKey} {w : PVal}
    (h : kt.fromYaml expand k.toVal = .ok w) : ∃ k', w = PKey.toVal k' := by
  cases kt with
  | mergingDict a b => exact absurd rfl (hk a b)
  | any => cases h; exact ⟨k, rfl⟩
  | path =>
    cases k <;> simp [CType.fromYaml, PKey.toVal] at h
    · exact ⟨.none, h.symm⟩
    · exact ⟨.str _, h.symm⟩
  | string => exact ⟨k, verify_same h⟩
  | boolean => exact ⟨k, verify_same h⟩
  | list e =>
    cases k <;> simp [CType.fromYaml, PKey.toVal] at h
    exact ⟨.none, h.symm⟩
  | dict a b =>
    cases k <;> simp [CType.fromYaml, PKey.toVal] at h
    exact ⟨.none, h.symm⟩

/-- Every item of a converted dict is the conversion of an item. -/
theorem convertItems_mem {fk fv : PVal → Except Exc PVal} (l : List (PKey × PVal)) {acc d : Dict PKey PVal}
    (h : convertItems fk fv acc l = .ok d) {P : PKey → PVal → Prop} (hacc : ∀ k x, (k, x) ∈ acc → P k x)
    (hP : ∀ k x k' x' k'', (k, x) ∈ l → fk k.toVal = .ok k' → fv x = .ok x' → keyOfVal k' = .ok k'' → P k'' x') :
    ∀ k x, (k, x) ∈ d → P k x := by
  induction l generalizing acc with
  | nil => cases h; exact hacc
  | cons y l ih =>
    obtain ⟨k0, v0⟩ := y
    obtain ⟨v', hv, h⟩ := Except_bind_ok.1 h
    obtain ⟨k', hk, h⟩ := Except_bind_ok.1 h
    obtain ⟨k'', hk', h⟩ := Except_bind_ok.1 h
    refine ih h ?_ (fun k x a b c hm => hP k x a b c (List.mem_cons_of_mem _ hm))
    intro k x hm
    have hset : ∀ (d : Dict PKey PVal) (a : PKey) (w : PVal) k x, (k, x) ∈ dset d a w → (k, x) ∈ d ∨ (k = a ∧ x = w) := by
      intro d a w k x hm
      induction d with
      | nil => simp only [dset, List.mem_singleton, Prod.mk.injEq] at hm; exact .inr hm
      | cons y d ih =>
        obtain ⟨b, z⟩ := y
        simp only [dset] at hm
        split at hm
        · rcases List.mem_cons.1 hm with e | hm
          · cases e; exact .inr ⟨by assumption, rfl⟩
          · exact .inl (List.mem_cons_of_mem _ hm)
        · rcases List.mem_cons.1 hm with e | hm
          · cases e; exact .inl (by simp)
          · exact (ih hm).imp (List.mem_cons_of_mem _) id
    rcases hset _ _ _ _ _ hm with hm | ⟨rfl, rfl⟩
    · exact hacc k x hm
    · exact hP _ _ _ _ _ (by simp) hk hv hk'

theorem convertItems_ok {fk fv : PVal → Except Exc PVal} (l : List (PKey × PVal))
    (h : ∀ k x, (k, x) ∈ l → (∃ k' k'', fk k.toVal = .ok k' ∧ keyOfVal k' = .ok k'') ∧ ∃ x', fv x = .ok x') (acc : Dict PKey PVal) :
    ∃ d, convertItems fk fv acc l = .ok d := by
  induction l generalizing acc with
  | nil => exact ⟨acc, rfl⟩
  | cons y l ih =>
    obtain ⟨k0, v0⟩ := y
    obtain ⟨⟨k', k'', h1, h2⟩, v', h3⟩ := h k0 v0 (by simp)
    obtain ⟨d, hd⟩ := ih (fun k x hm => h k x (List.mem_cons_of_mem _ hm)) (dset acc k'' v')
    exact ⟨d, by simp only [convertItems, h1, h2, h3, bind, Except.bind]; exact hd⟩

theorem convertItems_source {fk fv : PVal → Except Exc PVal} (l : List (PKey × PVal)) {acc d : Dict PKey PVal} (h : convertItems fk fv acc l = .ok d) :
    ∀ k x, (k, x) ∈ l → (∃ k', fk k.toVal = .ok k') ∧ ∃ x', fv x = .ok x' := by
  induction l generalizing acc with
  | nil => simp
  | cons y l ih =>
    obtain ⟨k0, v0⟩ := y
    obtain ⟨v', hv, h⟩ := Except_bind_ok.1 h
    obtain ⟨k', hk, h⟩ := Except_bind_ok.1 h
    obtain ⟨k'', hk', h⟩ := Except_bind_ok.1 h
    intro k x hm
    rcases List.mem_cons.1 hm with e | hm
    · cases e; exact ⟨⟨k', hk⟩, v', hv⟩
    · exact ih h k x hm

theorem convertItems_err {fk fv : PVal → Except Exc PVal} (l : List (PKey × PVal)) {acc : Dict PKey PVal} {e : Exc}
    (h : convertItems fk fv acc l = .error e) :
    ∃ k x, (k, x) ∈ l ∧ (fk k.toVal = .error e ∨ fv x = .error e ∨ ∃ k', fk k.toVal = .ok k' ∧ keyOfVal k' = .error e) := by
  induction l generalizing acc with
  | nil => cases h
  | cons y l ih =>
    obtain ⟨k0, v0⟩ := y
    rcases Except_bind_err.1 h with h | ⟨v', hv, h⟩
    · exact ⟨k0, v0, by simp, .inr (.inl h)⟩
    rcases Except_bind_err.1 h with h | ⟨k', hk, h⟩
    · exact ⟨k0, v0, by simp, .inl h⟩
    rcases Except_bind_err.1 h with h | ⟨k'', hk', h⟩
    · exact ⟨k0, v0, by simp, .inr (.inr ⟨k', hk, h⟩)⟩
    obtain ⟨k, x, hm, he⟩ := ih h
    exact ⟨k, x, List.mem_cons_of_mem _ hm, he⟩

/-- A value that was read passes verification: it is valid. -/
theorem fromYaml_valid {expand : String → String} {t : CType} {v w : PVal} (h : t.fromYaml expand v = .ok w) : Valid t w := by
  cases t with
  | any => trivial
  | string => have e := verify_same h; subst e; exact (verify_iff.1 h).2
  | boolean => have e := verify_same h; subst e; exact (verify_iff.1 h).2
  | path => cases v <;> simp [CType.fromYaml] at h <;> subst h <;> simp [Valid]
  | list e =>
    cases v with
    | none => cases h; exact .inl rfl
    | list l =>
      simp only [CType.fromYaml] at h
      obtain ⟨l', -, h⟩ := Except_bind_ok.1 h
      have e := verify_same h; subst e; exact (verify_iff.1 h).2
    | _ => simp [CType.fromYaml] at h
  | dict vt kt =>
    cases v with
    | none => cases h; exact .inl rfl
    | dict d =>
      simp only [CType.fromYaml] at h
      obtain ⟨d', -, h⟩ := Except_bind_ok.1 h
      have e := verify_same h; subst e; exact (verify_iff.1 h).2
    | _ => simp [CType.fromYaml] at h
  | mergingDict vt kt =>
    cases v with
    | none => cases h; exact ⟨[], rfl, by simp⟩
    | dict d =>
      simp only [CType.fromYaml] at h
      obtain ⟨d', -, h⟩ := Except_bind_ok.1 h
      have e := verify_same h; subst e; exact (verify_iff.1 h).2
    | _ => simp [CType.fromYaml] at h

/-- The verification at the end of reading a dict never fails. -/
theorem convertItems_verified {expand : String → String} {vt kt : CType} (hkt : ∀ a b, kt ≠ .mergingDict a b) {d d' : Dict PKey PVal}
    (h : convertItems (kt.fromYaml expand) (vt.fromYaml expand) [] d = .ok d') :
    ∀ k x, (k, x) ∈ d' → Valid kt k.toVal ∧ Valid vt x := by
  refine convertItems_mem d h (P := fun k x => Valid kt k.toVal ∧ Valid vt x) (by simp) ?_
  intro k x k' x' k'' _ hk hx hk'
  obtain ⟨k3, rfl⟩ := fromYaml_key hkt hk
  rw [PKey.keyOfVal_toVal] at hk'; cases hk'
  exact ⟨fromYaml_valid hk, fromYaml_valid hx⟩

/-- Reading succeeds on exactly the readable values. -/
theorem fromYaml_ok_iff {expand : String → String} {t : CType} (ht : t.KeysOk) {v : PVal} : (∃ w, t.fromYaml expand v = .ok w) ↔ Readable t v := by
  induction t generalizing v with
  | any => simp [CType.fromYaml, Readable]
  | string => cases v <;> simp [CType.fromYaml, CType.verify, PVal.isNone, Readable]
  | boolean => cases v <;> simp [CType.fromYaml, CType.verify, PVal.isNone, Readable]
  | path => cases v <;> simp [CType.fromYaml, Readable]
  | list e ih =>
    cases v with
    | none => simp [CType.fromYaml, Readable]
    | list l =>
      simp only [Readable]
      constructor
      · rintro ⟨w, h⟩
        simp only [CType.fromYaml] at h
        obtain ⟨l', hl', h⟩ := Except_bind_ok.1 h
        refine .inr ⟨l, rfl, fun x hx => (ih ht).1 ?_⟩
        rcases hf : e.fromYaml expand x with er | w
        · obtain ⟨e', hm⟩ := mapM_mem_error hx hf
          rw [hm] at hl'; cases hl'
        · exact ⟨w, rfl⟩
      · rintro (h | ⟨l2, h, h2⟩)
        · cases h
        · cases h
          rcases hm : l.mapM (e.fromYaml expand) with er | l'
          · obtain ⟨x, hx, hf⟩ := mapM_error hm
            obtain ⟨w, hw⟩ := (ih ht).2 (h2 x hx)
            rw [hw] at hf; cases hf
          · refine ⟨.list l', ?_⟩
            simp only [CType.fromYaml, hm, bind, Except.bind]
            refine verify_iff.2 ⟨rfl, .inr ⟨l', rfl, ?_⟩⟩
            intro y hy
            have hfa := mapM_ok_iff.1 hm
            have : ∀ {l l' : List PVal}, List.Forall₂ (fun a b => e.fromYaml expand a = .ok b) l l' → ∀ y ∈ l', Valid e y := by
              intro l l' hfa
              induction hfa with
              | nil => simp
              | cons h _ ih2 =>
                intro y hy
                rcases List.mem_cons.1 hy with rfl | hy
                · exact fromYaml_valid h
                · exact ih2 y hy
            exact this hfa y hy
    | _ => simp [CType.fromYaml, Readable]
  | dict vt kt ihv ihk =>
    cases v with
    | none => simp [CType.fromYaml, Readable]
    | dict d =>
      simp only [Readable]
      constructor
      · rintro ⟨w, h⟩
        simp only [CType.fromYaml] at h
        obtain ⟨d', hd', h⟩ := Except_bind_ok.1 h
        refine .inr ⟨d, rfl, fun k x hx => ?_⟩
        obtain ⟨h1, h2⟩ := convertItems_source d hd' k x hx
        exact ⟨(ihk ht.2.1).1 h1, (ihv ht.1).1 h2⟩
      · rintro (h | ⟨d2, h, h2⟩)
        · cases h
        · cases h
          obtain ⟨d', hd'⟩ := convertItems_ok (fk := kt.fromYaml expand) (fv := vt.fromYaml expand) d (by
            intro k x hm
            obtain ⟨hk, hx⟩ := h2 k x hm
            obtain ⟨k', hk'⟩ := (ihk ht.2.1).2 hk
            obtain ⟨k3, rfl⟩ := fromYaml_key ht.2.2 hk'
            exact ⟨⟨_, _, hk', PKey.keyOfVal_toVal _⟩, (ihv ht.1).2 hx⟩) []
          refine ⟨.dict d', ?_⟩
          simp only [CType.fromYaml, hd', bind, Except.bind]
          exact verify_iff.2 ⟨rfl, .inr ⟨d', rfl, convertItems_verified ht.2.2 hd'⟩⟩
    | _ => simp [CType.fromYaml, Readable]
  | mergingDict vt kt ihv ihk =>
    cases v with
    | none => simp [CType.fromYaml, Readable]
    | dict d =>
      simp only [Readable]
      constructor
      · rintro ⟨w, h⟩
        simp only [CType.fromYaml] at h
        obtain ⟨d', hd', h⟩ := Except_bind_ok.1 h
        refine .inr ⟨d, rfl, fun k x hx => ?_⟩
        obtain ⟨h1, h2⟩ := convertItems_source d hd' k x hx
        exact ⟨(ihk ht.2.1).1 h1, (ihv ht.1).1 h2⟩
      · rintro (h | ⟨d2, h, h2⟩)
        · cases h
        · cases h
          obtain ⟨d', hd'⟩ := convertItems_ok (fk := kt.fromYaml expand) (fv := vt.fromYaml expand) d (by
            intro k x hm
            obtain ⟨hk, hx⟩ := h2 k x hm
            obtain ⟨k', hk'⟩ := (ihk ht.2.1).2 hk
            obtain ⟨k3, rfl⟩ := fromYaml_key ht.2.2 hk'
            exact ⟨⟨_, _, hk', PKey.keyOfVal_toVal _⟩, (ihv ht.1).2 hx⟩) []
          refine ⟨.dict d', ?_⟩
          simp only [CType.fromYaml, hd', bind, Except.bind]
          exact verify_iff.2 ⟨rfl, d', rfl, convertItems_verified ht.2.2 hd'⟩
    | _ => simp [CType.fromYaml, Readable]

/-- Reading raises nothing but `ConfigValueError`. -/
theorem fromYaml_err {expand : String → String} {t : CType} (ht : t.KeysOk) {v : PVal} {e : Exc} (h : t.fromYaml expand v = .error e) :
    e = .configValueError := by
  induction t generalizing v e with
  | any => simp [CType.fromYaml] at h
  | string => exact verify_err h
  | boolean => exact verify_err h
  | path => cases v <;> simp [CType.fromYaml] at h <;> exact h.symm
  | list t ih =>
    cases v with
    | none => simp [CType.fromYaml] at h
    | list l =>
      simp only [CType.fromYaml] at h
      rcases Except_bind_err.1 h with h | ⟨_, -, h⟩
      · obtain ⟨x, -, hx⟩ := mapM_error h
        exact ih ht hx
      · exact verify_err h
    | _ => simp [CType.fromYaml] at h; exact h.symm
  | dict vt kt ihv ihk =>
    cases v with
    | none => simp [CType.fromYaml] at h
    | dict d =>
      simp only [CType.fromYaml] at h
      rcases Except_bind_err.1 h with h | ⟨_, -, h⟩
      · obtain ⟨k, x, -, hx | hx | ⟨k', hk, hx⟩⟩ := convertItems_err d h
        · exact ihk ht.2.1 hx
        · exact ihv ht.1 hx
        · obtain ⟨k3, rfl⟩ := fromYaml_key ht.2.2 hk
          rw [PKey.keyOfVal_toVal] at hx; cases hx
      · exact verify_err h
    | _ => simp [CType.fromYaml] at h; exact h.symm
  | mergingDict vt kt ihv ihk =>
    cases v with
    | none => simp [CType.fromYaml] at h
    | dict d =>
      simp only [CType.fromYaml] at h
      rcases Except_bind_err.1 h with h | ⟨_, -, h⟩
      · obtain ⟨k, x, -, hx | hx | ⟨k', hk, hx⟩⟩ := convertItems_err d h
        · exact ihk ht.2.1 hx
        · exact ihv ht.1 hx
        · obtain ⟨k3, rfl⟩ := fromYaml_key ht.2.2 hk
          rw [PKey.keyOfVal_toVal] at hx; cases hx
      · exact verify_err h
    | _ => simp [CType.fromYaml] at h; exact h.symm

/-- Converting a dict with identity conversions leaves it as it is. -/
theorem convertItems_id {fk fv : PVal → Except Exc PVal} (l acc : List (PKey × PVal)) (hd : DWF (acc ++ l))
    (hk : ∀ k w, fk (PKey.toVal k) = .ok w → w = k.toVal) (hv : ∀ v w, PVal.WF v → fv v = .ok w → w = v) (hwf : PVal.WFItems l)
    {d : Dict PKey PVal} (h : convertItems fk fv acc l = .ok d) : d = acc ++ l := by
  induction l generalizing acc with
  | nil => cases h; simp
  | cons x l ih =>
    obtain ⟨k, v⟩ := x
    obtain ⟨v', h1, hA⟩ := Except_bind_ok.1 h
    obtain ⟨k', h2, hB⟩ := Except_bind_ok.1 hA
    obtain ⟨k'', h3, hC⟩ := Except_bind_ok.1 hB
    have e2 := hk k k' h2; subst e2
    rw [PKey.keyOfVal_toVal] at h3; cases h3
    have e1 := hv v v' hwf.1 h1; subst e1
    clear h hA hB
    have hnk : k ∉ dkeys acc := by
      simp only [DWF, dkeys_append, dkeys_cons, List.nodup_append] at hd
      exact fun hh => hd.2.2 k hh k (by simp) rfl
    rw [dset_fresh hnk] at hC
    have := ih (acc ++ [(k, v')]) (by simpa using hd) hwf.2 hC
    simpa using this

theorem mapM_id {f : PVal → Except Exc PVal} (l : List PVal) (hv : ∀ v ∈ l, ∀ w, f v = .ok w → w = v) {l' : List PVal} (h : l.mapM f = .ok l') :
    l' = l := by
  have := mapM_ok_iff.1 h
  induction this with
  | nil => rfl
  | cons hx _ ih =>
    rename_i a b l1 l2 hf
    rw [hv a (by simp) _ hx, ih (fun v hv' => hv v (List.mem_cons_of_mem _ hv')) (mapM_ok_iff.2 hf)]

/-- Values without paths and merging dicts are read unchanged. -/
theorem fromYaml_plain {expand : String → String} {t : CType} (ht : t.Plain) {v w : PVal} (hwf : v.WF) (h : t.fromYaml expand v = .ok w) : w = v := by
  induction t generalizing v w with
  | any => cases h; rfl
  | string => exact verify_same h
  | boolean => exact verify_same h
  | path => exact absurd ht (by simp [CType.Plain])
  | mergingDict _ _ _ _ => exact absurd ht (by simp [CType.Plain])
  | list e ih =>
    cases v with
    | none => simp [CType.fromYaml] at h; exact h.symm
    | list l =>
      simp only [CType.fromYaml] at h
      obtain ⟨l', hl', h⟩ := Except_bind_ok.1 h
      rw [verify_same h, mapM_id l (fun x hx w hw => ih ht (PVal.WFList_iff.1 hwf x hx) hw) hl']
    | _ => simp [CType.fromYaml] at h
  | dict vt kt ihv ihk =>
    cases v with
    | none => simp [CType.fromYaml] at h; exact h.symm
    | dict d =>
      simp only [CType.fromYaml] at h
      obtain ⟨d', hd', h⟩ := Except_bind_ok.1 h
      have hwf' : DWF d ∧ PVal.WFItems d := by simpa [PVal.WF] using hwf
      have := convertItems_id d [] (by simpa using hwf'.1) (fun k w hw => ihk ht.2 (by cases k <;> simp [PKey.toVal, PVal.WF]) hw)
        (fun v w hv hw => ihv ht.1 hv hw) hwf'.2 hd'
      rw [verify_same h, this]; simp
    | _ => simp [CType.fromYaml] at h

end Verif
