import Verif.Props.ConfigFiles
/-!
# Reading a value that was read before

C74: a value in a loaded config can be written to a config file and read again without a change (`--print-config` prints such values).
-/
namespace Verif

theorem convertItems_fixed {fk fv : PVal → Except Exc PVal} (l acc : List (PKey × PVal)) (hd : DWF (acc ++ l))
    (h : ∀ k x, (k, x) ∈ l → fk k.toVal = .ok k.toVal ∧ fv x = .ok x) : convertItems fk fv acc l = .ok (acc ++ l) := by
  induction l generalizing acc with
  | nil => simp [convertItems]
  | cons y l ih =>
    obtain ⟨k, x⟩ := y
    obtain ⟨h1, h2⟩ := h k x (by simp)
    have hnk : k ∉ dkeys acc := by
      simp only [DWF, dkeys_append, dkeys_cons, List.nodup_append] at hd
      exact fun hh => hd.2.2 k hh k (by simp) rfl
    have := ih (acc ++ [(k, x)]) (by simpa using hd) (fun k x hm => h k x (List.mem_cons_of_mem _ hm))
    simp only [convertItems, h1, h2, PKey.keyOfVal_toVal, bind, Except.bind, dset_fresh hnk]
    simpa using this

theorem mapM_fixed {f : PVal → Except Exc PVal} (l : List PVal) (h : ∀ x ∈ l, f x = .ok x) : l.mapM f = .ok l := by
  induction l with
  | nil => rfl
  | cons x l ih =>
    simp [List.mapM_cons, h x (by simp), ih (fun y hy => h y (List.mem_cons_of_mem _ hy)), bind, Except.bind, pure, Except.pure]

theorem forall2_right {f : PVal → Except Exc PVal} {l l' : List PVal} (h : List.Forall₂ (fun a b => f a = .ok b) l l') : ∀ y ∈ l', ∃ x, f x = .ok y := by
  induction h with
  | nil => simp
  | cons hx _ ih =>
    intro y hy
    rcases List.mem_cons.1 hy with rfl | hy
    · exact ⟨_, hx⟩
    · exact ih y hy

/-- Reading again what was read gives the same value, provided expanding an expanded path does not change it. -/
theorem C74_reading_again {expand : String → String} (hexp : ∀ s, expand (expand s) = expand s) {t : CType} (ht : t.KeysOk) {v w : PVal}
    (h : t.fromYaml expand v = .ok w) : t.fromYaml expand w = .ok w := by
  have dictCase : ∀ (vt kt : CType), (∀ {v w : PVal}, vt.fromYaml expand v = .ok w → vt.fromYaml expand w = .ok w) →
      (∀ {v w : PVal}, kt.fromYaml expand v = .ok w → kt.fromYaml expand w = .ok w) → (∀ a b, kt ≠ .mergingDict a b) → ∀ {d d' : Dict PKey PVal},
      convertItems (kt.fromYaml expand) (vt.fromYaml expand) [] d = .ok d' → convertItems (kt.fromYaml expand) (vt.fromYaml expand) [] d' = .ok d' := by
    intro vt kt ihv ihk hk d d' hd
    have := convertItems_fixed (fk := kt.fromYaml expand) (fv := vt.fromYaml expand) d' [] (by simpa using convertItems_DWF d (by simp) hd) (by
      refine convertItems_mem d hd (P := fun k x => kt.fromYaml expand k.toVal = .ok k.toVal ∧ vt.fromYaml expand x = .ok x) (by simp) ?_
      intro k x k' x' k'' _ hk1 hx1 hk2
      obtain ⟨k3, rfl⟩ := fromYaml_key hk hk1
      rw [PKey.keyOfVal_toVal] at hk2; cases hk2
      exact ⟨ihk hk1, ihv hx1⟩)
    simpa using this
  induction t generalizing v w with
  | any => cases h; rfl
  | string => have e := verify_same h; subst e; exact h
  | boolean => have e := verify_same h; subst e; exact h
  | path => cases v <;> simp [CType.fromYaml] at h <;> subst h <;> simp [CType.fromYaml, hexp]
  | list e ih =>
    cases v with
    | none => cases h; rfl
    | list l =>
      simp only [CType.fromYaml] at h
      obtain ⟨l', hl', h⟩ := Except_bind_ok.1 h
      have e := verify_same h; subst e
      have : l'.mapM (CType.fromYaml expand _) = .ok l' := mapM_fixed l' (fun y hy => by
        obtain ⟨x, hx⟩ := forall2_right (mapM_ok_iff.1 hl') y hy
        exact ih ht hx)
      simp only [CType.fromYaml, this, bind, Except.bind]
      exact h
    | _ => simp [CType.fromYaml] at h
  | dict vt kt ihv ihk =>
    cases v with
    | none => cases h; rfl
    | dict d =>
      simp only [CType.fromYaml] at h
      obtain ⟨d', hd', h⟩ := Except_bind_ok.1 h
      have e := verify_same h; subst e
      have := dictCase vt kt (ihv ht.1) (ihk ht.2.1) ht.2.2 hd'
      simp only [CType.fromYaml, this, bind, Except.bind]
      exact h
    | _ => simp [CType.fromYaml] at h
  | mergingDict vt kt ihv ihk =>
    cases v with
    | none => cases h; rfl
    | dict d =>
      simp only [CType.fromYaml] at h
      obtain ⟨d', hd', h⟩ := Except_bind_ok.1 h
      have e := verify_same h; subst e
      have := dictCase vt kt (ihv ht.1) (ihk ht.2.1) ht.2.2 hd'
      simp only [CType.fromYaml, this, bind, Except.bind]
      exact h
    | _ => simp [CType.fromYaml] at h

example : CType.fromYaml (fun _ => "/abs") (.dict .path .path) (.dict [(.str "a", .str "b"), (.str "c", .none)]) = .ok (.dict [(.str "/abs", .none)]) := by rfl

end Verif
