import Verif.Lemmas.Expand
import Verif.Lemmas.Lookup
import Verif.Spec.Compact
/-! Helper lemmas about compaction: installer dicts. -/
set_option linter.unusedSimpArgs false
namespace Verif

/-! ### pyEq is reflexive on well-formed values -/

mutual
theorem pyEq_refl : (v : PVal) → v.WF → pyEq v v = true
  | .none, _ => by simp [pyEq]
  | .bool b, _ => by simp [pyEq, PVal.num?]
  | .int i, _ => by simp [pyEq, PVal.num?]
  | .str s, _ => by simp [pyEq]
  | .other n, _ => by simp [pyEq]
  | .list l, h => by
    simp only [PVal.WF] at h
    simp only [pyEq]; exact pyEqList_refl l h
  | .dict d, h => by
    simp only [PVal.WF] at h
    simp only [pyEq, beq_self_eq_true, Bool.true_and]
    exact pyEqItems_refl d d h.2 (fun k v hm => mem_dget h.1 hm)
theorem pyEqList_refl : (l : List PVal) → PVal.WFList l → pyEqList l l = true
  | [], _ => by simp [pyEqList]
  | v :: l, h => by
    simp only [PVal.WFList] at h
    simp only [pyEqList, pyEq_refl v h.1, pyEqList_refl l h.2, Bool.true_and]
theorem pyEqItems_refl : (d e : List (PKey × PVal)) → PVal.WFItems d → (∀ k v, (k, v) ∈ d → dget e k = some v) →
    pyEqItems d e = true
  | [], e, _, _ => by simp [pyEqItems]
  | (k, v) :: d, e, h, he => by
    simp only [PVal.WFItems] at h
    simp only [pyEqItems, he k v (.head _), pyEq_refl v h.1, Bool.true_and]
    exact pyEqItems_refl d e h.2 (fun k v hm => he k v (.tail _ hm))
end

/-! ### mapping the values of a dict -/

/-- Map the values of a dict. -/
def vmap {κ α β : Type} (f : α → β) (d : Dict κ α) : Dict κ β := d.map fun kv => (kv.1, f kv.2)

section
variable {κ α β : Type} [DecidableEq κ]
theorem dget_vmap (f : α → β) (d : Dict κ α) (k : κ) : dget (vmap f d) k = (dget d k).map f := by
  induction d with
  | nil => rfl
  | cons x d ih => simp only [vmap, List.map_cons, dget_cons] at ih ⊢; rw [ih]; split <;> rfl
theorem dkeys_vmap (f : α → β) (d : Dict κ α) : dkeys (vmap f d) = dkeys d := by
  simp [dkeys, vmap]
theorem dset_vmap (f : α → β) (d : Dict κ α) (k : κ) (v : α) : dset (vmap f d) k (f v) = vmap f (dset d k v) := by
  induction d with
  | nil => rfl
  | cons x d ih =>
    obtain ⟨a, b⟩ := x
    simp only [vmap, List.map_cons, dset] at ih ⊢
    split
    · rfl
    · rw [ih]; rfl
theorem ddel_vmap (f : α → β) (d : Dict κ α) (k : κ) : ddel (vmap f d) k = vmap f (ddel d k) := by
  induction d with
  | nil => rfl
  | cons x d ih =>
    obtain ⟨a, b⟩ := x
    simp only [vmap, List.map_cons, ddel] at ih ⊢
    split
    · rw [ih]
    · rw [ih]; rfl
theorem vmap_length (f : α → β) (d : Dict κ α) : (vmap f d).length = d.length := by simp [vmap]

theorem dset_new {d : Dict κ β} {k : κ} {v : β} (h : k ∉ dkeys d) : dset d k v = d ++ [(k, v)] := by
  have := dset_append_of_not_mem (e := []) (v := v) h
  simpa [dset] using this

theorem foldl_dset_aux (f : α → β) (d : Dict κ α) (acc : Dict κ β) (h : (dkeys acc ++ dkeys d).Nodup) :
    d.foldl (fun acc kv => dset acc kv.1 (f kv.2)) acc = acc ++ vmap f d := by
  induction d generalizing acc with
  | nil => simp [vmap]
  | cons x d ih =>
    obtain ⟨k, v⟩ := x
    have hk : k ∉ dkeys acc := by
      intro hm
      have := (List.nodup_append.1 h).2.2 k hm k (by simp)
      exact this rfl
    simp only [List.foldl_cons]
    rw [dset_new hk, ih]
    · simp [vmap]
    · simpa [dkeys, List.append_assoc] using h

theorem foldl_dset (f : α → β) {d : Dict κ α} (h : DWF d) :
    d.foldl (fun acc kv => dset acc kv.1 (f kv.2)) [] = vmap f d := by
  have := foldl_dset_aux f d [] (by simpa [DWF] using h)
  simpa using this
end

theorem dictVal_vmap {α β : Type} (f : β → PVal) (g : α → β) (d : Dict String α) :
    dictVal f (vmap g d) = dictVal (fun x => f (g x)) d := by
  simp [dictVal, vmap]

/-! ### rules -/

theorem GoodRule.expanded {ρ : Rule} (h : GoodRule ρ) : ExpandedRule ρ.toVal := by
  refine ⟨_, rfl, ?_, ?_⟩
  · intro p hp
    obtain ⟨x, hx, he⟩ := List.mem_map.1 hp
    injection he with h1 h2
    injection h1 with h1
    obtain ⟨k, w⟩ := x
    simp only [id] at h1 h2; subst h1; subst h2
    obtain ⟨l, rfl⟩ := h.packages _ (mem_dget h.nodup hx)
    simp
  · intro p hp
    obtain ⟨x, hx, he⟩ := List.mem_map.1 hp
    injection he with h1 h2
    injection h1 with h1
    obtain ⟨k, w⟩ := x
    simp only [id] at h1 h2; subst h1; subst h2
    exact h.depends _ (mem_dget h.nodup hx)

theorem toVal_WF_of {β : Type} {f : β → PVal} {t : Dict String β} (h : DWF t) (hv : ∀ k b, dget t k = some b → (f b).WF) :
    (dictVal f t).WF := by
  simp only [dictVal, PVal.WF, PVal.WFItems_iff, List.mem_map, Prod.mk.injEq, Prod.exists]
  refine ⟨?_, ?_⟩
  · unfold DWF dkeys at *
    rw [List.map_map]
    have : (Prod.fst ∘ fun kv : String × β => (PKey.str kv.1, f kv.2)) = PKey.str ∘ Prod.fst := rfl
    rw [this, ← List.map_map]
    exact List.pairwise_map.2 (h.imp (fun hn he => hn (by injection he)))
  · rintro k v ⟨a, b, hm, _, rfl⟩; exact hv _ _ (mem_dget h hm)

theorem GoodRule.wf {ρ : Rule} (h : GoodRule ρ) : ρ.toVal.WF := toVal_WF_of h.nodup h.vals

/-- The rule with only a package list. -/
def pkgRule (l : List PVal) : Rule := [("packages", .list l)]

theorem compactRule_cases {ρ : Rule} (h : GoodRule ρ) :
    (∃ l, ρ = pkgRule l ∧ compactInstallerRule ρ = .list l) ∨
    ((∀ l, ρ ≠ pkgRule l) ∧ compactInstallerRule ρ = ρ.toVal) := by
  unfold compactInstallerRule
  cases hp : dget ρ "packages" with
  | none =>
    right; refine ⟨?_, rfl⟩
    rintro l rfl; simp [pkgRule, dget] at hp
  | some p =>
    obtain ⟨l, rfl⟩ := h.packages _ hp
    simp only
    by_cases hl : ρ.length = 1
    · rw [if_pos hl]
      left
      obtain ⟨x, rfl⟩ := List.length_eq_one_iff.1 hl
      obtain ⟨a, b⟩ := x
      simp only [dget] at hp
      split at hp
      · rename_i ha; subst ha; injection hp with hp; subst hp; exact ⟨l, rfl, rfl⟩
      · simp at hp
    · rw [if_neg hl]
      right; refine ⟨?_, rfl⟩
      rintro l rfl; simp [pkgRule] at hl

theorem compactRule_expand {ρ : Rule} (h : GoodRule ρ) : expandDefinition (compactInstallerRule ρ) = .ok ρ.toVal := by
  rcases compactRule_cases h with ⟨l, rfl, he⟩ | ⟨_, he⟩
  · rw [he]; rfl
  · rw [he]; exact expandDefinition_id h.expanded

theorem compactRule_isDict {ρ : Rule} (h : GoodRule ρ) :
    ¬ (compactInstallerRule ρ).isDict = true ↔ ∃ l, ρ = pkgRule l := by
  rcases compactRule_cases h with ⟨l, rfl, he⟩ | ⟨hn, he⟩
  · rw [he]; simp [PVal.isDict]
  · rw [he]; simp [PVal.isDict, Rule.toVal, dictVal]
    exact hn

theorem compactRule_pyEq {ρ σ : Rule} (h : GoodRule ρ) (h' : GoodRule σ)
    (he : pyEq (compactInstallerRule ρ) (compactInstallerRule σ) = true) : pyEq ρ.toVal σ.toVal = true := by
  rcases compactRule_cases h with ⟨l, rfl, e⟩ | ⟨hn, e⟩ <;> rcases compactRule_cases h' with ⟨l', rfl, e'⟩ | ⟨hn', e'⟩
  · rw [e, e'] at he
    simp [pkgRule, Rule.toVal, dictVal, pyEq, pyEqItems, dget] 
    simpa [pyEq] using he
  · rw [e, e'] at he; simp [pyEq, Rule.toVal, dictVal] at he
  · rw [e, e'] at he; simp [pyEq, Rule.toVal, dictVal] at he
  · rw [e, e'] at he; exact he

/-! ### installer dicts -/

/-- `default_installer` renamed to the default installer's name. -/
def renameD (dflt : Option String) (d : InstDict) : InstDict :=
  match truthy dflt with
  | some name => match dget d "default_installer" with
    | some ρ => ddel (dset d name ρ) "default_installer"
    | none => d
  | none => d

/-- The name that may be left out. -/
def dname (dflt : Option String) : String := (truthy dflt).getD "default_installer"

/-- An installer dict that is written as a bare list. -/
def Collapses (dflt : Option String) (d : InstDict) (l : List PVal) : Prop := d = [(dname dflt, pkgRule l)]

/-- When compaction of an installer dict raises. -/
def Clash (dflt : Option String) (d : InstDict) : Prop :=
  ∃ name, truthy dflt = some name ∧ (dget d "default_installer").isSome ∧ (dget d name).isSome

theorem renameD_good {dflt : Option String} {d : InstDict} (h : GoodInst d) : GoodInst (renameD dflt d) := by
  unfold renameD
  cases ht : truthy dflt with
  | none => exact h
  | some name =>
    simp only
    cases hd : dget d "default_installer" with
    | none => exact h
    | some ρ =>
      simp only
      refine ⟨DWF_del (DWF_set h.nodup _ _) _, ?_⟩
      intro n σ hn
      rw [dget_del, dget_set] at hn
      split at hn
      · simp at hn
      · split at hn
        · injection hn with hn; subst hn; exact h.rules _ _ hd
        · exact h.rules _ _ hn

theorem compactInst_eq {d : InstDict} (hd : GoodInst d) (dflt : Option String) :
    (Clash dflt d ∧ compactInstallerDict d dflt = .error .valueError) ∨
    (¬ Clash dflt d ∧
      ((∃ l, Collapses dflt (renameD dflt d) l ∧ compactInstallerDict d dflt = .ok (.list l)) ∨
       ((∀ l, ¬ Collapses dflt (renameD dflt d) l) ∧
         compactInstallerDict d dflt = .ok (dictVal compactInstallerRule (renameD dflt d))))) := by
  have tail : ∀ (d1 : InstDict), GoodInst d1 → ∀ nm, nm = dname dflt →
      (∃ l, Collapses dflt d1 l ∧ compactCollapse (vmap compactInstallerRule d1) nm = .list l) ∨
      ((∀ l, ¬ Collapses dflt d1 l) ∧
        compactCollapse (vmap compactInstallerRule d1) nm = dictVal compactInstallerRule d1) := by
    intro d1 h1 nm hnm
    have hv : dictVal id (vmap compactInstallerRule d1) = dictVal compactInstallerRule d1 := by
      rw [dictVal_vmap]; rfl
    unfold compactCollapse
    rw [hv, vmap_length, dget_vmap]
    cases hg : dget d1 nm with
    | none =>
      right
      refine ⟨?_, rfl⟩
      rintro l rfl; simp [hnm, dget] at hg
    | some ρ =>
      simp only [Option.map_some]
      have hr := h1.rules _ _ hg
      by_cases hc : d1.length = 1 ∧ ∃ l, ρ = pkgRule l
      · left
        obtain ⟨hl, l, rfl⟩ := hc
        refine ⟨l, ?_, ?_⟩
        · obtain ⟨x, rfl⟩ := List.length_eq_one_iff.1 hl
          obtain ⟨a, b⟩ := x
          simp only [dget] at hg
          split at hg
          · rename_i ha; injection hg with hg; subst hg; subst ha; rw [hnm]; rfl
          · simp at hg
        · rw [if_pos ⟨hl, (compactRule_isDict hr).2 ⟨l, rfl⟩⟩]; rfl
      · right
        constructor
        · rintro l rfl
          simp only [dget, hnm, if_true] at hg
          injection hg with hg
          exact hc ⟨rfl, l, hg.symm⟩
        · rw [if_neg]
          rintro ⟨h1, h2⟩; exact hc ⟨h1, (compactRule_isDict hr).1 h2⟩
  unfold compactInstallerDict
  rw [foldl_dset _ hd.nodup]
  have fin : ∀ d1 : InstDict, GoodInst d1 → d1 = renameD dflt d →
      compactRename (vmap compactInstallerRule d) dflt = .ok (vmap compactInstallerRule d1, dname dflt) → ¬ Clash dflt d →
      (∃ l, Collapses dflt (renameD dflt d) l ∧ (do
          let r ← compactRename (vmap compactInstallerRule d) dflt
          pure (compactCollapse r.1 r.2)) = Except.ok (.list l)) ∨
       ((∀ l, ¬ Collapses dflt (renameD dflt d) l) ∧ (do
          let r ← compactRename (vmap compactInstallerRule d) dflt
          pure (compactCollapse r.1 r.2)) = Except.ok (dictVal compactInstallerRule (renameD dflt d))) := by
    intro d1 hg he hr _
    subst he
    rw [hr]
    simp only [bind, Except.bind, pure, Except.pure, Except.ok.injEq]
    exact tail _ hg _ rfl
  cases ht : truthy dflt with
  | none =>
    have hnc : ¬ Clash dflt d := by rintro ⟨n, h, _⟩; rw [ht] at h; simp at h
    have hr : renameD dflt d = d := by simp [renameD, ht]
    right; refine ⟨hnc, ?_⟩
    exact fin d hd hr.symm (by simp [compactRename, ht, dname]) hnc
  | some name =>
    cases hD : dget d "default_installer" with
    | none =>
      have hnc : ¬ Clash dflt d := by rintro ⟨n, h, h2, _⟩; rw [hD] at h2; simp at h2
      have hr : renameD dflt d = d := by simp [renameD, ht, hD]
      right; refine ⟨hnc, ?_⟩
      exact fin d hd hr.symm (by simp [compactRename, ht, dname, dget_vmap, hD]) hnc
    | some ρ =>
      by_cases hn : (dget d name).isSome
      · left; refine ⟨⟨name, ht, by simp [hD], hn⟩, ?_⟩
        simp [compactRename, ht, dget_vmap, hD, dhas, hn, bind, Except.bind]
      · right
        have hnc : ¬ Clash dflt d := by
          rintro ⟨n, h, _, h3⟩; rw [ht] at h; injection h with h; subst h; exact hn h3
        refine ⟨hnc, ?_⟩
        have hr : renameD dflt d = ddel (dset d name ρ) "default_installer" := by simp [renameD, ht, hD]
        refine fin _ (renameD_good hd) rfl ?_ hnc
        rw [hr, ← ddel_vmap, ← dset_vmap]
        simp [compactRename, ht, dget_vmap, hD, dhas, hn, dname]

/-- The installer dict that comes back after compaction and expansion. -/
def reInst (dflt : Option String) (d : InstDict) : InstDict :=
  match renameD dflt d with
  | [(n, [("packages", .list l)])] => if n = dname dflt then [("default_installer", pkgRule l)] else renameD dflt d
  | _ => renameD dflt d

theorem reInst_collapse {dflt : Option String} {d : InstDict} {l : List PVal} (h : Collapses dflt (renameD dflt d) l) :
    reInst dflt d = [("default_installer", pkgRule l)] := by
  unfold reInst
  rw [h]; simp [pkgRule]

theorem reInst_not {dflt : Option String} {d : InstDict} (h : ∀ l, ¬ Collapses dflt (renameD dflt d) l) :
    reInst dflt d = renameD dflt d := by
  unfold reInst
  split
  · rename_i n l he
    split
    · rename_i hn; exact absurd (by unfold Collapses; rw [he, hn]; rfl) (h l)
    · rfl
  · rfl

theorem mapVals_dictVal {f : PVal → Except Exc PVal} {α : Type} {g h : α → PVal} {d : Dict String α}
    (hd : DWF d) (hf : ∀ k a, dget d k = some a → f (g a) = .ok (h a)) :
    mapVals (fun (_ : PKey) v => f v) (d.map fun kv => (PKey.str kv.1, g kv.2)) = .ok (d.map fun kv => (PKey.str kv.1, h kv.2)) := by
  have : ∀ x ∈ d, f (g x.2) = .ok (h x.2) := fun x hx => hf x.1 x.2 (mem_dget hd hx)
  clear hd hf
  induction d with
  | nil => rfl
  | cons x d ih =>
    simp only [List.map_cons, mapVals, this x (.head _), ih (fun y hy => this y (.tail _ hy)), bind, Except.bind,
      pure, Except.pure]

theorem DWF_str {α : Type} {g : α → PVal} {d : Dict String α} (h : DWF d) :
    DWF (d.map fun kv => (PKey.str kv.1, g kv.2)) := by
  unfold DWF dkeys at *
  rw [List.map_map]
  have : (Prod.fst ∘ fun kv : String × α => (PKey.str kv.1, g kv.2)) = PKey.str ∘ Prod.fst := rfl
  rw [this, ← List.map_map]
  exact List.pairwise_map.2 (h.imp (fun hn he => hn (by injection he)))

theorem expand_dictVal_inst {d : InstDict} (h : GoodInst d) :
    expandInstallerDefinition (dictVal compactInstallerRule d) = .ok d.toVal := by
  unfold expandInstallerDefinition dictVal
  simp only [upConvert, bind, Except.bind]
  rw [forItems_eq _ (DWF_str h.nodup)]
  rw [mapVals_dictVal (f := expandDefinition) (h := Rule.toVal) h.nodup (fun k a ha => compactRule_expand (h.rules _ _ ha))]
  rfl

theorem goodPkg {l : List PVal} (h : GoodRule (pkgRule l)) (n : String) : GoodInst [(n, pkgRule l)] := by
  refine ⟨by simp, ?_⟩
  intro m ρ hm
  simp only [dget] at hm
  split at hm
  · injection hm with hm; subst hm; exact h
  · simp at hm

theorem reInst_good {dflt : Option String} {d : InstDict} (h : GoodInst d) : GoodInst (reInst dflt d) := by
  by_cases hc : ∃ l, Collapses dflt (renameD dflt d) l
  · obtain ⟨l, hl⟩ := hc
    rw [reInst_collapse hl]
    refine goodPkg ?_ _
    exact (renameD_good (dflt := dflt) h).rules (dname dflt) _ (by rw [hl]; simp [dget])
  · rw [reInst_not (fun l hl => hc ⟨l, hl⟩)]; exact renameD_good h

theorem compactInst_ok {d : InstDict} (h : GoodInst d) {dflt : Option String} {c : PVal}
    (hc : compactInstallerDict d dflt = .ok c) :
    ¬ Clash dflt d ∧ expandInstallerDefinition c = .ok (reInst dflt d).toVal ∧
    ((∃ l, Collapses dflt (renameD dflt d) l ∧ c = .list l) ∨
       ((∀ l, ¬ Collapses dflt (renameD dflt d) l) ∧ c = dictVal compactInstallerRule (renameD dflt d))) := by
  rcases compactInst_eq h dflt with ⟨_, he⟩ | ⟨hn, ⟨l, hl, he⟩ | ⟨hl, he⟩⟩
  · rw [he] at hc; simp at hc
  · rw [he] at hc; injection hc with hc; subst hc
    refine ⟨hn, ?_, .inl ⟨l, hl, rfl⟩⟩
    rw [reInst_collapse hl]; rfl
  · rw [he] at hc; injection hc with hc; subst hc
    refine ⟨hn, ?_, .inr ⟨hl, rfl⟩⟩
    rw [reInst_not hl]; exact expand_dictVal_inst (renameD_good h)

end Verif
