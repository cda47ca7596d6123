import Verif.Lemmas.Compact
import Mathlib.Data.List.Perm.Subperm
/-! Helper lemmas about compaction: version, os and rules dicts. -/
set_option linter.unusedSimpArgs false
namespace Verif

theorem dget_renameD (dflt : Option String) (d : InstDict) (hn : ¬ Clash dflt d) (n : String) :
    dget (renameD dflt d) n =
      match truthy dflt with
      | none => dget d n
      | some name => if n = "default_installer" then none
          else if n = name then (dget d "default_installer").or (dget d name) else dget d n := by
  unfold renameD
  cases ht : truthy dflt with
  | none => rfl
  | some name =>
    simp only
    cases hD : dget d "default_installer" with
    | none =>
      simp only [Option.none_or]
      split
      · rename_i h; rw [h, hD]
      · split
        · rename_i h; rw [h]
        · rfl
    | some ρ =>
      simp only [Option.some_or]
      rw [dget_del, dget_set]
      simp only [eq_comm (a := "default_installer"), eq_comm (a := name)]

theorem unamb_of_not_clash {dflt : Option String} {d : InstDict} (h : ¬ Clash dflt d) (hd : dflt ≠ some "") :
    Unambiguous d dflt := by
  intro name hn hne
  by_cases h1 : dget d "default_installer" = none
  · exact .inl h1
  · by_cases h2 : dget d name = none
    · exact .inr h2
    · exfalso
      refine h ⟨name, truthy_eq_some.2 ⟨hn, ?_⟩, Option.isSome_iff_ne_none.2 h1, Option.isSome_iff_ne_none.2 h2⟩
      rintro rfl; exact hd hn

theorem offers_renameD {dflt : Option String} {d : InstDict} (h : ¬ Clash dflt d) (inst : String) (ρ : Rule) :
    Offers (renameD dflt d) dflt inst ρ ↔ Offers d dflt inst ρ := by
  unfold Offers
  rw [dget_renameD _ _ h, dget_renameD _ _ h]
  cases ht : truthy dflt with
  | none =>
    rfl
  | some name =>
    obtain ⟨rfl, hne⟩ := truthy_eq_some.1 ht
    simp only [if_true, reduceCtorEq, and_false, or_false, Option.some.injEq]
    by_cases hi : inst = "default_installer"
    · subst hi
      simp only [ne_eq, not_true_eq_false, false_and, false_or]
      constructor
      · exact False.elim
      · rintro ⟨_, rfl, hD⟩
        exact h ⟨_, ht, by simp [hD], by simp [hD]⟩
    · simp only [hi, if_false, ne_eq, not_false_eq_true, true_and]
      by_cases hin : inst = name
      · subst hin
        simp only [if_true, hne, not_false_eq_true, true_and]
        cases hD : dget d "default_installer" with
        | none => simp
        | some σ =>
          have : dget d inst = none := by
            cases hi2 : dget d inst with
            | none => rfl
            | some x => exact absurd ⟨inst, ht, by simp [hD], by simp [hi2]⟩ h
          simp [this]
      · simp only [hin, if_false]
        constructor
        · exact .inl
        · rintro (h | ⟨_, h, _⟩)
          · exact h
          · exact absurd h.symm hin

theorem dname_renameD {dflt : Option String} {d : InstDict} (h : ¬ Clash dflt d) {l : List PVal}
    (hc : Collapses dflt (renameD dflt d) l) : truthy dflt = none ∨ ∃ name, truthy dflt = some name ∧ name ≠ "default_installer" := by
  cases ht : truthy dflt with
  | none => exact .inl rfl
  | some name =>
    refine .inr ⟨name, rfl, ?_⟩
    rintro rfl
    have := dget_renameD dflt d h "default_installer"
    rw [ht, hc] at this
    simp [dname, ht, dget] at this

theorem offers_reInst {dflt : Option String} {d : InstDict} (h : ¬ Clash dflt d) (inst : String) (ρ : Rule) :
    Offers (reInst dflt d) dflt inst ρ ↔ Offers d dflt inst ρ := by
  rw [← offers_renameD h]
  by_cases hc : ∃ l, Collapses dflt (renameD dflt d) l
  · obtain ⟨l, hl⟩ := hc
    rw [reInst_collapse hl]
    have hdn := dname_renameD h hl
    rw [hl]
    rcases hdn with ht | ⟨name, ht, hne⟩
    · simp [dname, ht]
    · obtain ⟨rfl, hn⟩ := truthy_eq_some.1 ht
      simp only [Offers, dname, ht, Option.getD_some, dget, Option.some.injEq]
      by_cases hi : inst = "default_installer"
      · subst hi; simp [hne]
      · by_cases hin : name = inst
        · subst hin; simp [hi, hn, hne, Ne.symm hne, eq_comm]
        · simp [hi, hin, Ne.symm hi]
  · rw [reInst_not (fun l hl => hc ⟨l, hl⟩)]

theorem dgetD_reInst {dflt : Option String} {d : InstDict} (h : ¬ Clash dflt d) (ht : truthy dflt = none) :
    dget (reInst dflt d) "default_installer" = dget d "default_installer" := by
  have hr : renameD dflt d = d := by simp [renameD, ht]
  by_cases hc : ∃ l, Collapses dflt (renameD dflt d) l
  · obtain ⟨l, hl⟩ := hc
    rw [reInst_collapse hl]
    rw [hr] at hl
    rw [hl]; simp [dname, ht]
  · rw [reInst_not (fun l hl => hc ⟨l, hl⟩), hr]

theorem renameD_reInst {dflt : Option String} {d : InstDict} (h : ¬ Clash dflt d) :
    ¬ Clash dflt (reInst dflt d) ∧ renameD dflt (reInst dflt d) = renameD dflt d := by
  by_cases hc : ∃ l, Collapses dflt (renameD dflt d) l
  · obtain ⟨l, hl⟩ := hc
    rw [reInst_collapse hl]
    rcases dname_renameD h hl with ht | ⟨name, ht, hne⟩
    · refine ⟨?_, ?_⟩
      · rintro ⟨n, h, _⟩; rw [ht] at h; simp at h
      · rw [hl]; simp [renameD, ht, dname]
    · refine ⟨?_, ?_⟩
      · rintro ⟨n, h, _, h3⟩
        rw [ht] at h; injection h with h; subst h
        simp [dget, Ne.symm hne] at h3
      · rw [hl]; simp [renameD, ht, dname, dget, dset, ddel, Ne.symm hne, hne]
  · rw [reInst_not (fun l hl => hc ⟨l, hl⟩)]
    cases ht : truthy dflt with
    | none =>
      refine ⟨?_, ?_⟩
      · rintro ⟨n, h, _⟩; rw [ht] at h; simp at h
      · simp [renameD, ht]
    | some name =>
      have hD : dget (renameD dflt d) "default_installer" = none := by
        rw [dget_renameD _ _ h, ht]; simp
      refine ⟨?_, ?_⟩
      · rintro ⟨n, _, h2, _⟩; rw [hD] at h2; simp at h2
      · generalize renameD dflt d = e at hD
        simp [renameD, ht, hD]

theorem compactInst_reInst {dflt : Option String} {d : InstDict} (hd : GoodInst d) {c : PVal}
    (hc : compactInstallerDict d dflt = .ok c) : compactInstallerDict (reInst dflt d) dflt = .ok c := by
  obtain ⟨hn, _, h⟩ := compactInst_ok hd hc
  obtain ⟨hn', hr⟩ := renameD_reInst hn
  have hg := reInst_good (dflt := dflt) hd
  rcases compactInst_eq hg dflt with ⟨h1, _⟩ | ⟨_, ⟨l, hl, he⟩ | ⟨hl, he⟩⟩
  · exact absurd h1 hn'
  · rw [he]; rw [hr] at hl
    rcases h with ⟨l', hl', rfl⟩ | ⟨hl', _⟩
    · unfold Collapses at hl hl'
      rw [hl] at hl'; simp [pkgRule] at hl'; rw [hl']
    · exact absurd hl (hl' l)
  · rw [he, hr]; rw [hr] at hl
    rcases h with ⟨l', hl', rfl⟩ | ⟨_, rfl⟩
    · exact absurd hl' (hl l')
    · rfl

/-! ### pyEq of compacted installer dicts -/

theorem pyEqItems_dget {d e : List (PKey × PVal)} (h : pyEqItems d e = true) {k : PKey} {v : PVal} (hm : (k, v) ∈ d) :
    ∃ w, dget e k = some w ∧ pyEq v w = true := by
  induction d with
  | nil => simp at hm
  | cons x d ih =>
    obtain ⟨a, b⟩ := x
    simp only [pyEqItems, Bool.and_eq_true] at h
    rcases List.mem_cons.1 hm with h1 | h1
    · injection h1 with h1 h2; subst h1; subst h2
      have h3 := h.1
      cases hg : dget e k with
      | none => rw [hg] at h3; simp at h3
      | some w => rw [hg] at h3; exact ⟨w, rfl, h3⟩
    · exact ih h.2 h1

theorem dget_dictItems {β : Type} (f : β → PVal) (t : Dict String β) (s : String) :
    dget (t.map fun kv => (PKey.str kv.1, f kv.2)) (.str s) = (dget t s).map f := by
  induction t with
  | nil => rfl
  | cons x t ih =>
    obtain ⟨a, b⟩ := x
    simp only [List.map_cons, dget_cons, PKey.str.injEq, ih]
    split <;> rfl

/-- Keys of a dict with as many entries, all of whose keys are in the other dict. -/
theorem dget_of_length {α β : Type} {d : Dict String α} {e : Dict String β} (hd : DWF d) (he : DWF e)
    (hl : d.length = e.length) (h : ∀ k, (dget d k).isSome → (dget e k).isSome) (k : String)
    (hk : (dget e k).isSome) : (dget d k).isSome := by
  rw [← mem_dkeys_iff] at hk ⊢
  have h1 : dkeys d ⊆ dkeys e := fun a ha => mem_dkeys_iff.2 (h a (mem_dkeys_iff.1 ha))
  have h2 : (dkeys e).length ≤ (dkeys d).length := by simp [dkeys, hl]
  have := (List.Nodup.subperm hd h1).perm_of_length_le h2
  exact this.symm.subset hk

/-- Equal compacted forms offer equal rules. -/
theorem compactInst_pyEq {dflt : Option String} {i a : InstDict} (hi : GoodInst i) (ha : GoodInst a) {x y : PVal}
    (hx : compactInstallerDict i dflt = .ok x) (hy : compactInstallerDict a dflt = .ok y) (he : pyEq x y = true) :
    ∀ n, (dget (renameD dflt i) n = none ∧ dget (renameD dflt a) n = none) ∨
      ∃ ρ σ, dget (renameD dflt i) n = some ρ ∧ dget (renameD dflt a) n = some σ ∧ pyEq ρ.toVal σ.toVal = true := by
  obtain ⟨-, -, h1⟩ := compactInst_ok hi hx
  obtain ⟨-, -, h2⟩ := compactInst_ok ha hy
  have gi := renameD_good (dflt := dflt) hi
  have ga := renameD_good (dflt := dflt) ha
  rcases h1 with ⟨l, hl, rfl⟩ | ⟨hl, rfl⟩ <;> rcases h2 with ⟨l', hl', rfl⟩ | ⟨hl', rfl⟩
  · intro n
    unfold Collapses at hl hl'
    rw [hl, hl']
    by_cases hn : dname dflt = n
    · right
      refine ⟨pkgRule l, pkgRule l', by simp [dget, hn], by simp [dget, hn], ?_⟩
      simp [pkgRule, Rule.toVal, dictVal, pyEq, pyEqItems, dget]
      simpa [pyEq] using he
    · left; simp [dget, hn]
  · simp [pyEq, dictVal] at he
  · simp [pyEq, dictVal] at he
  · simp only [pyEq, dictVal, Bool.and_eq_true, beq_iff_eq, List.length_map] at he
    obtain ⟨hlen, hit⟩ := he
    have key : ∀ n ρ, dget (renameD dflt i) n = some ρ → ∃ σ, dget (renameD dflt a) n = some σ ∧
        pyEq (compactInstallerRule ρ) (compactInstallerRule σ) = true := by
      intro n ρ hn
      obtain ⟨w, hw, hp⟩ := pyEqItems_dget hit (k := .str n) (v := compactInstallerRule ρ)
        (List.mem_map.2 ⟨_, dget_some_mem hn, rfl⟩)
      rw [dget_dictItems] at hw
      cases hs : dget (renameD dflt a) n with
      | none => rw [hs] at hw; simp at hw
      | some σ => rw [hs] at hw; simp at hw; subst hw; exact ⟨σ, rfl, hp⟩
    intro n
    cases hn : dget (renameD dflt i) n with
    | some ρ =>
      right
      obtain ⟨σ, hs, hp⟩ := key n ρ hn
      exact ⟨ρ, σ, rfl, hs, compactRule_pyEq (gi.rules _ _ hn) (ga.rules _ _ hs) hp⟩
    | none =>
      left
      refine ⟨rfl, ?_⟩
      by_contra hne
      have := dget_of_length gi.nodup ga.nodup hlen
        (fun k hk => by
          obtain ⟨ρ, hρ⟩ := Option.isSome_iff_exists.1 hk
          obtain ⟨σ, hs, _⟩ := key k ρ hρ; simp [hs]) n (Option.isSome_iff_ne_none.2 hne)
      simp [hn] at this

/-! ### version dicts -/

/-- The compacted form of an installer dict whose compaction succeeds. -/
def cVal (dflt : Option String) (i : InstDict) : PVal :=
  match compactInstallerDict i dflt with
  | .ok x => x
  | .error _ => .none

/-- A version entry that is not dropped. -/
def keepV (dflt : Option String) (anyV : Option PVal) (kv : String × InstDict) : Bool :=
  kv.1 ≠ "any_version" && !(match anyV with | some a => pyEq (cVal dflt kv.2) a | none => false)

/-- The versions kept by compaction, in their new order. -/
def keptVer (dflt : Option String) (vd : VerDict) : VerDict :=
  match dget vd "any_version" with
  | some av => ("any_version", av) :: vd.filter (keepV dflt (some (cVal dflt av)))
  | none => vd.filter (keepV dflt none)

theorem versionFold {dflt : Option String} {anyV : Option PVal} {l : VerDict} {acc r : Dict String PVal}
    (h : l.foldlM (compactVersionStep dflt anyV) acc = .ok r)
    (hk : (dkeys acc ++ dkeys (l.filter (fun kv => kv.1 ≠ "any_version"))).Nodup) :
    r = acc ++ vmap (cVal dflt) (l.filter (keepV dflt anyV)) ∧
    ∀ kv ∈ l, kv.1 ≠ "any_version" → compactInstallerDict kv.2 dflt = .ok (cVal dflt kv.2) := by
  induction l generalizing acc with
  | nil => simp [pure, Except.pure] at h; subst h; simp [vmap]
  | cons x l ih =>
    obtain ⟨k, i⟩ := x
    simp only [List.foldlM_cons] at h
    obtain ⟨acc', h1, h2⟩ := Except_bind_ok.1 h
    unfold compactVersionStep at h1
    by_cases hka : k = "any_version"
    · rw [if_neg (by simpa using hka), pure_ok] at h1
      subst h1
      have hk' : (dkeys acc ++ dkeys (l.filter (fun kv => kv.1 ≠ "any_version"))).Nodup := by
        simpa [hka] using hk
      obtain ⟨h3, h4⟩ := ih h2 hk'
      refine ⟨?_, ?_⟩
      · rw [h3]; simp [keepV, hka]
      · intro kv hm hne
        rcases List.mem_cons.1 hm with rfl | hm
        · exact absurd hka hne
        · exact h4 kv hm hne
    · rw [if_pos (by simpa using hka)] at h1
      obtain ⟨ci, hci, h1⟩ := Except_bind_ok.1 h1
      have hcv : cVal dflt i = ci := by simp [cVal, hci]
      have hk2 : (dkeys acc ++ (k :: dkeys (l.filter (fun kv => kv.1 ≠ "any_version")))).Nodup := by
        simpa [hka, dkeys, List.filter] using hk
      have hkacc : k ∉ dkeys acc := fun hm => (List.nodup_append.1 hk2).2.2 k hm k (by simp) rfl
      have hdrop : (dkeys acc ++ dkeys (l.filter (fun kv => kv.1 ≠ "any_version"))).Nodup :=
        hk2.sublist (by simp)
      have hkeep : ((dkeys (dset acc k ci)) ++ dkeys (l.filter (fun kv => kv.1 ≠ "any_version"))).Nodup := by
        rw [dset_new hkacc]
        simpa [dkeys] using hk2
      have rest : ∀ (P : keepV dflt anyV (k, i) = true → acc' = dset acc k ci)
          (Q : keepV dflt anyV (k, i) = false → acc' = acc),
          r = acc ++ vmap (cVal dflt) (((k, i) :: l).filter (keepV dflt anyV)) ∧
          ∀ kv ∈ (k, i) :: l, kv.1 ≠ "any_version" → compactInstallerDict kv.2 dflt = .ok (cVal dflt kv.2) := by
        intro P Q
        have hall : (∀ kv ∈ l, kv.1 ≠ "any_version" → compactInstallerDict kv.2 dflt = .ok (cVal dflt kv.2)) →
            ∀ kv ∈ (k, i) :: l, kv.1 ≠ "any_version" → compactInstallerDict kv.2 dflt = .ok (cVal dflt kv.2) := by
          intro h4 kv hm hne
          rcases List.mem_cons.1 hm with rfl | hm
          · rw [hcv]; exact hci
          · exact h4 kv hm hne
        cases hkp : keepV dflt anyV (k, i) with
        | true =>
          rw [P hkp] at h2
          obtain ⟨h3, h4⟩ := ih h2 hkeep
          refine ⟨?_, hall h4⟩
          rw [h3, dset_new hkacc, List.filter_cons_of_pos hkp]
          simp [vmap, hcv]
        | false =>
          rw [Q hkp] at h2
          obtain ⟨h3, h4⟩ := ih h2 hdrop
          refine ⟨?_, hall h4⟩
          rw [h3, List.filter_cons_of_neg (by simp [hkp])]
      apply rest
      · intro hkp
        cases anyV with
        | none => simpa [pure, Except.pure] using h1.symm
        | some a =>
          simp only [keepV, hcv, Bool.and_eq_true, Bool.not_eq_true'] at hkp
          simp only [hkp.2, Bool.false_eq_true, if_false, pure_ok] at h1
          exact h1.symm
      · intro hkp
        cases anyV with
        | none => simp [keepV, hka] at hkp
        | some a =>
          have : pyEq ci a = true := by simpa [keepV, hka, hcv] using hkp
          simp only [this, if_true, pure_ok] at h1
          exact h1.symm

theorem versionFold_ok {dflt : Option String} {anyV : Option PVal} {l : VerDict} {acc : Dict String PVal}
    (h : ∀ kv ∈ l, kv.1 ≠ "any_version" → compactInstallerDict kv.2 dflt = .ok (cVal dflt kv.2)) :
    ∃ r, l.foldlM (compactVersionStep dflt anyV) acc = .ok r := by
  induction l generalizing acc with
  | nil => exact ⟨acc, rfl⟩
  | cons x l ih =>
    obtain ⟨k, i⟩ := x
    simp only [List.foldlM_cons]
    have h1 : ∃ acc', compactVersionStep dflt anyV acc (k, i) = .ok acc' := by
      unfold compactVersionStep
      by_cases hka : k = "any_version"
      · rw [if_neg (by simpa using hka)]; exact ⟨acc, rfl⟩
      · rw [if_pos (by simpa using hka)]
        simp only [h (k, i) (.head _) hka, bind, Except.bind]
        cases anyV with
        | none => exact ⟨_, rfl⟩
        | some a => simp only; split <;> exact ⟨_, rfl⟩
    obtain ⟨acc', h1⟩ := h1
    rw [h1]
    exact ih (fun kv hm => h kv (.tail _ hm))

/-- What compaction of a version dict returns. -/
def verOut (dflt : Option String) (vd : VerDict) : PVal :=
  match dget vd "any_version" with
  | some av => if vd.length = 1 ∧ ¬ (cVal dflt av).isDict then cVal dflt av else dictVal (cVal dflt) (keptVer dflt vd)
  | none => dictVal (cVal dflt) (keptVer dflt vd)

theorem dkeys_filter_nodup {vd : VerDict} (h : DWF vd) (p : String × InstDict → Bool) :
    (dkeys (vd.filter p)).Nodup := by
  unfold DWF dkeys at *
  exact h.sublist ((List.filter_sublist).map _)

theorem single_key {vd : VerDict} {k : String} {v : InstDict} (h : dget vd k = some v) (hl : vd.length = 1) :
    vd = [(k, v)] := by
  obtain ⟨x, rfl⟩ := List.length_eq_one_iff.1 hl
  obtain ⟨a, b⟩ := x
  simp only [dget] at h
  split at h
  · rename_i ha; injection h with h; subst ha; subst h; rfl
  · simp at h

theorem compactVer_iff {dflt : Option String} {vd : VerDict} (hv : DWF vd) {c : PVal} :
    compactVersionDict vd dflt = .ok c ↔
      (∀ k i, dget vd k = some i → compactInstallerDict i dflt = .ok (cVal dflt i)) ∧ c = verOut dflt vd := by
  have hcv : ∀ {i x}, compactInstallerDict i dflt = .ok x → cVal dflt i = x := by
    intro i x h; simp [cVal, h]
  unfold compactVersionDict verOut
  cases ha : dget vd "any_version" with
  | none =>
    simp only
    constructor
    · intro h
      obtain ⟨r, hr, h⟩ := Except_bind_ok.1 h
      rw [pure_ok] at h; subst h
      obtain ⟨h1, h2⟩ := versionFold hr (by simpa using dkeys_filter_nodup hv _)
      refine ⟨?_, ?_⟩
      · intro k i hk
        exact h2 (k, i) (dget_some_mem hk) (by rintro rfl; rw [ha] at hk; simp at hk)
      · rw [h1, List.nil_append, dictVal_vmap, keptVer, ha]; rfl
    · rintro ⟨h, rfl⟩
      obtain ⟨r, hr⟩ := versionFold_ok (dflt := dflt) (anyV := none) (l := vd) (acc := [])
        (fun kv hm _ => h kv.1 kv.2 (mem_dget hv hm))
      obtain ⟨h1, h2⟩ := versionFold hr (by simpa using dkeys_filter_nodup hv _)
      rw [hr, h1]
      simp only [List.nil_append, bind, Except.bind, pure, Except.pure, dictVal_vmap, keptVer, ha]; rfl
  | some av =>
    simp only
    have nd : (dkeys [("any_version", cVal dflt av)] ++ dkeys (vd.filter (fun kv => kv.1 ≠ "any_version"))).Nodup := by
      simp only [dkeys, List.map_cons, List.map_nil, List.cons_append, List.nil_append, List.nodup_cons]
      refine ⟨?_, dkeys_filter_nodup hv _⟩
      intro hm
      obtain ⟨x, hx, he⟩ := List.mem_map.1 hm
      have := (List.mem_filter.1 hx).2
      simp [he] at this
    constructor
    · intro h
      obtain ⟨a, hca, h⟩ := Except_bind_ok.1 h
      have hcav := hcv hca
      subst hcav
      by_cases hl : vd.length = 1 ∧ ¬ (cVal dflt av).isDict = true
      · rw [if_pos hl, pure_ok] at h
        rw [if_pos hl]
        refine ⟨?_, h.symm⟩
        intro k i hk
        have := single_key ha hl.1
        rw [this] at hk
        simp only [dget] at hk
        split at hk
        · injection hk with hk; subst hk; exact hca
        · simp at hk
      · rw [if_neg hl] at h
        rw [if_neg hl]
        obtain ⟨r, hr, h⟩ := Except_bind_ok.1 h
        rw [pure_ok] at h; subst h
        obtain ⟨h1, h2⟩ := versionFold hr nd
        refine ⟨?_, ?_⟩
        · intro k i hk
          by_cases hka : k = "any_version"
          · subst hka; rw [ha] at hk; injection hk with hk; subst hk; exact hca
          · exact h2 (k, i) (dget_some_mem hk) hka
        · rw [h1, keptVer, ha]
          have : [("any_version", cVal dflt av)] = vmap (cVal dflt) [("any_version", av)] := rfl
          simp only [this]
          rw [show vmap (cVal dflt) [("any_version", av)] ++ vmap (cVal dflt) (vd.filter (keepV dflt (some (cVal dflt av))))
            = vmap (cVal dflt) (("any_version", av) :: vd.filter (keepV dflt (some (cVal dflt av)))) from rfl,
            dictVal_vmap]
          rfl
    · rintro ⟨h, rfl⟩
      have hca := h _ _ ha
      simp only [hca, bind, Except.bind]
      by_cases hl : vd.length = 1 ∧ ¬ (cVal dflt av).isDict = true
      · rw [if_pos hl, if_pos hl]; rfl
      · rw [if_neg hl, if_neg hl]
        obtain ⟨r, hr⟩ := versionFold_ok (dflt := dflt) (anyV := some (cVal dflt av)) (l := vd)
          (acc := [("any_version", cVal dflt av)]) (fun kv hm _ => h kv.1 kv.2 (mem_dget hv hm))
        obtain ⟨h1, h2⟩ := versionFold hr nd
        rw [hr, h1, keptVer, ha]
        simp only [pure, Except.pure, Except.ok.injEq]
        rw [show [("any_version", cVal dflt av)] ++ vmap (cVal dflt) (vd.filter (keepV dflt (some (cVal dflt av))))
            = vmap (cVal dflt) (("any_version", av) :: vd.filter (keepV dflt (some (cVal dflt av)))) from rfl,
            dictVal_vmap]
        rfl

end Verif
