import Verif.Lemmas.Compact3
import Verif.Props.Expand
import Verif.Props.Lookup
/-! # Properties C14, C15, C16: compaction of rules -/
set_option linter.unusedSimpArgs false
namespace Verif

/-- Loaded data is in the normal form compaction expects. -/
theorem loaded_is_good {uni : Char → Bool} {v : PVal} {r : Rules} (hv : v.WF)
    (h : loadRulesData uni v = .ok r.toVal) : GoodRules r := by
  unfold loadRulesData at h
  obtain ⟨w', hw', h⟩ := Except_bind_ok.1 h
  obtain ⟨_, hver, h⟩ := Except_bind_ok.1 h
  rw [pure_ok] at h; subst h
  have hwf := expandRules_WF hv hw'
  have hex := expandRules_spec hv hw'
  rw [verifyRulesDict_iff] at hver
  have mem : ∀ {β : Type} {f : β → PVal} {t : Dict String β} {k b}, dget t k = some b →
      (PKey.str k, f b) ∈ (t.map fun kv => (PKey.str kv.1, f kv.2)) :=
    fun h => List.mem_map.2 ⟨_, dget_some_mem h, rfl⟩
  obtain ⟨w1, w2⟩ := dictVal_WF.1 hwf
  obtain ⟨_, e, hex⟩ := hex
  injection e with e; subst e
  obtain ⟨_, e, hver⟩ := hver
  injection e with e; subst e
  refine ⟨w1, fun k od hk => ?_⟩
  have w2 := w2 _ _ (dget_some_mem hk)
  have hex := hex _ _ (mem hk)
  have hver := (hver _ _ (mem hk)).2
  obtain ⟨w1, w2⟩ := dictVal_WF.1 w2
  obtain ⟨_, e, hex⟩ := hex
  injection e with e; subst e
  obtain ⟨_, e, hver⟩ := hver
  injection e with e; subst e
  have vers : ∀ n v, dget od n = some v → GoodVer v := by
    intro n vd hn
    have w2 := w2 _ _ (dget_some_mem hn)
    have hex := (hex _ _ (mem hn)).1
    have hver := (hver _ _ (mem hn)).2
    obtain ⟨w1, w2⟩ := dictVal_WF.1 w2
    obtain ⟨_, e, hex⟩ := hex
    injection e with e; subst e
    obtain ⟨_, e, hver⟩ := hver
    injection e with e; subst e
    refine ⟨w1, fun n i hn => ?_⟩
    have w2 := w2 _ _ (dget_some_mem hn)
    have hex := hex _ _ (mem hn)
    have hver := (hver _ _ (mem hn)).2
    obtain ⟨w1, w2⟩ := dictVal_WF.1 w2
    obtain ⟨_, e, hex⟩ := hex
    injection e with e; subst e
    obtain ⟨_, e, hver⟩ := hver
    injection e with e; subst e
    refine ⟨w1, fun n ρ hn => ?_⟩
    have w2 := w2 _ _ (dget_some_mem hn)
    have hex := hex _ _ (mem hn)
    have hver := (hver _ _ (mem hn)).2.2
    obtain ⟨w1, w2⟩ := dictVal_WF.1 w2
    obtain ⟨_, e, hex⟩ := hex
    injection e with e; subst e
    obtain ⟨_, e, hver⟩ := hver
    injection e with e; subst e
    refine ⟨w1, ?_, ?_, ?_⟩
    · intro p hp; exact (hver _ _ (mem (f := id) hp)).2.1 rfl
    · intro p hp; exact hex.2 _ (mem (f := id) hp)
    · intro k p hp; exact w2 _ _ (dget_some_mem hp)
  refine ⟨w1, vers, ?_⟩
  intro vd hvd
  have hao := (hex _ _ (mem hvd)).2 rfl
  obtain ⟨i, hi⟩ := hao
  injection hi with hi
  cases vd with
  | nil => simp at hi
  | cons x t =>
    cases t with
    | cons y t => simp at hi
    | nil =>
      obtain ⟨a, i⟩ := x
      simp at hi
      obtain ⟨rfl, _⟩ := hi
      refine ⟨i, rfl, ?_, ?_⟩
      · obtain ⟨_, e, hv⟩ := (hver _ _ (mem hvd)).2
        injection e with e; subst e
        obtain ⟨_, e, hv⟩ := (hv _ _ (.head _)).2
        injection e with e; subst e
        cases hD : dget i "default_installer" with
        | none => rfl
        | some ρ => exact absurd rfl ((hv _ _ (mem hD)).2.1 rfl).2
      · obtain ⟨_, e, hv⟩ := (hver _ _ (mem hvd)).2
        injection e with e; subst e
        obtain ⟨_, e, hv⟩ := (hv _ _ (.head _)).2
        injection e with e; subst e
        cases hD : dget i "any_version" with
        | none => rfl
        | some ρ =>
          obtain ⟨s, hs, _, hr⟩ := (hv _ _ (mem hD)).1
          injection hs with hs; subst hs
          have := hr (.inr (.inl rfl))
          simp at this

/-! ## C16 -/

/-- **C16** Compacting an installer dict fails iff a non-empty default installer is given and the dict has both
`default_installer` and an entry under the default installer's name; then the error is ValueError. -/
theorem C16_fails_iff (d : InstDict) (hd : GoodInst d) (dflt : Option String) (e : Exc) :
    compactInstallerDict d dflt = .error e ↔ e = .valueError ∧
      ∃ name, dflt = some name ∧ name ≠ "" ∧ "default_installer" ∈ dkeys d ∧ name ∈ dkeys d := by
  have hcl : Clash dflt d ↔ ∃ name, dflt = some name ∧ name ≠ "" ∧ "default_installer" ∈ dkeys d ∧ name ∈ dkeys d := by
    simp only [Clash, truthy_eq_some, mem_dkeys_iff, and_assoc]
  rw [← hcl]
  rcases compactInst_eq hd dflt with ⟨h, he⟩ | ⟨h, ⟨l, _, he⟩ | ⟨_, he⟩⟩
  · rw [he]; simp [h, eq_comm]
  · rw [he]; simp [h]
  · rw [he]; simp [h]

/-- **C16** Otherwise it keeps every rule: the compacted form expands to an installer dict offering exactly the same
rules for every installer. -/
theorem C16_keeps_rules (d : InstDict) (hd : GoodInst d) (dflt : Option String) (c : PVal)
    (h : compactInstallerDict d dflt = .ok c) :
    ∃ d' : InstDict, expandInstallerDefinition c = .ok d'.toVal ∧ DWF d' ∧
      (∀ inst ρ, Offers d' dflt inst ρ ↔ Offers d dflt inst ρ) ∧
      ((dflt = none ∨ dflt = some "") → dget d' "default_installer" = dget d "default_installer") := by
  obtain ⟨hn, he, _⟩ := compactInst_ok hd h
  refine ⟨_, he, (reInst_good hd).nodup, offers_reInst hn, fun ht => dgetD_reInst hn ?_⟩
  rcases ht with rfl | rfl <;> rfl

example : compactInstallerDict [("default_installer", [("packages", .list [.str "a"])]), ("pip", [("packages", .list [.str "b"])])]
    (some "apt") = .ok (.dict [(.str "pip", .list [.str "b"]), (.str "apt", .list [.str "a"])]) := by rfl
example : compactInstallerDict [("default_installer", [("packages", .list [.str "a"])]), ("apt", [("packages", .list [.str "b"])])]
    (some "apt") = .error .valueError := by rfl
example : GoodInst [("default_installer", [("packages", .list [.str "a"])])] := by
  have := goodPkg (l := [.str "a"]) ⟨by decide, by simp [pkgRule, dget], by simp [pkgRule, dget], by
    intro k p h; simp only [pkgRule, dget] at h; split at h
    · injection h with h; subst h; simp [PVal.WF, PVal.WFList]
    · simp at h⟩ "default_installer"
  exact this

/-! ## C14 -/

theorem offers_unique' {d : InstDict} {dflt : Option String} (hu : ¬ Clash dflt d)
    {inst : String} {r r' : Rule} (h : Offers d dflt inst r) (h' : Offers d dflt inst r') : r = r' := by
  have cl : inst ≠ "" → dflt = some inst → ∀ x y, dget d "default_installer" = some x → dget d inst = some y → False :=
    fun h1 h2 x y h3 h4 => hu ⟨inst, truthy_eq_some.2 ⟨h2, h1⟩, by simp [h3], by simp [h4]⟩
  rcases h with ⟨h1, h2⟩ | ⟨h1, h2, h3⟩ <;> rcases h' with ⟨h1', h2'⟩ | ⟨h1', h2', h3'⟩
  · simp_all
  · exact (cl h1' h2' _ _ h3' h2).elim
  · exact (cl h1 h2 _ _ h3 h2').elim
  · simp_all

/-- Results for one installer agree. -/
def RuleRel (a b : Option Rule) : Prop :=
  (a = none ∧ b = none) ∨ ∃ ρ ρ' : Rule, a = some ρ ∧ b = some ρ' ∧ pyEq ρ.toVal ρ'.toVal = true

theorem RuleRel.or {a b a' b' : Option Rule} (h : RuleRel a b) (h' : RuleRel a' b') : RuleRel (a.or a') (b.or b') := by
  rcases h with ⟨rfl, rfl⟩ | ⟨ρ, ρ', rfl, rfl, hp⟩
  · simpa using h'
  · right; exact ⟨ρ, ρ', rfl, rfl, hp⟩

theorem effLast_rel {dflt : Option String} {i i' : InstDict} (hi : DWF i) (hi' : DWF i') (hc : ¬ Clash dflt i)
    (hc' : ¬ Clash dflt i') (h : SameOffers dflt i i') (inst : String) :
    RuleRel (effLast dflt inst i) (effLast dflt inst i') := by
  rcases h.offers inst with ⟨h1, h2⟩ | ⟨ρ, ρ', h1, h2, hp⟩
  · left
    rw [offersSome_iff hi] at h1
    rw [offersSome_iff hi'] at h2
    exact ⟨by simpa using h1, by simpa using h2⟩
  · right
    obtain ⟨σ, hs⟩ := Option.isSome_iff_exists.1 ((offersSome_iff hi).1 ⟨ρ, h1⟩)
    obtain ⟨σ', hs'⟩ := Option.isSome_iff_exists.1 ((offersSome_iff hi').1 ⟨ρ', h2⟩)
    have e1 := offers_unique' hc h1 (effLast_offers hi hs)
    have e2 := offers_unique' hc' h2 (effLast_offers hi' hs')
    subst e1; subst e2
    exact ⟨_, _, hs, hs', hp⟩

theorem entryAt_DWF {r : Rules} (hr : GoodRules r) (key os ver : String) : DWF (entryAt r key os ver) := by
  unfold entryAt
  split
  · simp
  · rename_i od h; split
    · simp
    · rename_i vd h2; split
      · simp
      · rename_i i h3; exact (((hr.oss _ _ h).vers _ _ h2).insts _ _ h3).nodup

/-- The entries consulted by a lookup, before and after compacting and expanding. -/
theorem compact_facts {r : Rules} (hr : GoodRules r) {dflts : Dict String (Option String)} {c : PVal}
    (hc : compactRules r dflts = .ok c) (key os ver : String) (ho : os ≠ "any_os") {dflt : Option String} (hdf : (dget dflts os).getD none = dflt) :
    entryAt (reRules dflts r) key "any_os" "any_version" = entryAt r key "any_os" "any_version" ∧
      dget (entryAt r key "any_os" "any_version") "default_installer" = none ∧
      (∀ v, ¬ Clash dflt (entryAt r key os v)) ∧ (∀ v, ¬ Clash dflt (entryAt (reRules dflts r) key os v)) ∧
      SameOffers dflt (entryAt r key os "any_version") (entryAt (reRules dflts r) key os "any_version") ∧
      (SameOffers dflt (entryAt r key os ver) (entryAt (reRules dflts r) key os ver) ∨
       (entryAt (reRules dflts r) key os ver = [] ∧
         SameOffers dflt (entryAt r key os ver) (entryAt (reRules dflts r) key os "any_version"))) := by
  obtain ⟨h1, -⟩ := (compactRules_iff hr.nodup).1 hc
  have hd' : dget (reRules dflts r) key = (dget r key).map (reOs dflts) := dget_mapk (fun _ od => reOs dflts od) r key
  have clnil : ¬ Clash dflt [] := by rintro ⟨n, _, h, _⟩; simp [dget] at h
  simp only [entryAt_eq]
  rw [hd']
  cases hk : dget r key with
  | none => exact ⟨rfl, rfl, fun _ => clnil, fun _ => clnil, sameOffers_nil _, .inl (sameOffers_nil _)⟩
  | some od =>
    simp only [Option.map_some, Option.getD_some]
    have go := hr.oss _ _ hk
    obtain ⟨h2, -⟩ := (compactOs_iff go.nodup).1 (h1 _ _ hk)
    have ho' : ∀ o, dget (reOs dflts od) o = (dget od o).map (reOsEntry dflts o) := fun o => dget_mapk _ od o
    rw [ho', ho']
    have A : (dget ((Option.map (reOsEntry dflts "any_os") (dget od "any_os")).getD []) "any_version").getD [] =
        (dget ((dget od "any_os").getD []) "any_version").getD [] := by
      cases dget od "any_os" <;> simp [reOsEntry]
    have B : dget ((dget ((dget od "any_os").getD []) "any_version").getD []) "default_installer" = none := by
      cases hao : dget od "any_os" with
      | none => rfl
      | some vd =>
        obtain ⟨i, rfl, hD, _⟩ := go.anyOs _ hao
        simpa [dget] using hD
    refine ⟨A, B, ?_⟩
    cases hv : dget od os with
    | none => exact ⟨fun _ => clnil, fun _ => clnil, sameOffers_nil _, .inl (sameOffers_nil _)⟩
    | some vd =>
      simp only [Option.map_some, Option.getD_some, reOsEntry, if_neg ho, dfltOf, hdf]
      have gv := go.vers _ _ hv
      have hcv := h2 _ _ hv
      simp only [compactOsEntry, if_neg ho, hdf] at hcv
      obtain ⟨h3, -⟩ := (compactVer_iff gv.nodup).1 hcv
      have ncl : ∀ k i, dget vd k = some i → ¬ Clash dflt i := fun k i hi => (compactInst_ok (gv.insts _ _ hi) (h3 _ _ hi)).1
      refine ⟨?_, ?_, ?_, ?_⟩
      · intro v
        cases hi : dget vd v with
        | none => exact clnil
        | some i => exact ncl _ _ hi
      · intro v
        unfold reVer
        rw [dget_vmap, dget_keptVer gv.nodup]
        cases hi : (if v = "any_version" then dget vd "any_version" else
            (dget vd v).filter (fun i => keepV dflt ((dget vd "any_version").map (cVal dflt)) (v, i))) with
        | none => exact clnil
        | some i =>
          have : ∃ k, dget vd k = some i := by
            split at hi
            · exact ⟨_, hi⟩
            · exact ⟨_, (Option.filter_eq_some_iff.1 hi).1⟩
          obtain ⟨k, hk⟩ := this
          exact (renameD_reInst (ncl _ _ hk)).1
      · rcases reVer_dget gv h3 "any_version" with h | ⟨h, i, a, h4, h5, h6⟩
        · exact h
        · unfold reVer at h
          rw [dget_vmap, dget_keptVer gv.nodup, if_pos rfl, h4] at h
          simp at h
      · rcases reVer_dget gv h3 ver with h | ⟨h, i, a, h4, h5, h6⟩
        · exact .inl h
        · right
          have : dget (reVer dflt vd) "any_version" = some (reInst dflt a) := by
            unfold reVer; rw [dget_vmap, dget_keptVer gv.nodup, if_pos rfl, h5]; rfl
          rw [h, this, h4]
          exact ⟨rfl, h6⟩

/-- **C14** Compacting normal-form rules (`GoodRules`; `loaded_is_good` shows that everything that is loaded is) and
expanding the result again succeeds, and every lookup on the new rules — for any key, any real os and version, with the
os's default installer from the table — agrees with the lookup on the original rules. -/
theorem C14_compaction_preserves_lookup (r : Rules) (hr : GoodRules r) (dflts : Dict String (Option String)) (c : PVal)
    (hc : compactRules r dflts = .ok c) :
    ∃ r' : Rules, expandRules c = .ok r'.toVal ∧ ∀ key os ver, os ≠ "any_os" →
      SameLookup (lookupRules r key os ver ((dget dflts os).getD none))
                 (lookupRules r' key os ver ((dget dflts os).getD none)) := by
  refine ⟨reRules dflts r, expand_rules hr hc, ?_⟩
  intro key os ver ho
  generalize hdf : (dget dflts os).getD none = dflt
  -- facts about the three entries
  have wf : ∀ (r : Rules), GoodRules r → ∀ os ver, DWF (entryAt r key os ver) := fun r hr os ver => entryAt_DWF hr key os ver
  obtain ⟨f1, f2, f3, f4, f5, f6⟩ := compact_facts hr hc key os ver ho hdf
  have gr := reRules_good (dflts := dflts) hr
  -- success
  have hok : (∃ res, lookupRules r key os ver dflt = .ok res) ↔ ∃ res, lookupRules (reRules dflts r) key os ver dflt = .ok res := by
    rw [lookupRules_ok_iff, lookupRules_ok_iff]
    by_cases ht : ∃ s, dflt = some s ∧ s ≠ ""
    · simp [ht]
    · have ht' : truthy dflt = none := by
        cases hh : truthy dflt with
        | none => rfl
        | some s => exact absurd ⟨s, truthy_eq_some.1 hh⟩ ht
      simp only [consulted, List.mem_cons, List.not_mem_nil, or_false, forall_eq_or_imp, forall_eq, f1]
      have k5 := f5.dkey ht'
      simp only [ht, imp_false, mem_dkeys_iff, Option.isSome_iff_exists]
      rcases f6 with f6 | ⟨f6, f7⟩
      · have k6 := f6.dkey ht'; rw [k5, k6]
      · have k7 := f7.dkey ht'; rw [k5, k7, f6]; simp [dget]
  cases hl : lookupRules r key os ver dflt with
  | error e =>
    cases hl' : lookupRules (reRules dflts r) key os ver dflt with
    | error e' => exact .fails _ _
    | ok d' => rw [hl, hl'] at hok; simp at hok
  | ok d =>
    cases hl' : lookupRules (reRules dflts r) key os ver dflt with
    | error e' => rw [hl, hl'] at hok; simp at hok
    | ok d' =>
      refine .ok _ _ fun inst => ?_
      rw [lookupRules_dget hl, lookupRules_dget hl', f1]
      have r3 : RuleRel (effLast dflt inst (entryAt r key "any_os" "any_version"))
          (effLast dflt inst (entryAt r key "any_os" "any_version")) := by
        cases he : effLast dflt inst (entryAt r key "any_os" "any_version") with
        | none => exact .inl ⟨rfl, rfl⟩
        | some ρ =>
          refine .inr ⟨ρ, ρ, rfl, rfl, pyEq_refl _ ?_⟩
          obtain ⟨n, hn, _⟩ := effLast_some_mem he
          have hg : dget (entryAt r key "any_os" "any_version") n = some ρ := mem_dget (wf r hr _ _) hn
          unfold entryAt at hg
          split at hg
          · simp at hg
          · rename_i od h; split at hg
            · simp at hg
            · rename_i vd h2; split at hg
              · simp at hg
              · rename_i i h3; exact ((((hr.oss _ _ h).vers _ _ h2).insts _ _ h3).rules _ _ hg).wf
      have r2 := effLast_rel (wf r hr _ _) (wf _ gr _ _) (f3 _) (f4 _) f5 inst
      rcases f6 with f6 | ⟨f6, f7⟩
      · have r1 := effLast_rel (wf r hr _ _) (wf _ gr _ _) (f3 _) (f4 _) f6 inst
        exact r1.or (r2.or r3)
      · have r1 := effLast_rel (wf r hr _ _) (wf _ gr _ _) (f3 _) (f4 _) f7 inst
        rw [f6]
        simp only [effLast, Option.none_or]
        rcases r1 with ⟨h1, h2⟩ | ⟨ρ, ρ', h1, h2, hp⟩
        · rw [h1, Option.none_or]; exact r2.or r3
        · rw [h1, h2]; exact .inr ⟨ρ, ρ', rfl, rfl, hp⟩

/-! ## C15 -/

/-- Rules with a version equal to `any_version`. -/
def exDrop : Rules := [("foo", [("ubuntu", [
  ("any_version", [("apt", [("packages", .list [.str "x"])])]),
  ("lucid", [("apt", [("packages", .list [.str "x"])])])])])]
/-- A table of default installers. -/
def exDflts : Dict String (Option String) := [("ubuntu", some "apt")]

/-- **C15** (refuted) A second round of compaction can still shrink the file. -/
theorem C15_second_round_shrinks : ∃ (v : PVal) (r r' : Rules) (dflts : Dict String (Option String)) (c c' : PVal),
    v.WF ∧ loadRulesData (fun _ => false) v = .ok r.toVal ∧
    compactRules r dflts = .ok c ∧ expandRules c = .ok r'.toVal ∧ compactRules r' dflts = .ok c' ∧ c ≠ c' := by
  refine ⟨exDrop.toVal, exDrop,
    [("foo", [("ubuntu", [("any_version", [("default_installer", [("packages", .list [.str "x"])])])])])], exDflts,
    .dict [(.str "foo", .dict [(.str "ubuntu", .dict [(.str "any_version", .list [.str "x"])])])],
    .dict [(.str "foo", .dict [(.str "ubuntu", .list [.str "x"])])], ?_, rfl, rfl, rfl, rfl, ?_⟩
  · simp [exDrop, Rules.toVal, OsDict.toVal, VerDict.toVal, InstDict.toVal, Rule.toVal, dictVal, PVal.WF, PVal.WFItems, PVal.WFList]
  · simp

theorem cVal_reInst {dflt : Option String} {i : InstDict} (hi : GoodInst i)
    (h : compactInstallerDict i dflt = .ok (cVal dflt i)) : cVal dflt (reInst dflt i) = cVal dflt i := by
  have := compactInst_reInst hi h
  conv_lhs => unfold cVal
  rw [this]

theorem keptVer_reVer {dflt : Option String} {vd : VerDict} (hv : GoodVer vd)
    (hc : ∀ k i, dget vd k = some i → compactInstallerDict i dflt = .ok (cVal dflt i)) :
    keptVer dflt (reVer dflt vd) = reVer dflt vd := by
  have cv : ∀ k i, dget vd k = some i → cVal dflt (reInst dflt i) = cVal dflt i := fun k i hi =>
    cVal_reInst (hv.insts _ _ hi) (hc _ _ hi)
  have hda : dget (reVer dflt vd) "any_version" = (dget vd "any_version").map (reInst dflt) := by
    unfold reVer; rw [dget_vmap, dget_keptVer hv.nodup, if_pos rfl]
  have filt : ∀ (anyV : Option PVal) (l : VerDict), (∀ x ∈ l, x ∈ vd) → (∀ x ∈ l, keepV dflt anyV x = true) →
      (vmap (reInst dflt) l).filter (keepV dflt anyV) = vmap (reInst dflt) l := by
    intro anyV l hl hk
    rw [List.filter_eq_self]
    intro x hx
    obtain ⟨y, hy, rfl⟩ := List.mem_map.1 hx
    have := hk y hy
    unfold keepV at this ⊢
    simp only [cv y.1 y.2 (mem_dget hv.nodup (hl y hy))]
    exact this
  conv_lhs => unfold keptVer
  rw [hda]
  cases ha : dget vd "any_version" with
  | none =>
    simp only [Option.map_none]
    unfold reVer keptVer
    rw [ha]
    exact filt none _ (fun x hx => (List.mem_filter.1 hx).1) (fun x hx => (List.mem_filter.1 hx).2)
  | some av =>
    simp only [Option.map_some, cv _ _ ha]
    unfold reVer keptVer
    rw [ha]
    simp only [vmap, List.map_cons]
    rw [List.filter_cons_of_neg (by simp [keepV])]
    congr 1
    exact filt (some (cVal dflt av)) _ (fun x hx => (List.mem_filter.1 hx).1) (fun x hx => (List.mem_filter.1 hx).2)

theorem verOut_reVer {dflt : Option String} {vd : VerDict} (hv : GoodVer vd)
    (hc : ∀ k i, dget vd k = some i → compactInstallerDict i dflt = .ok (cVal dflt i)) :
    verOut dflt (reVer dflt vd) =
      match dget vd "any_version" with
      | some av => if (keptVer dflt vd).length = 1 ∧ ¬ (cVal dflt av).isDict then cVal dflt av else dictVal (cVal dflt) (keptVer dflt vd)
      | none => dictVal (cVal dflt) (keptVer dflt vd) := by
  have cv : ∀ k i, dget vd k = some i → cVal dflt (reInst dflt i) = cVal dflt i := fun k i hi =>
    cVal_reInst (hv.insts _ _ hi) (hc _ _ hi)
  have hda : dget (reVer dflt vd) "any_version" = (dget vd "any_version").map (reInst dflt) := by
    unfold reVer; rw [dget_vmap, dget_keptVer hv.nodup, if_pos rfl]
  have hdv : dictVal (cVal dflt) (reVer dflt vd) = dictVal (cVal dflt) (keptVer dflt vd) := by
    unfold reVer; rw [dictVal_vmap]
    unfold dictVal
    congr 1
    apply List.map_congr_left
    intro x hx
    have : dget (keptVer dflt vd) x.1 = some x.2 := mem_dget (keptVer_DWF hv.nodup) hx
    rw [dget_keptVer hv.nodup] at this
    split at this
    · simp only [cv _ _ this]
    · simp only [cv _ _ (Option.filter_eq_some_iff.1 this).1]
  unfold verOut
  rw [hda, keptVer_reVer hv hc, hdv]
  have hl : (reVer dflt vd).length = (keptVer dflt vd).length := vmap_length _ _
  rw [hl]
  cases ha : dget vd "any_version" with
  | none => rfl
  | some av => simp only [Option.map_some, cv _ _ ha]

theorem hc_reVer {dflt : Option String} {vd : VerDict} (hv : GoodVer vd)
    (hc : ∀ k i, dget vd k = some i → compactInstallerDict i dflt = .ok (cVal dflt i)) :
    ∀ k i, dget (reVer dflt vd) k = some i → compactInstallerDict i dflt = .ok (cVal dflt i) := by
  intro k i hi
  unfold reVer at hi
  rw [dget_vmap, dget_keptVer hv.nodup] at hi
  obtain ⟨j, hj, rfl⟩ := Option.map_eq_some_iff.1 hi
  have : ∃ k, dget vd k = some j := by
    split at hj
    · exact ⟨_, hj⟩
    · exact ⟨_, (Option.filter_eq_some_iff.1 hj).1⟩
  obtain ⟨k, hk⟩ := this
  rw [cVal_reInst (hv.insts _ _ hk) (hc _ _ hk)]
  exact compactInst_reInst (hv.insts _ _ hk) (hc _ _ hk)

/-- Compaction of an entry after re-expansion. -/
theorem osEntry_again {dflts : Dict String (Option String)} {od : OsDict} (h : GoodOs od) {os : String} {vd : VerDict}
    (hv : dget od os = some vd) {c : PVal} (hc : compactOsEntry dflts os vd = .ok c) :
    ∃ c', compactOsEntry dflts os (reOsEntry dflts os vd) = .ok c' ∧
      (os = "any_os" ∨ (keptVer (dfltOf dflts os) vd).length = 1 ∧ vd.length ≠ 1 ∨ c' = c) := by
  unfold compactOsEntry at hc
  by_cases ho : os = "any_os"
  · rw [if_pos ho] at hc
    refine ⟨c, ?_, .inl ho⟩
    unfold compactOsEntry reOsEntry
    rw [if_pos ho, if_pos ho]; exact hc
  · rw [if_neg ho] at hc
    have gv := h.vers _ _ hv
    obtain ⟨h1, rfl⟩ := (compactVer_iff gv.nodup).1 hc
    refine ⟨verOut (dfltOf dflts os) (reVer (dfltOf dflts os) vd), ?_, ?_⟩
    · unfold compactOsEntry reOsEntry
      rw [if_neg ho, if_neg ho]
      exact (compactVer_iff (reVer_good gv).nodup).2 ⟨hc_reVer gv h1, rfl⟩
    · right
      have := verOut_reVer gv h1
      change verOut (dfltOf dflts os) (reVer (dfltOf dflts os) vd) = _ at this
      rw [this]
      by_cases hx : (keptVer (dfltOf dflts os) vd).length = 1 ∧ vd.length ≠ 1
      · exact .inl hx
      · right
        change _ = verOut (dfltOf dflts os) vd
        unfold verOut
        cases ha : dget vd "any_version" with
        | none => rfl
        | some av =>
          simp only
          have : (keptVer (dfltOf dflts os) vd).length = 1 ↔ vd.length = 1 := by
            constructor
            · intro hk; by_contra hne; exact hx ⟨hk, hne⟩
            · intro hl; rw [single_key ha hl]; simp [keptVer, dget, keepV]
          have this2 : (keptVer ((dget dflts os).getD none) vd).length = 1 ↔ vd.length = 1 := this
          simp only [this2]; rfl

/-- No version entry is compacted to the same text as the `any_version` entry of its os. -/
def NoRedundantVersion (dflts : Dict String (Option String)) (r : Rules) : Prop :=
  ∀ key od os vd ver i a x y, dget r key = some od → dget od os = some vd → os ≠ "any_os" →
    dget vd ver = some i → dget vd "any_version" = some a → ver ≠ "any_version" →
    compactInstallerDict i ((dget dflts os).getD none) = .ok x →
    compactInstallerDict a ((dget dflts os).getD none) = .ok y → pyEq x y = false

theorem rules_again {dflts : Dict String (Option String)} {r : Rules} (hr : GoodRules r) {c : PVal}
    (hc : compactRules r dflts = .ok c)
    (hlen : ∀ key od os vd, dget r key = some od → dget od os = some vd → os ≠ "any_os" →
      ¬ ((keptVer (dfltOf dflts os) vd).length = 1 ∧ vd.length ≠ 1)) :
    compactRules (reRules dflts r) dflts = .ok c := by
  obtain ⟨h1, rfl⟩ := (compactRules_iff hr.nodup).1 hc
  have key : ∀ k od, dget r k = some od → compactOsDict (reOs dflts od) dflts = compactOsDict od dflts := by
    intro k od hk
    have go := hr.oss _ _ hk
    obtain ⟨h2, h3⟩ := (compactOs_iff go.nodup).1 (h1 _ _ hk)
    have ent : ∀ os vd, dget od os = some vd → compactOsEntry dflts os (reOsEntry dflts os vd) = compactOsEntry dflts os vd := by
      intro os vd hv
      obtain ⟨c', hc', h4⟩ := osEntry_again go hv (h2 _ _ hv)
      by_cases ho : os = "any_os"
      · unfold reOsEntry; rw [if_pos ho]
      · rcases h4 with h4 | h4 | h4
        · exact absurd h4 ho
        · exact absurd h4 (hlen _ _ _ _ hk hv ho)
        · rw [hc', h4, ← h2 _ _ hv]
    rw [h1 _ _ hk]
    refine (compactOs_iff (reOs_good go).nodup).2 ⟨?_, ?_⟩
    · intro os vd' hv'
      unfold reOs at hv'
      rw [dget_mapk] at hv'
      obtain ⟨vd, hv, rfl⟩ := Option.map_eq_some_iff.1 hv'
      rw [ent _ _ hv]; exact h2 _ _ hv
    · rw [h3]
      congr 1
      unfold reOs
      rw [List.map_map]
      apply List.map_congr_left
      intro x hx
      simp only [Function.comp_apply, ent x.1 x.2 (mem_dget go.nodup hx)]
  refine (compactRules_iff (reRules_good hr).nodup).2 ⟨?_, ?_⟩
  · intro k od' hk'
    unfold reRules at hk'
    rw [dget_mapk (fun _ od => reOs dflts od)] at hk'
    obtain ⟨od, hk, rfl⟩ := Option.map_eq_some_iff.1 hk'
    rw [key _ _ hk]; exact h1 _ _ hk
  · congr 1
    unfold reRules
    rw [List.map_map]
    apply List.map_congr_left
    intro x hx
    simp only [Function.comp_apply, key x.1 x.2 (mem_dget hr.nodup hx)]

/-- **C15** (what holds, 1) If no version entry equals its `any_version` entry after compaction, compacting, expanding and
compacting again gives literally the same file. -/
theorem C15_fixed_point_partial (r : Rules) (hr : GoodRules r) (dflts : Dict String (Option String)) (c : PVal)
    (hn : NoRedundantVersion dflts r) (hc : compactRules r dflts = .ok c) :
    ∃ r' : Rules, expandRules c = .ok r'.toVal ∧ compactRules r' dflts = .ok c := by
  refine ⟨_, expand_rules hr hc, rules_again hr hc ?_⟩
  rintro key od os vd hk hv ho ⟨h1, h2⟩
  obtain ⟨h3, -⟩ := (compactRules_iff hr.nodup).1 hc
  have go := hr.oss _ _ hk
  obtain ⟨h4, -⟩ := (compactOs_iff go.nodup).1 (h3 _ _ hk)
  have h5 := h4 _ _ hv
  unfold compactOsEntry at h5
  rw [if_neg ho] at h5
  have gv := go.vers _ _ hv
  obtain ⟨h6, -⟩ := (compactVer_iff gv.nodup).1 h5
  -- every version of vd is kept, so the lengths agree
  have hkeep : ∀ k, (dget vd k).isSome → (dget (keptVer (dfltOf dflts os) vd) k).isSome := by
    intro k hkk
    rw [dget_keptVer gv.nodup]
    split
    · rename_i h; rw [← h]; exact hkk
    · rename_i hne
      obtain ⟨i, hi⟩ := Option.isSome_iff_exists.1 hkk
      rw [hi, Option.filter_some]
      have : keepV (dfltOf dflts os) ((dget vd "any_version").map (cVal (dfltOf dflts os))) (k, i) = true := by
        unfold keepV
        cases ha : dget vd "any_version" with
        | none => simp [hne]
        | some a =>
          have := hn key od os vd k i a _ _ hk hv ho hi ha hne (h6 _ _ hi) (h6 _ _ ha)
          simp only [Option.map_some, hne, ne_eq, not_false_eq_true, decide_true, Bool.true_and]
          change (!pyEq (cVal ((dget dflts os).getD none) i) (cVal ((dget dflts os).getD none) a)) = true
          rw [this]; rfl
      rw [if_pos this]; rfl
  have hsub : dkeys vd ⊆ dkeys (keptVer (dfltOf dflts os) vd) := fun a ha => mem_dkeys_iff.2 (hkeep a (mem_dkeys_iff.1 ha))
  have hle := (List.Nodup.subperm gv.nodup hsub).length_le
  have e1 : (dkeys vd).length = vd.length := by simp [dkeys]
  have e2 : (dkeys (keptVer (dfltOf dflts os) vd)).length = (keptVer (dfltOf dflts os) vd).length := by simp [dkeys]
  rw [e1, e2, h1] at hle
  have : vd.length = 0 := by omega
  have hnil : vd = [] := List.length_eq_zero_iff.1 this
  rw [hnil] at h1
  simp [keptVer, dget] at h1

/-- **C15** (what holds, 2) Without any assumption, the *second* compaction is a fixed point: one more round of expanding
and compacting gives literally the same file. -/
theorem C15_second_round_is_fixed (r : Rules) (hr : GoodRules r) (dflts : Dict String (Option String)) (c : PVal)
    (hc : compactRules r dflts = .ok c) :
    ∃ (r' r'' : Rules) (c' : PVal), expandRules c = .ok r'.toVal ∧ compactRules r' dflts = .ok c' ∧
      expandRules c' = .ok r''.toVal ∧ compactRules r'' dflts = .ok c' := by
  obtain ⟨h1, -⟩ := (compactRules_iff hr.nodup).1 hc
  have g' := reRules_good (dflts := dflts) hr
  have hs : ∃ c', compactRules (reRules dflts r) dflts = .ok c' := by
    refine ⟨_, (compactRules_iff g'.nodup).2 ⟨?_, rfl⟩⟩
    intro k od' hk'
    unfold reRules at hk'
    rw [dget_mapk (fun _ od => reOs dflts od)] at hk'
    obtain ⟨od, hk, rfl⟩ := Option.map_eq_some_iff.1 hk'
    have go := hr.oss _ _ hk
    obtain ⟨h2, -⟩ := (compactOs_iff go.nodup).1 (h1 _ _ hk)
    have : ∃ x, compactOsDict (reOs dflts od) dflts = .ok x := by
      refine ⟨_, (compactOs_iff (reOs_good go).nodup).2 ⟨?_, rfl⟩⟩
      intro os vd' hv'
      unfold reOs at hv'
      rw [dget_mapk] at hv'
      obtain ⟨vd, hv, rfl⟩ := Option.map_eq_some_iff.1 hv'
      obtain ⟨c', hc', _⟩ := osEntry_again go hv (h2 _ _ hv)
      rw [hc']; rfl
    obtain ⟨x, hx⟩ := this
    rw [hx]; rfl
  obtain ⟨c', hc'⟩ := hs
  refine ⟨_, _, c', expand_rules hr hc, hc', expand_rules g' hc', rules_again g' hc' ?_⟩
  rintro key od' os vd' hk' hv' ho ⟨hl1, hl2⟩
  unfold reRules at hk'
  rw [dget_mapk (fun _ od => reOs dflts od)] at hk'
  obtain ⟨od, hk, rfl⟩ := Option.map_eq_some_iff.1 hk'
  unfold reOs at hv'
  rw [dget_mapk] at hv'
  obtain ⟨vd, hv, rfl⟩ := Option.map_eq_some_iff.1 hv'
  have go := hr.oss _ _ hk
  obtain ⟨h2, -⟩ := (compactOs_iff go.nodup).1 (h1 _ _ hk)
  have h5 := h2 _ _ hv
  unfold compactOsEntry at h5
  rw [if_neg ho] at h5
  obtain ⟨h6, -⟩ := (compactVer_iff (go.vers _ _ hv).nodup).1 h5
  unfold reOsEntry at hl1 hl2
  rw [if_neg ho] at hl1 hl2
  have h7 : keptVer (dfltOf dflts os) (reVer (dfltOf dflts os) vd) = reVer (dfltOf dflts os) vd :=
    keptVer_reVer (go.vers _ _ hv) h6
  rw [h7] at hl1
  exact hl2 hl1

/-- Non-vacuity: the witness of `C15_second_round_shrinks` is loadable data, hence in normal form. -/
theorem exDrop_good : GoodRules exDrop := by
  refine loaded_is_good (uni := fun _ => false) (v := exDrop.toVal) ?_ ?_
  · simp [exDrop, Rules.toVal, OsDict.toVal, VerDict.toVal, InstDict.toVal, Rule.toVal, dictVal, PVal.WF, PVal.WFItems, PVal.WFList]
  · rfl
example : ∃ c, compactRules exDrop exDflts = .ok c := ⟨_, rfl⟩
example : compactRules exRules exDflts = .ok (.dict [(.str "boost", .dict [
    (.str "any_os", .dict [(.str "pip", .list [.str "pyboost"])]),
    (.str "ubuntu", .dict [(.str "any_version", .list [.str "libboost"]), (.str "lucid", .list [.str "libboost1.40"])])])]) := by rfl

end Verif
