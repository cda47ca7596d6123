import Verif.Props.Aliases
import Verif.Props.Compact
import Verif.Lemmas.HeapCompact2
import Verif.Props.Verify
import Verif.Lemmas.Database
/-!
# C93: compaction of rules files with YAML aliases
-/
namespace Verif

/-- No two keys of the rules file have the same os dict (the same object, by an alias). -/
def OsDictsApart (h : Heap) (root : HVal) : Prop :=
  ∀ a d k1 k2 b, root = .ref a → h[a]? = some (.dict d) → dget d k1 = some (.ref b) → dget d k2 = some (.ref b) → k1 = k2

/-- What `_compact_rules_file` makes of a parsed rules file seen as a tree. -/
def compactTree (uni : Char → Bool) (dflts : Dict String (Option String)) (t : PVal) : Except Exc PVal := do
  let v ← loadRulesData uni t
  match rulesOfVal v with
  | some r => compactRules r dflts
  | none => throw .attributeError

theorem verify_c {uni : Char → Bool} {h : Heap} {v : HVal} {t : PVal} (ht : WritesOut h v t) :
    hVerify uni v h = hlift (verifyRulesDict uni true t) h := by
  unfold hVerify
  have hx : ∃ t, WritesOut h v t := ⟨t, ht⟩
  rw [dif_pos hx, ← TreeAt_det v _ _ ht (Classical.choose_spec hx)]

theorem Lev_outP {S : HSt} : ∀ (m : Nat) (k : PKey) (v : HVal) (t : PVal), Lev S m k v t → TreeAt S.h (fun a => S.lv a ≤ m) v t := by
  intro m
  induction m with
  | zero => intro k v t ht; exact TreeAt_mono (fun a o hl ho => ⟨by omega, ho⟩) v t ht
  | succ m ih =>
    intro k v t ht
    by_cases hc : m = 2 ∧ k = .str "any_os" ∧ instLike t = true
    · obtain ⟨rfl, rfl, hi⟩ := hc
      rw [Lev_anyos hi] at ht
      exact TreeAt_mono (fun a o hl ho => ⟨by omega, ho⟩) v t (ih _ _ _ ht)
    · rw [Lev_pos hc] at ht
      have h0 : ∀ v t, TreeAt S.h (fun a => S.lv a = 0) v t → TreeAt S.h (fun a => S.lv a ≤ m + 1) v t :=
        fun v t => TreeAt_mono (fun a o hl ho => ⟨by omega, ho⟩) v t
      cases t with
      | dict e =>
        obtain ⟨a, d, rfl, hl, hg, hi⟩ := ht
        simp only [TreeAt]
        refine ⟨a, d, rfl, by omega, hg, ItemsAt_iff.2 ?_⟩
        exact Items_mono hi fun k v t _ _ hh => TreeAt_mono (fun a o hl ho => ⟨by omega, ho⟩) v t (ih k v t hh)
      | _ => exact h0 _ _ ht

/-- The os dicts of the expanded file. -/
theorem restIs_of {S : HSt} (hS : S.h.WF) {root : Nat} (hroot : S.lv root = 5) : ∀ (rules : Rules) (d : Dict PKey HVal),
    Items (Lev S 4) d (sk (rules.map fun kv => (kv.1, OsDict.toVal kv.2))) →
    RestIs S.h (fun b => S.h.length ≤ b ∨ S.lv b ≤ 3) root d rules := by
  intro rules
  induction rules with
  | nil => intro d hi; cases hi; exact .nil
  | cons x rules ih =>
    intro d hi
    obtain ⟨k, od⟩ := x
    cases hi with
    | @cons y _ d _ h1 h2 =>
      obtain ⟨k', v⟩ := y
      simp only at h1
      obtain ⟨rfl, h1⟩ := h1
      refine .cons ⟨rfl, ?_⟩ (ih d h2)
      rw [Lev_pos (by simp), OsDict.toVal, dictVal_sk] at h1
      obtain ⟨a, da, rfl, hl, hg, hit⟩ := h1
      have hlt := lt_of_get hg
      refine ⟨a, da, rfl, by omega, fun e => by subst e; omega, hg, hS a da hg, ?_⟩
      exact Items_mono hit fun k v t _ _ hh => TreeAt_mono (fun b o hb ho => ⟨.inr hb, ho⟩) v t (Lev_outP 3 k v t hh)

theorem compactTree_eq (uni : Char → Bool) (dflts : Dict String (Option String)) (t : PVal) :
    compactTree uni dflts t = match expandRules t with
      | .error e => .error e
      | .ok t' => match verifyRulesDict uni true t' with
        | .error e => .error e
        | .ok () => match rulesOfVal t' with
          | some r => compactRules r dflts
          | none => .error .attributeError := by
  unfold compactTree loadRulesData
  cases expandRules t with
  | error e => rfl
  | ok t' =>
    simp only [bind, Except.bind, pure, Except.pure]
    cases verifyRulesDict uni true t' <;> rfl

/-- C93 (partial): a rules file in which no dict stands in two roles and no two keys share their os dict is compacted as if every alias were
written out: the same exception, or a result that written out is the compacted written out file. (Missing: shared os dicts, see
`C93_shared_os_dict_refuted`.) -/
theorem C93_compaction_written_out_partial (uni : Char → Bool) (dflts : Dict String (Option String)) (h : Heap) (root : HVal) (t : PVal)
    (hw : h.WF) (ho : WritesOut h root t) (hr : OneRole h root) (ha : OsDictsApart h root) :
    (∀ x, compactTree uni dflts t = .error x → hCompactFile uni dflts root h = .error x) ∧
    (∀ c, compactTree uni dflts t = .ok c → ∃ v' h', hCompactFile uni dflts root h = .ok (v', h') ∧ WritesOut h' v' c) := by
  rw [compactTree_eq]
  have hp : Plays h root (roleUnder h 5 .none root) root := by
    rw [show roleUnder h 5 .none root = 5 by simp [roleUnder]]; exact .root
  have hlev := plays_Lev hr 5 .none root t ho hp
  have hsim := rules_sim (S := ⟨h, roleLevel h root⟩) hw hlev
  cases hx : expandRules t with
  | error e =>
    refine ⟨fun x hxx => ?_, fun c hc => by simp at hc⟩
    simp only [Except.error.injEq] at hxx
    subst hxx
    unfold hCompactFile
    exact hm_bind_err (hsim.1 _ hx)
  | ok t' =>
    simp only
    -- the expanded file
    have key : ∃ (r : Nat) (S' : HSt) (d : Dict PKey HVal) (e' : Dict PKey PVal), hExpandRules root h = .ok (.ref r, S'.h) ∧ S'.h.WF ∧ t' = .dict e' ∧
        DictIs S' 4 r d e' ∧ (∀ k1 k2 b, dget d k1 = some (.ref b) → dget d k2 = some (.ref b) → k1 = k2) := by
      cases t with
      | dict e =>
        rw [Lev_pos (by simp)] at hlev
        obtain ⟨a, d, rfl, hl, hg, hit⟩ := hlev
        have hdw : DWF e := (Items_DWF hit).2 (hw a d hg)
        have hex := (Ex_dict (n := 4) (k := .none) (by omega) (by omega) hdw (by simp)).1 (.inr rfl)
        rw [if_neg (by simp [anyOsBad])] at hex
        have hex : expandRules (.dict e) = (mapVals (Ex 4) e).map PVal.dict := hex
        cases hm : mapVals (Ex 4) e with
        | error y => rw [hex, hm] at hx; simp [Except.map] at hx
        | ok e' =>
          rw [hex, hm] at hx
          simp only [Except.map, Except.ok.injEq] at hx
          subst hx
          obtain ⟨S', g1, g2, g3⟩ := rules_sim_root (S := ⟨h, roleLevel h (.ref a)⟩) hw ⟨hl, hg, hit⟩ (by rw [hex, hm]; rfl)
          exact ⟨a, S', d, e', g1, g2.wf, rfl, g3, fun k1 k2 b h1 h2 => ha a d k1 k2 b rfl hg h1 h2⟩
      | none =>
        simp only [expandRules, Except.ok.injEq] at hx
        subst hx
        have hrn : root = .none := by simpa [WritesOut, TreeAt] using ho
        subst hrn
        refine ⟨h.length, HSt.alloc ⟨h, fun _ => 0⟩ (.dict []) 5, [], [], rfl, ?_, rfl, ⟨alloc_new_lv, alloc_new, .nil⟩, ?_⟩
        · exact (Ext_alloc (S := ⟨h, fun _ => 0⟩) hw (fun d hd => by injection hd with hd; subst hd; simp [DWF, dkeys]) 5).wf
        · intro k1 k2 b h1; simp [dget] at h1
      | _ => simp [expandRules] at hx
    obtain ⟨r, S', d, e', g1, g2, rfl, g3, g4⟩ := key
    have hout : WritesOut S'.h (.ref r) (.dict e') := Lev_out 5 .none _ _ (DictIs_Lev g3 .none (by simp))
    have hv := verify_c (uni := uni) hout
    cases hver : verifyRulesDict uni true (.dict e') with
    | error e =>
      rw [hver] at hv
      refine ⟨fun x hxx => ?_, fun c hc => by simp at hc⟩
      simp only [Except.error.injEq] at hxx
      subst hxx
      unfold hCompactFile
      rw [hm_bind_ok g1]
      exact hm_bind_err hv
    | ok u =>
      rw [hver] at hv
      obtain ⟨rules, hrt⟩ := verified_is_typed hver
      have he' : e' = sk (rules.map fun kv => (kv.1, OsDict.toVal kv.2)) := by
        simpa [Rules.toVal, dictVal_sk] using hrt
      rw [hrt, rulesOfVal_toVal]
      simp only
      have hrest := restIs_of g2 (root := r) g3.lv rules d (he' ▸ g3.items)
      have hdw : DWF d := g2 r d g3.obj
      have hnd : (d.map Prod.snd).Nodup := by
        have href : ∀ x ∈ d, ∃ b, x.2 = .ref b := by
          intro x hxm
          have : ∀ (d : Dict PKey HVal) (rules : Rules), RestIs S'.h (fun b => S'.h.length ≤ b ∨ S'.lv b ≤ 3) r d rules → ∀ x ∈ d, ∃ b, x.2 = .ref b := by
            intro d rules hh
            unfold RestIs at hh
            induction hh with
            | nil => simp
            | cons a _ ih =>
              intro x hxm
              rcases List.mem_cons.1 hxm with rfl | hxm
              · obtain ⟨b, _, e, _⟩ := a.2; exact ⟨b, e⟩
              · exact ih x hxm
          exact this d rules hrest x hxm
        unfold DWF dkeys at hdw
        rw [List.nodup_map_iff_inj_on (List.Nodup.of_map _ hdw)]
        intro x hxm y hym hxy
        obtain ⟨b, hb⟩ := href x hxm
        have h1 : dget d x.1 = some (.ref b) := by rw [← hb]; exact mem_dget hdw hxm
        have h2 : dget d y.1 = some (.ref b) := by rw [← hb, hxy]; exact mem_dget hdw hym
        exact Prod.ext (g4 _ _ b h1 h2) hxy
      obtain ⟨c1, c2⟩ := rules_c dflts (P := fun b => S'.h.length ≤ b ∨ S'.lv b ≤ 3) (root := r) (rules := rules)
        (by have := lt_of_get g3.obj; have := g3.lv; omega) (fun b hb => .inl hb) g3.obj hdw hrest hnd
      unfold hCompactFile
      rw [hm_bind_ok g1, hm_bind_ok hv]
      exact ⟨c1, fun c hc => by obtain ⟨h', k1, k2⟩ := c2 c hc; exact ⟨_, h', k1, k2⟩⟩

/-- C93: a file without aliases is compacted exactly as the tree it denotes. -/
theorem C93_without_aliases (uni : Char → Bool) (dflts : Dict String (Option String)) (h : Heap) (root : HVal) (t : PVal)
    (hw : h.WF) (ho : WritesOut h root t) (hn : NoAlias h root) :
    (∀ x, compactTree uni dflts t = .error x → hCompactFile uni dflts root h = .error x) ∧
    (∀ c, compactTree uni dflts t = .ok c → ∃ v' h', hCompactFile uni dflts root h = .ok (v', h') ∧ WritesOut h' v' c) := by
  refine C93_compaction_written_out_partial uni dflts h root t hw ho (fun a d m n _ hm hp => ?_) (fun a d k1 k2 b hra hd h1 h2 => ?_)
  · obtain ⟨p, h1⟩ := plays_via hw hm
    obtain ⟨q, h2⟩ := plays_via hw hp
    have := hn p q a (via_reaches h1) (via_reaches h2)
    subst this
    exact (via_det p h1 h2).1
  · subst hra
    have := hn _ _ b (.key .here hd h1) (.key .here hd h2)
    simpa using this

/-! ### concrete files -/

/-- ```
foo: {ubuntu: &l [libfoo], any_os: &p {pip: foo}}
baz: {debian: {any_version: *p, wheezy: *l}}
``` -/
def apartHeap : Heap :=
  [.dict [(.str "foo", .ref 1), (.str "baz", .ref 4)],
   .dict [(.str "ubuntu", .ref 2), (.str "any_os", .ref 3)],
   .list [.str "libfoo"],
   .dict [(.str "pip", .str "foo")],
   .dict [(.str "debian", .ref 5)],
   .dict [(.str "any_version", .ref 3), (.str "wheezy", .ref 2)]]

/-- `apartHeap` written out. -/
def apartTree : PVal :=
  .dict [(.str "foo", .dict [(.str "ubuntu", .list [.str "libfoo"]), (.str "any_os", .dict [(.str "pip", .str "foo")])]),
   (.str "baz", .dict [(.str "debian", .dict [(.str "any_version", .dict [(.str "pip", .str "foo")]),
      (.str "wheezy", .list [.str "libfoo"])])])]

/-- The hypotheses of `C93_compaction_written_out_partial` hold of a file with two aliases ... -/
example : apartHeap.WF ∧ WritesOut apartHeap (.ref 0) apartTree ∧ OneRole apartHeap (.ref 0) ∧ OsDictsApart apartHeap (.ref 0) ∧
    ¬ NoAlias apartHeap (.ref 0) := by
  refine ⟨Heap_WF_check (by decide), by simp [WritesOut, apartTree, apartHeap, TreeAt, ItemsAt, ListAt],
    oneRole_fit (fun a => [5, 4, 0, 2, 4, 3].getD a 0) rfl (by decide), fun a d k1 k2 b hra hd h1 h2 => ?_, fun hn => ?_⟩
  · cases hra
    cases hd
    by_cases e1 : PKey.str "foo" = k1
    · by_cases e2 : PKey.str "foo" = k2
      · rw [← e1, ← e2]
      · simp only [dget, e1, if_true, if_neg e2] at h1 h2
        split at h2 <;> simp_all
        omega
    · by_cases e2 : PKey.str "foo" = k2
      · simp only [dget, e2, if_true, if_neg e1] at h1 h2
        split at h1 <;> simp_all
        omega
      · simp only [dget, if_neg e1, if_neg e2] at h1 h2
        split at h1 <;> split at h2 <;> simp_all
  · have h1 : Reaches apartHeap (.ref 0) [.inl (.str "ubuntu"), .inl (.str "foo")] (.ref 2) := .key (.key .here rfl rfl) rfl rfl
    have h2 : Reaches apartHeap (.ref 0) [.inl (.str "wheezy"), .inl (.str "debian"), .inl (.str "baz")] (.ref 2) :=
      .key (.key (.key .here rfl rfl) rfl rfl) rfl rfl
    exact absurd (hn _ _ _ h1 h2) (by decide)

/-- ... and its compaction succeeds. -/
example : compactTree (fun _ => false) [("ubuntu", some "apt"), ("debian", some "apt")] apartTree = .ok
    (.dict [(.str "foo", .dict [(.str "ubuntu", .list [.str "libfoo"]), (.str "any_os", .dict [(.str "pip", .list [.str "foo"])])]),
     (.str "baz", .dict [(.str "debian", .dict [(.str "any_version", .dict [(.str "pip", .list [.str "foo"])]),
      (.str "wheezy", .list [.str "libfoo"])])])]) := rfl

/-- ```
foo: &x {ubuntu: [libfoo]}
bar: *x
``` -/
def sharedOsHeap : Heap :=
  [.dict [(.str "foo", .ref 1), (.str "bar", .ref 1)], .dict [(.str "ubuntu", .ref 2)], .list [.str "libfoo"]]

/-- `sharedOsHeap` written out. -/
def sharedOsTree : PVal :=
  .dict [(.str "foo", .dict [(.str "ubuntu", .list [.str "libfoo"])]), (.str "bar", .dict [(.str "ubuntu", .list [.str "libfoo"])])]

/-- `sharedOsHeap` after expansion. -/
def sharedOsExpanded : Heap :=
  [.dict [(.str "foo", .ref 1), (.str "bar", .ref 1)], .dict [(.str "ubuntu", .ref 3)], .list [.str "libfoo"],
   .dict [(.str "any_version", .ref 4)], .dict [(.str "default_installer", .ref 5)], .dict [(.str "packages", .ref 2)]]

/-- C93 (refutation of the unrestricted claim): if two keys share their os dict, that dict is compacted twice, and the second time
the command ends with an AttributeError, although no dict has two roles and the written out file is compacted without complaint. -/
theorem C93_shared_os_dict_refuted : ∃ (h : Heap) (root : HVal) (t c : PVal) (uni : Char → Bool) (dflts : Dict String (Option String)),
    h.WF ∧ WritesOut h root t ∧ OneRole h root ∧ compactTree uni dflts t = .ok c ∧ hCompactFile uni dflts root h = .error .attributeError := by
  refine ⟨sharedOsHeap, .ref 0, sharedOsTree, sharedOsTree, fun _ => false, [("ubuntu", some "apt")], Heap_WF_check (by decide),
    by simp [WritesOut, sharedOsTree, sharedOsHeap, TreeAt, ItemsAt, ListAt],
    oneRole_fit (fun a => [5, 4, 0].getD a 0) rfl (by decide), rfl, ?_⟩
  have h1 : hExpandRules (.ref 0) sharedOsHeap = .ok (.ref 0, sharedOsExpanded) := rfl
  have hout : WritesOut sharedOsExpanded (.ref 0) (.dict [
      (.str "foo", .dict [(.str "ubuntu", .dict [(.str "any_version", .dict [(.str "default_installer", .dict [(.str "packages", .list [.str "libfoo"])])])])]),
      (.str "bar", .dict [(.str "ubuntu", .dict [(.str "any_version", .dict [(.str "default_installer", .dict [(.str "packages", .list [.str "libfoo"])])])])])]) := by
    simp [WritesOut, sharedOsExpanded, TreeAt, ItemsAt, ListAt]
  have h2 := verify_c (uni := fun _ => false) hout
  have h3 : hVerify (fun _ => false) (.ref 0) sharedOsExpanded = .ok ((), sharedOsExpanded) := by rw [h2]; rfl
  unfold hCompactFile
  rw [hm_bind_ok h1, hm_bind_ok h3]
  rfl

end Verif
