import Verif.Lemmas.HeapCompact
/-!
# Compaction in memory follows compaction of typed rules: os dicts and rules dicts, which are modified in place
-/
namespace Verif

theorem hm_bind_congr {α β : Type} {m m' : HM α} {f : α → HM β} {h : Heap} (H : m h = m' h) : (m >>= f) h = (m' >>= f) h := by
  show StateT.bind m f h = StateT.bind m' f h
  simp only [StateT.bind, H]

theorem hDfltOf_str (dflts : Dict String (Option String)) (s : String) : hDfltOf dflts (.str s) = (dget dflts s).getD none := rfl

theorem osEntry_c {h : Heap} {P : Nat → Prop} (hf : Free P h) (dflts : Dict String (Option String)) (os : String) {v : HVal} {d : VerDict}
    (ht : TreeAt h P v (VerDict.toVal d)) : Makes P (hCompactOsEntry dflts (.str os) v) h (compactOsEntry dflts os d) := by
  unfold hCompactOsEntry compactOsEntry
  simp only [PKey.str.injEq]
  by_cases ho : os = "any_os"
  · simp only [if_pos ho]
    have ht0 := ht
    simp only [VerDict.toVal, dictVal_sk] at ht
    cases hg : dget d "any_version" with
    | none =>
      have := (index_c ht (s := "any_version")).1 (by rw [sk_dget, dget_mapv, hg]; rfl)
      refine ⟨fun x hx => ?_, fun t hct => by simp at hct⟩
      simp only [Except.error.injEq] at hx
      subst hx
      exact hm_bind_err this
    | some i =>
      obtain ⟨w, i1, i2⟩ := (index_c ht (s := "any_version")).2 (InstDict.toVal i) (by rw [sk_dget, dget_mapv, hg]; rfl)
      have hm := installer_c hf i2 none
      refine ⟨fun x hx => ?_, fun t hct => ?_⟩
      · rw [hm_bind_ok i1]; exact hm.err x hx
      · rw [hm_bind_ok i1]; exact hm.ok t hct
  · simp only [if_neg ho, hDfltOf_str]
    exact version_c hf ht _

/-- Only the object `a` was modified, others may have been created. -/
structure OnlyAt (a : Nat) (h h' : Heap) : Prop where
  len : h.length ≤ h'.length
  old : ∀ b, b < h.length → b ≠ a → h'[b]? = h[b]?

theorem OnlyAt_refl (a : Nat) (h : Heap) : OnlyAt a h h := ⟨Nat.le_refl _, fun _ _ _ => rfl⟩
theorem OnlyAt_trans {a : Nat} {h h1 h2 : Heap} (x : OnlyAt a h h1) (y : OnlyAt a h1 h2) : OnlyAt a h h2 :=
  ⟨Nat.le_trans x.len y.len, fun b hb hn => by rw [y.old b (Nat.lt_of_lt_of_le hb x.len) hn, x.old b hb hn]⟩
theorem OnlyAt_grows {a : Nat} {h h' : Heap} (g : Grows h h') : OnlyAt a h h' := by
  obtain ⟨x, rfl⟩ := g
  exact ⟨by simp, fun b hb _ => List.getElem?_append_left hb⟩
theorem OnlyAt_set (a : Nat) (h : Heap) (o : HObj) : OnlyAt a h (h.set a o) :=
  ⟨by simp, fun b _ hn => by rw [List.getElem?_set_ne (Ne.symm hn)]⟩

theorem OnlyAt_tree {a : Nat} {h h' : Heap} (x : OnlyAt a h h') {P : Nat → Prop} (hp : ∀ b, P b → b ≠ a) {v : HVal} {t : PVal} (ht : TreeAt h P v t) :
    TreeAt h' P v t :=
  TreeAt_mono (fun b _ hb ho => ⟨hb, by rw [x.old b (lt_of_get ho) (hp b hb)]; exact ho⟩) v t ht

theorem osLoop_c (dflts : Dict String (Option String)) {P : Nat → Prop} {a : Nat} (hp : ∀ b, P b → b ≠ a) :
    ∀ (d : OsDict) (rest done : Dict PKey HVal) (doneT : Dict String PVal) (h : Heap), Free P h → h[a]? = some (.dict (done ++ rest)) →
      DWF (done ++ rest) → Items (fun _ => TreeAt h P) done (sk doneT) →
      Items (fun _ => TreeAt h P) rest (sk (d.map fun kv => (kv.1, VerDict.toVal kv.2))) →
      (∀ x, d.foldlM (fun acc kv => do let x ← compactOsEntry dflts kv.1 kv.2; pure (dset acc kv.1 x)) doneT = .error x →
        hForLoop (hCompactOsEntry dflts) a rest h = .error x) ∧
      (∀ r, d.foldlM (fun acc kv => do let x ← compactOsEntry dflts kv.1 kv.2; pure (dset acc kv.1 x)) doneT = .ok r →
        ∃ h' d', hForLoop (hCompactOsEntry dflts) a rest h = .ok ((), h') ∧ OnlyAt a h h' ∧ h'[a]? = some (.dict d') ∧
          Items (fun _ => TreeAt h' P) d' (sk r)) := by
  intro d
  induction d with
  | nil =>
    intro rest done doneT h hf ha hw hdone hrest
    cases hrest
    refine ⟨fun x hx => by simp [pure, Except.pure] at hx, fun r hr => ?_⟩
    simp only [List.foldlM_nil, pure_ok] at hr
    subst hr
    exact ⟨h, done, rfl, OnlyAt_refl a h, by simpa using ha, hdone⟩
  | cons x d ih =>
    intro rest done doneT h hf ha hw hdone hrest
    obtain ⟨k, vd⟩ := x
    cases hrest with
    | @cons y _ rest _ h1 h2 =>
      obtain ⟨k', v⟩ := y
      simp only at h1
      obtain ⟨rfl, h1⟩ := h1
      have hm := osEntry_c hf dflts k h1
      rw [List.foldlM_cons]
      simp only [hForLoop, hForStep]
      cases hc : compactOsEntry dflts k vd with
      | error e =>
        refine ⟨fun x hx => ?_, fun r hr => by simp [bind, Except.bind] at hr⟩
        simp only [bind, Except.bind, Except.error.injEq] at hx
        subst hx
        exact hm_bind_err (hm_bind_err (hm.err _ hc))
      | ok t =>
        obtain ⟨w, h', g1, g2, g3⟩ := hm.ok t hc
        have ha' := Grows_get g2 ha
        have hk : PKey.str k ∉ dkeys done := by
          simp only [DWF, dkeys, List.map_append, List.map_cons, List.nodup_append] at hw
          exact fun hh => hw.2.2 _ hh _ (by simp) rfl
        have hkT : k ∉ dkeys doneT := by
          intro hh
          refine hk ?_
          rw [Items_keys hdone, sk_keys]
          exact List.mem_map.2 ⟨k, hh, rfl⟩
        have hset : dset (done ++ (.str k, v) :: rest) (.str k) w = (done ++ [(.str k, w)]) ++ rest := by
          rw [dset_append_of_not_mem hk]; simp [dset]
        have hsetT : dset doneT k t = doneT ++ [(k, t)] := by
          have := dset_append_of_not_mem (e := []) (v := t) hkT
          simpa [dset] using this
        have hrun2 : hsetItem a (.str k) w h' = .ok ((), h'.set a (.dict ((done ++ [(.str k, w)]) ++ rest))) := by
          rw [hsetItem_ok ha', hset]
        rw [hm_bind_ok ((hm_bind_ok g1).trans hrun2)]
        have hon : OnlyAt a h' (h'.set a (.dict ((done ++ [(.str k, w)]) ++ rest))) := OnlyAt_set a h' _
        have hf2 : Free P (h'.set a (.dict ((done ++ [(.str k, w)]) ++ rest))) := by
          intro b hb
          rw [List.length_set] at hb
          exact Free_grow hf g2 b hb
        have hget : (h'.set a (.dict ((done ++ [(.str k, w)]) ++ rest)))[a]? = some (.dict ((done ++ [(.str k, w)]) ++ rest)) := by
          rw [List.getElem?_set_self (lt_of_get ha')]
        have hdone2 : Items (fun _ => TreeAt (h'.set a (.dict ((done ++ [(.str k, w)]) ++ rest))) P) (done ++ [(.str k, w)]) (sk (dset doneT k t)) := by
          rw [hsetT, sk_append]
          exact Items_mono (Items_append (Items_grow g2 hdone) (.cons ⟨rfl, g3⟩ .nil)) fun _ _ _ _ _ hh => OnlyAt_tree hon hp hh
        have hrest2 : Items (fun _ => TreeAt (h'.set a (.dict ((done ++ [(.str k, w)]) ++ rest))) P) rest
            (sk (d.map fun kv => (kv.1, VerDict.toVal kv.2))) :=
          Items_mono (Items_grow g2 h2) fun _ _ _ _ _ hh => OnlyAt_tree hon hp hh
        have hw2 : DWF ((done ++ [(.str k, w)]) ++ rest) := by
          simpa [DWF, dkeys] using hw
        obtain ⟨k1, k2⟩ := ih rest (done ++ [(.str k, w)]) (dset doneT k t) _ hf2 hget hw2 hdone2 hrest2
        refine ⟨k1, fun r hr => ?_⟩
        obtain ⟨h'', d', m1, m2, m3, m4⟩ := k2 r hr
        exact ⟨h'', d', m1, OnlyAt_trans (OnlyAt_trans (OnlyAt_grows g2) hon) m2, m3, m4⟩

theorem os_c (dflts : Dict String (Option String)) {P : Nat → Prop} {a : Nat} (hp : ∀ b, P b → b ≠ a) (d : OsDict) {dh : Dict PKey HVal} {h : Heap}
    (hf : Free P h) (ha : h[a]? = some (.dict dh)) (hw : DWF dh) (hi : Items (fun _ => TreeAt h P) dh (sk (d.map fun kv => (kv.1, VerDict.toVal kv.2)))) :
    (∀ x, compactOsDict d dflts = .error x → hCompactOs dflts (.ref a) h = .error x) ∧
    (∀ t, compactOsDict d dflts = .ok t → ∃ h' d' r, hCompactOs dflts (.ref a) h = .ok (.ref a, h') ∧ OnlyAt a h h' ∧
      h'[a]? = some (.dict d') ∧ t = .dict (sk r) ∧ Items (fun _ => TreeAt h' P) d' (sk r)) := by
  obtain ⟨k1, k2⟩ := osLoop_c dflts hp d dh [] [] h hf (by simpa using ha) (by simpa using hw) .nil hi
  have hstart : hCompactOs dflts (.ref a) h = (hForLoop (hCompactOsEntry dflts) a dh >>= fun _ => pure (.ref a)) h := by
    unfold hCompactOs
    have h1 : hDictAddr (.ref a) h = .ok (a, h) := (hm_bind_ok (isDict_some ha)).trans rfl
    rw [hm_bind_ok h1]
    have h2 : hForItems (hCompactOsEntry dflts) a h = hForLoop (hCompactOsEntry dflts) a dh h := hm_bind_ok (hitems_ok ha)
    exact hm_bind_congr h2
  unfold compactOsDict
  rw [hstart]
  refine ⟨fun x hx => ?_, fun t hct => ?_⟩
  · refine hm_bind_err (k1 x ?_)
    rcases Except_bind_err.1 hx with hx | ⟨r, -, hx⟩
    · exact hx
    · simp [pure, Except.pure] at hx
  · obtain ⟨r, hr, hct⟩ := Except_bind_ok.1 hct
    rw [pure_ok, dictVal_id] at hct
    obtain ⟨h', d', m1, m2, m3, m4⟩ := k2 r hr
    exact ⟨h', d', r, by rw [hm_bind_ok m1]; rfl, m2, m3, hct.symm, m4⟩

/-- The entries of the rules dict still to be processed: os dicts outside `P`. -/
def RestIs (h : Heap) (P : Nat → Prop) (root : Nat) (rest : Dict PKey HVal) (rules : Rules) : Prop :=
  List.Forall₂ (fun x (y : String × OsDict) => x.1 = PKey.str y.1 ∧ ∃ a d, x.2 = .ref a ∧ ¬ P a ∧ a ≠ root ∧ h[a]? = some (.dict d) ∧ DWF d ∧
    Items (fun _ => TreeAt h P) d (sk (y.2.map fun kv => (kv.1, VerDict.toVal kv.2)))) rest rules

theorem rulesLoop_c (dflts : Dict String (Option String)) {P : Nat → Prop} {root : Nat} (hroot : ¬ P root) :
    ∀ (rules : Rules) (rest done : Dict PKey HVal) (doneT : Dict String PVal) (D : List Nat) (h : Heap), Free P h →
      h[root]? = some (.dict (done ++ rest)) → DWF (done ++ rest) → Items (fun _ => TreeAt h (fun b => P b ∨ b ∈ D)) done (sk doneT) →
      RestIs h P root rest rules → (rest.map Prod.snd).Nodup → (∀ b ∈ D, HVal.ref b ∉ rest.map Prod.snd ∧ b ≠ root) →
      (∀ x, rules.foldlM (fun acc kv => do let x ← compactOsDict kv.2 dflts; pure (dset acc kv.1 x)) doneT = .error x →
        hForLoop (fun _ v => hCompactOs dflts v) root rest h = .error x) ∧
      (∀ r, rules.foldlM (fun acc kv => do let x ← compactOsDict kv.2 dflts; pure (dset acc kv.1 x)) doneT = .ok r →
        ∃ h' d', hForLoop (fun _ v => hCompactOs dflts v) root rest h = .ok ((), h') ∧ h'[root]? = some (.dict d') ∧
          Items (fun _ => TreeAt h' (fun _ => True)) d' (sk r)) := by
  intro rules
  induction rules with
  | nil =>
    intro rest done doneT D h hf ha hw hdone hrest hnd hD
    cases hrest
    refine ⟨fun x hx => by simp [pure, Except.pure] at hx, fun r hr => ?_⟩
    simp only [List.foldlM_nil, pure_ok] at hr
    subst hr
    refine ⟨h, done, rfl, by simpa using ha, ?_⟩
    exact Items_mono hdone fun _ v t _ _ hh => TreeAt_mono (fun _ _ _ ho => ⟨trivial, ho⟩) v t hh
  | cons x rules ih =>
    intro rest done doneT D h hf hra hw hdone hrest hnd hD
    obtain ⟨k, od⟩ := x
    cases hrest with
    | @cons y _ rest _ h1 h2 =>
      obtain ⟨k', v⟩ := y
      simp only at h1
      obtain ⟨rfl, a, dh, rfl, hpa, har, ha, hwd, hi⟩ := h1
      have hp : ∀ b, P b → b ≠ a := fun b hb e => hpa (e ▸ hb)
      obtain ⟨o1, o2⟩ := os_c dflts hp od hf ha hwd hi
      rw [List.foldlM_cons]
      simp only [hForLoop, hForStep]
      cases hc : compactOsDict od dflts with
      | error e =>
        refine ⟨fun x hx => ?_, fun r hr => by simp [bind, Except.bind] at hr⟩
        simp only [bind, Except.bind, Except.error.injEq] at hx
        subst hx
        exact hm_bind_err (hm_bind_err (o1 _ hc))
      | ok t =>
        obtain ⟨h', d', r0, m1, m2, m3, rfl, m4⟩ := o2 t hc
        have hrlt := lt_of_get hra
        have hra' : h'[root]? = some (.dict (done ++ (.str k, .ref a) :: rest)) := by
          rw [m2.old root hrlt (Ne.symm har)]; exact hra
        have hk : PKey.str k ∉ dkeys done := by
          simp only [DWF, dkeys, List.map_append, List.map_cons, List.nodup_append] at hw
          exact fun hh => hw.2.2 _ hh _ (by simp) rfl
        have hkT : k ∉ dkeys doneT := by
          intro hh
          refine hk ?_
          rw [Items_keys hdone, sk_keys]
          exact List.mem_map.2 ⟨k, hh, rfl⟩
        have hset : dset (done ++ (.str k, .ref a) :: rest) (.str k) (.ref a) = done ++ (.str k, .ref a) :: rest := by
          rw [dset_append_of_not_mem hk]; simp [dset]
        have hsetT : dset doneT k (.dict (sk r0)) = doneT ++ [(k, .dict (sk r0))] := by
          have := dset_append_of_not_mem (e := []) (v := PVal.dict (sk r0)) hkT
          simpa [dset] using this
        have hsame : h'.set root (.dict (done ++ (.str k, .ref a) :: rest)) = h' := by
          apply List.ext_getElem?
          intro b
          by_cases hb : b = root
          · subst hb; rw [List.getElem?_set_self (lt_of_get hra'), hra']
          · rw [List.getElem?_set_ne (Ne.symm hb)]
        have hrun2 : hsetItem root (.str k) (.ref a) h' = .ok ((), h') := by
          rw [hsetItem_ok hra', hset, hsame]
        rw [hm_bind_ok ((hm_bind_ok m1).trans hrun2)]
        have hf2 : Free P h' := fun b hb => hf b (Nat.le_trans m2.len hb)
        have hnd' : (rest.map Prod.snd).Nodup ∧ HVal.ref a ∉ rest.map Prod.snd := by
          rw [List.map_cons, List.nodup_cons] at hnd
          exact ⟨hnd.2, hnd.1⟩
        have haD : a ∉ D := fun hh => (hD a hh).1 (by simp)
        have hdone2 : Items (fun _ => TreeAt h' (fun b => P b ∨ b ∈ a :: D)) (done ++ [(.str k, .ref a)]) (sk (dset doneT k (.dict (sk r0)))) := by
          rw [hsetT, sk_append]
          refine Items_append ?_ (.cons ⟨rfl, ?_⟩ .nil)
          · refine Items_mono hdone fun _ v t _ _ hh => ?_
            have hh := OnlyAt_tree m2 (P := fun b => P b ∨ b ∈ D) (fun b hb e => by
              subst e
              rcases hb with hb | hb
              · exact hpa hb
              · exact haD hb) hh
            exact TreeAt_mono (fun b _ hb ho => ⟨hb.imp id (List.mem_cons_of_mem _), ho⟩) v t hh
          · simp only [TreeAt]
            refine ⟨a, d', rfl, .inr (by simp), m3, ItemsAt_iff.2 ?_⟩
            exact Items_mono m4 fun _ v t _ _ hh => TreeAt_mono (fun b _ hb ho => ⟨.inl hb, ho⟩) v t hh
        have hrest2 : RestIs h' P root rest rules := by
          unfold RestIs at h2 ⊢
          have : ∀ (rest : Dict PKey HVal) (rules : Rules), HVal.ref a ∉ rest.map Prod.snd → RestIs h P root rest rules → RestIs h' P root rest rules := by
            intro rest rules hna hh
            unfold RestIs at hh ⊢
            induction hh with
            | nil => exact .nil
            | @cons x y rest rules hxy _ ih =>
              rw [List.map_cons, List.mem_cons, not_or] at hna
              refine .cons ⟨hxy.1, ?_⟩ (ih hna.2)
              obtain ⟨b, db, e, q1, q2, q3, q4, q5⟩ := hxy.2
              have hba : b ≠ a := fun hh => hna.1 (by rw [e, hh])
              exact ⟨b, db, e, q1, q2, by rw [m2.old b (lt_of_get q3) hba]; exact q3, q4,
                Items_mono q5 fun _ v t _ _ hh => OnlyAt_tree m2 hp hh⟩
          exact this rest rules hnd'.2 h2
        have hget2 : h'[root]? = some (.dict ((done ++ [(.str k, .ref a)]) ++ rest)) := by simpa using hra'
        have hw2 : DWF ((done ++ [(.str k, .ref a)]) ++ rest) := by simpa using hw
        obtain ⟨k1, k2⟩ := ih rest (done ++ [(.str k, .ref a)]) (dset doneT k (.dict (sk r0))) (a :: D) h' hf2 hget2 hw2 hdone2 hrest2 hnd'.1
          (by
            intro b hb
            rcases List.mem_cons.1 hb with rfl | hb
            · exact ⟨hnd'.2, har⟩
            · exact ⟨fun hh => (hD b hb).1 (by rw [List.map_cons]; exact List.mem_cons_of_mem _ hh), (hD b hb).2⟩)
        exact ⟨k1, k2⟩

/-- `compact_rules` on a rules dict whose os dicts are different objects, none of them inside another one's parts. -/
theorem rules_c (dflts : Dict String (Option String)) {P : Nat → Prop} {root : Nat} (hroot : ¬ P root) {rules : Rules} {d : Dict PKey HVal} {h : Heap}
    (hf : Free P h) (hra : h[root]? = some (.dict d)) (hw : DWF d) (hrest : RestIs h P root d rules) (hnd : (d.map Prod.snd).Nodup) :
    (∀ x, compactRules rules dflts = .error x → hCompactRules dflts (.ref root) h = .error x) ∧
    (∀ t, compactRules rules dflts = .ok t → ∃ h', hCompactRules dflts (.ref root) h = .ok (.ref root, h') ∧ WritesOut h' (.ref root) t) := by
  obtain ⟨k1, k2⟩ := rulesLoop_c dflts hroot rules d [] [] [] h hf (by simpa using hra) (by simpa using hw) .nil hrest hnd (by simp)
  have hstart : hCompactRules dflts (.ref root) h = (hForLoop (fun _ v => hCompactOs dflts v) root d >>= fun _ => pure (.ref root)) h := by
    unfold hCompactRules
    have h1 : hDictAddr (.ref root) h = .ok (root, h) := (hm_bind_ok (isDict_some hra)).trans rfl
    rw [hm_bind_ok h1]
    have h2 : hForItems (fun _ v => hCompactOs dflts v) root h = hForLoop (fun _ v => hCompactOs dflts v) root d h := hm_bind_ok (hitems_ok hra)
    exact hm_bind_congr h2
  unfold compactRules
  rw [hstart]
  refine ⟨fun x hx => ?_, fun t hct => ?_⟩
  · refine hm_bind_err (k1 x ?_)
    rcases Except_bind_err.1 hx with hx | ⟨r, -, hx⟩
    · exact hx
    · simp [pure, Except.pure] at hx
  · obtain ⟨r, hr, hct⟩ := Except_bind_ok.1 hct
    rw [pure_ok, dictVal_id] at hct
    obtain ⟨h', d', m1, m3, m4⟩ := k2 r hr
    refine ⟨h', by rw [hm_bind_ok m1]; rfl, ?_⟩
    subst hct
    unfold WritesOut
    simp only [TreeAt]
    exact ⟨root, d', rfl, trivial, m3, ItemsAt_iff.2 m4⟩

end Verif
