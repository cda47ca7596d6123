import Verif.Model.HeapCompact
import Verif.Lemmas.HeapSim2
import Mathlib.Data.List.Nodup
/-!
# Compaction in memory follows compaction of typed rules
-/
namespace Verif

/-- Text keys as YAML keys. -/
def sk {β : Type} (e : Dict String β) : Dict PKey β := e.map fun kv => (PKey.str kv.1, kv.2)

theorem sk_dget {β : Type} (e : Dict String β) (k : String) : dget (sk e) (.str k) = dget e k := by
  induction e with
  | nil => rfl
  | cons x e ih =>
    obtain ⟨a, b⟩ := x
    simp only [sk, List.map_cons, dget, PKey.str.injEq]
    split
    · rfl
    · exact ih

theorem sk_dset {β : Type} (e : Dict String β) (k : String) (v : β) : sk (dset e k v) = dset (sk e) (.str k) v := by
  induction e with
  | nil => rfl
  | cons x e ih =>
    obtain ⟨a, b⟩ := x
    simp only [sk, List.map_cons, dset, PKey.str.injEq] at ih ⊢
    split
    · rfl
    · simp only [List.map_cons, ih]

theorem sk_ddel {β : Type} (e : Dict String β) (k : String) : sk (ddel e k) = ddel (sk e) (.str k) := by
  induction e with
  | nil => rfl
  | cons x e ih =>
    obtain ⟨a, b⟩ := x
    simp only [sk, List.map_cons, ddel, PKey.str.injEq] at ih ⊢
    split
    · exact ih
    · simp only [List.map_cons, ih]

theorem sk_length {β : Type} (e : Dict String β) : (sk e).length = e.length := by simp [sk]

theorem sk_append {β : Type} (e f : Dict String β) : sk (e ++ f) = sk e ++ sk f := by simp [sk]

theorem sk_keys {β : Type} (e : Dict String β) : dkeys (sk e) = (dkeys e).map PKey.str := by simp [sk, dkeys]

theorem sk_DWF {β : Type} {e : Dict String β} : DWF (sk e) ↔ DWF e := by
  unfold DWF
  rw [sk_keys]
  constructor
  · intro h; exact List.Nodup.of_map _ h
  · intro h
    refine List.Nodup.map (fun a b hab => ?_) h
    injection hab

theorem sk_dhas {β : Type} (e : Dict String β) (k : String) : dhas (sk e) (.str k) = dhas e k := by
  simp only [dhas, sk_dget]

/-- The entries of a typed dict as YAML values. -/
theorem dictVal_sk {β : Type} (f : β → PVal) (d : Dict String β) :
    dictVal f d = .dict (sk (d.map fun kv => (kv.1, f kv.2))) := by
  simp [dictVal, sk]

theorem dictVal_id (d : Dict String PVal) : dictVal id d = .dict (sk d) := by
  simp [dictVal, sk]

/-! ## memory that only grows -/

/-- Only new objects were created. -/
def Grows (h h' : Heap) : Prop := ∃ x, h' = h ++ x

theorem Grows_refl (h : Heap) : Grows h h := ⟨[], by simp⟩
theorem Grows_trans {h h1 h2 : Heap} (a : Grows h h1) (b : Grows h1 h2) : Grows h h2 := by
  obtain ⟨x, rfl⟩ := a; obtain ⟨y, rfl⟩ := b; exact ⟨x ++ y, by simp⟩
theorem Grows_len {h h' : Heap} (a : Grows h h') : h.length ≤ h'.length := by obtain ⟨x, rfl⟩ := a; simp
theorem Grows_get {h h' : Heap} (a : Grows h h') {b : Nat} {o : HObj} (hb : h[b]? = some o) : h'[b]? = some o := by
  obtain ⟨x, rfl⟩ := a
  rw [List.getElem?_append_left (lt_of_get hb)]; exact hb

theorem TreeAt_grow {h h' : Heap} (a : Grows h h') {P : Nat → Prop} {v : HVal} {t : PVal} (ht : TreeAt h P v t) :
    TreeAt h' P v t := TreeAt_mono (fun _ _ hp ho => ⟨hp, Grows_get a ho⟩) v t ht

theorem Items_grow {h h' : Heap} (a : Grows h h') {P : Nat → Prop} {d : Dict PKey HVal} {e : Dict PKey PVal}
    (ht : Items (fun _ => TreeAt h P) d e) : Items (fun _ => TreeAt h' P) d e :=
  Items_mono ht fun _ _ _ _ _ h => TreeAt_grow a h

/-- New objects satisfy `P`. -/
def Free (P : Nat → Prop) (h : Heap) : Prop := ∀ b, h.length ≤ b → P b

theorem Free_grow {P : Nat → Prop} {h h' : Heap} (hf : Free P h) (a : Grows h h') : Free P h' :=
  fun b hb => hf b (Nat.le_trans (Grows_len a) hb)

theorem newDict_c {h : Heap} {P : Nat → Prop} (hf : Free P h) {d : Dict PKey HVal} {e : Dict PKey PVal}
    (hi : Items (fun _ => TreeAt h P) d e) :
    ∃ r h', hNewDict d h = .ok (r, h') ∧ Grows h h' ∧ TreeAt h' P r (.dict e) := by
  have hg : Grows h (h ++ [HObj.dict d]) := ⟨_, rfl⟩
  refine ⟨.ref h.length, h ++ [.dict d], rfl, hg, ?_⟩
  simp only [TreeAt]
  exact ⟨h.length, d, rfl, hf _ (Nat.le_refl _), by simp, ItemsAt_iff.2 (Items_grow hg hi)⟩

/-! ## reading -/

theorem dict_of_TreeAt {h : Heap} {P : Nat → Prop} {v : HVal} {e : Dict PKey PVal} (ht : TreeAt h P v (.dict e)) :
    ∃ a d, v = .ref a ∧ P a ∧ h[a]? = some (.dict d) ∧ Items (fun _ => TreeAt h P) d e := by
  simp only [TreeAt] at ht
  obtain ⟨a, d, rfl, hp, ha, hi⟩ := ht
  exact ⟨a, d, rfl, hp, ha, ItemsAt_iff.1 hi⟩

theorem contains_c {h : Heap} {P : Nat → Prop} {v : HVal} {e : Dict PKey PVal} (ht : TreeAt h P v (.dict e)) (s : String) :
    hContains s v h = .ok (dhas e (.str s), h) := by
  obtain ⟨a, d, rfl, hp, ha, hi⟩ := dict_of_TreeAt ht
  have : hContains s (.ref a) h = .ok (dhas d (.str s), h) := (hm_bind_ok (hread_ok ha)).trans rfl
  rw [this, dhas_keys (Items_keys hi)]

theorem Items_length {R : PKey → HVal → PVal → Prop} {d : Dict PKey HVal} {e : Dict PKey PVal} (hi : Items R d e) :
    d.length = e.length := by
  have := congrArg List.length (Items_keys hi)
  simpa [dkeys] using this

theorem len_c {h : Heap} {P : Nat → Prop} {v : HVal} {e : Dict PKey PVal} (ht : TreeAt h P v (.dict e)) :
    hLen v h = .ok (e.length, h) := by
  obtain ⟨a, d, rfl, hp, ha, hi⟩ := dict_of_TreeAt ht
  have : hLen (.ref a) h = .ok (d.length, h) := (hm_bind_ok (hread_ok ha)).trans rfl
  rw [this, Items_length hi]

theorem index_c {h : Heap} {P : Nat → Prop} {v : HVal} {e : Dict PKey PVal} (ht : TreeAt h P v (.dict e)) {s : String} :
    (dget e (.str s) = none → hIndex v s h = .error .keyError) ∧
    (∀ t, dget e (.str s) = some t → ∃ w, hIndex v s h = .ok (w, h) ∧ TreeAt h P w t) := by
  obtain ⟨a, d, rfl, hp, ha, hi⟩ := dict_of_TreeAt ht
  have hrun : hIndex (.ref a) s h = (match dget d (.str s) with
      | some w => (pure w : HM HVal)
      | Option.none => hraise .keyError) h := hm_bind_ok (hread_ok ha)
  rcases Items_dget hi (.str s) with ⟨h1, h2⟩ | ⟨w, t, h1, h2, h3⟩
  · rw [h1] at hrun
    exact ⟨fun _ => hrun, fun t ht => by rw [h2] at ht; simp at ht⟩
  · rw [h1] at hrun
    refine ⟨fun hn => by rw [h2] at hn; simp at hn, fun t' ht' => ⟨w, hrun, ?_⟩⟩
    rw [h2] at ht'; injection ht' with ht'; subst ht'; exact h3

theorem itemsOf_c {h : Heap} {P : Nat → Prop} {v : HVal} {e : Dict PKey PVal} (ht : TreeAt h P v (.dict e)) :
    ∃ d, hItemsOf v h = .ok (d, h) ∧ Items (fun _ => TreeAt h P) d e := by
  obtain ⟨a, d, rfl, hp, ha, hi⟩ := dict_of_TreeAt ht
  exact ⟨d, hitems_ok ha, hi⟩

theorem isDict_c {h : Heap} {P : Nat → Prop} {v : HVal} {t : PVal} (ht : TreeAt h P v t) :
    ∃ o, hIsDict v h = .ok (o, h) ∧ (t.isDict = true → o.isSome = true) ∧ (t.isDict = false → o = none) := by
  cases t with
  | list ts =>
    simp only [TreeAt] at ht
    obtain ⟨b, l, rfl, hb, hg, hl⟩ := ht
    exact ⟨none, (hm_bind_ok (hread_ok hg)).trans rfl, by simp [PVal.isDict], fun _ => rfl⟩
  | dict e =>
    simp only [TreeAt] at ht
    obtain ⟨b, l, rfl, hb, hg, hl⟩ := ht
    exact ⟨some b, isDict_some hg, fun _ => rfl, by simp [PVal.isDict]⟩
  | _ => simp only [TreeAt] at ht; subst ht; exact ⟨none, rfl, by simp [PVal.isDict], fun _ => rfl⟩

theorem eq_c {h : Heap} {P : Nat → Prop} {v w : HVal} {t u : PVal} (hv : TreeAt h P v t) (hw : TreeAt h P w u) :
    hEq v w h = .ok (pyEq t u, h) := by
  have h1 : WritesOut h v t := TreeAt_mono (fun _ _ _ ho => ⟨trivial, ho⟩) v t hv
  have h2 : WritesOut h w u := TreeAt_mono (fun _ _ _ ho => ⟨trivial, ho⟩) w u hw
  unfold hEq
  simp only [Except.ok.injEq, Prod.mk.injEq, and_true]
  by_cases he : pyEq t u = true
  · rw [he]
    simp only [decide_eq_true_eq]
    exact ⟨t, u, h1, h2, he⟩
  · have : pyEq t u = false := by simpa using he
    rw [this]
    simp only [decide_eq_false_iff_not]
    rintro ⟨t', u', g1, g2, g3⟩
    rw [← TreeAt_det v t t' h1 g1, ← TreeAt_det w u u' h2 g2] at g3
    exact he g3

/-! ## the functions -/

theorem rule_c {h : Heap} {P : Nat → Prop} {v : HVal} {r : Rule} (ht : TreeAt h P v (Rule.toVal r)) :
    ∃ w, hCompactRule v h = .ok (w, h) ∧ TreeAt h P w (compactInstallerRule r) := by
  have ht0 := ht
  simp only [Rule.toVal, dictVal_id] at ht
  unfold hCompactRule compactInstallerRule
  rw [hm_bind_ok (contains_c ht "packages"), sk_dhas]
  cases hg : dget r "packages" with
  | none =>
    rw [if_neg (by simp [dhas, hg])]
    exact ⟨v, rfl, ht0⟩
  | some p =>
    rw [if_pos (by simp [dhas, hg]), hm_bind_ok (len_c ht), sk_length]
    by_cases hl : r.length = 1
    · rw [if_pos hl]
      obtain ⟨w, h1, h2⟩ := (index_c ht (s := "packages")).2 p (by rw [sk_dget]; exact hg)
      exact ⟨w, h1, by simpa [hl] using h2⟩
    · rw [if_neg hl]
      exact ⟨v, rfl, by simpa [hl] using ht0⟩

theorem rules1_c {h : Heap} {P : Nat → Prop} : ∀ (d : InstDict) (items acc : Dict PKey HVal) (accT : Dict String PVal),
    Items (fun _ => TreeAt h P) items (sk (d.map fun kv => (kv.1, Rule.toVal kv.2))) →
    Items (fun _ => TreeAt h P) acc (sk accT) →
    ∃ acc', hCompactRules1 items acc h = .ok (acc', h) ∧
      Items (fun _ => TreeAt h P) acc' (sk (d.foldl (fun acc kv => dset acc kv.1 (compactInstallerRule kv.2)) accT)) := by
  intro d
  induction d with
  | nil =>
    intro items acc accT hi ha
    cases hi
    exact ⟨acc, rfl, ha⟩
  | cons x d ih =>
    intro items acc accT hi ha
    obtain ⟨k, r⟩ := x
    cases hi with
    | @cons y _ items _ h1 h2 =>
      obtain ⟨k', v⟩ := y
      simp only at h1
      obtain ⟨rfl, h1⟩ := h1
      obtain ⟨w, g1, g2⟩ := rule_c h1
      simp only [hCompactRules1]
      rw [hm_bind_ok g1]
      refine ih items (dset acc (.str k) w) (dset accT k (compactInstallerRule r)) h2 ?_
      rw [sk_dset]
      exact Items_dset ha g2

theorem rename_c {h : Heap} {P : Nat → Prop} {acc : Dict PKey HVal} {e : Dict String PVal} (hi : Items (fun _ => TreeAt h P) acc (sk e))
    (dflt : Option String) :
    (∀ x, compactRename e dflt = .error x → hRename acc dflt = .error x) ∧
    (∀ r, compactRename e dflt = .ok r → ∃ acc', hRename acc dflt = .ok (acc', r.2) ∧ Items (fun _ => TreeAt h P) acc' (sk r.1)) := by
  unfold compactRename hRename
  cases htr : truthy dflt with
  | none =>
    simp only
    refine ⟨fun x hx => by simp at hx, fun r hr => ?_⟩
    simp only [Except.ok.injEq] at hr
    subst hr
    exact ⟨acc, rfl, hi⟩
  | some name =>
    simp only
    rcases Items_dget hi (.str "default_installer") with ⟨h1, h2⟩ | ⟨w, t, h1, h2, h3⟩
    · rw [sk_dget] at h2
      simp only [h1, h2]
      refine ⟨fun x hx => by simp at hx, fun r hr => ?_⟩
      simp only [Except.ok.injEq] at hr
      subst hr
      exact ⟨acc, rfl, hi⟩
    · rw [sk_dget] at h2
      simp only [h1, h2]
      have hh : dhas acc (.str name) = dhas e name := by rw [dhas_keys (Items_keys hi), sk_dhas]
      rw [hh]
      by_cases hn : dhas e name = true
      · simp only [hn, if_true]
        exact ⟨fun x hx => by simpa using hx, fun r hr => by simp at hr⟩
      · simp only [if_neg hn]
        refine ⟨fun x hx => by simp at hx, fun r hr => ?_⟩
        simp only [Except.ok.injEq] at hr
        subst hr
        refine ⟨_, rfl, ?_⟩
        simp only [sk_ddel, sk_dset]
        exact Items_ddel (Items_dset hi h3) _

theorem collapse_c {h : Heap} {P : Nat → Prop} (hf : Free P h) {acc : Dict PKey HVal} {e : Dict String PVal}
    (hi : Items (fun _ => TreeAt h P) acc (sk e)) (name : String) :
    ∃ r h', hCollapse acc name h = .ok (r, h') ∧ Grows h h' ∧ TreeAt h' P r (compactCollapse e name) := by
  have hlen : acc.length = e.length := by rw [Items_length hi, sk_length]
  unfold hCollapse compactCollapse
  rcases Items_dget hi (.str name) with ⟨h1, h2⟩ | ⟨w, t, h1, h2, h3⟩
  · rw [sk_dget] at h2
    rw [h1, h2]
    simp only [dictVal_id]
    exact newDict_c hf hi
  · rw [sk_dget] at h2
    rw [h1, h2]
    simp only [dictVal_id]
    obtain ⟨o, g1, g2, g3⟩ := isDict_c h3
    rw [hm_bind_ok g1]
    cases hd : t.isDict with
    | true =>
      obtain ⟨b, hb⟩ := Option.isSome_iff_exists.1 (g2 hd)
      subst hb
      simp only [not_true_eq_false, and_false, if_false]
      exact newDict_c hf hi
    | false =>
      rw [g3 hd]
      simp only [hlen]
      by_cases hl : e.length = 1
      · rw [if_pos hl, if_pos (by simp [hl])]
        exact ⟨w, h, rfl, Grows_refl h, h3⟩
      · rw [if_neg hl, if_neg (by simp [hl])]
        exact newDict_c hf hi

/-- `m`, run in `h`, only creates objects, and returns `c` or raises as `c` does. -/
structure Makes (P : Nat → Prop) (m : HM HVal) (h : Heap) (c : Except Exc PVal) : Prop where
  err : ∀ x, c = .error x → m h = .error x
  ok : ∀ t, c = .ok t → ∃ r h', m h = .ok (r, h') ∧ Grows h h' ∧ TreeAt h' P r t

theorem installer_c {h : Heap} {P : Nat → Prop} (hf : Free P h) {v : HVal} {d : InstDict} (ht : TreeAt h P v (InstDict.toVal d))
    (dflt : Option String) : Makes P (hCompactInstaller v dflt) h (compactInstallerDict d dflt) := by
  simp only [InstDict.toVal, dictVal_sk] at ht
  obtain ⟨items, g1, g2⟩ := itemsOf_c ht
  obtain ⟨acc, g3, g4⟩ := rules1_c d items [] [] g2 .nil
  have g5 := rename_c g4 dflt
  have hrun : ∀ {h' : Heap}, hCompactInstaller v dflt h = (hlift (hRename acc dflt) >>= fun r => hCollapse r.1 r.2) h := by
    intro h'
    unfold hCompactInstaller
    rw [hm_bind_ok g1, hm_bind_ok g3]
  have hrun := hrun (h' := h)
  unfold compactInstallerDict
  cases hr : compactRename (d.foldl (fun acc kv => dset acc kv.1 (compactInstallerRule kv.2)) []) dflt with
  | error x =>
    refine ⟨fun x' hx' => ?_, fun t hct => by simp [bind, Except.bind] at hct⟩
    simp only [bind, Except.bind, Except.error.injEq] at hx'
    subst hx'
    rw [hrun]
    refine hm_bind_err ?_
    unfold hlift
    rw [g5.1 x hr]
  | ok r =>
    refine ⟨fun x' hx' => by simp [bind, Except.bind, pure, Except.pure] at hx', fun t hct => ?_⟩
    simp only [bind, Except.bind, pure, Except.pure, Except.ok.injEq] at hct
    subst hct
    obtain ⟨acc', k1, k2⟩ := g5.2 r hr
    obtain ⟨w, h', m1, m2, m3⟩ := collapse_c hf k2 r.2
    refine ⟨w, h', ?_, m2, m3⟩
    rw [hrun, hm_bind_ok (show hlift (hRename acc dflt) h = .ok ((acc', r.2), h) by unfold hlift; rw [k1])]
    exact m1

/-! ## versions -/

/-- The compacted `any_version` entry, if there is one. -/
def AnyIs (h : Heap) (P : Nat → Prop) : Option HVal → Option PVal → Prop
  | none, none => True
  | some v, some t => TreeAt h P v t
  | _, _ => False

theorem AnyIs_grow {h h' : Heap} (a : Grows h h') {P : Nat → Prop} {v : Option HVal} {t : Option PVal} (ht : AnyIs h P v t) : AnyIs h' P v t := by
  cases v <;> cases t <;> simp only [AnyIs] at ht ⊢
  exact TreeAt_grow a ht

/-- Is the entry equal to that of `any_version`? -/
def eqAny (t : PVal) : Option PVal → Bool
  | some a => pyEq t a
  | none => false

theorem same_c {h : Heap} {P : Nat → Prop} {av : Option HVal} {at' : Option PVal} (ha : AnyIs h P av at') {v : HVal} {t : PVal} (hv : TreeAt h P v t) :
    hSame av v h = .ok (eqAny t at', h) := by
  cases av <;> cases at' <;> simp only [AnyIs] at ha
  · rfl
  · exact eq_c hv ha

theorem versionStep_eq (dflt : Option String) (anyT : Option PVal) (acc : Dict String PVal) (k : String) (d : InstDict) :
    compactVersionStep dflt anyT acc (k, d) = if k = "any_version" then .ok acc else
      match compactInstallerDict d dflt with
      | .error x => .error x
      | .ok i => if eqAny i anyT = true then .ok acc else .ok (dset acc k i) := by
  unfold compactVersionStep
  by_cases hk : k = "any_version"
  · simp [hk, pure, Except.pure]
  · simp only [ne_eq, hk, not_false_eq_true, if_true, if_false]
    cases compactInstallerDict d dflt with
    | error x => rfl
    | ok i =>
      cases anyT with
      | none => simp [bind, Except.bind, pure, Except.pure, eqAny]
      | some a =>
        by_cases hp : pyEq i a = true
        · simp only [bind, Except.bind, pure, Except.pure, eqAny, hp, if_true]
        · have hp' : pyEq i a = false := by simpa using hp
          simp [bind, Except.bind, pure, Except.pure, eqAny, hp']

theorem hVersions_cons (dflt : Option String) (av : Option HVal) (k : String) (v : HVal) (rest acc : Dict PKey HVal) :
    hCompactVersions dflt av ((.str k, v) :: rest) acc = if k = "any_version" then hCompactVersions dflt av rest acc
      else hCompactInstaller v dflt >>= fun i => hSame av i >>= fun b =>
        if b = true then hCompactVersions dflt av rest acc else hCompactVersions dflt av rest (dset acc (.str k) i) := by
  rw [hCompactVersions]
  simp only [PKey.str.injEq]

theorem versions_c (dflt : Option String) {P : Nat → Prop} {av : Option HVal} {at' : Option PVal} :
    ∀ (d : VerDict) (items acc : Dict PKey HVal) (accT : Dict String PVal) (h : Heap), Free P h → AnyIs h P av at' →
      Items (fun _ => TreeAt h P) items (sk (d.map fun kv => (kv.1, InstDict.toVal kv.2))) → Items (fun _ => TreeAt h P) acc (sk accT) →
      (∀ x, d.foldlM (compactVersionStep dflt at') accT = .error x → hCompactVersions dflt av items acc h = .error x) ∧
      (∀ r, d.foldlM (compactVersionStep dflt at') accT = .ok r → ∃ acc' h', hCompactVersions dflt av items acc h = .ok (acc', h') ∧
        Grows h h' ∧ Items (fun _ => TreeAt h' P) acc' (sk r)) := by
  intro d
  induction d with
  | nil =>
    intro items acc accT h hf ha hi hacc
    cases hi
    refine ⟨fun x hx => by simp [pure, Except.pure] at hx, fun r hr => ?_⟩
    simp only [List.foldlM_nil, pure_ok] at hr
    subst hr
    exact ⟨acc, h, rfl, Grows_refl h, hacc⟩
  | cons x d ih =>
    intro items acc accT h hf ha hi hacc
    obtain ⟨k, i⟩ := x
    cases hi with
    | @cons y _ items _ h1 h2 =>
      obtain ⟨k', v⟩ := y
      simp only at h1
      obtain ⟨rfl, h1⟩ := h1
      rw [List.foldlM_cons, versionStep_eq, hVersions_cons]
      by_cases hk : k = "any_version"
      · simp only [if_pos hk, bind, Except.bind]
        exact ih items acc accT h hf ha h2 hacc
      · simp only [if_neg hk]
        have hm := installer_c hf h1 dflt
        cases hc : compactInstallerDict i dflt with
        | error e =>
          refine ⟨fun x hx => ?_, fun r hr => by simp [bind, Except.bind] at hr⟩
          simp only [bind, Except.bind, Except.error.injEq] at hx
          subst hx
          exact hm_bind_err (hm.err _ hc)
        | ok t =>
          obtain ⟨w, h', g1, g2, g3⟩ := hm.ok t hc
          have ha' := AnyIs_grow g2 ha
          rw [hm_bind_ok g1, hm_bind_ok (same_c ha' g3)]
          have hf' := Free_grow hf g2
          have i2 := Items_grow g2 h2
          have iacc := Items_grow g2 hacc
          by_cases hb : eqAny t at' = true
          · simp only [if_pos hb, bind, Except.bind]
            obtain ⟨k1, k2⟩ := ih items acc accT h' hf' ha' i2 iacc
            refine ⟨k1, fun r hr => ?_⟩
            obtain ⟨acc', h'', m1, m2, m3⟩ := k2 r hr
            exact ⟨acc', h'', m1, Grows_trans g2 m2, m3⟩
          · simp only [if_neg hb, bind, Except.bind]
            obtain ⟨k1, k2⟩ := ih items (dset acc (.str k) w) (dset accT k t) h' hf' ha' i2 (by rw [sk_dset]; exact Items_dset iacc g3)
            refine ⟨k1, fun r hr => ?_⟩
            obtain ⟨acc', h'', m1, m2, m3⟩ := k2 r hr
            exact ⟨acc', h'', m1, Grows_trans g2 m2, m3⟩

theorem finish_c {h : Heap} {P : Nat → Prop} (hf : Free P h) {v : HVal} {d : VerDict} (ht : TreeAt h P v (VerDict.toVal d)) (dflt : Option String)
    {av : Option HVal} {at' : Option PVal} (ha : AnyIs h P av at') {acc : Dict PKey HVal} {accT : Dict String PVal}
    (hacc : Items (fun _ => TreeAt h P) acc (sk accT)) :
    Makes P (hFinishVersion v dflt av acc) h ((d.foldlM (compactVersionStep dflt at') accT).map (dictVal id)) := by
  simp only [VerDict.toVal, dictVal_sk] at ht
  obtain ⟨items, g1, g2⟩ := itemsOf_c ht
  obtain ⟨k1, k2⟩ := versions_c dflt (av := av) (at' := at') d items acc accT h hf ha g2 hacc
  unfold hFinishVersion
  cases hr : d.foldlM (compactVersionStep dflt at') accT with
  | error x =>
    refine ⟨fun x' hx' => ?_, fun t hct => by simp [Except.map] at hct⟩
    simp only [Except.map, Except.error.injEq] at hx'
    subst hx'
    rw [hm_bind_ok g1]
    exact hm_bind_err (k1 x hr)
  | ok r =>
    refine ⟨fun x' hx' => by simp [Except.map] at hx', fun t hct => ?_⟩
    simp only [Except.map, Except.ok.injEq] at hct
    subst hct
    obtain ⟨acc', h', m1, m2, m3⟩ := k2 r hr
    obtain ⟨w, h'', n1, n2, n3⟩ := newDict_c (Free_grow hf m2) m3
    refine ⟨w, h'', ?_, Grows_trans m2 n2, by rw [dictVal_id]; exact n3⟩
    rw [hm_bind_ok g1, hm_bind_ok m1]
    exact n1

theorem versionDict_eq (d : VerDict) (dflt : Option String) :
    compactVersionDict d dflt = match dget d "any_version" with
      | some av => match compactInstallerDict av dflt with
        | .error x => .error x
        | .ok a => if d.length = 1 ∧ a.isDict = false then .ok a
          else (d.foldlM (compactVersionStep dflt (some a)) [("any_version", a)]).map (dictVal id)
      | none => (d.foldlM (compactVersionStep dflt none) []).map (dictVal id) := by
  unfold compactVersionDict
  cases dget d "any_version" with
  | none => simp only [bind, Except.bind, Except.map]; cases d.foldlM (compactVersionStep dflt none) [] <;> rfl
  | some av =>
    simp only [bind, Except.bind]
    cases compactInstallerDict av dflt with
    | error x => rfl
    | ok a =>
      simp only [Bool.not_eq_true]
      split
      · rfl
      · simp only [Except.map]; cases d.foldlM (compactVersionStep dflt (some a)) [("any_version", a)] <;> rfl

theorem dget_mapv {β γ : Type} (f : β → γ) (d : Dict String β) (k : String) :
    dget (d.map fun kv => (kv.1, f kv.2)) k = (dget d k).map f := by
  induction d with
  | nil => rfl
  | cons x d ih =>
    obtain ⟨a, b⟩ := x
    simp only [List.map_cons, dget]
    split
    · rfl
    · exact ih

theorem version_c {h : Heap} {P : Nat → Prop} (hf : Free P h) {v : HVal} {d : VerDict} (ht : TreeAt h P v (VerDict.toVal d)) (dflt : Option String) :
    Makes P (hCompactVersion v dflt) h (compactVersionDict d dflt) := by
  have ht0 := ht
  simp only [VerDict.toVal, dictVal_sk] at ht
  have hmap : ∀ k, dget (d.map fun kv => (kv.1, InstDict.toVal kv.2)) k = (dget d k).map InstDict.toVal := dget_mapv InstDict.toVal d
  rw [versionDict_eq]
  unfold hCompactVersion
  have hc := contains_c ht "any_version"
  rw [sk_dhas] at hc
  cases hg : dget d "any_version" with
  | none =>
    have hh : dhas (d.map fun kv => (kv.1, InstDict.toVal kv.2)) "any_version" = false := by simp [dhas, hmap, hg]
    rw [hh] at hc
    have hm := finish_c hf ht0 dflt (av := none) (at' := none) trivial (acc := []) (accT := []) .nil
    refine ⟨fun x hx => ?_, fun t hct => ?_⟩
    · rw [hm_bind_ok hc, if_neg (by simp)]
      exact hm.err x hx
    · rw [hm_bind_ok hc, if_neg (by simp)]
      exact hm.ok t hct
  | some av =>
    have hh : dhas (d.map fun kv => (kv.1, InstDict.toVal kv.2)) "any_version" = true := by simp [dhas, hmap, hg]
    rw [hh] at hc
    obtain ⟨w, i1, i2⟩ := (index_c ht (s := "any_version")).2 (InstDict.toVal av) (by rw [sk_dget, hmap, hg]; rfl)
    have hm := installer_c hf i2 dflt
    simp only
    cases hci : compactInstallerDict av dflt with
    | error x =>
      refine ⟨fun x' hx' => ?_, fun t hct => by simp at hct⟩
      simp only [Except.error.injEq] at hx'
      subst hx'
      rw [hm_bind_ok hc, if_pos rfl, hm_bind_ok i1]
      exact hm_bind_err (hm.err _ hci)
    | ok a =>
      obtain ⟨r, h', g1, g2, g3⟩ := hm.ok a hci
      have hf' := Free_grow hf g2
      have hl := len_c (TreeAt_grow g2 ht)
      rw [sk_length, List.length_map] at hl
      obtain ⟨o, o1, o2, o3⟩ := isDict_c g3
      have hfin := finish_c hf' (TreeAt_grow g2 ht0) dflt (av := some r) (at' := some a) g3
        (acc := [(.str "any_version", r)]) (accT := [("any_version", a)]) (.cons ⟨rfl, g3⟩ .nil)
      have key : ∀ (m : HM HVal) (c : Except Exc PVal), Makes P m h' c →
          (hContains "any_version" v >>= fun b => if b = true then
            hIndex v "any_version" >>= fun av => hCompactInstaller av dflt >>= fun a => hLen v >>= fun n => hIsDict a >>= fun
              | some _ => hFinishVersion v dflt (some a) [(.str "any_version", a)]
              | Option.none => if n = 1 then pure a else hFinishVersion v dflt (some a) [(.str "any_version", a)]
            else hFinishVersion v dflt Option.none []) h = m h' →
          Makes P (hContains "any_version" v >>= fun b => if b = true then
            hIndex v "any_version" >>= fun av => hCompactInstaller av dflt >>= fun a => hLen v >>= fun n => hIsDict a >>= fun
              | some _ => hFinishVersion v dflt (some a) [(.str "any_version", a)]
              | Option.none => if n = 1 then pure a else hFinishVersion v dflt (some a) [(.str "any_version", a)]
            else hFinishVersion v dflt Option.none []) h c := by
        intro m c hmk he
        refine ⟨fun x hx => by rw [he]; exact hmk.err x hx, fun t hct => ?_⟩
        obtain ⟨r', h'', a1, a2, a3⟩ := hmk.ok t hct
        exact ⟨r', h'', by rw [he]; exact a1, Grows_trans g2 a2, a3⟩
      simp only
      cases hd : a.isDict with
      | true =>
        obtain ⟨b, hb⟩ := Option.isSome_iff_exists.1 (o2 hd)
        subst hb
        rw [if_neg (by simp)]
        refine key _ _ hfin ?_
        rw [hm_bind_ok hc, if_pos rfl, hm_bind_ok i1, hm_bind_ok g1, hm_bind_ok hl, hm_bind_ok o1]
      | false =>
        have := o3 hd
        subst this
        by_cases hl1 : d.length = 1
        · rw [if_pos ⟨hl1, rfl⟩]
          refine key (pure r) (.ok a) ⟨fun x hx => by simp at hx, fun t hct => ?_⟩ ?_
          · simp only [Except.ok.injEq] at hct
            subst hct
            exact ⟨r, h', rfl, Grows_refl h', g3⟩
          · rw [hm_bind_ok hc, if_pos rfl, hm_bind_ok i1, hm_bind_ok g1, hm_bind_ok hl, hm_bind_ok o1]
            simp only [if_pos hl1]
        · rw [if_neg (by simp [hl1])]
          refine key _ _ hfin ?_
          rw [hm_bind_ok hc, if_pos rfl, hm_bind_ok i1, hm_bind_ok g1, hm_bind_ok hl, hm_bind_ok o1]
          simp only [if_neg hl1]

end Verif
