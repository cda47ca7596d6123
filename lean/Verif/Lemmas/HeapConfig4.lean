import Verif.Lemmas.HeapConfig3
import Mathlib.Data.List.Nodup
/-!
# Merging configs in memory
-/
set_option linter.unusedSimpArgs false
namespace Verif
variable {α β γ δ : Type} {h0 : Heap}

/-! ## Reading an argument -/

/-- The config `c` as it is in memory `h`. -/
abbrev ConfIn (h : Heap) (v : HVal) (c : Config) : Prop := WritesOut h v (dictVal Entry.toVal c)

theorem forall₂_str {f : β → PVal} {R : HVal → PVal → Prop} {d : Dict PKey HVal} {t : Dict String β}
    (hi : List.Forall₂ (fun x y => x.1 = y.1 ∧ R x.2 y.2) d (t.map fun kv => (PKey.str kv.1, f kv.2))) {k : String} {b : β} (hb : dget t k = some b) :
    ∃ w, dget d (.str k) = some w ∧ R w (f b) := by
  induction t generalizing d with
  | nil => simp [dget] at hb
  | cons y t ih =>
    obtain ⟨k', b'⟩ := y
    rw [List.map_cons] at hi
    obtain ⟨x, d', hx, hl, rfl⟩ : ∃ x d', (x.1 = PKey.str k' ∧ R x.2 (f b')) ∧ List.Forall₂ (fun x y => x.1 = y.1 ∧ R x.2 y.2) d' (t.map fun kv => (PKey.str kv.1, f kv.2)) ∧ d = x :: d' := by
      cases hi with
      | cons h1 h2 => exact ⟨_, _, h1, h2, rfl⟩
    obtain ⟨k1, v1⟩ := x
    obtain ⟨h1, h2⟩ := hx
    simp only at h1 h2
    subst h1
    rw [dget_cons] at hb ⊢
    by_cases he : k' = k
    · subst he
      rw [if_pos rfl] at hb ⊢
      injection hb with hb; subst hb
      exact ⟨v1, rfl, h2⟩
    · rw [if_neg he] at hb
      rw [if_neg (fun h => he (by injection h))]
      exact ih hl hb

theorem dictVal_get {f : β → PVal} {v : HVal} {t : Dict String β} (hv : WritesOut h0 v (dictVal f t)) {k : String} {b : β} (hb : dget t k = some b) :
    ∃ w, WritesOut h0 w (f b) ∧ ∀ h, Kept h0 h → xindex v (.str k) h = (.ok w, h) := by
  obtain ⟨a, d, rfl, -, hg, hi⟩ := dict_at hv
  obtain ⟨w, h1, h2⟩ := forall₂_str hi hb
  refine ⟨w, h2, fun h hk => ?_⟩
  simp only [xindex]
  rw [hx_bind]
  simp only [xdict, hk.get hg, h1]
  rfl

theorem readOpt_in {v : HVal} {c : Config} (hv : ConfIn h0 v c) {n : String} {t : PVal} (hr : readOpt c n = .ok t) :
    ∃ w, WritesOut h0 w t ∧ ∀ h, Kept h0 h → xReadOpt v n h = (.ok w, h) := by
  cases hg : groupOf n with
  | none =>
    obtain ⟨w, h1, h2⟩ := dictVal_get hv ((readOpt_top hg).1 hr)
    refine ⟨w, h1, fun h hk => ?_⟩
    simp only [xReadOpt, hg]
    exact h2 h hk
  | some p =>
    obtain ⟨g, s⟩ := p
    obtain ⟨d, hd, hs⟩ := (readOpt_grp hg).1 hr
    obtain ⟨w, h1, h2⟩ := dictVal_get hv hd
    obtain ⟨w', h3, h4⟩ := dictVal_get (f := id) h1 hs
    refine ⟨w', h3, fun h hk => ?_⟩
    simp only [xReadOpt, hg]
    rw [hx_bind, h2 h hk]
    exact h4 h hk

/-! ## Merging two values -/

theorem none_iff {P : Nat → Prop} {h : Heap} {v : HVal} {t : PVal} (ht : TreeAt h P v t) : v = .none ↔ t.isNone = true := by
  rcases TreeAt_cases ht with ⟨rfl, rfl⟩ | ⟨b, rfl, rfl⟩ | ⟨b, rfl, rfl⟩ | ⟨b, rfl, rfl⟩ | ⟨b, rfl, rfl⟩ | ⟨ts, a, l, rfl, rfl, -⟩ | ⟨ts, a, l, rfl, rfl, -⟩ <;>
    simp [PVal.isNone]

theorem forall₂_dupdate {R : HVal → PVal → Prop} {d1 d2 : Dict PKey HVal} {e1 e2 : Dict PKey PVal}
    (h1 : List.Forall₂ (fun x y => x.1 = y.1 ∧ R x.2 y.2) d1 e1) (h2 : List.Forall₂ (fun x y => x.1 = y.1 ∧ R x.2 y.2) d2 e2) :
    List.Forall₂ (fun x y => x.1 = y.1 ∧ R x.2 y.2) (dupdate d1 d2) (dupdate e1 e2) := by
  unfold dupdate
  induction h2 generalizing d1 e1 with
  | nil => exact h1
  | @cons x y l l' h hl ih =>
    rw [List.foldl_cons, List.foldl_cons]
    refine ih ?_
    rw [h.1]
    exact mem_forall₂_dset h1 _ h.2

/-- The result of a merge of `w`, which owns `G`. -/
def Merged (h0 : Heap) (G : FP) (h : Heap) (w : HVal) (t : PVal) (h' : Heap) : Prop := ∃ G', Fresh G h G' ∧ ValOwn h0 h' w t G'

theorem merge_ref {ty : CType} {h : Heap} {w wb : HVal} {t tb : PVal} {G : FP} (hw : ValOwn h0 h w t G) (hb : WritesOut h0 wb tb)
    (ht : Shaped ty t) (htb : Shaped ty tb) : Ref NoFP h (xMerge ty w wb) (ty.merge t tb) (Merged h0 G h) := by
  have plain : Ref NoFP h (pure (if w = .none then wb else w)) (.ok (if t.isNone then tb else t)) (Merged h0 G h) := by
    refine Ref_pure ?_
    by_cases he : w = .none
    · rw [if_pos he, if_pos ((none_iff hw.2.1).1 he)]
      exact ⟨NoFP, fun _ h => h.elim, valOwn_old hw.1 hb⟩
    · rw [if_neg he, if_neg (fun h => he ((none_iff hw.2.1).2 h))]
      exact ⟨G, .refl _ _, hw⟩
  cases ty with
  | mergingDict vt kt =>
    obtain ⟨e, rfl, -⟩ := ht
    obtain ⟨eb, rfl, -⟩ := htb
    obtain ⟨hk, htr, hG⟩ := hw
    obtain ⟨a, d, rfl, -, hg, hi⟩ := dict_at htr
    obtain ⟨ab, db, rfl, -, hgb, hib⟩ := dict_at hb
    have hm : xMerge (.mergingDict vt kt) (.ref a) (.ref ab) h = (.ok (.ref h.length), h ++ [.dict (dupdate db d)]) := by
      simp only [xMerge, xMergeDicts]
      have e1 : xdict .attributeError (.ref ab) h = (.ok db, h) := by simp only [xdict, hk.get hgb]
      have e2 : xdict .typeError (.ref a) h = (.ok d, h) := by simp only [xdict, hg]
      rw [hx_bind, e1]
      simp only
      rw [hx_bind, e2]
      rfl
    refine Ref_ok (b := PVal.dict (dupdate eb e)) hm (.alloc _ _ _) ?_
    have ka := Kept.alloc h (.dict (dupdate db d))
    refine ⟨fun x => G x ∨ x = h.length, fun x hx => hx.imp id (fun h => Nat.le_of_eq h.symm), hk.trans ka, ?_, ?_⟩
    · refine tree_dict (.inr (.inr rfl)) (get_alloc _ _) ?_
      refine forall₂_dupdate (hib.imp fun x y hx => ⟨hx.1, ?_⟩) (hi.imp fun x y hx => ⟨hx.1, ?_⟩)
      · exact ka.tree (fun a ha => .inl ha) (old_tree hk hx.2)
      · exact ka.tree (fun a ha => ha.imp id .inl) hx.2
    · rintro x (hx | rfl)
      · exact ⟨(hG x hx).1, by have := (hG x hx).2; simp; omega⟩
      · exact ⟨hk.len, by simp⟩
  | _ => exact plain

/-! ## One option -/

theorem conf_replace {S : String → Bool} {v : HVal} {c : Config} {F : FP} {h : Heap} (o : ConfAt h0 S h v c F) {n : String} {t : PVal}
    (ht : dget c n = some (.val t)) {m : HVal → HX HVal} {x : Except Exc PVal} (hm : ∀ w G, ValOwn h0 h w t G → Ref NoFP h (m w) x (Merged h0 G h)) :
    Ref F h (xindex v (.str n) >>= fun w => m w >>= fun w' => xset v (.str n) w') (x >>= fun t' => pure (dset c n (.val t'))) (KeepsConf h0 S v F h) := by
  refine conf_of_tag ?_
  have hb : dget (tag S c) n = some (S n, .val t) := by rw [dget_tag, ht]; rfl
  have := own_replace EntryOwn.child o hb (m := m) (x := x >>= fun t' => pure (S n, Entry.val t')) ?_
  · cases x with
    | error e => exact this
    | ok t' =>
      have e1 : tag S (dset c n (.val t')) = dset (tag S c) n (S n, .val t') := (dset_tag S c n _).symm
      show Ref F h _ (.ok (tag S (dset c n (.val t')))) _
      rw [e1]; exact this
  · intro w G hw
    refine Ref_map (hm w G (EntryOwn.val.1 hw)) ?_
    rintro w' t' h' s ⟨G', hf, ov⟩
    exact ⟨G', hf, EntryOwn.val.2 ov⟩

theorem xMergeItem_eq (r bottom : HVal) (n : String) (i : ConfigItem) : xMergeItem r bottom (n, i) =
    xReadOpt r n >>= fun t => (xReadOpt bottom n >>= fun b => xMerge i.type t b) >>= fun m => xWriteOpt r n m := by
  simp only [xMergeItem, bind_assoc]

theorem xReadOpt_top {n : String} (hg : groupOf n = none) (v : HVal) : xReadOpt v n = xindex v (.str n) := by simp only [xReadOpt, hg]
theorem xReadOpt_grp {n g s : String} (hg : groupOf n = some (g, s)) (v : HVal) : xReadOpt v n = xindex v (.str g) >>= fun d => xindex d (.str s) := by
  simp only [xReadOpt, hg]
theorem xWriteOpt_top {n : String} (hg : groupOf n = none) (v w : HVal) : xWriteOpt v n w = xset v (.str n) w := by simp only [xWriteOpt, hg]
theorem xWriteOpt_grp {n g s : String} (hg : groupOf n = some (g, s)) (v w : HVal) : xWriteOpt v n w = xindex v (.str g) >>= fun d => xset d (.str s) w := by
  simp only [xWriteOpt, hg]

theorem mergeItem_ref {S : String → Bool} {desc : Desc} (hw : desc.Wf) (hS : ∀ g, g ∈ dkeys desc.groups → S g = true) {bottom : HVal} {cb : Config}
    (hb : ConfIn h0 bottom cb) (hfb : Fits desc cb) {ni : String × ConfigItem} (hi : dget desc.items ni.1 = some ni.2) {r : HVal} {c : Config} {F : FP} {h : Heap}
    (o : ConfAt h0 S h r c F) (hf : Fits desc c) :
    Ref F h (xMergeItem r bottom ni) (mergeItem cb c ni) (fun _ c' h' => Owned (fun h c F => ConfAt h0 S h r c F ∧ Fits desc c) F h c' h') := by
  obtain ⟨n, i⟩ := ni
  simp only at hi
  obtain ⟨t, ht, hst⟩ := hf.opts n i hi
  obtain ⟨tb, htb, hstb⟩ := hfb.opts n i hi
  obtain ⟨wb, hwb, hrb⟩ := readOpt_in hb htb
  have hk := o.kept
  -- the new value
  have hmk : ∀ w G, ValOwn h0 h w t G → Ref NoFP h (xReadOpt bottom n >>= fun b => xMerge i.type w b) (i.type.merge t tb) (Merged h0 G h) := by
    intro w G ow
    exact Ref_read (hrb h hk) (merge_ref ow hwb hst hstb)
  -- the config afterwards
  have hpost : ∀ {m : HX Unit} {x : PVal → Config}, (∀ m', i.type.merge t tb = .ok m' → writeOpt c n m' = .ok (x m')) →
      Ref F h m (i.type.merge t tb >>= fun m' => pure (x m')) (KeepsConf h0 S r F h) →
      Ref F h m (mergeItem cb c (n, i)) (fun _ c' h' => Owned (fun h c F => ConfAt h0 S h r c F ∧ Fits desc c) F h c' h') := by
    intro m x hx hr
    obtain ⟨m', hm, hsm⟩ := merge_shaped hst hstb
    have he : mergeItem cb c (n, i) = .ok (x m') := by
      simp only [mergeItem]
      rw [ht, htb]
      show (i.type.merge t tb >>= fun m => writeOpt c n m) = _
      rw [hm]
      exact hx m' hm
    rw [he]
    rw [hm] at hr
    refine Ref_conseq (Ref_val (x := .ok (x m')) hr) ?_
    rintro _ c' h' s ⟨⟨F', hf', o'⟩, e⟩
    injection e with e
    subst e
    obtain ⟨c', hc1, hc2, -⟩ := hf.write hw hi hsm
    rw [hx m' hm] at hc1
    injection hc1 with hc1
    exact ⟨F', hf', o', hc1 ▸ hc2⟩
  cases hg : groupOf n with
  | none =>
    have h1 := (readOpt_top hg).1 ht
    refine hpost (x := fun m' => dset c n (.val m')) (fun m' _ => writeOpt_top hg) ?_
    have := conf_replace o h1 hmk
    rw [xMergeItem_eq, xReadOpt_top hg]
    simp only [xWriteOpt_top hg]
    exact this
  | some p =>
    obtain ⟨g, s⟩ := p
    obtain ⟨d, hd, hs⟩ := (readOpt_grp hg).1 ht
    obtain ⟨gd, hgd, _⟩ := hw.inGroup n i g s hi hg
    have hgm : g ∈ dkeys desc.groups := mem_dkeys_iff.2 (by rw [hgd]; rfl)
    refine hpost (x := fun m' => dset c g (.grp (dset d s m'))) (fun m' _ => writeOpt_grp hg hd) ?_
    have key : Ref F h (xindex r (.str g) >>= fun dv => xindex dv (.str s) >>= fun w =>
        (xReadOpt bottom n >>= fun b => xMerge i.type w b) >>= fun w' => xset dv (.str s) w')
        (i.type.merge t tb >>= fun m' => pure (dset c g (.grp (dset d s m')))) (KeepsConf h0 S r F h) := by
      have := conf_modify o (hS g hgm) hd (m := fun dv => xindex dv (.str s) >>= fun w =>
        (xReadOpt bottom n >>= fun b => xMerge i.type w b) >>= fun w' => xset dv (.str s) w') (x := i.type.merge t tb >>= fun m' => pure (dset d s m')) ?_
      · simpa only [bind_assoc, pure_bind] using this
      · intro w G ow
        exact own_replace ValOwn.child ow hs hmk
    -- reading the group again gives the same dict
    obtain ⟨rr, h', e, st, ag⟩ := key
    refine ⟨rr, h', ?_, st, ag⟩
    rw [← e]
    obtain ⟨a, dd, G, rfl, oo⟩ := o
    have hb' : dget (tag S c) g = some (true, .grp d) := by rw [dget_tag, hd, ← hS g hgm]; rfl
    obtain ⟨dv, hdv, ow⟩ := oo.child g _ hb'
    obtain ⟨a2, d2, G2, rfl, o2⟩ := EntryOwn.grp.1 ow
    obtain ⟨w, hwd, hwv⟩ := o2.child s t hs
    obtain ⟨r1, h1, e1, s1, ag1⟩ := hmk w _ hwv
    have oo1 : OwnAt h0 (EntryOwn h0) h1 a dd G (tag S c) F := oo.elsewhere EntryOwn.child (oo.kept.steps0 s1) (fun x hx => s1.same x (oo.bound x hx).2 id) s1.len
    rw [xMergeItem_eq, xReadOpt_grp hg (.ref a)]
    simp only [xWriteOpt_grp hg]
    rw [hx_bind, hx_bind, oo.index hdv]
    simp only [o2.index hwd]
    rw [hx_bind, e1, hx_bind, oo.index hdv]
    simp only
    rw [hx_bind, o2.index hwd]
    simp only
    rw [hx_bind, e1]
    clear ag1 e1
    cases r1 with
    | error e => rfl
    | ok w' =>
      simp only
      rw [hx_bind, oo1.index hdv]

/-! ## Copies -/

theorem keys_of_tree {f : β → PVal} {P : Nat → Prop} {h : Heap} {d : Dict PKey HVal} {t : Dict String β}
    (hi : List.Forall₂ (fun x y => x.1 = y.1 ∧ TreeAt h P x.2 y.2) d (t.map fun kv => (PKey.str kv.1, f kv.2))) : dkeys d = (dkeys t).map .str := by
  have : ∀ {d : Dict PKey HVal} {e : Dict PKey PVal}, List.Forall₂ (fun x y => x.1 = y.1 ∧ TreeAt h P x.2 y.2) d e → dkeys d = dkeys e := by
    intro d e hl
    induction hl with
    | nil => rfl
    | cons h _ ih => simp only [dkeys, List.map_cons, h.1] at ih ⊢; rw [ih]
  rw [this hi]
  simp [dkeys, List.map_map, Function.comp_def]

theorem wf_of_tree (hwf : h0.WF) {f : β → PVal} {v : HVal} {t : Dict String β} (hv : WritesOut h0 v (dictVal f t)) : DWF t := by
  obtain ⟨a, d, rfl, -, hg, hi⟩ := dict_at hv
  have := hwf a d hg
  unfold DWF at this ⊢
  rw [keys_of_tree hi] at this
  exact List.Nodup.of_map _ this

theorem own_copy {C : Heap → HVal → β → FP → Prop} {f : β → PVal} (hC : ∀ h w b, Kept h0 h → WritesOut h0 w (f b) → C h w b NoFP)
    {v : HVal} {t : Dict String β} (hwt : DWF t) (hv : WritesOut h0 v (dictVal f t)) {h : Heap} (hk : Kept h0 h) :
    ∃ h', xCopyDict v h = (.ok (.ref h.length), h') ∧ Kept h h' ∧ OwnDict h0 C h' (.ref h.length) t (fun x => x = h.length) := by
  obtain ⟨a, d, rfl, -, hg, hi⟩ := dict_at hv
  have ka := Kept.alloc h (.dict d)
  refine ⟨h ++ [.dict d], ?_, ka, h.length, d, fun _ => NoFP, rfl, hk.trans ka, get_alloc _ _, keys_of_tree hi, hwt, rfl, ?_, ?_, fun _ _ h => h.elim, fun _ _ _ h => h.elim⟩
  · have e1 : xdict .typeError (.ref a) h = (.ok d, h) := by simp only [xdict, hk.get hg]
    simp only [xCopyDict]
    rw [hx_bind, e1]
    rfl
  · rintro x rfl
    exact ⟨hk.len, by simp⟩
  · intro k b hb
    obtain ⟨w, h1, h2⟩ := forall₂_str hi hb
    exact ⟨w, h1, hC _ _ _ (hk.trans ka) h2⟩

/-- The keys of a config and of its groups are distinct. -/
def ConfWf (c : Config) : Prop := DWF c ∧ ∀ g d, dget c g = some (.grp d) → DWF d

theorem confWf_of_heap (hwf : h0.WF) {v : HVal} {c : Config} (hv : ConfIn h0 v c) : ConfWf c := by
  refine ⟨wf_of_tree hwf hv, fun g d hd => ?_⟩
  obtain ⟨w, h1, -⟩ := dictVal_get hv hd
  exact wf_of_tree (f := id) hwf h1

theorem confWf_of_own {h : Heap} {v : HVal} {c : Config} {F : FP} (o : ConfAt h0 (fun _ => true) h v c F) : ConfWf c := by
  refine ⟨o.wf, fun g d hd => ?_⟩
  obtain ⟨a, dd, G, rfl, o⟩ := o
  obtain ⟨w, -, h1⟩ := o.child g (true, .grp d) (by rw [dget_tag, hd]; rfl)
  obtain ⟨_, _, _, rfl, o1⟩ := EntryOwn.grp.1 h1
  exact o1.wf

theorem copyGroup_ref {S S' : String → Bool} {r : HVal} {c : Config} {F : FP} {h : Heap} {g : String} {d : Dict String PVal}
    (o : ConfAt h0 S h r c F) (hd : dget c g = some (.grp d)) (hwd : DWF d) (hS : S g = false) (hS' : S' g = true) (hSS : ∀ k, k ≠ g → S' k = S k) :
    Ref F h (xCopyGroup r g) (.ok c) (KeepsConf h0 S' r F h) := by
  have hb : dget (tag S c) g = some (false, .grp d) := by rw [dget_tag, hd, ← hS]; rfl
  have := own_replace EntryOwn.child o hb (m := xCopyDict) (x := .ok (true, .grp d)) ?_
  · obtain ⟨rr, h', e, s, ag⟩ := this
    refine ⟨rr, h', e, s, ?_⟩
    have e1 : (Except.ok (true, Entry.grp d) >>= fun b' => (pure (dset (tag S c) g b') : Except Exc _)) = .ok (tag S' c) := by
      rw [tag_mark o.wf hd hSS, hS']; rfl
    rw [e1] at ag
    cases ag with
    | ok hq => exact .ok hq
  · intro w G ow
    obtain ⟨hk, hw, -⟩ := EntryOwn.old.1 ow
    obtain ⟨h', e, k, oo⟩ := own_copy (C := ValOwn h0) (f := id) (fun h w b hk hw => valOwn_old hk hw) hwd hw hk
    refine Ref_ok e ⟨k.len, fun x hx _ => k.same x hx⟩ ⟨_, fun x hx => .inr (Nat.le_of_eq hx.symm), EntryOwn.grp.2 oo⟩

theorem copyGroups_ref {r : HVal} {c : Config} (hwf : ConfWf c) : ∀ (gs : List String) {S : String → Bool} {F : FP} {h : Heap}, gs.Nodup →
    (∀ g ∈ gs, HasGroup c g) → (∀ g ∈ gs, S g = false) → ConfAt h0 S h r c F →
    Ref F h (xForEach (xCopyGroup r) gs) (.ok c) (KeepsConf h0 (fun k => S k || decide (k ∈ gs)) r F h)
  | [], S, F, h, _, _, _, o => by
    have : (fun k => S k || decide (k ∈ ([] : List String))) = S := by funext k; simp
    rw [this]
    exact Ref_pure (b := c) ⟨F, .refl _ _, o⟩
  | g :: gs, S, F, h, hn, hg, hS, o => by
    obtain ⟨d, hd⟩ := hg g (by simp)
    rw [List.nodup_cons] at hn
    have h1 := copyGroup_ref (S' := fun k => S k || decide (k = g)) o hd (hwf.2 g d hd) (hS g (by simp)) (by simp) (fun k hk => by simp [hk])
    have he : (Except.ok c : Except Exc Config) = (Except.ok c : Except Exc Config) >>= fun c => .ok c := rfl
    rw [he]
    simp only [xForEach]
    refine Ref_bind (Ref_val h1) ?_
    rintro _ c' h' ⟨⟨F', hf, o'⟩, e⟩ s
    injection e with e
    subst e
    refine ⟨F', hf, ?_⟩
    have h2 := copyGroups_ref hwf gs hn.2 (fun x hx => hg x (by simp [hx])) (fun x hx => by
      have : x ≠ g := by rintro rfl; exact hn.1 hx
      simp [this, hS x (by simp [hx])]) o'
    refine Ref_conseq h2 ?_
    rintro _ c2 h2 s2 ⟨F2, hf2, o2⟩
    refine ⟨F2, hf.trans hf2 s.len, ?_⟩
    have : (fun k => S k || decide (k ∈ g :: gs)) = fun k => (S k || decide (k = g)) || decide (k ∈ gs) := by
      funext k; simp [Bool.or_assoc]
    rw [this]
    exact o2

/-- The groups of the description. -/
def Desc.isGroup (desc : Desc) (g : String) : Bool := decide (g ∈ dkeys desc.groups)

theorem copyConfig_ref {desc : Desc} (hw : desc.Wf) {v : HVal} {c : Config} (hv : ConfIn h0 v c) (hwf : ConfWf c) (hf : Fits desc c) {h : Heap} (hk : Kept h0 h) :
    Ref NoFP h (xCopyConfig desc v) (.ok c) (fun r c' h' => Owned (fun h c F => ConfAt h0 desc.isGroup h r c F) NoFP h c' h' ∧ c' = c) := by
  have hv' : WritesOut h0 v (dictVal (fun b : Bool × Entry => b.2.toVal) (tag (fun _ => false) c)) := by rw [dictVal_tag]; exact hv
  -- groups were there from the start
  have hC : ∀ h w (b : Bool × Entry), Kept h0 h → WritesOut h0 w b.2.toVal → b.1 = false → EntryOwn h0 h w b NoFP := by
    rintro h w ⟨b, e⟩ hk hw rfl
    cases e with
    | val t => exact EntryOwn.val.2 (valOwn_old hk hw)
    | grp d => exact EntryOwn.old.2 ⟨hk, hw, fun _ => id⟩
  obtain ⟨h', e, k, a, d, G, ea, oo⟩ := own_copy (C := fun h w b G => b.1 = false → EntryOwn h0 h w b G) (f := fun b : Bool × Entry => b.2.toVal)
    (fun h w b hk hw hb => hC h w b hk hw hb) (by unfold DWF; rw [dkeys_tag]; exact hwf.1) hv' hk
  injection ea with ea
  subst ea
  have o : ConfAt h0 (fun _ => false) h' (.ref h.length) c (fun x => x = h.length) := by
    refine ⟨h.length, d, G, rfl, oo.kept, oo.get, oo.keys, oo.wf, oo.root, oo.bound, ?_, oo.inside, oo.apart⟩
    intro k b hb
    obtain ⟨w, h1, h2⟩ := oo.child k b hb
    refine ⟨w, h1, h2 ?_⟩
    rw [dget_tag] at hb
    cases hc : dget c k with
    | none => rw [hc] at hb; cases hb
    | some e => rw [hc] at hb; cases hb; rfl
  have h2 := copyGroups_ref hwf (dkeys desc.groups) hw.groups hf.grps (fun _ _ => rfl) o
  unfold xCopyConfig
  obtain ⟨rr, h2', e2, s2, ag⟩ := h2
  cases ag with
  | ok hq =>
    obtain ⟨F2, hf2, o2⟩ := hq
    refine ⟨.ok (.ref h.length), h2', ?_, ?_, .ok ⟨⟨F2, ?_, ?_⟩, rfl⟩⟩
    · rw [hx_bind, e]
      simp only
      rw [hx_bind, e2]
      rfl
    · refine ⟨Nat.le_trans k.len s2.len, fun x hx _ => ?_⟩
      rw [s2.same x (Nat.lt_of_lt_of_le hx k.len) (fun h => by omega), k.same x hx]
    · intro x hx
      rcases hf2 x hx with rfl | h
      · exact .inr (Nat.le_refl _)
      · exact .inr (Nat.le_trans k.len h)
    · have : desc.isGroup = fun k => false || decide (k ∈ dkeys desc.groups) := by funext k; simp [Desc.isGroup]
      rw [this]
      exact o2

/-! ## `merge_configs` -/

theorem mergeConfig_ref {desc : Desc} (hw : desc.Wf) {bottom : HVal} {cb : Config} (hb : ConfIn h0 bottom cb) (hfb : Fits desc cb) {r : HVal} {c : Config} {F : FP} {h : Heap}
    (o : ConfAt h0 desc.isGroup h r c F) (hf : Fits desc c) :
    Ref F h (xMergeConfig desc r bottom) (mergeConfig desc c cb)
      (fun _ c' h' => Owned (fun h c F => ConfAt h0 desc.isGroup h r c F ∧ Fits desc c) F h c' h') := by
  refine forEach_ref (I := fun h c F => ConfAt h0 desc.isGroup h r c F ∧ Fits desc c) (rel := fun x y => x = y ∧ dget desc.items x.1 = some x.2) ?_
    (forall₂_self fun x hx => ⟨rfl, mem_dget hw.items hx⟩) ⟨o, hf⟩
  rintro x _ acc F h ⟨rfl, hx⟩ ⟨o, hc⟩
  exact mergeItem_ref hw (fun g hg => by simpa [Desc.isGroup] using hg) hb hfb hx o hc

/-- `v` is a complete config in memory. -/
def ConfArg (h0 : Heap) (desc : Desc) (v : HVal) (c : Config) : Prop := ConfIn h0 v c ∧ Fits desc c

theorem mergeConfigs_ref {desc : Desc} (hw : desc.Wf) {top : HVal} {c : Config} (hwf : ConfWf c) (ht : ConfArg h0 desc top c) {more : List HVal} {cs : List Config}
    (hm : List.Forall₂ (ConfArg h0 desc) more cs) {h : Heap} (hk : Kept h0 h) :
    Ref NoFP h (xMergeConfigs desc top more) (mergeConfigs desc c cs) (fun r c' h' => NewConf h0 desc.isGroup h r c' h' ∧ Fits desc c') := by
  have := own_build (I := fun h v c F => ConfAt h0 desc.isGroup h v c F ∧ Fits desc c) (h := h) (m0 := xCopyConfig desc top) (x0 := copyConfigDict desc c)
    (f := fun r => xForEach (xMergeConfig desc r) more) (g := fun acc => cs.foldlM (mergeConfig desc) acc)
    (by
      rw [copyConfigDict_ok ht.2]
      refine Ref_conseq (copyConfig_ref hw ht.1 hwf ht.2 hk) ?_
      rintro r c' h' s ⟨⟨F, hf, o⟩, rfl⟩
      exact ⟨F, hf, o, ht.2⟩)
    (by
      rintro v c h' F s ⟨o, hf⟩
      refine forEach_ref (I := fun h c F => ConfAt h0 desc.isGroup h v c F ∧ Fits desc c) (rel := ConfArg h0 desc) ?_ hm ⟨o, hf⟩
      rintro x y acc F h hxy ⟨o, hc⟩
      exact mergeConfig_ref hw hxy.1 hxy.2 o hc)
  refine Ref_conseq this ?_
  rintro r c' h' s ⟨F, hf, o, hfit⟩
  exact ⟨⟨F, hf, o⟩, hfit⟩

end Verif
