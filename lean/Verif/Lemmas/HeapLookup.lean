import Verif.Lemmas.HeapMerge
import Verif.Lemmas.Database
/-!
# Lookups in memory do what lookups in trees do
-/
set_option linter.unusedSimpArgs false
namespace Verif
variable {α β γ δ : Type} {h0 : Heap} {P : Nat → Prop}

/-! ## Writing out -/

theorem own_forall₂ {C : Heap → HVal → β → FP → Prop} {h : Heap} {a : Nat} {d : Dict PKey HVal} {G : String → FP} {t : Dict String β} {F : FP}
    (o : OwnAt h0 C h a d G t F) : List.Forall₂ (fun x y => x.1 = .str y.1 ∧ C h x.2 y.2 (G y.1)) d t := by
  refine (forall₂_own o).imp ?_
  rintro x y ⟨h1, h2, h3⟩
  obtain ⟨w, hw, hC⟩ := o.child y.1 y.2 h3
  rw [h2] at hw; injection hw with hw; subst hw
  exact ⟨h1, hC⟩

theorem writes_of_items {h : Heap} {f : β → PVal} {a : Nat} {d : Dict PKey HVal} {t : Dict String β} (ha : h[a]? = some (.dict d))
    (hd : List.Forall₂ (fun x y => x.1 = .str y.1 ∧ WritesOut h x.2 (f y.2)) d t) : WritesOut h (.ref a) (dictVal f t) := by
  unfold WritesOut dictVal
  simp only [TreeAt]
  refine ⟨a, d, rfl, trivial, ha, ?_⟩
  rw [ItemsAt_iff]
  unfold Items
  rw [List.forall₂_map_right_iff]
  exact hd

theorem own_writes {C : Heap → HVal → β → FP → Prop} {f : β → PVal} (hC : ∀ h w b G, Kept h0 h → C h w b G → WritesOut h w (f b)) {h : Heap} {v : HVal}
    {t : Dict String β} {F : FP} (o : OwnDict h0 C h v t F) : WritesOut h v (dictVal f t) := by
  obtain ⟨a, d, G, rfl, o⟩ := o
  exact writes_of_items o.get ((own_forall₂ o).imp fun x y hx => ⟨hx.1, hC _ _ _ _ o.kept hx.2⟩)

theorem OwnInst.writes {h : Heap} {v : HVal} {t : InstDict} {F : FP} (o : OwnInst h0 P h v t F) : WritesOut h v t.toVal :=
  own_writes (fun _ _ _ _ hk hr => hk.writesOut (TreeAt_mono (fun _ _ _ h => ⟨trivial, h⟩) _ _ hr.1)) o
theorem OwnVer.writes {h : Heap} {v : HVal} {t : VerDict} {F : FP} (o : OwnVer h0 P h v t F) : WritesOut h v t.toVal :=
  own_writes (fun _ _ _ _ _ hr => hr.writes) o
theorem OwnOs.writes {h : Heap} {v : HVal} {t : OsDict} {F : FP} (o : OwnOs h0 P h v t F) : WritesOut h v t.toVal :=
  own_writes (fun _ _ _ _ _ hr => hr.writes) o
theorem OwnRules.writes {h : Heap} {v : HVal} {t : Rules} {F : FP} (o : OwnRules h0 P h v t F) : WritesOut h v t.toVal :=
  own_writes (fun _ _ _ _ _ hr => hr.writes) o

/-! ## Verification only reads -/

theorem verifyDepends_eq (uni : Char → Bool) {h : Heap} {P : Nat → Prop} : ∀ (l : List HVal) (ts : List PVal), ListAt h P l ts →
    hVerifyDepends uni l = verifyDepends uni ts
  | l, [], hl => by simp only [ListAt] at hl; subst hl; rfl
  | l, t :: ts, hl => by
    simp only [ListAt] at hl
    obtain ⟨v, l', rfl, h1, h2⟩ := hl
    simp only [hVerifyDepends, verifyDepends, verifyDepends_eq uni l' ts h2]
    have : v.asKey = t.asKey := by
      cases t with
      | list ts => simp only [TreeAt] at h1; obtain ⟨a, l, rfl, _⟩ := h1; rfl
      | dict ts => simp only [TreeAt] at h1; obtain ⟨a, l, rfl, _⟩ := h1; rfl
      | _ => simp only [TreeAt] at h1; subst h1; rfl
    rw [this]

theorem verifyPackages_eq {h : Heap} {P : Nat → Prop} {v : HVal} {t : PVal} (ht : TreeAt h P v t) :
    hVerifyPackages (hobj h v) = (match t with | .list _ => pure () | _ => throw .valueError) := by
  cases t with
  | list ts => simp only [TreeAt] at ht; obtain ⟨a, l, rfl, _, ha, _⟩ := ht; simp only [hobj, ha]; rfl
  | dict ts => simp only [TreeAt] at ht; obtain ⟨a, l, rfl, _, ha, _⟩ := ht; simp only [hobj, ha]; rfl
  | _ => simp only [TreeAt] at ht; subst ht; rfl

theorem verifyDependsEntry_eq (uni : Char → Bool) {h : Heap} {P : Nat → Prop} {v : HVal} {t : PVal} (ht : TreeAt h P v t) :
    hVerifyDependsEntry uni (hobj h v) = (match t with | .list l => verifyDepends uni l | _ => throw .valueError) := by
  cases t with
  | list ts =>
    simp only [TreeAt] at ht; obtain ⟨a, l, rfl, _, ha, hl⟩ := ht
    simp only [hobj, ha]; exact verifyDepends_eq uni l ts hl
  | dict ts => simp only [TreeAt] at ht; obtain ⟨a, l, rfl, _, ha, _⟩ := ht; simp only [hobj, ha]; rfl
  | _ => simp only [TreeAt] at ht; subst ht; rfl

theorem forCheck_eq {f : PKey × HVal → Except Exc Unit} {g : PKey → PVal → Except Exc Unit} {h : Heap} {P : Nat → Prop}
    (hfg : ∀ k v t, TreeAt h P v t → f (k, v) = g k t) : ∀ (d : Dict PKey HVal) (e : List (PKey × PVal)), ItemsAt h P d e →
    hForCheck f d = forCheck g e
  | d, [], hd => by simp only [ItemsAt] at hd; subst hd; rfl
  | d, (k, t) :: e, hd => by
    simp only [ItemsAt] at hd
    obtain ⟨v, d', rfl, h1, h2⟩ := hd
    simp only [hForCheck, forCheck, hfg k v t h1, forCheck_eq hfg d' e h2]

theorem verifyRuleItem_eq (uni : Char → Bool) {h : Heap} {P : Nat → Prop} (k : PKey) (v : HVal) (t : PVal) (ht : TreeAt h P v t) :
    hVerifyRuleItem uni h (k, v) = verifyRuleItem uni k t := by
  cases k with
  | str s =>
    simp only [hVerifyRuleItem, verifyRuleItem, verifyPackages_eq ht, verifyDependsEntry_eq uni ht]
    by_cases h1 : s = "packages"
    · subst h1
      cases t <;> rfl
    · rw [if_neg h1]
      by_cases h2 : s = "depends"
      · subst h2; cases t <;> rfl
      · rw [if_neg h2]; simp only [if_neg h1, if_neg h2]
  | _ => rfl

theorem verifyRule_eq (uni : Char → Bool) {h : Heap} {P : Nat → Prop} (v : HVal) (t : PVal) (ht : TreeAt h P v t) :
    hVerifyRule uni h v = verifyInstallerRule uni t := by
  unfold hVerifyRule
  cases t with
  | list ts => simp only [TreeAt] at ht; obtain ⟨a, l, rfl, _, ha, hl⟩ := ht; simp only [hobj, ha]; rfl
  | dict e =>
    simp only [TreeAt] at ht; obtain ⟨a, l, rfl, _, ha, hl⟩ := ht; simp only [hobj, ha]
    exact forCheck_eq (fun k v t h => verifyRuleItem_eq uni k v t h) l e hl
  | _ => simp only [TreeAt] at ht; subst ht; rfl

theorem verifyInstaller_eq (uni : Char → Bool) {h : Heap} {P : Nat → Prop} (v : HVal) (t : PVal) (ht : TreeAt h P v t) :
    hVerifyInstaller uni h v = verifyInstallerDict uni false t := by
  unfold hVerifyInstaller
  cases t with
  | list ts => simp only [TreeAt] at ht; obtain ⟨a, l, rfl, _, ha, hl⟩ := ht; simp only [hobj, ha]; rfl
  | dict e =>
    simp only [TreeAt] at ht; obtain ⟨a, l, rfl, _, ha, hl⟩ := ht; simp only [hobj, ha]
    refine forCheck_eq (fun k v t h => ?_) l e hl
    simp only [hVerifyInstallerItem, verifyRule_eq uni v t h]
    rfl
  | _ => simp only [TreeAt] at ht; subst ht; rfl

/-! ## `get` -/

/-- From `h` on, `w` is a dict with the items `t`, whose values were there from the start. -/
def Reads (h0 : Heap) (P : Nat → Prop) (h : Heap) (f : β → PVal) (w : HVal) (t : Dict String β) : Prop :=
  ∀ h', Kept h h' → ∃ d, (∀ e, xdict e w h' = (.ok d, h')) ∧ List.Forall₂ (InItem h0 P f) d t

theorem InDict.reads {f : β → PVal} {v : HVal} {t : Dict String β} (hv : InDict h0 P f v t) {h : Heap} (hk : Kept h0 h) : Reads h0 P h f v t :=
  fun _ hk' => hv.items (hk.trans hk')

theorem Reads.later {f : β → PVal} {v : HVal} {t : Dict String β} {h h' : Heap} (hr : Reads h0 P h f v t) (hk : Kept h h') : Reads h0 P h' f v t :=
  fun _ hk' => hr _ (hk.trans hk')

theorem kept_alloc (h : Heap) (o : HObj) : Kept h (h ++ [o]) :=
  ⟨by simp, fun x hx => by rw [List.getElem?_append_left hx]⟩

theorem xget_reads {g : β → PVal} {v : HVal} {t : Dict String (Dict String β)} {h : Heap} (hk : Kept h0 h) (hr : Reads h0 P h (dictVal g) v t) (k : String) :
    ∃ w h', xget v (.str k) h = (.ok w, h') ∧ Kept h h' ∧ Reads h0 P h' g w ((dget t k).getD []) := by
  have hk' := kept_alloc h (.dict [])
  obtain ⟨d, hd, hi⟩ := hr _ hk'
  refine ⟨(dget d (.str k)).getD (.ref h.length), h ++ [.dict []], ?_, hk', ?_⟩
  · simp only [xget, xnew]
    rw [hx_bind, hx_bind]
    simp only [xalloc, hx_pure]
    rw [hx_bind, hd]
    rfl
  · cases hg : dget t k with
    | some b =>
      obtain ⟨w, hw, hwo⟩ := items_dget hi hg
      rw [hw]
      exact InDict.reads (hv := hwo) (hk.trans hk')
    | none =>
      rw [keys_none (items_keys hi) hg]
      intro h2 hk2
      refine ⟨[], fun e => ?_, .nil⟩
      have : h2[h.length]? = some (.dict []) := hk2.get (by simp)
      simp only [xdict, Option.getD_none, this]

theorem mergeReads_ref (dflt : Option String) {v c : HVal} {new combined : InstDict} {F : FP} {h h1 : Heap}
    (hv : Reads h0 P h1 Rule.toVal v new) (hk : Kept h1 h) (o : OwnInst h0 P h c combined F) :
    Ref F h (xMergeInstaller v c dflt) (mergeInstallerDict new combined dflt)
      (fun _ t' h' => Owned (fun h t F => OwnInst h0 P h c t F) F h t' h') := by
  obtain ⟨d, h1, h2⟩ := hv h hk
  exact Ref_read (h1 _) (mergeLoop_ref dflt h2 o)

/-! ## Lookups -/

theorem ref_after {m : HX α} {h h1 : Heap} {a : α} {f : α → HX γ} {x : Except Exc δ} {Q : γ → δ → Heap → Prop} (hm : m h = (.ok a, h1)) (hk : Kept h h1)
    (h2 : Ref (fun _ => False) h1 (f a) x (fun w t h' => Kept h h1 → Q w t h')) : Ref (fun _ => False) h (m >>= f) x Q := by
  obtain ⟨r, h', e, s, ag⟩ := h2
  refine ⟨r, h', by rw [hx_bind, hm]; exact e, ?_, ?_⟩
  · have := hk.steps0 s
    exact ⟨this.len, fun x hx _ => this.same x hx⟩
  · cases ag with
    | ok q => exact .ok (q hk)
    | err e' => exact .err e'

/-- An installer dict created after `h1`. -/
def OwnI (h0 : Heap) (P : Nat → Prop) (h1 h : Heap) (v : HVal) (t : InstDict) (F : FP) : Prop := OwnInst h0 P h v t F ∧ Kept h1 h ∧ ∀ x, F x → h1.length ≤ x

theorem ownI_new {h1 : Heap} (hk : Kept h0 h1) :
    Ref (fun _ => False) h1 xnew (pure []) (fun v t h' => Owned (fun h t F => OwnI h0 P h1 h v t F) (fun _ => False) h1 t h') := by
  refine Ref_conseq (own_new (C := OwnRule h0 P) hk) ?_
  rintro v t h' s ⟨F, hf, o⟩
  exact ⟨F, hf, o, (Kept.refl h1).steps0 s, fun x hx => (hf x hx).resolve_left id⟩

theorem ownI_merge (dflt : Option String) {v c : HVal} {new combined : InstDict} {F : FP} {h h1 : Heap}
    (hv : Reads h0 P h1 Rule.toVal v new) (o : OwnI h0 P h1 h c combined F) :
    Ref F h (xMergeInstaller v c dflt) (mergeInstallerDict new combined dflt)
      (fun _ t' h' => Owned (fun h t F => OwnI h0 P h1 h c t F) F h t' h') := by
  obtain ⟨o, hk, hF⟩ := o
  refine Ref_conseq (mergeReads_ref dflt hv hk o) ?_
  rintro _ t h' s ⟨F', hf, o'⟩
  refine ⟨F', hf, o', hk.steps s hF, fun x hx => ?_⟩
  rcases hf x hx with h | h
  · exact hF x h
  · exact Nat.le_trans hk.len h

/-- The three merges of `lookup_rules`. -/
def mergeThree (a b c : InstDict) (dflt : Option String) (acc : InstDict) : Except Exc InstDict := do
  let c0 ← mergeInstallerDict a acc dflt
  let c1 ← mergeInstallerDict b c0 dflt
  mergeInstallerDict c c1 dflt

theorem mergeThree_ref (dflt : Option String) {h1 : Heap} {va vb vc : HVal} {a b c : InstDict} (hk : Kept h0 h1)
    (ha : Reads h0 P h1 Rule.toVal va a) (hb : Reads h0 P h1 Rule.toVal vb b) (hc : Reads h0 P h1 Rule.toVal vc c) :
    Ref (fun _ => False) h1 (do
      let combined ← xnew
      xMergeInstaller va combined dflt
      xMergeInstaller vb combined dflt
      xMergeInstaller vc combined dflt
      pure combined) (mergeThree a b c dflt [])
      (fun w t h' => Owned (fun h t F => OwnI h0 P h1 h w t F) (fun _ => False) h1 t h') := by
  have := own_build (I := OwnI h0 P h1) (h := h1) (m0 := xnew) (x0 := pure [])
    (f := fun r => xMergeInstaller va r dflt >>= fun _ => xMergeInstaller vb r dflt >>= fun _ => xMergeInstaller vc r dflt)
    (g := fun acc => mergeThree a b c dflt acc) (ownI_new hk) ?_
  · obtain ⟨r, h', e, s, ag⟩ := this
    exact ⟨r, h', by rw [← e]; simp only [bind_assoc], s, ag⟩
  · intro v t h' F s o
    refine Ref_bind (ownI_merge dflt ha o) ?_
    rintro _ t1 h2 ⟨F1, hf1, o1⟩ s1
    refine ⟨F1, hf1, ?_⟩
    refine Ref_bind (Q' := fun _ t' h2 => Owned (fun h t F => OwnI h0 P h1 h v t F) F h' t' h2) (ownI_merge dflt hb o1) ?_
    rintro _ t2 h3 ⟨F2, hf2, o2⟩ s2
    refine ⟨F2, hf2, ?_⟩
    refine Ref_conseq (ownI_merge dflt hc o2) ?_
    rintro _ t3 h4 s3 ⟨F3, hf3, o3⟩
    exact ⟨F3, (hf1.trans hf2 s1.len).trans hf3 (Nat.le_trans s1.len s2.len), o3⟩

theorem lookupRules_three (rules : Rules) (key os ver : String) (dflt : Option String) : lookupRules rules key os ver dflt =
    mergeThree ((dget ((dget ((dget rules key).getD []) "any_os").getD []) "any_version").getD [])
      ((dget ((dget ((dget rules key).getD []) os).getD []) "any_version").getD [])
      ((dget ((dget ((dget rules key).getD []) os).getD []) ver).getD []) dflt [] := rfl

/-- The result of a lookup started in `h`: a new installer dict whose rules were there in `h0`. -/
def NewInst (h0 : Heap) (P : Nat → Prop) (h : Heap) (w : HVal) (t : InstDict) (h' : Heap) : Prop := Owned (fun h t F => OwnInst h0 P h w t F) (fun _ => False) h t h'

theorem lookupRules_ref {h : Heap} (hk : Kept h0 h) {v : HVal} {r : Rules} (hv : TreeAt h0 P v r.toVal) (key os ver : String) (dflt : Option String) :
    Ref (fun _ => False) h (xLookupRules v key os ver dflt) (lookupRules r key os ver dflt) (fun w t h' => NewInst h0 P h w t h') := by
  have hr : Reads h0 P h OsDict.toVal v r := InDict.reads (hv := hv) hk
  obtain ⟨w1, h1, e1, k1, r1⟩ := xget_reads (g := VerDict.toVal) hk hr key
  have K1 := hk.trans k1
  obtain ⟨w2, h2, e2, k2, r2⟩ := xget_reads (g := InstDict.toVal) K1 r1 os
  have K2 := K1.trans k2
  obtain ⟨w3, h3, e3, k3, r3⟩ := xget_reads (g := InstDict.toVal) K2 (r1.later k2) "any_os"
  have K3 := K2.trans k3
  obtain ⟨w4, h4, e4, k4, r4⟩ := xget_reads (g := Rule.toVal) K3 r3 "any_version"
  have K4 := K3.trans k4
  obtain ⟨w5, h5, e5, k5, r5⟩ := xget_reads (g := Rule.toVal) K4 (r2.later (k3.trans k4)) "any_version"
  have K5 := K4.trans k5
  obtain ⟨w6, h6, e6, k6, r6⟩ := xget_reads (g := Rule.toVal) K5 (r2.later ((k3.trans k4).trans k5)) ver
  have K6 := K5.trans k6
  rw [lookupRules_three]
  unfold xLookupRules
  refine ref_after e1 k1 (ref_after e2 k2 (ref_after e3 k3 (ref_after e4 k4 (ref_after e5 k5 (ref_after e6 k6 ?_)))))
  refine Ref_conseq (mergeThree_ref dflt K6 (r4.later (k5.trans k6)) (r5.later k6) r6) ?_
  rintro w t h' _ ⟨F, hf, o, _, hF⟩ _ _ _ _ _ _
  refine ⟨F, fun x hx => .inr ?_, o⟩
  exact Nat.le_trans (((((k1.trans k2).trans k3).trans k4).trans k5).trans k6).len (hF x hx)

/-- What a source of the rules spec answers. -/
def lookupChecked (uni : Char → Bool) (r : Rules) (key os ver : String) (dflt : Option String) : Except Exc InstDict :=
  lookupRules r key os ver dflt >>= fun i => verifyInstallerDict uni false i.toVal >>= fun _ => pure i

theorem sourceLookup_ref (uni : Char → Bool) {h : Heap} (hk : Kept h0 h) {v : HVal} {r : Rules} (hv : TreeAt h0 P v r.toVal) (key os ver : String)
    (dflt : Option String) :
    Ref (fun _ => False) h (xSourceLookup uni key os ver dflt v) (lookupChecked uni r key os ver dflt) (fun w t h' => NewInst h0 P h w t h') := by
  unfold xSourceLookup lookupChecked
  refine Ref_bind (lookupRules_ref hk hv key os ver dflt) ?_
  rintro w t h' ⟨F, hf, o⟩ s
  refine ⟨fun _ => False, .refl _ _, ?_⟩
  have he : xVerifyInstaller uni w h' = (verifyInstallerDict uni false t.toVal, h') := by
    unfold xVerifyInstaller
    rw [verifyInstaller_eq uni w t.toVal o.writes]
  cases hc : verifyInstallerDict uni false t.toVal with
  | error e => exact Ref_fail (by rw [he, hc])
  | ok u => exact Ref_read (by rw [he, hc]) (Ref_pure (b := t) ⟨F, hf, o⟩)

/-- One source of `RulesDatabase.lookup`. -/
def dbStepT (uni : Char → Bool) (key os ver : String) (dflt : Option String) (acc : InstDict) (r : Rules) : Except Exc InstDict :=
  lookupChecked uni r key os ver dflt >>= fun new => mergeInstallerDict new acc none

theorem own_loc {C : Heap → HVal → β → FP → Prop} (hc : Child h0 C) {h h' : Heap} {v : HVal} {t : Dict String β} {F : FP} (o : OwnDict h0 C h v t F)
    (s : Steps (fun _ => False) h h') : OwnDict h0 C h' v t F := by
  refine (OwnDict.child hc).loc _ _ _ _ _ o (o.kept.steps0 s) (fun x hx => ?_) s.len
  obtain ⟨a, d, G, rfl, o⟩ := o
  exact s.same x (o.bound x hx).2 id

theorem dbStep_ref (uni : Char → Bool) (key os ver : String) (dflt : Option String) {c v : HVal} {acc : InstDict} {r : Rules} {F : FP} {h : Heap}
    (hv : TreeAt h0 P v r.toVal) (o : OwnInst h0 P h c acc F) :
    Ref F h (xDbStep uni key os ver dflt c v) (dbStepT uni key os ver dflt acc r)
      (fun _ t' h' => Owned (fun h t F => OwnInst h0 P h c t F) F h t' h') := by
  unfold xDbStep dbStepT
  refine Ref_bind (Ref_mono (Ref_conseq (Q' := fun w t h' => Steps (fun _ => False) h h' ∧ NewInst h0 P h w t h')
    (sourceLookup_ref uni o.kept hv key os ver dflt) (fun _ _ _ s q => ⟨s, q⟩)) (fun _ h => h.elim)) ?_
  rintro w t h' ⟨s, G, hG, ow⟩ _
  refine ⟨F, .refl F h, ?_⟩
  have o' : OwnInst h0 P h' c acc F := own_loc OwnRule.child o s
  obtain ⟨a, d, G', rfl, ow⟩ := ow
  refine Ref_read (own_items ow) ?_
  refine Ref_conseq (mergeLoop_ref none (d := d) (new := t) ((own_forall₂ ow).imp fun x y hx => ⟨hx.1, hx.2.1⟩) o') ?_
  rintro _ t' h2 s2 ⟨F2, hf2, o2⟩
  exact ⟨F2, Fresh.trans (.refl F h) hf2 s.len, o2⟩

theorem dbLookup_ref (uni : Char → Bool) (key os ver : String) (dflt : Option String) {h : Heap} (hk : Kept h0 h) {l : List HVal} {rs : List Rules}
    (hl : List.Forall₂ (fun v r => TreeAt h0 P v (Rules.toVal r)) l rs) :
    Ref (fun _ => False) h (xDbLookup uni l key os ver dflt) (rs.reverse.foldlM (dbStepT uni key os ver dflt) [])
      (fun w t h' => NewInst h0 P h w t h') := by
  refine own_build (I := OwnInst h0 P) (x0 := pure []) (g := fun acc => rs.reverse.foldlM (dbStepT uni key os ver dflt) acc) (own_new hk) ?_
  intro v t h' F s o
  refine forEach_ref (I := fun h t F => OwnInst h0 P h v t F) (rel := fun v r => TreeAt h0 P v (Rules.toVal r)) ?_ (List.rel_reverse hl) o
  intro x y acc F h hxy o
  exact dbStep_ref uni key os ver dflt hxy o

theorem source_lookup_eq (uni u : Char → Bool) (s : Source) (r : Rules) (hs : s.spec = rulesSpec u) (hd : s.data = r.toVal) (key : String) (c : LookupCtx) :
    s.lookup uni key c = lookupChecked uni r key c.os c.version c.dflt := by
  unfold Source.lookup lookupChecked
  rw [hs, hd]
  simp only [rulesSpec, rulesLookup, rulesOfVal_toVal]
  cases lookupRules r key c.os c.version c.dflt with
  | error e => rfl
  | ok d =>
    show (verifyInstallerDict uni false d.toVal >>= fun _ => _) = (verifyInstallerDict uni false d.toVal >>= fun _ => _)
    rw [instOfVal_toVal]

end Verif
