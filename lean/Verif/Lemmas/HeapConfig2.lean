import Verif.Lemmas.HeapConfig
import Verif.Lemmas.HeapLookup
import Verif.Lemmas.Config3
import Verif.Model.Installers
/-!
# Config dicts owned by a running function

Lemmas for `Props/HeapConfig.lean`.
-/
set_option linter.unusedSimpArgs false
namespace Verif
variable {α β γ δ : Type} {h0 : Heap}

section
variable {C : Heap → HVal → β → FP → Prop}

/-- Assigning an item; the new value may share objects with the old one. -/
theorem OwnAt.put' (hc : Child h0 C) {h : Heap} {a : Nat} {d : Dict PKey HVal} {G : String → FP} {t : Dict String β} {F : FP}
    (o : OwnAt h0 C h a d G t F) {k : String} {w : HVal} {b : β} {G' : FP} (hw : C h w b G') (hd : ∀ x, G' x → F x → G k x) :
    OwnAt h0 C (h.set a (.dict (dset d (.str k) w))) a (dset d (.str k) w) (setFP G k G') (dset t k b) (fun x => F x ∨ G' x) := by
  have hna : ∀ x, G' x → x ≠ a := by
    rintro x hx rfl
    exact (o.inside k _ (hd _ hx o.root)).2 rfl
  have hk : Kept h0 (h.set a (.dict (dset d (.str k) w))) := by
    refine ⟨by simpa using o.kept.len, fun x hx => ?_⟩
    have : x ≠ a := by rintro rfl; have := (o.bound _ o.root).1; omega
    rw [getElem?_set_ne' this, o.kept.same x hx]
  refine ⟨hk, ?_, dkeys_set_map o.keys k w b, DWF_set o.wf k b, .inl o.root, ?_, ?_, ?_, ?_⟩
  · rw [List.getElem?_set_self (lt_of_getElem? o.get)]
  · rintro x (hx | hx)
    · simpa using o.bound x hx
    · simpa using hc.bound _ _ _ _ hw x hx
  · intro k' b' hb'
    rw [dget_set] at hb'
    rw [dget_set]
    unfold setFP
    by_cases he : k = k'
    · subst he
      rw [if_pos rfl] at hb'; injection hb' with hb'; subst hb'
      refine ⟨w, by simp, ?_⟩
      rw [if_pos rfl]
      exact hc.loc _ _ _ _ _ hw hk (fun x hx => getElem?_set_ne' (hna x hx)) (by simp)
    · rw [if_neg he] at hb'
      obtain ⟨w', h1, h2⟩ := o.child k' b' hb'
      rw [if_neg (fun h => he (by injection h)), if_neg (fun h => he h.symm)]
      exact ⟨w', h1, hc.loc _ _ _ _ _ h2 hk (fun x hx => getElem?_set_ne' (o.inside k' x hx).2) (by simp)⟩
  · intro k' x hx
    unfold setFP at hx
    split at hx
    · exact ⟨.inr hx, hna x hx⟩
    · exact ⟨.inl (o.inside k' x hx).1, (o.inside k' x hx).2⟩
  · intro k1 k2 x h1 h2
    unfold setFP at h1 h2
    split at h1 <;> split at h2
    · rename_i e1 e2; rw [e1, e2]
    · rename_i e1 e2; exact e1.trans (o.apart _ _ x (hd x h1 (o.inside _ x h2).1) h2)
    · rename_i e1 e2; exact (o.apart _ _ x h1 (hd x h2 (o.inside _ x h1).1)).trans e2.symm
    · exact o.apart _ _ x h1 h2

theorem OwnAt.index {h : Heap} {a : Nat} {d : Dict PKey HVal} {G : String → FP} {t : Dict String β} {F : FP}
    (o : OwnAt h0 C h a d G t F) {k : String} {w : HVal} (hw : dget d (.str k) = some w) : xindex (.ref a) (.str k) h = (.ok w, h) := by
  simp only [xindex]
  rw [hx_bind, o.dict]
  simp only [hw]
  rfl

/-- Reading a value, making a new one from it, and assigning it. -/
theorem own_replace (hc : Child h0 C) {h : Heap} {v : HVal} {t : Dict String β} {F : FP} (o : OwnDict h0 C h v t F) {k : String} {b : β}
    (hb : dget t k = some b) {m : HVal → HX HVal} {x : Except Exc β}
    (hm : ∀ w G, C h w b G → Ref NoFP h (m w) x (fun w' b' h' => ∃ G', Fresh G h G' ∧ C h' w' b' G')) :
    Ref F h (xindex v (.str k) >>= fun w => m w >>= fun w' => xset v (.str k) w') (x >>= fun b' => pure (dset t k b'))
      (fun _ t' h' => Owned (fun h t F => OwnDict h0 C h v t F) F h t' h') := by
  obtain ⟨a, d, G, rfl, o⟩ := o
  obtain ⟨w, hw, hC⟩ := o.child k b hb
  refine Ref_read (o.index hw) ?_
  obtain ⟨r, h', e, s, ag⟩ := hm w (G k) hC
  have o' : OwnAt h0 C h' a d G t F := o.elsewhere hc (o.kept.steps0 s) (fun x hx => s.same x (o.bound x hx).2 id) s.len
  cases ag with
  | err e1 => exact ⟨.error e1, h', by rw [hx_bind, e], s.mono (fun _ h => h.elim), .err e1⟩
  | @ok w' b' hq =>
    obtain ⟨G', hf, hC'⟩ := hq
    have hd : ∀ x, G' x → F x → G k x := by
      intro x hx hF
      rcases hf x hx with h | h
      · exact h
      · have := (o.bound x hF).2; omega
    have p := o'.put' hc (k := k) hC' hd
    refine ⟨.ok (), h'.set a (.dict (dset d (.str k) w')), ?_, ?_, .ok ⟨_, ?_, a, _, _, rfl, p⟩⟩
    · rw [hx_bind, e]
      show xset (.ref a) (.str k) w' h' = _
      simp only [xset]
      rw [hx_bind, o'.dict]
      rfl
    · exact (s.mono (fun _ h => h.elim)).trans (set_steps o.root _) (.refl _ _)
    · rintro x (hx | hx)
      · exact .inl hx
      · exact (hf x hx).imp (fun h => (o.inside k x h).1) id
end

/-! ## Values -/

/-- `w` stands for `t`, made of objects that were there from the start and of the objects `G`. -/
def ValOwn (h0 : Heap) (h : Heap) (w : HVal) (t : PVal) (G : FP) : Prop :=
  Kept h0 h ∧ TreeAt h (fun a => a < h0.length ∨ G a) w t ∧ ∀ x, G x → h0.length ≤ x ∧ x < h.length

theorem ValOwn.child : Child h0 (ValOwn h0) where
  loc := by
    rintro h h' w t G ⟨k, ht, hb⟩ k' hs hl
    refine ⟨k', TreeAt_mono (fun a o ha ho => ⟨ha, ?_⟩) _ _ ht, fun x hx => ⟨(hb x hx).1, Nat.lt_of_lt_of_le (hb x hx).2 hl⟩⟩
    rcases ha with ha | ha
    · rw [k'.same a ha, ← k.same a ha, ho]
    · rw [hs a ha, ho]
  bound := by
    rintro h w t G ⟨_, _, hb⟩
    exact hb

theorem ValOwn.writes {h : Heap} {w : HVal} {t : PVal} {G : FP} (o : ValOwn h0 h w t G) : WritesOut h w t :=
  TreeAt_mono (fun _ _ _ ho => ⟨trivial, ho⟩) _ _ o.2.1

/-- A value made without changing anything. -/
def MakesVal (h0 : Heap) (h : Heap) (m : HX HVal) (x : Except Exc PVal) : Prop :=
  Ref NoFP h m x (fun w b h' => Owned (fun h b F => ValOwn h0 h w b F) NoFP h b h')

theorem makesVal_of_yields {h : Heap} (hk : Kept h0 h) {m : HX HVal} {x : Except Exc PVal} {P : Nat → Prop} (hP : ∀ a, P a → a < h0.length ∨ h.length ≤ a)
    (hy : Yields P h m x) : MakesVal h0 h m x := by
  refine Ref_conseq hy ?_
  intro w t h' s ht
  refine ⟨fun a => h.length ≤ a ∧ a < h'.length, fun x hx => .inr hx.1, hk.steps0 s, ?_, fun x hx => ⟨Nat.le_trans hk.len hx.1, hx.2⟩⟩
  refine TreeAt_mono (fun a o ha ho => ⟨?_, ho⟩) _ _ ht
  have hl := lt_of_getElem? ho
  rcases ha with ha | ha
  · exact (hP a ha).imp id (fun h => ⟨h, hl⟩)
  · exact .inr ⟨ha, hl⟩

/-- A value that was there from the start. -/
theorem valOwn_old {h : Heap} (hk : Kept h0 h) {w : HVal} {t : PVal} (ht : WritesOut h0 w t) : ValOwn h0 h w t NoFP := by
  refine ⟨hk, TreeAt_mono (fun a o _ ho => ⟨.inl (lt_of_getElem? ho), hk.get ho⟩) _ _ ht, fun _ h => h.elim⟩

theorem makesVal_old {h : Heap} (hk : Kept h0 h) {w : HVal} {t : PVal} (ht : WritesOut h0 w t) : MakesVal h0 h (pure w) (.ok t) :=
  Ref_pure ⟨NoFP, .refl _ _, valOwn_old hk ht⟩

/-! ## Configs -/

/-- The entry `b.2`; with the mark `b.1`, groups are dicts of the running function, otherwise they were there from the start. -/
def EntryOwn (h0 : Heap) (h : Heap) (w : HVal) (b : Bool × Entry) (G : FP) : Prop :=
  match b with
  | (true, .grp d) => OwnDict h0 (ValOwn h0) h w d G
  | (false, .grp d) => Kept h0 h ∧ WritesOut h0 w (dictVal id d) ∧ ∀ x, ¬ G x
  | (_, .val t) => ValOwn h0 h w t G

theorem EntryOwn.grp {h : Heap} {w : HVal} {d : Dict String PVal} {G : FP} : EntryOwn h0 h w (true, .grp d) G ↔ OwnDict h0 (ValOwn h0) h w d G := Iff.rfl
theorem EntryOwn.val {h : Heap} {w : HVal} {b : Bool} {t : PVal} {G : FP} : EntryOwn h0 h w (b, .val t) G ↔ ValOwn h0 h w t G := by
  cases b <;> exact Iff.rfl
theorem EntryOwn.old {h : Heap} {w : HVal} {d : Dict String PVal} {G : FP} :
    EntryOwn h0 h w (false, .grp d) G ↔ Kept h0 h ∧ WritesOut h0 w (dictVal id d) ∧ ∀ x, ¬ G x := Iff.rfl

theorem EntryOwn.child : Child h0 (EntryOwn h0) where
  loc := by
    rintro h h' w ⟨b, e⟩ G o k hs hl
    cases e with
    | val t => rw [EntryOwn.val] at o ⊢; exact ValOwn.child.loc _ _ _ _ _ o k hs hl
    | grp d =>
      cases b with
      | true => rw [EntryOwn.grp] at o ⊢; exact (OwnDict.child ValOwn.child).loc _ _ _ _ _ o k hs hl
      | false => rw [EntryOwn.old] at o ⊢; exact ⟨k, o.2⟩
  bound := by
    rintro h w ⟨b, e⟩ G o
    cases e with
    | val t => rw [EntryOwn.val] at o; exact o.2.2
    | grp d =>
      cases b with
      | true => rw [EntryOwn.grp] at o; exact (OwnDict.child ValOwn.child).bound _ _ _ _ o
      | false => rw [EntryOwn.old] at o; exact fun x hx => (o.2.2 x hx).elim

theorem EntryOwn.writes {h : Heap} {w : HVal} {b : Bool × Entry} {G : FP} (o : EntryOwn h0 h w b G) : WritesOut h w b.2.toVal := by
  obtain ⟨b, e⟩ := b
  cases e with
  | val t => rw [EntryOwn.val] at o; exact o.writes
  | grp d =>
    cases b with
    | true => rw [EntryOwn.grp] at o; exact own_writes (fun _ _ _ _ _ o => o.writes) o
    | false => rw [EntryOwn.old] at o; exact o.1.writesOut o.2.1

/-- The config with marks `S`. -/
def tag (S : String → Bool) (c : Config) : Dict String (Bool × Entry) := c.map fun kv => (kv.1, S kv.1, kv.2)

theorem dkeys_tag (S : String → Bool) (c : Config) : dkeys (tag S c) = dkeys c := by
  simp [dkeys, tag, List.map_map, Function.comp_def]

theorem dget_tag (S : String → Bool) (c : Config) (k : String) : dget (tag S c) k = (dget c k).map fun e => (S k, e) := by
  induction c with
  | nil => rfl
  | cons x c ih =>
    obtain ⟨k', e⟩ := x
    show dget ((k', S k', e) :: tag S c) k = _
    rw [dget_cons, dget_cons, ih]
    split
    · rename_i h; subst h; rfl
    · rfl

theorem dset_tag (S : String → Bool) (c : Config) (k : String) (e : Entry) : dset (tag S c) k (S k, e) = tag S (dset c k e) := by
  induction c with
  | nil => rfl
  | cons x c ih =>
    obtain ⟨k', e'⟩ := x
    show dset ((k', S k', e') :: tag S c) k _ = _
    simp only [dset]
    split
    · rename_i h; subst h; rfl
    · rw [ih]; rfl

theorem tag_mark {S S' : String → Bool} {c : Config} (hw : DWF c) {k : String} {e : Entry} (he : dget c k = some e) (hS : ∀ k', k' ≠ k → S' k' = S k') :
    tag S' c = dset (tag S c) k (S' k, e) := by
  induction c with
  | nil => simp [dget] at he
  | cons x c ih =>
    obtain ⟨k', e'⟩ := x
    rw [DWF_cons] at hw
    rw [dget_cons] at he
    show (k', S' k', e') :: tag S' c = dset ((k', S k', e') :: tag S c) k _
    simp only [dset]
    by_cases h : k' = k
    · subst h
      rw [if_pos rfl] at he ⊢
      injection he with he; subst he
      congr 1
      unfold tag
      apply List.map_congr_left
      rintro ⟨k1, e1⟩ hm
      rw [hS k1]
      rintro rfl
      exact hw.1 (List.mem_map.2 ⟨_, hm, rfl⟩)
    · rw [if_neg h] at he ⊢
      rw [hS k' h, ih hw.2 he]

/-- `v` is a config dict of the running function, standing for `c`; so are the groups marked by `S`. -/
def ConfAt (h0 : Heap) (S : String → Bool) (h : Heap) (v : HVal) (c : Config) (F : FP) : Prop := OwnDict h0 (EntryOwn h0) h v (tag S c) F

theorem dictVal_tag (S : String → Bool) (c : Config) : dictVal (fun b : Bool × Entry => b.2.toVal) (tag S c) = dictVal Entry.toVal c := by
  simp [dictVal, tag, List.map_map, Function.comp_def]

theorem ConfAt.writes {S : String → Bool} {h : Heap} {v : HVal} {c : Config} {F : FP} (o : ConfAt h0 S h v c F) : WritesOut h v (dictVal Entry.toVal c) := by
  rw [← dictVal_tag S]
  exact own_writes (fun _ _ _ _ _ o => o.writes) o

theorem ConfAt.wf {S : String → Bool} {h : Heap} {v : HVal} {c : Config} {F : FP} (o : ConfAt h0 S h v c F) : DWF c := by
  obtain ⟨a, d, G, rfl, o⟩ := o
  have := o.wf
  unfold DWF at this ⊢
  rwa [dkeys_tag] at this

theorem ConfAt.kept {S : String → Bool} {h : Heap} {v : HVal} {c : Config} {F : FP} (o : ConfAt h0 S h v c F) : Kept h0 h := by
  obtain ⟨a, d, G, rfl, o⟩ := o
  exact o.kept

/-- What an operation on an owned config achieves. -/
abbrev KeepsConf (h0 : Heap) (S : String → Bool) (v : HVal) (F : FP) (h : Heap) : Unit → Config → Heap → Prop :=
  fun _ c' h' => Owned (fun h c F => ConfAt h0 S h v c F) F h c' h'

theorem conf_of_tag {S : String → Bool} {v : HVal} {F : FP} {h : Heap} {m : HX Unit} {x : Except Exc Config}
    (hr : Ref F h m (x >>= fun c => pure (tag S c)) (fun _ t' h' => Owned (fun h t F => OwnDict h0 (EntryOwn h0) h v t F) F h t' h')) :
    Ref F h m x (KeepsConf h0 S v F h) := by
  obtain ⟨r, h', e, s, ag⟩ := hr
  refine ⟨r, h', e, s, ?_⟩
  cases x with
  | error e1 =>
    have : (Except.error e1 >>= fun c => (pure (tag S c) : Except Exc _)) = .error e1 := rfl
    rw [this] at ag
    cases ag
    exact .err e1
  | ok c =>
    have : (Except.ok c >>= fun c => (pure (tag S c) : Except Exc _)) = .ok (tag S c) := rfl
    rw [this] at ag
    cases ag with
    | ok hq => exact .ok hq

/-- Assigning a new value to an option outside groups. -/
theorem conf_set_top {S : String → Bool} {v : HVal} {c : Config} {F : FP} {h : Heap} (o : ConfAt h0 S h v c F) (n : String) {m : HX HVal}
    {x : Except Exc PVal} (hm : MakesVal h0 h m x) :
    Ref F h (m >>= fun w => xset v (.str n) w) (x >>= fun t => pure (dset c n (.val t))) (KeepsConf h0 S v F h) := by
  refine conf_of_tag ?_
  have := own_create EntryOwn.child o n (m := m) (x := x >>= fun t => pure (S n, Entry.val t)) ?_
  · cases x with
    | error e => exact this
    | ok t =>
      have e1 : tag S (dset c n (.val t)) = dset (tag S c) n (S n, .val t) := (dset_tag S c n _).symm
      show Ref F h _ (.ok (tag S (dset c n (.val t)))) _
      rw [e1]; exact this
  · refine Ref_map hm ?_
    rintro w t h' s ⟨G, hf, ov⟩
    exact ⟨G, hf, EntryOwn.val.2 ov⟩

/-- Changing a group in place. -/
theorem conf_modify {S : String → Bool} {v : HVal} {c : Config} {F : FP} {h : Heap} (o : ConfAt h0 S h v c F) {g : String} {d : Dict String PVal}
    (hS : S g = true) (hd : dget c g = some (.grp d)) {m : HVal → HX Unit} {x : Except Exc (Dict String PVal)}
    (hm : ∀ w G, OwnDict h0 (ValOwn h0) h w d G → Ref G h (m w) x (fun _ d' h' => Owned (fun h d F => OwnDict h0 (ValOwn h0) h w d F) G h d' h')) :
    Ref F h (xindex v (.str g) >>= m) (x >>= fun d' => pure (dset c g (.grp d'))) (KeepsConf h0 S v F h) := by
  refine conf_of_tag ?_
  have hb : dget (tag S c) g = some (true, .grp d) := by rw [dget_tag, hd, ← hS]; rfl
  have := own_modify EntryOwn.child o hb (m := m) (x := x >>= fun d' => pure (true, Entry.grp d')) ?_
  · cases x with
    | error e => exact this
    | ok d' =>
      have e1 : tag S (dset c g (.grp d')) = dset (tag S c) g (true, .grp d') := by rw [← dset_tag, hS]
      show Ref F h _ (.ok (tag S (dset c g (.grp d')))) _
      rw [e1]; exact this
  · intro w G hw
    refine Ref_map (hm w G (EntryOwn.grp.1 hw)) ?_
    rintro _ d' h' s ⟨G', hf, ov⟩
    exact ⟨G', hf, EntryOwn.grp.2 ov⟩

/-- Creating a group. -/
theorem conf_new_grp {S : String → Bool} {v : HVal} {c : Config} {F : FP} {h : Heap} (o : ConfAt h0 S h v c F) {g : String} (hS : S g = true)
    {m : HX HVal} {x : Except Exc (Dict String PVal)}
    (hm : Ref NoFP h m x (fun w d h' => Owned (fun h d F => OwnDict h0 (ValOwn h0) h w d F) NoFP h d h')) :
    Ref F h (m >>= fun w => xset v (.str g) w) (x >>= fun d => pure (dset c g (.grp d))) (KeepsConf h0 S v F h) := by
  refine conf_of_tag ?_
  have := own_create EntryOwn.child o g (m := m) (x := x >>= fun d => pure (true, Entry.grp d)) ?_
  · cases x with
    | error e => exact this
    | ok d' =>
      have e1 : tag S (dset c g (.grp d')) = dset (tag S c) g (true, .grp d') := by rw [← dset_tag, hS]
      show Ref F h _ (.ok (tag S (dset c g (.grp d')))) _
      rw [e1]; exact this
  · refine Ref_map hm ?_
    rintro w t h' s ⟨G, hf, ov⟩
    exact ⟨G, hf, EntryOwn.grp.2 ov⟩

theorem conf_new {h : Heap} (hk : Kept h0 h) (S : String → Bool) :
    Ref NoFP h xnew (.ok []) (fun v c h' => Owned (fun h c F => ConfAt h0 S h v c F) NoFP h c h') := by
  obtain ⟨r, h', e, s, ag⟩ := own_new (C := EntryOwn h0) hk
  refine ⟨r, h', e, s, ?_⟩
  have e1 : (pure [] : Except Exc (Dict String (Bool × Entry))) = .ok [] := rfl
  rw [e1] at ag
  cases ag with
  | ok hq => exact .ok hq

/-! ## The defaults -/

/-- No entry with the name of a group is a plain value. -/
def NoClash (desc : Desc) (c : Config) : Prop := ∀ g, g ∈ dkeys desc.groups → dget c g = none ∨ HasGroup c g

theorem NoClash.set {desc : Desc} {c : Config} (hc : NoClash desc c) {n : String} (hn : n ∉ dkeys desc.groups) (e : Entry) : NoClash desc (dset c n e) := by
  intro g hg
  have : n ≠ g := by rintro rfl; exact hn hg
  unfold HasGroup
  rw [dget_set, if_neg this]
  exact hc g hg

theorem NoClash.set_grp {desc : Desc} {c : Config} (hc : NoClash desc c) (g' : String) (d : Dict String PVal) : NoClash desc (dset c g' (.grp d)) := by
  intro g hg
  unfold HasGroup
  rw [dget_set]
  split
  · exact .inr ⟨d, rfl⟩
  · exact hc g hg

theorem Ref_val {F : FP} {h : Heap} {m : HX α} {x : Except Exc β} {Q : α → β → Heap → Prop} (h1 : Ref F h m x Q) :
    Ref F h m x (fun a b h' => Q a b h' ∧ x = .ok b) := by
  obtain ⟨r, h', e, s, ag⟩ := h1
  refine ⟨r, h', e, s, ?_⟩
  cases ag with
  | ok hq => exact .ok ⟨hq, rfl⟩
  | err e1 => exact .err e1

/-- Writing an option in a group which is there. -/
theorem conf_write_old {S : String → Bool} {v : HVal} {c : Config} {F : FP} {h : Heap} (o : ConfAt h0 S h v c F) {g s : String} {d : Dict String PVal}
    (hS : S g = true) (hd : dget c g = some (.grp d)) {w : HVal} {t : PVal} (hw : WritesOut h0 w t) :
    Ref F h (xindex v (.str g) >>= fun d => xset d (.str s) w) (.ok (dset c g (.grp (dset d s t)))) (KeepsConf h0 S v F h) := by
  refine conf_modify (x := .ok (dset d s t)) o hS hd ?_
  intro w' G ow
  exact own_create (m := pure w) (x := .ok t) ValOwn.child ow s (makesVal_old o.kept hw)

theorem ensure_group {S : String → Bool} {v : HVal} {c : Config} {F : FP} {h : Heap} (o : ConfAt h0 S h v c F) {g : String} (hS : S g = true) :
    Ref F h (xEnsureGroup v g) (.ok (if dhas c g then c else dset c g (.grp []))) (KeepsConf h0 S v F h) := by
  unfold xEnsureGroup
  have hh : dhas (tag S c) g = dhas c g := by simp only [dhas, dget_tag, Option.isSome_map]
  refine Ref_read (own_has o g) ?_
  rw [hh]
  cases dhas c g with
  | true => exact Ref_pure (b := c) ⟨F, .refl _ _, o⟩
  | false => exact conf_new_grp (m := xnew) (x := .ok []) o hS (own_new o.kept)

theorem defaults_step {S : String → Bool} (hS : ∀ g, S g = true) {desc : Desc} (hw : desc.Wf) {dflt : String → HVal} {v : HVal} {ni : String × ConfigItem}
    (hi : dget desc.items ni.1 = some ni.2) (hd : WritesOut h0 (dflt ni.1) ni.2.default) {c : Config} {F : FP} {h : Heap}
    (o : ConfAt h0 S h v c F) (hc : NoClash desc c) :
    Ref F h (xDefaultsStep dflt v ni) (defaultsStep c ni) (fun _ c' h' => Owned (fun h c F => ConfAt h0 S h v c F ∧ NoClash desc c) F h c' h') := by
  obtain ⟨n, i⟩ := ni
  simp only at hi hd
  have hn : n ∈ dkeys desc.items := mem_dkeys_iff.2 (by rw [hi]; rfl)
  unfold xDefaultsStep defaultsStep xWriteOpt writeOpt
  simp only
  cases hg : groupOf n with
  | none =>
    simp only
    have := conf_set_top o n (makesVal_old o.kept hd)
    refine Ref_conseq (Ref_val (x := .ok (dset c n (.val i.default))) this) ?_
    rintro _ c' h' s ⟨⟨F', hf, o'⟩, hc'⟩
    injection hc' with hc'
    subst hc'
    exact ⟨F', hf, o', hc.set (hw.disjoint n hn) _⟩
  | some p =>
    obtain ⟨g, s⟩ := p
    simp only
    obtain ⟨gd, hgd, _⟩ := hw.inGroup n i g s hi hg
    have hgm : g ∈ dkeys desc.groups := mem_dkeys_iff.2 (by rw [hgd]; rfl)
    have hex : ∃ d, dget (if dhas c g then c else dset c g (.grp [])) g = some (.grp d) := by
      rcases hc g hgm with h1 | ⟨d, h1⟩
      · rw [if_neg (by simp [dhas, h1]), dget_set, if_pos rfl]; exact ⟨_, rfl⟩
      · rw [if_pos (by simp [dhas, h1])]; exact ⟨d, h1⟩
    have hnc : NoClash desc (if dhas c g then c else dset c g (.grp [])) := by
      split
      · exact hc
      · exact hc.set_grp g _
    generalize hc1 : (if dhas c g then c else dset c g (.grp [])) = c1 at hex hnc
    obtain ⟨d, hd1⟩ := hex
    rw [hd1]
    simp only
    have he : (Except.ok (dset c1 g (.grp (dset d s i.default))) : Except Exc Config) =
        (Except.ok c1 : Except Exc Config) >>= fun _ => .ok (dset c1 g (.grp (dset d s i.default))) := rfl
    rw [he]
    refine Ref_bind (Ref_val (x := .ok c1) (by have := ensure_group o (hS g); rwa [hc1] at this)) ?_
    rintro _ c2 h1 ⟨⟨F1, hf1, o1⟩, e1⟩ s1
    injection e1 with e1
    subst e1
    refine ⟨F1, hf1, ?_⟩
    refine Ref_conseq (Ref_val (conf_write_old o1 (hS g) hd1 hd)) ?_
    rintro _ c' h' s2 ⟨⟨F', hf, o'⟩, hc'⟩
    injection hc' with hc'
    subst hc'
    exact ⟨F', hf1.trans hf s1.len, o', hnc.set_grp g _⟩

theorem forall₂_self {R : α → α → Prop} {l : List α} (h : ∀ x ∈ l, R x x) : List.Forall₂ R l l := by
  induction l with
  | nil => exact .nil
  | cons x l ih => exact .cons (h x (by simp)) (ih fun y hy => h y (by simp [hy]))

/-- The objects of the defaults stand for the defaults. -/
def DefaultsAt (h : Heap) (dflt : String → HVal) (desc : Desc) : Prop := ∀ n i, dget desc.items n = some i → WritesOut h (dflt n) i.default

/-- A new config. -/
abbrev NewConf (h0 : Heap) (S : String → Bool) (h : Heap) (v : HVal) (c : Config) (h' : Heap) : Prop :=
  Owned (fun h c F => ConfAt h0 S h v c F) NoFP h c h'

theorem defaults_ref {desc : Desc} (hw : desc.Wf) {dflt : String → HVal} (hd : DefaultsAt h0 dflt desc) {h : Heap} (hk : Kept h0 h) :
    Ref NoFP h (xConfigFromDefaults dflt desc) (configFromDefaults desc) (NewConf h0 (fun _ => true) h) := by
  have := own_build (I := fun h v c F => ConfAt h0 (fun _ => true) h v c F ∧ NoClash desc c) (h := h) (m0 := xnew) (x0 := .ok [])
    (f := fun c => xForEach (xDefaultsStep dflt c) desc.items) (g := fun acc => desc.items.foldlM defaultsStep acc)
    (by
      refine Ref_conseq (Ref_val (conf_new hk (fun _ => true))) ?_
      rintro v c h' s ⟨⟨F, hf, o⟩, e⟩
      injection e with e
      subst e
      exact ⟨F, hf, o, fun g _ => .inl rfl⟩)
    (by
      rintro v c h' F s ⟨o, hc⟩
      refine forEach_ref (I := fun h c F => ConfAt h0 (fun _ => true) h v c F ∧ NoClash desc c) (rel := fun x y => x = y ∧ dget desc.items x.1 = some x.2) ?_
        (forall₂_self fun x hx => ⟨rfl, mem_dget hw.items hx⟩) ⟨o, hc⟩
      rintro x _ acc F h ⟨rfl, hx⟩ ⟨o, hc⟩
      exact defaults_step (fun _ => rfl) hw hx (hd _ _ hx) o hc)
  refine Ref_conseq this ?_
  rintro v c h' s ⟨F, hf, o, _⟩
  exact ⟨F, hf, o⟩

end Verif
