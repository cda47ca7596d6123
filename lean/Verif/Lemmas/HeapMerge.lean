import Verif.Lemmas.HeapOwn
import Mathlib.Data.List.Nodup
/-!
# Merging in memory does what merging of trees does

One lemma per function of `Model/HeapMerge.lean`.
-/
set_option linter.unusedSimpArgs false
namespace Verif
variable {α β γ δ : Type} {h0 : Heap} {P : Nat → Prop}

/-! ## Reading the inputs -/

/-- `v` is a dict of the memory the function started with, with contents `t`. -/
def InDict (h0 : Heap) (P : Nat → Prop) (f : β → PVal) (v : HVal) (t : Dict String β) : Prop := TreeAt h0 P v (dictVal f t)

/-- Corresponding items. -/
def InItem (h0 : Heap) (P : Nat → Prop) (f : β → PVal) (x : PKey × HVal) (y : String × β) : Prop := x.1 = .str y.1 ∧ TreeAt h0 P x.2 (f y.2)

theorem InDict.items {f : β → PVal} {v : HVal} {t : Dict String β} (hv : InDict h0 P f v t) {h : Heap} (hk : Kept h0 h) :
    ∃ d, (∀ e, xdict e v h = (.ok d, h)) ∧ List.Forall₂ (InItem h0 P f) d t := by
  unfold InDict dictVal at hv
  simp only [TreeAt] at hv
  obtain ⟨a, d, rfl, _, ha, hi⟩ := hv
  refine ⟨d, fun e => by simp only [xdict, hk.get ha], ?_⟩
  rw [ItemsAt_iff] at hi
  unfold Items at hi
  rw [List.forall₂_map_right_iff] at hi
  exact hi.imp (fun x y h => ⟨h.1, by have := h.2; exact this⟩)

theorem items_keys {f : β → PVal} {d : Dict PKey HVal} {t : Dict String β} (h : List.Forall₂ (InItem h0 P f) d t) :
    dkeys d = (dkeys t).map .str := by
  induction h with
  | nil => rfl
  | cons a _ ih => simp only [dkeys, List.map_cons] at ih ⊢; rw [a.1, ih]

theorem items_dget {f : β → PVal} {d : Dict PKey HVal} {t : Dict String β} (h : List.Forall₂ (InItem h0 P f) d t) {k : String} {b : β}
    (hb : dget t k = some b) : ∃ w, dget d (.str k) = some w ∧ TreeAt h0 P w (f b) := by
  induction h with
  | nil => simp [dget] at hb
  | @cons x y d t a _ ih =>
    rw [dget_cons] at hb ⊢
    rw [a.1]
    by_cases he : y.1 = k
    · rw [if_pos he] at hb; injection hb with hb; subst hb
      rw [if_pos (by rw [he])]; exact ⟨_, rfl, a.2⟩
    · rw [if_neg he] at hb
      rw [if_neg (fun h => he (by injection h))]
      exact ih hb

theorem InDict.ritems {f : β → PVal} {v : HVal} {t : Dict String β} (hv : InDict h0 P f v t) {h : Heap} (hk : Kept h0 h) :
    ∃ d, xitems v h = (.ok d, h) ∧ List.Forall₂ (InItem h0 P f) d t := by
  obtain ⟨d, h1, h2⟩ := hv.items hk
  exact ⟨d, h1 _, h2⟩

theorem InDict.rhas {f : β → PVal} {v : HVal} {t : Dict String β} (hv : InDict h0 P f v t) {h : Heap} (hk : Kept h0 h) (k : String) :
    xhas v (.str k) h = (.ok (dhas t k), h) := by
  obtain ⟨d, h1, h2⟩ := hv.items hk
  simp only [Verif.xhas]
  rw [hx_bind, h1]
  simp only [keys_dhas (items_keys h2)]
  rfl

theorem InDict.rindex {f : β → PVal} {v : HVal} {t : Dict String β} (hv : InDict h0 P f v t) {h : Heap} (hk : Kept h0 h) {k : String} {b : β}
    (hb : dget t k = some b) : ∃ w, xindex v (.str k) h = (.ok w, h) ∧ TreeAt h0 P w (f b) := by
  obtain ⟨d, h1, h2⟩ := hv.items hk
  obtain ⟨w, h3, h4⟩ := items_dget h2 hb
  refine ⟨w, ?_, h4⟩
  simp only [Verif.xindex]
  rw [hx_bind, h1]
  simp only [h3]
  rfl

theorem InDict.rindex_none {f : β → PVal} {v : HVal} {t : Dict String β} (hv : InDict h0 P f v t) {h : Heap} (hk : Kept h0 h) {k : String}
    (hb : dget t k = none) : xindex v (.str k) h = (.error .keyError, h) := by
  obtain ⟨d, h1, h2⟩ := hv.items hk
  simp only [Verif.xindex]
  rw [hx_bind, h1]
  simp only [keys_none (items_keys h2) hb]
  rfl

/-! ## The levels -/

/-- An installer rule is shared with the inputs. -/
def OwnRule (h0 : Heap) (P : Nat → Prop) (_ : Heap) (w : HVal) (ρ : Rule) (G : FP) : Prop := TreeAt h0 P w ρ.toVal ∧ ∀ x, ¬ G x
/-- An installer dict of the result. -/
def OwnInst (h0 : Heap) (P : Nat → Prop) := OwnDict h0 (OwnRule h0 P)
/-- A version dict of the result. -/
def OwnVer (h0 : Heap) (P : Nat → Prop) := OwnDict h0 (OwnInst h0 P)
/-- An os dict of the result. -/
def OwnOs (h0 : Heap) (P : Nat → Prop) := OwnDict h0 (OwnVer h0 P)
/-- A rules dict of the result. -/
def OwnRules (h0 : Heap) (P : Nat → Prop) := OwnDict h0 (OwnOs h0 P)

theorem OwnRule.child : Child h0 (OwnRule h0 P) := ⟨fun _ _ _ _ _ h _ _ _ => h, fun _ _ _ _ h x hx => absurd hx (h.2 x)⟩
theorem OwnInst.child : Child h0 (OwnInst h0 P) := OwnDict.child OwnRule.child
theorem OwnVer.child : Child h0 (OwnVer h0 P) := OwnDict.child OwnInst.child
theorem OwnOs.child : Child h0 (OwnOs h0 P) := OwnDict.child OwnVer.child

theorem OwnDict.kept {C : Heap → HVal → β → FP → Prop} {h : Heap} {v : HVal} {t : Dict String β} {F : FP} (o : OwnDict h0 C h v t F) : Kept h0 h := by
  obtain ⟨a, d, G, rfl, o⟩ := o
  exact o.kept

/-! ## Installer dicts -/

theorem replace_ref {F : FP} {h : Heap} (n : String) (dflt : Option String) :
    Ref F h (xlift (kReplaceDefault (.str n) dflt)) (replaceDefaultInstaller n dflt) (fun k n' h' => k = .str n' ∧ h' = h) := by
  unfold kReplaceDefault replaceDefaultInstaller
  by_cases hn : n = "default_installer"
  · subst hn
    rw [if_pos rfl, if_pos rfl]
    cases truthy dflt with
    | some d => exact ⟨_, _, rfl, .refl F h, .ok ⟨rfl, rfl⟩⟩
    | none => exact ⟨_, _, rfl, .refl F h, .err _⟩
  · rw [if_neg (fun h => hn (by injection h)), if_neg hn]
    exact ⟨_, _, rfl, .refl F h, .ok ⟨rfl, rfl⟩⟩

theorem mergeInstallerStep_ref (dflt : Option String) (c : HVal) (x : PKey × HVal) (y : String × Rule) (acc : InstDict) (F : FP) (h : Heap)
    (hxy : InItem h0 P Rule.toVal x y) (o : OwnInst h0 P h c acc F) :
    Ref F h (xMergeInstallerStep c dflt x) (do
      let name ← replaceDefaultInstaller y.1 dflt
      pure (dset acc name y.2)) (fun _ t' h' => Owned (fun h t F => OwnInst h0 P h c t F) F h t' h') := by
  unfold xMergeInstallerStep
  rw [hxy.1]
  refine Ref_bind (replace_ref y.1 dflt) ?_
  rintro _ n h' ⟨rfl, rfl⟩ _
  refine ⟨F, .refl F _, ?_⟩
  obtain ⟨h2, e, s, o2⟩ := own_set OwnRule.child o (k := n) (w := x.2) (b := y.2) (G' := fun _ => False) ⟨hxy.2, fun _ h => h⟩ (fun _ h => h.elim)
  exact Ref_ok e s ⟨_, fun x hx => .inl (hx.resolve_right id), o2⟩

theorem mergeLoop_ref (dflt : Option String) {c : HVal} {d : Dict PKey HVal} {new combined : InstDict} {F : FP} {h : Heap}
    (hd : List.Forall₂ (InItem h0 P Rule.toVal) d new) (o : OwnInst h0 P h c combined F) :
    Ref F h (xForEach (xMergeInstallerStep c dflt) d) (mergeInstallerDict new combined dflt)
      (fun _ t' h' => Owned (fun h t F => OwnInst h0 P h c t F) F h t' h') :=
  forEach_ref (I := fun h t F => OwnInst h0 P h c t F) (fun x y acc F h hxy o => mergeInstallerStep_ref dflt c x y acc F h hxy o) hd o

theorem mergeInstaller_ref (dflt : Option String) {v c : HVal} {new combined : InstDict} {F : FP} {h : Heap}
    (hv : InDict h0 P Rule.toVal v new) (o : OwnInst h0 P h c combined F) :
    Ref F h (xMergeInstaller v c dflt) (mergeInstallerDict new combined dflt)
      (fun _ t' h' => Owned (fun h t F => OwnInst h0 P h c t F) F h t' h') := by
  obtain ⟨d, h1, h2⟩ := hv.ritems o.kept
  exact Ref_read h1 (mergeLoop_ref dflt h2 o)

/-- Building a new dict from the items of an input. -/
theorem build_ref {I : Heap → HVal → Dict String γ → FP → Prop} {f : β → PVal} {v : HVal} {t : Dict String β}
    {step : HVal → PKey × HVal → HX Unit} {g : Dict String γ → String × β → Except Exc (Dict String γ)} {h : Heap}
    (hv : InDict h0 P f v t) (hk : Kept h0 h)
    (hI : ∀ h v t F, I h v t F → Kept h0 h)
    (hnew : Ref (fun _ => False) h xnew (pure []) (fun v t h' => Owned (fun h t F => I h v t F) (fun _ => False) h t h'))
    (hstep : ∀ r x y acc F h, InItem h0 P f x y → I h r acc F → Ref F h (step r x) (g acc y) (fun _ t' h' => Owned (fun h t F => I h r t F) F h t' h')) :
    Ref (fun _ => False) h (do
      let r ← xnew
      let items ← xitems v
      xForEach (step r) items
      pure r) (t.foldlM g []) (fun v t h' => Owned (fun h t F => I h v t F) (fun _ => False) h t h') := by
  have := own_build (I := I) (m0 := xnew) (x0 := pure []) (f := fun r => xitems v >>= fun items => xForEach (step r) items)
    (g := fun acc => t.foldlM g acc) hnew ?_
  · obtain ⟨r, h', e, s, ag⟩ := this
    refine ⟨r, h', ?_, s, ?_⟩
    · rw [← e]
      simp only [bind_assoc]
    · exact ag
  · intro r acc h' F s hi
    obtain ⟨d, h1, h2⟩ := hv.ritems (hI _ _ _ _ hi)
    exact Ref_read h1 (forEach_ref (I := fun h t F => I h r t F) (fun x y acc F h hxy o => hstep r x y acc F h hxy o) h2 hi)

theorem copyInstaller_ref (dflt : Option String) {v : HVal} {t : InstDict} {h : Heap} (hv : InDict h0 P Rule.toVal v t) (hk : Kept h0 h) :
    Ref (fun _ => False) h (xCopyInstaller v dflt) (copyInstallerDict t dflt)
      (fun v t h' => Owned (fun h t F => OwnInst h0 P h v t F) (fun _ => False) h t h') :=
  build_ref (I := OwnInst h0 P) (step := fun r => xMergeInstallerStep r dflt) hv hk (fun _ _ _ _ o => o.kept) (own_new hk)
    (fun r x y acc F h hxy o => mergeInstallerStep_ref dflt r x y acc F h hxy o)

theorem copyVersionStep_ref (dflt : Option String) (c : HVal) (x : PKey × HVal) (y : String × InstDict) (acc : VerDict) (F : FP) (h : Heap)
    (hxy : InItem h0 P InstDict.toVal x y) (o : OwnVer h0 P h c acc F) :
    Ref F h (xCopyVersionStep c dflt x) (do
      let i ← copyInstallerDict y.2 dflt
      pure (dset acc y.1 i)) (fun _ t' h' => Owned (fun h t F => OwnVer h0 P h c t F) F h t' h') := by
  unfold xCopyVersionStep
  rw [hxy.1]
  exact own_create OwnInst.child o y.1 (copyInstaller_ref dflt hxy.2 o.kept)

theorem copyVersion_ref (dflt : Option String) {v : HVal} {t : VerDict} {h : Heap} (hv : InDict h0 P InstDict.toVal v t) (hk : Kept h0 h) :
    Ref (fun _ => False) h (xCopyVersion v dflt) (copyVersionDict t dflt)
      (fun v t h' => Owned (fun h t F => OwnVer h0 P h v t F) (fun _ => False) h t h') :=
  build_ref (I := OwnVer h0 P) (step := fun r => xCopyVersionStep r dflt) hv hk (fun _ _ _ _ o => o.kept) (own_new hk)
    (fun r x y acc F h hxy o => copyVersionStep_ref dflt r x y acc F h hxy o)

theorem copyEntry_ref (dflt : Option String) (c : HVal) (x : PKey × HVal) (y : String × VerDict) (acc : OsDict) (F : FP) (h : Heap)
    (hxy : InItem h0 P VerDict.toVal x y) (o : OwnOs h0 P h c acc F) :
    Ref F h (xCopyEntry c x dflt) (do
      let v ← copyVersionDict y.2 dflt
      pure (dset acc y.1 v)) (fun _ t' h' => Owned (fun h t F => OwnOs h0 P h c t F) F h t' h') := by
  unfold xCopyEntry
  rw [hxy.1]
  exact own_create OwnVer.child o y.1 (copyVersion_ref dflt hxy.2 o.kept)

theorem copyOs_ref (dflts : Dict String (Option String)) {v : HVal} {t : OsDict} {h : Heap} (hv : InDict h0 P VerDict.toVal v t) (hk : Kept h0 h) :
    Ref (fun _ => False) h (xCopyOs v dflts) (copyOsDict t dflts)
      (fun v t h' => Owned (fun h t F => OwnOs h0 P h v t F) (fun _ => False) h t h') := by
  refine build_ref (I := OwnOs h0 P) (step := fun r => xCopyOsStep r dflts) hv hk (fun _ _ _ _ o => o.kept) (own_new hk) ?_
  intro r x y acc F h hxy o
  unfold xCopyOsStep
  rw [hxy.1]
  by_cases hy : y.1 = "any_os"
  · rw [if_pos (by rw [hy]), if_pos hy]
    exact copyEntry_ref none r x y acc F h hxy o
  · rw [if_neg (fun h => hy (by injection h)), if_neg hy]
    simp only [kDflt]
    cases dget dflts y.1 with
    | some dflt => exact copyEntry_ref dflt r x y acc F h hxy o
    | none => exact Ref_pure ⟨F, .refl F h, o⟩

/-! ## Removing -/

/-- Running `m` succeeds, writes only to `F` and new objects, and establishes `Q`. -/
def HDoes (F : FP) (h : Heap) (m : HX Unit) (Q : Heap → Prop) : Prop := ∃ h', m h = (.ok (), h') ∧ Steps F h h' ∧ Q h'

theorem HDoes.ref {F : FP} {h : Heap} {m : HX Unit} {Q : Heap → Prop} {b : β} {Q' : Unit → β → Heap → Prop} (d : HDoes F h m Q)
    (hq : ∀ h', Q h' → Q' () b h') : Ref F h m (pure b) Q' := by
  obtain ⟨h', e, s, q⟩ := d
  exact Ref_ok e s (hq h' q)

theorem ddel_dset {κ : Type} [DecidableEq κ] (d : Dict κ α) (k : κ) (v : α) : ddel (dset d k v) k = ddel d k := by
  induction d with
  | nil => simp [dset, ddel]
  | cons x d ih =>
    obtain ⟨xk, xv⟩ := x
    by_cases he : xk = k
    · simp [dset, ddel, he]
    · simp [dset, ddel, he, ih]

/-- After the step for key `k` on the dict `a`: the contents are `t'`, and the other items are the objects they were. -/
def AfterDel (h0 : Heap) (C : Heap → HVal → β → FP → Prop) (F : FP) (h : Heap) (a : Nat) (d : Dict PKey HVal) (k : String) (t' : Dict String β)
    (h' : Heap) : Prop :=
  ∃ d' G' F', Fresh F h F' ∧ OwnAt h0 C h' a d' G' t' F' ∧ ∀ k', k' ≠ k → dget d' (.str k') = dget d (.str k')

theorem delLoop {C : Heap → HVal → β → FP → Prop} {f : String → β → Option β} {step : PKey × HVal → HX Unit} {a : Nat}
    (hstep : ∀ h d G acc F k w b, OwnAt h0 C h a d G acc F → dget acc k = some b → dget d (.str k) = some w →
      HDoes F h (step (.str k, w)) (AfterDel h0 C F h a d k (delStep f acc (k, b)))) (t : Dict String β) :
    ∀ (l : Dict PKey HVal) (h : Heap) (d : Dict PKey HVal) (G : String → FP) (acc : Dict String β) (F : FP), OwnAt h0 C h a d G acc F →
      DWF t → List.Forall₂ (fun x y => x.1 = .str y.1 ∧ dget d (.str y.1) = some x.2 ∧ dget acc y.1 = some y.2) l t →
      HDoes F h (xForEach step l) (fun h' => Owned (fun h t F => OwnDict h0 C h (.ref a) t F) F h (t.foldl (delStep f) acc) h') := by
  induction t with
  | nil =>
    intro l h d G acc F o _ hl
    cases hl
    exact ⟨h, rfl, .refl F h, F, .refl F h, a, d, G, rfl, o⟩
  | cons y t ih =>
    intro l h d G acc F o hw hl
    cases hl with
    | @cons x _ l _ hxy hl =>
      obtain ⟨xk, xv⟩ := x
      obtain ⟨yk, yv⟩ := y
      simp only at hxy
      obtain ⟨rfl, h1, h2⟩ := hxy
      obtain ⟨h', e, s, d', G', F', hf, o', hd'⟩ := hstep h d G acc F yk xv yv o h2 h1
      have hw' : yk ∉ dkeys t ∧ DWF t := by
        unfold DWF dkeys at hw ⊢
        simpa using hw
      have hl' : List.Forall₂ (fun x y => x.1 = .str y.1 ∧ dget d' (.str y.1) = some x.2 ∧ dget (delStep f acc (yk, yv)) y.1 = some y.2) l t := by
        have key : ∀ z ∈ t, z.1 ≠ yk := fun z hz he => hw'.1 (he ▸ mem_dkeys_of_mem (v := z.2) hz)
        have : ∀ (l : Dict PKey HVal) (t : Dict String β), (∀ z ∈ t, z.1 ≠ yk) →
            List.Forall₂ (fun x y => x.1 = .str y.1 ∧ dget d (.str y.1) = some x.2 ∧ dget acc y.1 = some y.2) l t →
            List.Forall₂ (fun x y => x.1 = .str y.1 ∧ dget d' (.str y.1) = some x.2 ∧ dget (delStep f acc (yk, yv)) y.1 = some y.2) l t := by
          intro l t hk hl
          induction hl with
          | nil => exact .nil
          | @cons x z l t hz _ ih2 =>
            have hne : z.1 ≠ yk := hk z (by simp)
            refine .cons ⟨hz.1, by rw [hd' z.1 hne]; exact hz.2.1, ?_⟩ (ih2 fun z hz => hk z (List.mem_cons_of_mem _ hz))
            unfold delStep
            split
            · rw [dget_set, if_neg (fun h => hne h.symm)]; exact hz.2.2
            · rw [dget_del, if_neg (fun h => hne h.symm)]; exact hz.2.2
        exact this l t key hl
      obtain ⟨h2', e2, s2, F2, hf2, o2⟩ := ih l h' d' G' _ F' o' hw'.2 hl'
      refine ⟨h2', ?_, s.trans s2 hf, F2, hf.trans hf2 s.len, o2⟩
      simp only [xForEach]
      rw [hx_bind, e]
      exact e2

theorem forall₂_own {C : Heap → HVal → β → FP → Prop} {h : Heap} {a : Nat} {d : Dict PKey HVal} {G : String → FP} {t : Dict String β} {F : FP}
    (o : OwnAt h0 C h a d G t F) :
    List.Forall₂ (fun x y => x.1 = .str y.1 ∧ dget d (.str y.1) = some x.2 ∧ dget t y.1 = some y.2) d t := by
  have hd : DWF d := by
    unfold DWF
    rw [o.keys]
    exact List.Nodup.map str_injective o.wf
  have : ∀ (l : Dict PKey HVal) (s : Dict String β), dkeys l = (dkeys s).map .str → (∀ x ∈ l, x ∈ d) → (∀ y ∈ s, y ∈ t) →
      List.Forall₂ (fun x y => x.1 = .str y.1 ∧ dget d (.str y.1) = some x.2 ∧ dget t y.1 = some y.2) l s := by
    intro l
    induction l with
    | nil =>
      intro s hs _ _
      cases s with
      | nil => exact .nil
      | cons y s => simp [dkeys] at hs
    | cons x l ih =>
      intro s hs h1 h2
      cases s with
      | nil => simp [dkeys] at hs
      | cons y s =>
        simp only [dkeys, List.map_cons, List.cons.injEq] at hs
        refine .cons ⟨hs.1, ?_, ?_⟩ (ih s hs.2 (fun x hx => h1 x (List.mem_cons_of_mem _ hx)) (fun y hy => h2 y (List.mem_cons_of_mem _ hy)))
        · rw [← hs.1]; exact mem_dget hd (h1 x (by simp))
        · exact mem_dget o.wf (h2 y (by simp))
  exact this d t o.keys (fun _ h => h) (fun _ h => h)

/-- Changing an inner dict and removing it if it became empty. -/
theorem shrink_step {C : Heap → HVal → β → FP → Prop} (hc : Child h0 C) {m : HVal → HX Unit} {g : Dict String β → Dict String β}
    (hm : ∀ h w b G, OwnDict h0 C h w b G → HDoes G h (m w) (fun h' => Owned (fun h b F => OwnDict h0 C h w b F) G h (g b) h'))
    {h : Heap} {a : Nat} {d : Dict PKey HVal} {G : String → FP} {acc : Dict String (Dict String β)} {F : FP} {k : String} {w : HVal}
    {b : Dict String β} (o : OwnAt h0 (OwnDict h0 C) h a d G acc F) (hb : dget acc k = some b) (hw : dget d (.str k) = some w) :
    HDoes F h (m w >>= fun _ => xDelIfEmpty (.ref a) (.str k) w)
      (AfterDel h0 (OwnDict h0 C) F h a d k (delStep (fun _ b => if (g b).isEmpty then none else some (g b)) acc (k, b))) := by
  obtain ⟨w', hw', hC⟩ := o.child k b hb
  rw [hw] at hw'; injection hw' with hw'; subst hw'
  obtain ⟨h1, e1, s1, G', hf, hC'⟩ := hm h w b (G k) hC
  have o1 := o.inner (OwnDict.child hc) hb hw s1 hf hC'
  have sF : Steps F h h1 := s1.mono (fun x hx => (o.inside k x hx).1)
  have hF : Fresh F h (fun x => F x ∨ G' x) := by
    rintro x (hx | hx)
    · exact .inl hx
    · exact (hf x hx).imp (fun h => (o.inside k x h).1) id
  have he : xempty w h1 = (.ok (g b).isEmpty, h1) := own_empty hC'
  unfold delStep
  cases hg : (g b).isEmpty with
  | false =>
    refine ⟨h1, ?_, sF, d, setFP G k G', (fun x => F x ∨ G' x), hF, ?_, fun _ _ => rfl⟩
    · rw [hx_bind, e1]
      simp only [xDelIfEmpty]
      rw [hx_bind, he, hg]
      rfl
    · simpa only [hg, Bool.false_eq_true, if_false] using o1
  | true =>
    have hk : dhas (dset acc k (g b)) k = true := by simp [dhas, dget_set]
    have o2 := o1.del (OwnDict.child hc) k
    rw [ddel_dset] at o2
    refine ⟨h1.set a (.dict (ddel d (.str k))), ?_, ?_, ddel d (.str k), setFP G k G', (fun x => F x ∨ G' x), hF, ?_, ?_⟩
    · rw [hx_bind, e1]
      simp only [xDelIfEmpty]
      rw [hx_bind, he, hg]
      simp only [if_true, xdel]
      rw [hx_bind, o1.dict]
      simp only [keys_dhas o1.keys, hk, if_true]
      rfl
    · exact sF.trans (set_steps (F := F) o.root _) (.refl F h)
    · simpa only [hg, if_true] using o2
    · intro k' hne
      rw [dget_del, if_neg (fun h => hne (by injection h with h; exact h.symm))]

theorem keep_step {C : Heap → HVal → β → FP → Prop} {h : Heap} {a : Nat} {d : Dict PKey HVal} {G : String → FP} {acc : Dict String β} {F : FP}
    {k : String} {b : β} (o : OwnAt h0 C h a d G acc F) (hb : dget acc k = some b) {f : String → β → Option β} (hf : f k b = some b) :
    HDoes F h (pure ()) (AfterDel h0 C F h a d k (delStep f acc (k, b))) := by
  refine ⟨h, rfl, .refl F h, d, G, F, .refl F h, ?_, fun _ _ => rfl⟩
  unfold delStep
  simp only [hf]
  rwa [dset_self_of_dget hb]

theorem delStep_congr {f f' : String → β → Option β} {acc : Dict String β} {k : String} {b : β} (h : f k b = f' k b) :
    delStep f acc (k, b) = delStep f' acc (k, b) := by
  unfold delStep
  simp only [h]

/-- The inner dict after `del installer_dict[installer_name]`. -/
def withoutInst (inst : String) (b : InstDict) : InstDict := if dhas b inst then ddel b inst else b

theorem delIfIn_does (inst : String) (h : Heap) (w : HVal) (b : InstDict) (G : FP) (o : OwnInst h0 P h w b G) :
    HDoes G h (xDelIfIn w (.str inst)) (fun h' => Owned (fun h b F => OwnInst h0 P h w b F) G h (withoutInst inst b) h') := by
  unfold withoutInst
  cases hd : dhas b inst with
  | true =>
    obtain ⟨h', e, s, o'⟩ := own_del OwnRule.child o hd
    refine ⟨h', ?_, s, G, .refl G h, by rw [if_pos rfl]; exact o'⟩
    simp only [xDelIfIn]
    rw [hx_bind, own_has o inst, hd]
    exact e
  | false =>
    refine ⟨h, ?_, .refl G h, G, .refl G h, by rw [if_neg Bool.false_ne_true]; exact o⟩
    simp only [xDelIfIn]
    rw [hx_bind, own_has o inst, hd]
    rfl

theorem removeVersions_eq (vd : VerDict) (inst : String) (retain : Bool) : removeRuleForAllVersions vd inst retain =
    vd.foldl (delStep fun version i => if retain && version = "any_version" then some i
      else if (withoutInst inst i).isEmpty then none else some (withoutInst inst i)) vd := rfl

theorem own_items {C : Heap → HVal → β → FP → Prop} {h : Heap} {a : Nat} {d : Dict PKey HVal} {G : String → FP} {t : Dict String β} {F : FP}
    (o : OwnAt h0 C h a d G t F) : xitems (.ref a) h = (.ok d, h) := o.dict _

theorem removeVersions_does (inst : String) (retain : Bool) (h : Heap) (v : HVal) (t : VerDict) (F : FP) (o : OwnVer h0 P h v t F) :
    HDoes F h (xRemoveVersions v (.str inst) retain)
      (fun h' => Owned (fun h t F => OwnVer h0 P h v t F) F h (removeRuleForAllVersions t inst retain) h') := by
  obtain ⟨a, d, G, rfl, o⟩ := o
  rw [removeVersions_eq]
  have := delLoop (f := fun version i => if retain && version = "any_version" then some i
      else if (withoutInst inst i).isEmpty then none else some (withoutInst inst i)) (step := xRemoveVersionsStep (.ref a) (.str inst) retain)
      (C := OwnInst h0 P) (a := a) ?_ t d h d G t F o o.wf (forall₂_own o)
  · obtain ⟨h', e, s, q⟩ := this
    refine ⟨h', ?_, s, q⟩
    simp only [xRemoveVersions]
    rw [hx_bind, own_items o]
    exact e
  · intro h d G acc F k w b o hb hw
    unfold xRemoveVersionsStep
    by_cases hr : (retain && decide (k = "any_version")) = true
    · have hr' : (retain && decide (PKey.str k = PKey.str "any_version")) = true := by
        rw [Bool.and_eq_true] at hr ⊢
        exact ⟨hr.1, by simpa using hr.2⟩
      rw [if_pos hr']
      exact keep_step o hb (by rw [if_pos hr])
    · have hr' : ¬ (retain && decide (PKey.str k = PKey.str "any_version")) = true := by
        intro h
        apply hr
        rw [Bool.and_eq_true] at h ⊢
        exact ⟨h.1, by simpa using h.2⟩
      rw [if_neg hr']
      have := shrink_step OwnRule.child (m := fun w => xDelIfIn w (.str inst)) (g := withoutInst inst)
        (fun h w b G o => delIfIn_does inst h w b G o) o hb hw
      rw [delStep_congr (f' := fun _ b => _) (by rw [if_neg hr])]
      exact this

theorem removeOs_eq (od : OsDict) (inst : String) : removeRuleForAllOs od inst =
    od.foldl (delStep fun os vd => if os = "any_os" then some vd
      else if (removeRuleForAllVersions vd inst false).isEmpty then none else some (removeRuleForAllVersions vd inst false)) od := rfl

theorem removeOs_does (inst : String) (h : Heap) (v : HVal) (t : OsDict) (F : FP) (o : OwnOs h0 P h v t F) :
    HDoes F h (xRemoveOs v (.str inst))
      (fun h' => Owned (fun h t F => OwnOs h0 P h v t F) F h (removeRuleForAllOs t inst) h') := by
  obtain ⟨a, d, G, rfl, o⟩ := o
  rw [removeOs_eq]
  have := delLoop (f := fun os vd => if os = "any_os" then some vd
      else if (removeRuleForAllVersions vd inst false).isEmpty then none else some (removeRuleForAllVersions vd inst false))
      (step := xRemoveOsStep (.ref a) (.str inst)) (C := OwnVer h0 P) (a := a) ?_ t d h d G t F o o.wf (forall₂_own o)
  · obtain ⟨h', e, s, q⟩ := this
    refine ⟨h', ?_, s, q⟩
    simp only [xRemoveOs]
    rw [hx_bind, own_items o]
    exact e
  · intro h d G acc F k w b o hb hw
    unfold xRemoveOsStep
    by_cases hr : k = "any_os"
    · rw [if_pos (by rw [hr])]
      exact keep_step o hb (by rw [if_pos hr])
    · rw [if_neg (fun h => hr (by injection h))]
      have := shrink_step OwnInst.child (m := fun w => xRemoveVersions w (.str inst) false) (g := fun vd => removeRuleForAllVersions vd inst false)
        (fun h w b G o => removeVersions_does inst false h w b G o) o hb hw
      rw [delStep_congr (f' := fun _ b => _) (by rw [if_neg hr])]
      exact this

/-! ## Merging -/

/-- Changing the value of a key, or creating one (tree side of the `if .. in ..` of the merges). -/
def upd (acc : Dict String β) (k : String) (fm : β → Except Exc β) (fc : Except Exc β) : Except Exc (Dict String β) :=
  match dget acc k with
  | none => fc >>= fun c => pure (dset acc k c)
  | some old => fm old >>= fun m => pure (dset acc k m)

theorem own_update {C : Heap → HVal → β → FP → Prop} (hc : Child h0 C) {h : Heap} {c : HVal} {acc : Dict String β} {F : FP}
    (o : OwnDict h0 C h c acc F) (k : String) {mm : HVal → HX Unit} {cm : HX HVal} {fm : β → Except Exc β} {fc : Except Exc β}
    (hm : ∀ b w G, C h w b G → Ref G h (mm w) (fm b) (fun _ b' h' => Owned (fun h b F => C h w b F) G h b' h'))
    (hcopy : Ref (fun _ => False) h cm fc (fun w b h' => Owned (fun h b F => C h w b F) (fun _ => False) h b h')) :
    Ref F h (do
      if ← xhas c (.str k) then
        let old ← xindex c (.str k)
        mm old
      else
        let w ← cm
        xset c (.str k) w) (upd acc k fm fc) (fun _ t' h' => Owned (fun h t F => OwnDict h0 C h c t F) F h t' h') := by
  refine Ref_read (own_has o k) ?_
  unfold upd dhas
  cases hk : dget acc k with
  | none => exact own_create hc o k hcopy
  | some b => exact own_modify hc o hk (fun w G hC => hm b w G hC)

theorem overrideVersions_ref (dflt : Option String) {c : HVal} {d : Dict PKey HVal} {new : InstDict} {combined : VerDict} {F : FP} {h : Heap}
    (hd : List.Forall₂ (InItem h0 P Rule.toVal) d new) (o : OwnVer h0 P h c combined F) :
    Ref F h (xForEach (xOverrideVersionsStep c dflt) d) (new.foldlM (fun acc kv => do
        let inst ← replaceDefaultInstaller kv.1 dflt
        pure (removeRuleForAllVersions acc inst true)) combined)
      (fun _ t' h' => Owned (fun h t F => OwnVer h0 P h c t F) F h t' h') := by
  refine forEach_ref (I := fun h t F => OwnVer h0 P h c t F) ?_ hd o
  intro x y acc F h hxy o
  unfold xOverrideVersionsStep
  rw [hxy.1]
  refine Ref_bind (replace_ref y.1 dflt) ?_
  rintro _ n h' ⟨rfl, rfl⟩ _
  exact ⟨F, .refl F _, (removeVersions_does n true _ c acc F o).ref (fun _ q => q)⟩

theorem overrideOs_ref {c : HVal} {d : Dict PKey HVal} {new : InstDict} {combined : OsDict} {F : FP} {h : Heap}
    (hd : List.Forall₂ (InItem h0 P Rule.toVal) d new) (o : OwnOs h0 P h c combined F) :
    Ref F h (xForEach (xOverrideOsStep c) d) (new.foldlM (fun acc kv => do
        let inst ← replaceDefaultInstaller kv.1 none
        pure (removeRuleForAllOs acc inst)) combined)
      (fun _ t' h' => Owned (fun h t F => OwnOs h0 P h c t F) F h t' h') := by
  refine forEach_ref (I := fun h t F => OwnOs h0 P h c t F) ?_ hd o
  intro x y acc F h hxy o
  unfold xOverrideOsStep
  rw [hxy.1]
  refine Ref_bind (replace_ref y.1 none) ?_
  rintro _ n h' ⟨rfl, rfl⟩ _
  exact ⟨F, .refl F _, (removeOs_does n _ c acc F o).ref (fun _ q => q)⟩

/-- First part of `mergeVersionDict`. -/
def mergeAnyVersionT (new combined : VerDict) (dflt : Option String) : Except Exc VerDict :=
  match dget new "any_version" with
  | some newInst => newInst.foldlM (fun acc kv => do
        let inst ← replaceDefaultInstaller kv.1 dflt
        pure (removeRuleForAllVersions acc inst true)) combined >>= fun combined =>
      upd combined "any_version" (fun old => mergeInstallerDict newInst old none) (copyInstallerDict newInst dflt)
  | none => pure combined

/-- Second part of `mergeVersionDict`. -/
def mergeVersionStepT (dflt : Option String) (acc : VerDict) (kv : String × InstDict) : Except Exc VerDict :=
  upd acc kv.1 (fun old => mergeInstallerDict kv.2 old dflt) (copyInstallerDict kv.2 dflt)

theorem mergeVersionDict_eq (new combined : VerDict) (dflt : Option String) :
    mergeVersionDict new combined dflt = mergeAnyVersionT new combined dflt >>= fun c => new.foldlM (mergeVersionStepT dflt) c := by
  have h2 : mergeVersionStepT dflt = (fun acc kv =>
    match dget acc kv.1 with
    | none => do
      let c ← copyInstallerDict kv.2 dflt
      pure (dset acc kv.1 c)
    | some old => do
      let m ← mergeInstallerDict kv.2 old dflt
      pure (dset acc kv.1 m)) := by
    funext acc kv
    unfold mergeVersionStepT upd
    cases dget acc kv.1 <;> rfl
  rw [h2]
  unfold mergeVersionDict mergeAnyVersionT
  congr 1
  cases dget new "any_version" with
  | none => rfl
  | some newInst =>
    dsimp only
    congr 1
    funext c
    unfold upd
    cases dget c "any_version" <;> rfl

theorem mergeAnyVersion_ref (dflt : Option String) {v c : HVal} {new combined : VerDict} {F : FP} {h : Heap}
    (hv : InDict h0 P InstDict.toVal v new) (o : OwnVer h0 P h c combined F) :
    Ref F h (xMergeAnyVersion v c dflt) (mergeAnyVersionT new combined dflt)
      (fun _ t' h' => Owned (fun h t F => OwnVer h0 P h c t F) F h t' h') := by
  unfold xMergeAnyVersion mergeAnyVersionT
  refine Ref_read (hv.rhas o.kept "any_version") ?_
  unfold dhas
  cases hn : dget new "any_version" with
  | none => exact Ref_pure ⟨F, .refl F h, o⟩
  | some newInst =>
    obtain ⟨w, hw, hwo⟩ := hv.rindex o.kept hn
    have hwi : InDict h0 P Rule.toVal w newInst := hwo
    refine Ref_read hw ?_
    obtain ⟨d, h1, h2⟩ := hwi.ritems o.kept
    refine Ref_read h1 ?_
    refine Ref_bind (overrideVersions_ref dflt h2 o) ?_
    rintro _ acc h' ⟨F', hf, o'⟩ s
    refine ⟨F', hf, ?_⟩
    refine Ref_conseq (own_update OwnInst.child o' "any_version" (mm := fun old => xMergeInstaller w old none)
      (fun b w' G hC => mergeInstaller_ref none hwi hC) (copyInstaller_ref dflt hwi o'.kept)) ?_
    rintro _ b h2 s2 ⟨F2, hf2, o2⟩
    exact ⟨F2, hf.trans hf2 s.len, o2⟩

theorem mergeVersion_ref (dflt : Option String) {v c : HVal} {new combined : VerDict} {F : FP} {h : Heap}
    (hv : InDict h0 P InstDict.toVal v new) (o : OwnVer h0 P h c combined F) :
    Ref F h (xMergeVersion v c dflt) (mergeVersionDict new combined dflt)
      (fun _ t' h' => Owned (fun h t F => OwnVer h0 P h c t F) F h t' h') := by
  rw [mergeVersionDict_eq]
  unfold xMergeVersion
  refine Ref_bind (mergeAnyVersion_ref dflt hv o) ?_
  rintro _ acc h' ⟨F', hf, o'⟩ s
  refine ⟨F', hf, ?_⟩
  obtain ⟨d, h1, h2⟩ := hv.ritems o'.kept
  refine Ref_read h1 ?_
  refine Ref_conseq (forEach_ref (I := fun h t F => OwnVer h0 P h c t F) (f := mergeVersionStepT dflt) (step := xMergeVersionStep c dflt) ?_ h2 o') ?_
  · intro x y acc F h hxy o
    unfold xMergeVersionStep mergeVersionStepT
    rw [hxy.1]
    exact own_update OwnInst.child o y.1 (mm := fun old => xMergeInstaller x.2 old dflt)
      (fun b w' G hC => mergeInstaller_ref dflt hxy.2 hC) (copyInstaller_ref dflt hxy.2 o.kept)
  · rintro _ b h2 s2 ⟨F2, hf2, o2⟩
    exact ⟨F2, hf.trans hf2 s.len, o2⟩

/-- Merging into the `any_version` entry that must be there. -/
def mergeInnerT (newInst : InstDict) (oldVer : VerDict) : Except Exc VerDict :=
  match dget oldVer "any_version" with
  | none => .error .keyError
  | some old => mergeInstallerDict newInst old none >>= fun m => pure (dset oldVer "any_version" m)

theorem own_index_none {C : Heap → HVal → β → FP → Prop} {h : Heap} {v : HVal} {t : Dict String β} {F : FP} (o : OwnDict h0 C h v t F) {k : String}
    (hk : dget t k = none) : xindex v (.str k) h = (.error .keyError, h) := by
  obtain ⟨a, d, G, rfl, o⟩ := o
  simp only [xindex]
  rw [hx_bind, o.dict]
  simp only [keys_none o.keys hk]
  rfl

theorem mergeInner_ref {w c : HVal} {newInst : InstDict} {oldVer : VerDict} {F : FP} {h : Heap} (hv : InDict h0 P Rule.toVal w newInst)
    (o : OwnVer h0 P h c oldVer F) :
    Ref F h (xindex c (.str "any_version") >>= fun old => xMergeInstaller w old none) (mergeInnerT newInst oldVer)
      (fun _ t' h' => Owned (fun h t F => OwnVer h0 P h c t F) F h t' h') := by
  unfold mergeInnerT
  cases hk : dget oldVer "any_version" with
  | none => exact Ref_fail (own_index_none o hk)
  | some old => exact own_modify OwnInst.child o hk (fun w' G hC => mergeInstaller_ref none hv hC)

/-- First part of `mergeOsDict`. -/
def mergeAnyOsT (new combined : OsDict) : Except Exc OsDict :=
  match dget new "any_os" with
  | some newVer =>
    match dget newVer "any_version" with
    | none => .error .keyError
    | some newInst => newInst.foldlM (fun acc kv => do
          let inst ← replaceDefaultInstaller kv.1 none
          pure (removeRuleForAllOs acc inst)) combined >>= fun combined =>
        upd combined "any_os" (mergeInnerT newInst) (copyVersionDict newVer none)
  | none => pure combined

/-- Second part of `mergeOsDict`. -/
def mergeOsStepT (dflts : Dict String (Option String)) (acc : OsDict) (kv : String × VerDict) : Except Exc OsDict :=
  match dget dflts kv.1 with
  | none => pure acc
  | some dflt => upd acc kv.1 (fun old => mergeVersionDict kv.2 old dflt) (copyVersionDict kv.2 dflt)

theorem mergeOsDict_eq (new combined : OsDict) (dflts : Dict String (Option String)) :
    mergeOsDict new combined dflts = mergeAnyOsT new combined >>= fun c => new.foldlM (mergeOsStepT dflts) c := by
  have h2 : mergeOsStepT dflts = (fun acc kv =>
    match dget dflts kv.1 with
    | none => pure acc
    | some dflt =>
      match dget acc kv.1 with
      | none => do
        let c ← copyVersionDict kv.2 dflt
        pure (dset acc kv.1 c)
      | some old => do
        let m ← mergeVersionDict kv.2 old dflt
        pure (dset acc kv.1 m)) := by
    funext acc kv
    unfold mergeOsStepT upd
    cases dget dflts kv.1 with
    | none => rfl
    | some dflt => dsimp only; cases dget acc kv.1 <;> rfl
  rw [h2]
  unfold mergeOsDict mergeAnyOsT
  congr 1
  cases dget new "any_os" with
  | none => rfl
  | some newVer =>
    dsimp only
    cases dget newVer "any_version" with
    | none => rfl
    | some newInst =>
      dsimp only
      congr 1
      funext c
      unfold upd
      cases dget c "any_os" with
      | none => rfl
      | some oldVer =>
        dsimp only
        unfold mergeInnerT
        cases dget oldVer "any_version" with
        | none => rfl
        | some old =>
          dsimp only
          cases mergeInstallerDict newInst old none <;> rfl

theorem mergeAnyOs_ref {v c : HVal} {new combined : OsDict} {F : FP} {h : Heap}
    (hv : InDict h0 P VerDict.toVal v new) (o : OwnOs h0 P h c combined F) :
    Ref F h (xMergeAnyOs v c) (mergeAnyOsT new combined)
      (fun _ t' h' => Owned (fun h t F => OwnOs h0 P h c t F) F h t' h') := by
  unfold xMergeAnyOs mergeAnyOsT
  refine Ref_read (hv.rhas o.kept "any_os") ?_
  unfold dhas
  cases hn : dget new "any_os" with
  | none => exact Ref_pure ⟨F, .refl F h, o⟩
  | some newVer =>
    obtain ⟨w, hw, hwo⟩ := hv.rindex o.kept hn
    have hwv : InDict h0 P InstDict.toVal w newVer := hwo
    refine Ref_read hw ?_
    dsimp only
    cases hi : dget newVer "any_version" with
    | none => exact Ref_fail (hwv.rindex_none o.kept hi)
    | some newInst =>
      obtain ⟨w2, hw2, hwo2⟩ := hwv.rindex o.kept hi
      have hwi : InDict h0 P Rule.toVal w2 newInst := hwo2
      refine Ref_read hw2 ?_
      obtain ⟨d, h1, h2⟩ := hwi.ritems o.kept
      refine Ref_read h1 ?_
      refine Ref_bind (overrideOs_ref h2 o) ?_
      rintro _ acc h' ⟨F', hf, o'⟩ s
      refine ⟨F', hf, ?_⟩
      refine Ref_conseq (own_update OwnVer.child o' "any_os"
        (mm := fun oldVer => xindex oldVer (.str "any_version") >>= fun old => xMergeInstaller w2 old none)
        (fun b w' G hC => mergeInner_ref hwi hC) (copyVersion_ref none hwv o'.kept)) ?_
      rintro _ b h2 s2 ⟨F2, hf2, o2⟩
      exact ⟨F2, hf.trans hf2 s.len, o2⟩

theorem mergeOs_ref (dflts : Dict String (Option String)) {v c : HVal} {new combined : OsDict} {F : FP} {h : Heap}
    (hv : InDict h0 P VerDict.toVal v new) (o : OwnOs h0 P h c combined F) :
    Ref F h (xMergeOs v c dflts) (mergeOsDict new combined dflts)
      (fun _ t' h' => Owned (fun h t F => OwnOs h0 P h c t F) F h t' h') := by
  rw [mergeOsDict_eq]
  unfold xMergeOs
  refine Ref_bind (mergeAnyOs_ref hv o) ?_
  rintro _ acc h' ⟨F', hf, o'⟩ s
  refine ⟨F', hf, ?_⟩
  obtain ⟨d, h1, h2⟩ := hv.ritems o'.kept
  refine Ref_read h1 ?_
  refine Ref_conseq (forEach_ref (I := fun h t F => OwnOs h0 P h c t F) (f := mergeOsStepT dflts) (step := xMergeOsStep c dflts) ?_ h2 o') ?_
  · intro x y acc F h hxy o
    unfold xMergeOsStep mergeOsStepT
    rw [hxy.1]
    simp only [kDflt]
    cases dget dflts y.1 with
    | none => exact Ref_pure ⟨F, .refl F h, o⟩
    | some dflt =>
      dsimp only
      unfold xMergeOsEntry
      rw [hxy.1]
      exact own_update OwnVer.child o y.1 (mm := fun old => xMergeVersion x.2 old dflt)
        (fun b w' G hC => mergeVersion_ref dflt hxy.2 hC) (copyVersion_ref dflt hxy.2 o.kept)
  · rintro _ b h2 s2 ⟨F2, hf2, o2⟩
    exact ⟨F2, hf.trans hf2 s.len, o2⟩

theorem mergeKeyStep_ref (dflts : Dict String (Option String)) (c : HVal) (x : PKey × HVal) (y : String × OsDict) (acc : Rules) (F : FP) (h : Heap)
    (hxy : InItem h0 P OsDict.toVal x y) (o : OwnRules h0 P h c acc F) :
    Ref F h (xMergeKeyStep c dflts x) (match dget acc y.1 with
      | none => do
        let c ← copyOsDict y.2 dflts
        if c.isEmpty then pure acc else pure (dset acc y.1 c)
      | some old => do
        let m ← mergeOsDict y.2 old dflts
        pure (dset acc y.1 m)) (fun _ t' h' => Owned (fun h t F => OwnRules h0 P h c t F) F h t' h') := by
  unfold xMergeKeyStep
  rw [hxy.1]
  refine Ref_read (own_has o y.1) ?_
  unfold dhas
  cases hk : dget acc y.1 with
  | some old => exact own_modify OwnOs.child o hk (fun w' G hC => mergeOs_ref dflts hxy.2 hC)
  | none =>
    have hcp := copyOs_ref dflts (v := x.2) (t := y.2) (h := h) hxy.2 o.kept
    have hcr := own_create OwnOs.child o y.1 hcp
    obtain ⟨r, h1, e, s, ag⟩ := hcp
    refine (?_ : Ref F h (xCopyOs x.2 dflts >>= fun v => xSetUnlessEmpty c (.str y.1) v)
      (copyOsDict y.2 dflts >>= fun c => if c.isEmpty then pure acc else pure (dset acc y.1 c)) _)
    generalize copyOsDict y.2 dflts = z at ag hcr ⊢
    cases ag with
    | err e' => exact ⟨_, h1, by rw [hx_bind, e], s.mono (fun _ h => h.elim), .err e'⟩
    | ok hq =>
      rename_i v t
      have hq' := hq
      obtain ⟨G, hG, ot⟩ := hq'
      have he : xempty v h1 = (.ok t.isEmpty, h1) := own_empty ot
      cases ht : t.isEmpty with
      | true =>
        refine ⟨.ok (), h1, ?_, s.mono (fun _ h => h.elim), ?_⟩
        · rw [hx_bind, e]
          simp only [xSetUnlessEmpty]
          rw [hx_bind, he, ht]
          rfl
        · have : (Except.ok t >>= fun (c : OsDict) => if c.isEmpty then pure acc else pure (dset acc y.1 c) : Except Exc Rules) = .ok acc := by
            show (if t.isEmpty then pure acc else pure (dset acc y.1 t) : Except Exc Rules) = _
            rw [ht]; rfl
          rw [this]
          refine .ok ⟨F, .refl F h, ?_⟩
          refine (OwnDict.child OwnOs.child).loc _ _ _ _ _ o (o.kept.steps0 s) (fun x hx => ?_) s.len
          obtain ⟨a, d, G, rfl, o⟩ := o
          exact s.same x (o.bound x hx).2 id
      | false =>
        obtain ⟨r2, h2, e2, s2, ag2⟩ := hcr
        refine ⟨r2, h2, ?_, s2, ?_⟩
        · rw [← e2, hx_bind, hx_bind, e]
          simp only [xSetUnlessEmpty]
          rw [hx_bind, he, ht]
          rfl
        · have : (Except.ok t >>= fun (c : OsDict) => if c.isEmpty then pure acc else pure (dset acc y.1 c) : Except Exc Rules)
              = (Except.ok t >>= fun b => pure (dset acc y.1 b)) := by
            show (if t.isEmpty then pure acc else pure (dset acc y.1 t) : Except Exc Rules) = _
            rw [ht]; rfl
          rw [this]
          exact ag2

theorem mergeOneRules_ref (dflts : Dict String (Option String)) {v c : HVal} {new combined : Rules} {F : FP} {h : Heap}
    (hv : InDict h0 P OsDict.toVal v new) (o : OwnRules h0 P h c combined F) :
    Ref F h (xMergeOneRules c dflts v) (mergeOneRules dflts combined new)
      (fun _ t' h' => Owned (fun h t F => OwnRules h0 P h c t F) F h t' h') := by
  unfold xMergeOneRules
  obtain ⟨d, h1, h2⟩ := hv.ritems o.kept
  exact Ref_read h1 (forEach_ref (I := fun h t F => OwnRules h0 P h c t F)
    (fun x y acc F h hxy o => mergeKeyStep_ref dflts c x y acc F h hxy o) h2 o)

theorem mergeRules_ref (dflts : Dict String (Option String)) {l : List HVal} {rs : List Rules}
    (hl : List.Forall₂ (fun v r => TreeAt h0 P v (Rules.toVal r)) l rs) :
    Ref (fun _ => False) h0 (xMergeRules l dflts) (mergeRules rs dflts)
      (fun v t h' => Owned (fun h t F => OwnRules h0 P h v t F) (fun _ => False) h0 t h') := by
  refine own_build (I := OwnRules h0 P) (x0 := pure []) (g := fun acc => rs.reverse.foldlM (mergeOneRules dflts) acc) (own_new (.refl h0)) ?_
  intro v t h' F s o
  refine forEach_ref (I := fun h t F => OwnRules h0 P h v t F) (rel := fun v r => TreeAt h0 P v (Rules.toVal r)) ?_ ?_ o
  · intro x y acc F h hxy o
    exact mergeOneRules_ref dflts hxy o
  · exact List.rel_reverse hl

end Verif
