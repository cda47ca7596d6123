import Verif.Lemmas.HeapOwn
import Verif.Model.HeapConfig
import Verif.Lemmas.Config4
import Mathlib.Data.List.Forall2
/-!
# Configs in memory

Lemmas for `Props/HeapConfig.lean`: the functions on objects compute the trees of `Model/Config.lean`.
-/
set_option linter.unusedSimpArgs false
set_option linter.unusedVariables false
namespace Verif
variable {α β γ δ : Type}

/-! ## Verification -/

theorem ListAt_iff {h : Heap} {P : Nat → Prop} : ∀ {l : List HVal} {ts : List PVal}, ListAt h P l ts ↔ List.Forall₂ (TreeAt h P) l ts
  | [], [] => by simp [ListAt]
  | [], t :: ts => by simp [ListAt]
  | v :: l, [] => by simp [ListAt]
  | v :: l, t :: ts => by
    simp only [ListAt, List.cons.injEq, List.forall₂_cons]
    constructor
    · rintro ⟨v', l', ⟨rfl, rfl⟩, h1, h2⟩
      exact ⟨h1, ListAt_iff.1 h2⟩
    · rintro ⟨h1, h2⟩
      exact ⟨v, l, ⟨rfl, rfl⟩, h1, ListAt_iff.2 h2⟩

theorem ItemsAt_iff₂ {h : Heap} {P : Nat → Prop} : ∀ {d : Dict PKey HVal} {e : Dict PKey PVal},
    ItemsAt h P d e ↔ List.Forall₂ (fun x y => x.1 = y.1 ∧ TreeAt h P x.2 y.2) d e
  | [], [] => by simp [ItemsAt]
  | [], (k, t) :: ts => by simp [ItemsAt]
  | v :: l, [] => by simp [ItemsAt]
  | (k', v) :: l, (k, t) :: ts => by
    simp only [ItemsAt, List.cons.injEq, List.forall₂_cons]
    constructor
    · rintro ⟨v', l', ⟨h0, rfl⟩, h1, h2⟩
      cases h0
      exact ⟨⟨rfl, h1⟩, ItemsAt_iff₂.1 h2⟩
    · rintro ⟨⟨rfl, h1⟩, h2⟩
      exact ⟨v, l, ⟨rfl, rfl⟩, h1, ItemsAt_iff₂.2 h2⟩

/-- What the value is, by the form of its tree. -/
theorem TreeAt_cases {h : Heap} {P : Nat → Prop} {v : HVal} {t : PVal} (H : TreeAt h P v t) :
    (t = .none ∧ v = .none) ∨ (∃ b, t = .bool b ∧ v = .bool b) ∨ (∃ i, t = .int i ∧ v = .int i) ∨ (∃ s, t = .str s ∧ v = .str s) ∨
    (∃ n, t = .other n ∧ v = .other n) ∨
    (∃ ts a l, t = .list ts ∧ v = .ref a ∧ P a ∧ h[a]? = some (.list l) ∧ List.Forall₂ (TreeAt h P) l ts) ∨
    (∃ e a d, t = .dict e ∧ v = .ref a ∧ P a ∧ h[a]? = some (.dict d) ∧ List.Forall₂ (fun x y => x.1 = y.1 ∧ TreeAt h P x.2 y.2) d e) := by
  cases t with
  | none => exact .inl ⟨rfl, by simpa [TreeAt] using H⟩
  | bool b => exact .inr (.inl ⟨b, rfl, by simpa [TreeAt] using H⟩)
  | int b => exact .inr (.inr (.inl ⟨b, rfl, by simpa [TreeAt] using H⟩))
  | str b => exact .inr (.inr (.inr (.inl ⟨b, rfl, by simpa [TreeAt] using H⟩)))
  | other b => exact .inr (.inr (.inr (.inr (.inl ⟨b, rfl, by simpa [TreeAt] using H⟩))))
  | list ts =>
    rw [TreeAt] at H
    obtain ⟨a, l, h1, h2, h3, h4⟩ := H
    exact .inr (.inr (.inr (.inr (.inr (.inl ⟨ts, a, l, rfl, h1, h2, h3, ListAt_iff.1 h4⟩)))))
  | dict e =>
    rw [TreeAt] at H
    obtain ⟨a, l, h1, h2, h3, h4⟩ := H
    exact .inr (.inr (.inr (.inr (.inr (.inr ⟨e, a, l, rfl, h1, h2, h3, ItemsAt_iff₂.1 h4⟩)))))

theorem verifyElems_eq {f : HVal → Except Exc Unit} {g : PVal → Except Exc PVal} {R : HVal → PVal → Prop}
    (H : ∀ v t, R v t → f v = (g t).map fun _ => ()) {l : List HVal} {ts : List PVal} (hl : List.Forall₂ R l ts) :
    hVerifyElems f l = verifyElems g ts := by
  induction hl with
  | nil => rfl
  | cons h _ ih =>
    simp only [hVerifyElems, verifyElems, H _ _ h, ih]
    rename_i b _ _ _
    cases g b <;> rfl

theorem verifyItems_eq {fk : PVal → Except Exc PVal} {f : HVal → Except Exc Unit} {g : PVal → Except Exc PVal} {R : HVal → PVal → Prop}
    (H : ∀ v t, R v t → f v = (g t).map fun _ => ()) {d : Dict PKey HVal} {e : Dict PKey PVal}
    (hl : List.Forall₂ (fun x y => x.1 = y.1 ∧ R x.2 y.2) d e) :
    hVerifyItems fk f d = verifyItemsOf fk g e := by
  induction hl with
  | nil => rfl
  | @cons x y _ _ h _ ih =>
    obtain ⟨k, v⟩ := x
    obtain ⟨k', t⟩ := y
    obtain ⟨rfl, h⟩ := h
    simp only [hVerifyItems, verifyItemsOf, H _ _ h, ih]
    cases fk k.toVal with
    | error e => rfl
    | ok _ => cases g t <;> rfl

theorem hVerify_eq {h : Heap} {P : Nat → Prop} : ∀ (ty : CType) (v : HVal) (t : PVal), TreeAt h P v t →
    hCheckType ty h v = (ty.verify t).map fun _ => ()
  | .any, v, t, H => rfl
  | .string, v, t, H => by
    rcases TreeAt_cases H with ⟨rfl, rfl⟩ | ⟨b, rfl, rfl⟩ | ⟨b, rfl, rfl⟩ | ⟨b, rfl, rfl⟩ | ⟨b, rfl, rfl⟩ | ⟨ts, a, l, rfl, rfl, -⟩ | ⟨ts, a, l, rfl, rfl, -⟩ <;> rfl
  | .path, v, t, H => by
    rcases TreeAt_cases H with ⟨rfl, rfl⟩ | ⟨b, rfl, rfl⟩ | ⟨b, rfl, rfl⟩ | ⟨b, rfl, rfl⟩ | ⟨b, rfl, rfl⟩ | ⟨ts, a, l, rfl, rfl, -⟩ | ⟨ts, a, l, rfl, rfl, -⟩ <;> rfl
  | .boolean, v, t, H => by
    rcases TreeAt_cases H with ⟨rfl, rfl⟩ | ⟨b, rfl, rfl⟩ | ⟨b, rfl, rfl⟩ | ⟨b, rfl, rfl⟩ | ⟨b, rfl, rfl⟩ | ⟨ts, a, l, rfl, rfl, -⟩ | ⟨ts, a, l, rfl, rfl, -⟩ <;> rfl
  | .list e, v, t, H => by
    rcases TreeAt_cases H with ⟨rfl, rfl⟩ | ⟨b, rfl, rfl⟩ | ⟨b, rfl, rfl⟩ | ⟨b, rfl, rfl⟩ | ⟨b, rfl, rfl⟩ | ⟨ts, a, l, rfl, rfl, -, hg, hl⟩ | ⟨ts, a, l, rfl, rfl, -, hg, hl⟩
    · rfl
    · rfl
    · rfl
    · rfl
    · rfl
    · simp only [hCheckType, CType.verify, hg]
      rw [verifyElems_eq (fun v t hv => hVerify_eq e v t hv) hl]
      simp only [PVal.isNone, Bool.false_eq_true, if_false]
      cases verifyElems (CType.verify e) ts <;> rfl
    · simp only [hCheckType, CType.verify, hg]
      rfl
  | .dict vt kt, v, t, H => by
    rcases TreeAt_cases H with ⟨rfl, rfl⟩ | ⟨b, rfl, rfl⟩ | ⟨b, rfl, rfl⟩ | ⟨b, rfl, rfl⟩ | ⟨b, rfl, rfl⟩ | ⟨ts, a, l, rfl, rfl, -, hg, hl⟩ | ⟨ts, a, l, rfl, rfl, -, hg, hl⟩
    · rfl
    · rfl
    · rfl
    · rfl
    · rfl
    · simp only [hCheckType, CType.verify, hg]
      rfl
    · simp only [hCheckType, CType.verify, hg]
      rw [verifyItems_eq (fun v t hv => hVerify_eq vt v t hv) hl]
      simp only [PVal.isNone, Bool.false_eq_true, if_false]
      cases verifyItemsOf (CType.verify kt) (CType.verify vt) ts <;> rfl
  | .mergingDict vt kt, v, t, H => by
    rcases TreeAt_cases H with ⟨rfl, rfl⟩ | ⟨b, rfl, rfl⟩ | ⟨b, rfl, rfl⟩ | ⟨b, rfl, rfl⟩ | ⟨b, rfl, rfl⟩ | ⟨ts, a, l, rfl, rfl, -, hg, hl⟩ | ⟨ts, a, l, rfl, rfl, -, hg, hl⟩
    · rfl
    · rfl
    · rfl
    · rfl
    · rfl
    · simp only [hCheckType, CType.verify, hg]
      rfl
    · simp only [hCheckType, hg]
      rw [verifyItems_eq (fun v t hv => hVerify_eq vt v t hv) hl]
      rw [CType.verify]
      split
      · rename_i he
        cases ts with
        | nil => rfl
        | cons x y => simp [pyEq] at he
      · cases verifyItemsOf (CType.verify kt) (CType.verify vt) ts <;> rfl

/-! ## Values made from values -/

/-- Nothing that exists is changed. -/
abbrev NoFP : FP := fun _ => False

/-- The result stands for `t`, made of objects in `P` and new ones. -/
def Yields (P : Nat → Prop) (h : Heap) (m : HX HVal) (x : Except Exc PVal) : Prop :=
  Ref NoFP h m x (fun w t h' => TreeAt h' (fun a => P a ∨ h.length ≤ a) w t)

theorem Kept.tree {h h' : Heap} (k : Kept h h') {P P' : Nat → Prop} (hp : ∀ a, P a → P' a) {v : HVal} {t : PVal} (H : TreeAt h P v t) : TreeAt h' P' v t :=
  TreeAt_mono (fun a o ha ho => ⟨hp a ha, k.get ho⟩) v t H

theorem Ref_err {F : FP} {h : Heap} {m : HX α} {e : Exc} {Q : α → β → Heap → Prop} (hm : m h = (.error e, h)) : Ref F h m (.error e) Q :=
  ⟨.error e, h, hm, .refl F h, .err e⟩

theorem alloc_ref {h : Heap} (o : HObj) : xalloc o h = (.ok h.length, h ++ [o]) := rfl

theorem Steps.alloc (F : FP) (h : Heap) (o : HObj) : Steps F h (h ++ [o]) :=
  ⟨by simp, fun x hx _ => by rw [List.getElem?_append_left hx]⟩

theorem Kept.alloc (h : Heap) (o : HObj) : Kept h (h ++ [o]) := Steps0.kept (.alloc _ h o)

theorem get_alloc (h : Heap) (o : HObj) : (h ++ [o])[h.length]? = some o := by simp

theorem xMapM_ref {f : α → HX HVal} {g : β → Except Exc PVal} {R : Heap → α → β → Prop} {P : Nat → Prop} {hb : Heap}
    (hR : ∀ h h' x y, Kept h h' → R h x y → R h' x y)
    (H : ∀ x y h, hb.length ≤ h.length → R h x y → Yields P h (f x) (g y)) : ∀ {l : List α} {ts : List β} {h : Heap}, hb.length ≤ h.length →
      List.Forall₂ (R h) l ts →
      Ref NoFP h (xMapM f l) (ts.mapM g) (fun l' ts' h' => List.Forall₂ (TreeAt h' (fun a => P a ∨ h.length ≤ a)) l' ts')
  | [], [], h, hb', hl => Ref_pure (by exact .nil)
  | [], _ :: _, h, hb', hl => by cases hl
  | _ :: _, [], h, hb', hl => by cases hl
  | x :: l, y :: ts, h, hb', hl => by
    obtain ⟨h1, h2⟩ := List.forall₂_cons.1 hl
    rw [xMapM, List.mapM_cons]
    refine Ref_bind (H x y h hb' h1) ?_
    intro w t h' hw s
    have k := Steps0.kept s
    refine ⟨NoFP, .refl _ _, ?_⟩
    refine Ref_bind (xMapM_ref hR H (Nat.le_trans hb' s.len) (h2.imp fun a b hab => hR h h' a b k hab)) ?_
    intro l' ts' h'' hl' s'
    refine ⟨NoFP, .refl _ _, Ref_pure ?_⟩
    refine .cons ((Steps0.kept s').tree (fun a ha => ha) hw) (hl'.imp fun a b hab => ?_)
    exact TreeAt_mono (fun a o ha ho => ⟨ha.imp id (fun h => Nat.le_trans s.len h), ho⟩) _ _ hab

theorem mem_forall₂_dset {R : HVal → PVal → Prop} {d : Dict PKey HVal} {e : Dict PKey PVal} (hl : List.Forall₂ (fun x y => x.1 = y.1 ∧ R x.2 y.2) d e)
    (k : PKey) {w : HVal} {t : PVal} (hw : R w t) : List.Forall₂ (fun x y => x.1 = y.1 ∧ R x.2 y.2) (dset d k w) (dset e k t) := by
  induction hl with
  | nil => exact .cons ⟨rfl, hw⟩ .nil
  | @cons x y l l' h hl ih =>
    obtain ⟨k1, v1⟩ := x
    obtain ⟨k2, t2⟩ := y
    obtain ⟨rfl, h⟩ := h
    simp only [dset]
    split
    · exact .cons ⟨rfl, hw⟩ hl
    · exact .cons ⟨rfl, h⟩ ih

theorem Ref_lift {F : FP} {h : Heap} (x : Except Exc α) : Ref F h (xlift x) x (fun a b h' => a = b) := by
  refine ⟨x, h, rfl, .refl _ _, ?_⟩
  cases x with
  | ok a => exact .ok rfl
  | error e => exact .err e

theorem xConvertItems_ref {fk : PVal → Except Exc PVal} {f : HVal → HX HVal} {g : PVal → Except Exc PVal} {P : Nat → Prop} {hb : Heap} {P0 : Nat → Prop}
    (H : ∀ x y h, hb.length ≤ h.length → TreeAt h P0 x y → Yields P h (f x) (g y)) : ∀ {l : List (PKey × HVal)} {ts : List (PKey × PVal)} {h : Heap}
      {acc : Dict PKey HVal} {acc' : Dict PKey PVal}, hb.length ≤ h.length →
      List.Forall₂ (fun x y => x.1 = y.1 ∧ TreeAt h P0 x.2 y.2) l ts →
      List.Forall₂ (fun x y => x.1 = y.1 ∧ TreeAt h (fun a => P a ∨ hb.length ≤ a) x.2 y.2) acc acc' →
      Ref NoFP h (xConvertItems fk f acc l) (convertItems fk g acc' ts)
        (fun l' ts' h' => List.Forall₂ (fun x y => x.1 = y.1 ∧ TreeAt h' (fun a => P a ∨ hb.length ≤ a) x.2 y.2) l' ts')
  | [], [], h, acc, acc', hb', hl, ha => Ref_pure ha
  | [], _ :: _, h, _, _, hb', hl, _ => by cases hl
  | _ :: _, [], h, _, _, hb', hl, _ => by cases hl
  | (k, x) :: l, (k', y) :: ts, h, acc, acc', hb', hl, ha => by
    obtain ⟨⟨h0, h1⟩, h2⟩ := List.forall₂_cons.1 hl
    cases h0
    simp only [xConvertItems, convertItems]
    refine Ref_bind (H x y h hb' h1) ?_
    intro w t h' hw s
    have k := Steps0.kept s
    refine ⟨NoFP, .refl _ _, Ref_bind (Ref_lift _) ?_⟩
    rintro k1 _ h'' rfl s1
    have k1 := k.trans (Steps0.kept s1)
    refine ⟨NoFP, .refl _ _, Ref_bind (Ref_lift _) ?_⟩
    rintro k2 _ h3 rfl s2
    have k3 := (Steps0.kept s1).trans (Steps0.kept s2)
    have k4 := k.trans k3
    refine ⟨NoFP, .refl _ _, xConvertItems_ref H (Nat.le_trans hb' k4.len) (h2.imp fun a b hab => ⟨hab.1, k4.tree (fun _ h => h) hab.2⟩) ?_⟩
    refine mem_forall₂_dset (ha.imp fun a b hab => ⟨hab.1, k4.tree (fun _ h => h) hab.2⟩) _ ?_
    exact k3.tree (fun a h => h.imp id (fun h => Nat.le_trans hb' h)) hw

theorem xVerify_ref {h : Heap} {P : Nat → Prop} (ty : CType) {v : HVal} {t : PVal} (H : TreeAt h P v t) :
    Ref NoFP h (xVerify ty v) (ty.verify t) (fun w t' h' => w = v ∧ t' = t ∧ h' = h) := by
  refine ⟨_, h, rfl, .refl _ _, ?_⟩
  rw [hVerify_eq ty v t H]
  cases hv : ty.verify t with
  | error e => exact .err e
  | ok t' => exact .ok ⟨rfl, (verify_iff.1 hv).1, rfl⟩

theorem tree_list {h : Heap} {P : Nat → Prop} {a : Nat} {l : List HVal} {ts : List PVal} (hp : P a) (hg : h[a]? = some (.list l))
    (hl : List.Forall₂ (TreeAt h P) l ts) : TreeAt h P (.ref a) (.list ts) := by
  rw [TreeAt]
  exact ⟨a, l, rfl, hp, hg, ListAt_iff.2 hl⟩

theorem tree_dict {h : Heap} {P : Nat → Prop} {a : Nat} {d : Dict PKey HVal} {e : Dict PKey PVal} (hp : P a) (hg : h[a]? = some (.dict d))
    (hl : List.Forall₂ (fun x y => x.1 = y.1 ∧ TreeAt h P x.2 y.2) d e) : TreeAt h P (.ref a) (.dict e) := by
  rw [TreeAt]
  exact ⟨a, d, rfl, hp, hg, ItemsAt_iff₂.2 hl⟩

theorem yields_scalar {P : Nat → Prop} {h : Heap} {m : HX HVal} {w : HVal} {t : PVal} (hm : m h = (.ok w, h)) (ht : TreeAt h P w t) :
    Yields P h m (.ok t) :=
  ⟨_, _, hm, .refl _ _, .ok ((Kept.refl h).tree (fun _ h => .inl h) ht)⟩

theorem yields_new {P : Nat → Prop} {h : Heap} : Yields P h xnew (.ok (.dict [])) := by
  refine ⟨_, _, rfl, .alloc _ _ _, .ok ?_⟩
  exact tree_dict (.inr (Nat.le_refl _)) (get_alloc _ _) .nil

theorem yields_verify {P : Nat → Prop} {h : Heap} (ty : CType) {v : HVal} {t : PVal} (H : TreeAt h P v t) : Yields P h (xVerify ty v) (ty.verify t) := by
  refine Ref_conseq (xVerify_ref ty H) ?_
  rintro w t' h' s ⟨rfl, rfl, rfl⟩
  exact (Kept.refl _).tree (fun _ h => .inl h) H

theorem yields_list {P : Nat → Prop} {expand : String → String} {e : CType}
    (H : ∀ x y h P, TreeAt h P x y → Yields P h (xFromYaml expand e x) (CType.fromYaml expand e y)) {h : Heap} {a : Nat} {l : List HVal} {ts : List PVal}
    (hg : h[a]? = some (.list l)) (hl : List.Forall₂ (TreeAt h P) l ts) :
    Yields P h (xListFromYaml e (xFromYaml expand e) (.ref a)) (CType.fromYaml expand (.list e) (.list ts)) := by
  have hr : xlist .configValueError (.ref a) h = (.ok l, h) := by simp only [xlist, hg]
  simp only [xListFromYaml, CType.fromYaml]
  refine Ref_read hr ?_
  refine Ref_bind (xMapM_ref (hb := h) (R := fun h => TreeAt h P) (fun h h' x y k hx => k.tree (fun _ h => h) hx) (fun x y h _ hx => H x y h P hx)
    (Nat.le_refl _) hl) ?_
  intro l' ts' h' hl' s
  refine ⟨NoFP, .refl _ _, ?_⟩
  have k := Steps0.kept s
  have ka := Kept.alloc h' (.list l')
  have ht : TreeAt (h' ++ [.list l']) (fun a => P a ∨ h.length ≤ a) (.ref h'.length) (.list ts') :=
    tree_list (.inr s.len) (get_alloc _ _) (hl'.imp fun a b hab => ka.tree (fun _ h => h) hab)
  obtain ⟨r, h'', e1, s1, ag⟩ := xVerify_ref (.list e) ht
  refine ⟨r, h'', ?_, (Steps.alloc _ _ _).trans s1 (.refl _ _), ?_⟩
  · rw [hx_bind, alloc_ref]; exact e1
  · revert ag
    generalize CType.verify (.list e) (.list ts') = x
    intro ag
    cases ag with
    | ok hq => obtain ⟨rfl, rfl, rfl⟩ := hq; exact .ok ht
    | err e => exact .err e

theorem yields_dict {P : Nat → Prop} {expand : String → String} {ty vt : CType} {fk : PVal → Except Exc PVal}
    (H : ∀ x y h P, TreeAt h P x y → Yields P h (xFromYaml expand vt x) (CType.fromYaml expand vt y)) {h : Heap} {a : Nat} {d : Dict PKey HVal} {e : Dict PKey PVal}
    (hg : h[a]? = some (.dict d)) (hl : List.Forall₂ (fun x y => x.1 = y.1 ∧ TreeAt h P x.2 y.2) d e) :
    Yields P h (xDictFromYaml ty fk (xFromYaml expand vt) (.ref a))
      (convertItems fk (CType.fromYaml expand vt) [] e >>= fun d' => CType.verify ty (.dict d')) := by
  have hr : xdict .configValueError (.ref a) h = (.ok d, h) := by simp only [xdict, hg]
  simp only [xDictFromYaml]
  refine Ref_read hr ?_
  refine Ref_bind (xConvertItems_ref (hb := h) (P := P) (P0 := P) (fun x y h _ hx => H x y h P hx) (Nat.le_refl _) hl .nil) ?_
  intro l' ts' h' hl' s
  refine ⟨NoFP, .refl _ _, ?_⟩
  have k := Steps0.kept s
  have ka := Kept.alloc h' (.dict l')
  have ht : TreeAt (h' ++ [.dict l']) (fun a => P a ∨ h.length ≤ a) (.ref h'.length) (.dict ts') :=
    tree_dict (.inr s.len) (get_alloc _ _) (hl'.imp fun a b hab => ⟨hab.1, ka.tree (fun _ h => h) hab.2⟩)
  obtain ⟨r, h'', e1, s1, ag⟩ := xVerify_ref ty ht
  refine ⟨r, h'', ?_, (Steps.alloc _ _ _).trans s1 (.refl _ _), ?_⟩
  · rw [hx_bind, alloc_ref]; exact e1
  · revert ag
    generalize CType.verify ty (.dict ts') = x
    intro ag
    cases ag with
    | ok hq => obtain ⟨rfl, rfl, rfl⟩ := hq; exact .ok ht
    | err e => exact .err e

theorem fromYaml_ref (expand : String → String) : ∀ (ty : CType) (v : HVal) (t : PVal) (h : Heap) (P : Nat → Prop), TreeAt h P v t →
    Yields P h (xFromYaml expand ty v) (ty.fromYaml expand t)
  | .any, v, t, h, P, H => yields_scalar rfl H
  | .string, v, t, h, P, H => yields_verify .string H
  | .boolean, v, t, h, P, H => yields_verify .boolean H
  | .path, v, t, h, P, H => by
    rcases TreeAt_cases H with ⟨rfl, rfl⟩ | ⟨b, rfl, rfl⟩ | ⟨b, rfl, rfl⟩ | ⟨b, rfl, rfl⟩ | ⟨b, rfl, rfl⟩ | ⟨ts, a, l, rfl, rfl, -⟩ | ⟨ts, a, l, rfl, rfl, -⟩
    · exact yields_scalar rfl (by simp [TreeAt])
    · exact Ref_err rfl
    · exact Ref_err rfl
    · exact yields_scalar rfl (by simp [TreeAt])
    · exact Ref_err rfl
    · exact Ref_err rfl
    · exact Ref_err rfl
  | .list e, v, t, h, P, H => by
    rcases TreeAt_cases H with ⟨rfl, rfl⟩ | ⟨b, rfl, rfl⟩ | ⟨b, rfl, rfl⟩ | ⟨b, rfl, rfl⟩ | ⟨b, rfl, rfl⟩ | ⟨ts, a, l, rfl, rfl, -, hg, hl⟩ | ⟨ts, a, l, rfl, rfl, -, hg, hl⟩
    · exact yields_scalar rfl (by simp [TreeAt])
    · exact Ref_fail rfl
    · exact Ref_fail rfl
    · exact Ref_fail rfl
    · exact Ref_fail rfl
    · exact yields_list (fun x y h P hx => fromYaml_ref expand e x y h P hx) hg hl
    · exact Ref_fail (by simp only [xlist, hg])
  | .dict vt kt, v, t, h, P, H => by
    rcases TreeAt_cases H with ⟨rfl, rfl⟩ | ⟨b, rfl, rfl⟩ | ⟨b, rfl, rfl⟩ | ⟨b, rfl, rfl⟩ | ⟨b, rfl, rfl⟩ | ⟨ts, a, l, rfl, rfl, -, hg, hl⟩ | ⟨ts, a, l, rfl, rfl, -, hg, hl⟩
    · exact yields_scalar rfl (by simp [TreeAt])
    · exact Ref_fail rfl
    · exact Ref_fail rfl
    · exact Ref_fail rfl
    · exact Ref_fail rfl
    · exact Ref_fail (by simp only [xdict, hg])
    · exact yields_dict (fun x y h P hx => fromYaml_ref expand vt x y h P hx) hg hl
  | .mergingDict vt kt, v, t, h, P, H => by
    rcases TreeAt_cases H with ⟨rfl, rfl⟩ | ⟨b, rfl, rfl⟩ | ⟨b, rfl, rfl⟩ | ⟨b, rfl, rfl⟩ | ⟨b, rfl, rfl⟩ | ⟨ts, a, l, rfl, rfl, -, hg, hl⟩ | ⟨ts, a, l, rfl, rfl, -, hg, hl⟩
    · exact yields_new
    · exact Ref_fail rfl
    · exact Ref_fail rfl
    · exact Ref_fail rfl
    · exact Ref_fail rfl
    · exact Ref_fail (by simp only [xdict, hg])
    · exact yields_dict (fun x y h P hx => fromYaml_ref expand vt x y h P hx) hg hl

end Verif
