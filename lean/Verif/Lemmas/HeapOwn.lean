import Verif.Lemmas.Heap
import Verif.Lemmas.Dict
import Verif.Model.HeapMerge
/-!
# Dicts owned by a running function

Lemmas for `Props/HeapMerge.lean`: which addresses a function may write to (its footprint), and dicts whose inner
dicts are all separate from one another.
-/
set_option linter.unusedSimpArgs false
namespace Verif
variable {α β γ δ : Type}

/-! ## Running -/

theorem hx_bind (m : HX α) (f : α → HX β) (h : Heap) :
    (m >>= f) h = match m h with
      | (.ok a, h') => f a h'
      | (.error e, h') => (.error e, h') := by
  show (ExceptT.bind m f) h = _
  unfold ExceptT.bind ExceptT.mk
  show (StateT.bind m (ExceptT.bindCont f)) h = _
  unfold StateT.bind
  rcases hm : m h with ⟨r, h'⟩
  simp only [bind, hm]
  cases r <;> rfl

theorem hx_pure (a : α) (h : Heap) : (pure a : HX α) h = (.ok a, h) := rfl

/-- A set of addresses. -/
abbrev FP := Nat → Prop

/-- `h'` may differ from `h` only at the addresses of `F` and in new objects. -/
structure Steps (F : FP) (h h' : Heap) : Prop where
  len : h.length ≤ h'.length
  same : ∀ x, x < h.length → ¬ F x → h'[x]? = h[x]?

theorem Steps.refl (F : FP) (h : Heap) : Steps F h h := ⟨Nat.le_refl _, fun _ _ _ => rfl⟩

/-- The addresses of `F'` are in `F` or new. -/
def Fresh (F : FP) (h : Heap) (F' : FP) : Prop := ∀ x, F' x → F x ∨ h.length ≤ x

theorem Fresh.refl (F : FP) (h : Heap) : Fresh F h F := fun _ => .inl

theorem Steps.mono {F F' : FP} {h h' : Heap} (s : Steps F h h') (hf : ∀ x, F x → F' x) : Steps F' h h' :=
  ⟨s.len, fun x hx hn => s.same x hx (fun h => hn (hf x h))⟩

theorem Steps.trans {F F' : FP} {h h1 h2 : Heap} (s : Steps F h h1) (s' : Steps F' h1 h2) (hf : Fresh F h F') : Steps F h h2 := by
  refine ⟨Nat.le_trans s.len s'.len, fun x hx hn => ?_⟩
  rw [s'.same x (Nat.lt_of_lt_of_le hx s.len), s.same x hx hn]
  intro hF
  rcases hf x hF with h | h
  · exact hn h
  · omega

theorem Fresh.trans {F F' F'' : FP} {h h1 : Heap} (hf : Fresh F h F') (hf' : Fresh F' h1 F'') (hl : h.length ≤ h1.length) : Fresh F h F'' := by
  intro x hx
  rcases hf' x hx with h | h
  · exact hf x h
  · exact .inr (Nat.le_trans hl h)

/-- Both fail alike, or both succeed with related results. -/
inductive Agree (Q : α → β → Prop) : Except Exc α → Except Exc β → Prop
  | ok {a : α} {b : β} : Q a b → Agree Q (.ok a) (.ok b)
  | err (e : Exc) : Agree Q (.error e) (.error e)

/-- Running `m` in memory `h` writes only to `F` and new objects, and its outcome is that of `x`, related by `Q`. -/
def Ref (F : FP) (h : Heap) (m : HX α) (x : Except Exc β) (Q : α → β → Heap → Prop) : Prop :=
  ∃ r h', m h = (r, h') ∧ Steps F h h' ∧ Agree (fun a b => Q a b h') r x

theorem Ref_pure {F : FP} {h : Heap} {a : α} {b : β} {Q : α → β → Heap → Prop} (hq : Q a b h) : Ref F h (pure a) (pure b) Q :=
  ⟨_, _, hx_pure a h, .refl F h, .ok hq⟩

theorem Ref_ok {F : FP} {h h' : Heap} {m : HX α} {a : α} {b : β} {Q : α → β → Heap → Prop} (hm : m h = (.ok a, h')) (hs : Steps F h h')
    (hq : Q a b h') : Ref F h m (.ok b) Q := ⟨_, _, hm, hs, .ok hq⟩

theorem Ref_bind {F : FP} {h : Heap} {m : HX α} {x : Except Exc β} {Q : α → β → Heap → Prop} {f : α → HX γ} {g : β → Except Exc δ}
    {Q' : γ → δ → Heap → Prop} (h1 : Ref F h m x Q)
    (h2 : ∀ a b h', Q a b h' → Steps F h h' → ∃ F', Fresh F h F' ∧ Ref F' h' (f a) (g b) Q') : Ref F h (m >>= f) (x >>= g) Q' := by
  obtain ⟨r, h', e1, s1, ag⟩ := h1
  cases ag with
  | ok hq =>
    obtain ⟨F', hf, r2, h2', e2, s2, ag2⟩ := h2 _ _ _ hq s1
    refine ⟨r2, h2', ?_, s1.trans s2 hf, ag2⟩
    rw [hx_bind, e1]
    exact e2
  | err e =>
    exact ⟨.error e, h', by rw [hx_bind, e1], s1, .err e⟩

theorem Ref_read {F : FP} {h : Heap} {m : HX α} {a : α} {f : α → HX γ} {x : Except Exc δ} {Q : γ → δ → Heap → Prop}
    (hm : m h = (.ok a, h)) (h2 : Ref F h (f a) x Q) : Ref F h (m >>= f) x Q := by
  obtain ⟨r, h', e, s, ag⟩ := h2
  exact ⟨r, h', by rw [hx_bind, hm]; exact e, s, ag⟩

theorem Ref_fail {F : FP} {h : Heap} {m : HX α} {e : Exc} {f : α → HX γ} {Q : γ → δ → Heap → Prop}
    (hm : m h = (.error e, h)) : Ref F h (m >>= f) (.error e) Q :=
  ⟨.error e, h, by rw [hx_bind, hm], .refl F h, .err e⟩

theorem Ref_conseq {F : FP} {h : Heap} {m : HX α} {x : Except Exc β} {Q Q' : α → β → Heap → Prop} (h1 : Ref F h m x Q)
    (hq : ∀ a b h', Steps F h h' → Q a b h' → Q' a b h') : Ref F h m x Q' := by
  obtain ⟨r, h', e1, s1, ag⟩ := h1
  refine ⟨r, h', e1, s1, ?_⟩
  cases ag with
  | ok h => exact .ok (hq _ _ _ s1 h)
  | err e => exact .err e

theorem Ref_mono {F F' : FP} {h : Heap} {m : HX α} {x : Except Exc β} {Q : α → β → Heap → Prop} (h1 : Ref F h m x Q)
    (hf : ∀ x, F x → F' x) : Ref F' h m x Q := by
  obtain ⟨r, h', e1, s1, ag⟩ := h1
  exact ⟨r, h', e1, s1.mono hf, ag⟩

/-- After the bind, the result is postprocessed on the specification side only. -/
theorem Ref_map {F : FP} {h : Heap} {m : HX α} {x : Except Exc β} {Q : α → β → Heap → Prop} {g : β → δ} {Q' : α → δ → Heap → Prop}
    (h1 : Ref F h m x Q) (hq : ∀ a b h', Steps F h h' → Q a b h' → Q' a (g b) h') : Ref F h m (x >>= fun b => pure (g b)) Q' := by
  obtain ⟨r, h', e1, s1, ag⟩ := h1
  refine ⟨r, h', e1, s1, ?_⟩
  cases ag with
  | ok h => exact .ok (hq _ _ _ s1 h)
  | err e => exact .err e

/-! ## The memory the function started with -/

/-- All objects of `h0` are still there, unchanged. -/
structure Kept (h0 h : Heap) : Prop where
  len : h0.length ≤ h.length
  same : ∀ x, x < h0.length → h[x]? = h0[x]?

theorem Kept.refl (h : Heap) : Kept h h := ⟨Nat.le_refl _, fun _ _ => rfl⟩

theorem Kept.steps {h0 h h' : Heap} {F : FP} (k : Kept h0 h) (s : Steps F h h') (hF : ∀ x, F x → h0.length ≤ x) : Kept h0 h' := by
  refine ⟨Nat.le_trans k.len s.len, fun x hx => ?_⟩
  rw [s.same x (Nat.lt_of_lt_of_le hx k.len) (fun hf => by have := hF x hf; omega), k.same x hx]

theorem Kept.steps0 {h0 h h' : Heap} (k : Kept h0 h) (s : Steps (fun _ => False) h h') : Kept h0 h' := k.steps s (fun _ h => h.elim)

theorem Kept.get {h0 h : Heap} (k : Kept h0 h) {a : Nat} {o : HObj} (ha : h0[a]? = some o) : h[a]? = some o := by
  have : a < h0.length := by
    by_contra hc
    rw [List.getElem?_eq_none (by omega)] at ha
    simp at ha
  rw [k.same a this, ha]

theorem Kept.prefix {h0 h : Heap} (k : Kept h0 h) : h0 <+: h := by
  rw [List.prefix_iff_eq_take]
  apply List.ext_getElem?
  intro i
  by_cases hi : i < h0.length
  · rw [List.getElem?_take, if_pos hi, k.same i hi]
  · rw [List.getElem?_eq_none (by omega), List.getElem?_eq_none (by simp; omega)]

theorem Kept.trans {h0 h1 h2 : Heap} (a : Kept h0 h1) (b : Kept h1 h2) : Kept h0 h2 :=
  ⟨Nat.le_trans a.len b.len, fun x hx => by rw [b.same x (Nat.lt_of_lt_of_le hx a.len), a.same x hx]⟩

theorem Kept.writesOut {h0 h : Heap} (k : Kept h0 h) {v : HVal} {t : PVal} (hv : WritesOut h0 v t) : WritesOut h v t :=
  TreeAt_mono (fun _ _ _ ho => ⟨trivial, k.get ho⟩) v t hv

theorem Steps0.kept {h h' : Heap} (s : Steps (fun _ => False) h h') : Kept h h' := ⟨s.len, fun x hx => s.same x hx id⟩

/-! ## Owned dicts -/

/-- The dict at `a` with contents `d` stands for `t`; its inner values, related by `C`, have separate footprints `G k` within `F`. -/
structure OwnAt (h0 : Heap) (C : Heap → HVal → β → FP → Prop) (h : Heap) (a : Nat) (d : Dict PKey HVal) (G : String → FP)
    (t : Dict String β) (F : FP) : Prop where
  kept : Kept h0 h
  get : h[a]? = some (.dict d)
  keys : dkeys d = (dkeys t).map .str
  wf : DWF t
  root : F a
  bound : ∀ x, F x → h0.length ≤ x ∧ x < h.length
  child : ∀ k b, dget t k = some b → ∃ w, dget d (.str k) = some w ∧ C h w b (G k)
  inside : ∀ k x, G k x → F x ∧ x ≠ a
  apart : ∀ k k' x, G k x → G k' x → k = k'

/-- `v` is a dict of the running function standing for `t`. -/
def OwnDict (h0 : Heap) (C : Heap → HVal → β → FP → Prop) (h : Heap) (v : HVal) (t : Dict String β) (F : FP) : Prop :=
  ∃ a d G, v = .ref a ∧ OwnAt h0 C h a d G t F

/-- What is needed of the relation for inner values. -/
structure Child (h0 : Heap) (C : Heap → HVal → β → FP → Prop) : Prop where
  loc : ∀ h h' w b G, C h w b G → Kept h0 h' → (∀ x, G x → h'[x]? = h[x]?) → h.length ≤ h'.length → C h' w b G
  bound : ∀ h w b G, C h w b G → ∀ x, G x → h0.length ≤ x ∧ x < h.length

theorem str_injective : Function.Injective PKey.str := fun _ _ h => by injection h

theorem keys_dget {d : Dict PKey α} {t : Dict String β} (hk : dkeys d = (dkeys t).map .str) (k : String) :
    (dget d (.str k)).isSome = (dget t k).isSome := by
  rw [Bool.eq_iff_iff, ← mem_dkeys_iff, ← mem_dkeys_iff, hk, List.mem_map]
  constructor
  · rintro ⟨k', h1, h2⟩; injection h2 with h2; exact h2 ▸ h1
  · exact fun h => ⟨k, h, rfl⟩

theorem keys_dhas {d : Dict PKey α} {t : Dict String β} (hk : dkeys d = (dkeys t).map .str) (k : String) : dhas d (.str k) = dhas t k :=
  keys_dget hk k

theorem keys_none {d : Dict PKey α} {t : Dict String β} (hk : dkeys d = (dkeys t).map .str) {k : String} (h : dget t k = none) :
    dget d (.str k) = none := by
  have := keys_dget hk k
  rw [h] at this
  cases hd : dget d (.str k) with
  | none => rfl
  | some w => rw [hd] at this; simp at this

theorem dkeys_set_map {d : Dict PKey α} {t : Dict String β} (hk : dkeys d = (dkeys t).map .str) (k : String) (w : α) (b : β) :
    dkeys (dset d (.str k) w) = (dkeys (dset t k b)).map .str := by
  induction t generalizing d with
  | nil =>
    cases d with
    | nil => rfl
    | cons x d => simp [dkeys] at hk
  | cons y t ih =>
    cases d with
    | nil => simp [dkeys] at hk
    | cons x d =>
      obtain ⟨xk, xv⟩ := x
      obtain ⟨yk, yv⟩ := y
      simp only [dkeys, List.map_cons, List.cons.injEq] at hk
      obtain ⟨rfl, hk⟩ := hk
      simp only [dset]
      by_cases he : yk = k
      · subst he; simp [dkeys, hk]
      · rw [if_neg (fun h => he (by injection h)), if_neg he]
        have := ih (d := d) hk
        simp only [dkeys, List.map_cons, List.cons.injEq, true_and] at this ⊢
        exact this

theorem dkeys_del_map {d : Dict PKey α} {t : Dict String β} (hk : dkeys d = (dkeys t).map .str) (k : String) :
    dkeys (ddel d (.str k)) = (dkeys (ddel t k)).map .str := by
  induction t generalizing d with
  | nil =>
    cases d with
    | nil => rfl
    | cons x d => simp [dkeys] at hk
  | cons y t ih =>
    cases d with
    | nil => simp [dkeys] at hk
    | cons x d =>
      obtain ⟨xk, xv⟩ := x
      obtain ⟨yk, yv⟩ := y
      simp only [dkeys, List.map_cons, List.cons.injEq] at hk
      obtain ⟨rfl, hk⟩ := hk
      simp only [ddel]
      by_cases he : yk = k
      · subst he; rw [if_pos rfl, if_pos rfl]; exact ih (d := d) hk
      · rw [if_neg (fun h => he (by injection h)), if_neg he]
        have := ih (d := d) hk
        simp only [dkeys, List.map_cons, List.cons.injEq, true_and] at this ⊢
        exact this

theorem getElem?_set_ne' {h : Heap} {a x : Nat} {o : HObj} (hx : x ≠ a) : (h.set a o)[x]? = h[x]? := by
  rw [List.getElem?_set_ne (fun h => hx h.symm)]

theorem lt_of_getElem? {h : Heap} {a : Nat} {o : HObj} (ha : h[a]? = some o) : a < h.length := by
  by_contra hc
  rw [List.getElem?_eq_none (by omega)] at ha
  simp at ha

variable {h0 : Heap} {C : Heap → HVal → β → FP → Prop}

theorem OwnAt.elsewhere (hc : Child h0 C) {h h' : Heap} {a : Nat} {d : Dict PKey HVal} {G : String → FP} {t : Dict String β} {F : FP}
    (o : OwnAt h0 C h a d G t F) (hk : Kept h0 h') (hs : ∀ x, F x → h'[x]? = h[x]?) (hl : h.length ≤ h'.length) : OwnAt h0 C h' a d G t F where
  kept := hk
  get := by rw [hs a o.root, o.get]
  keys := o.keys
  wf := o.wf
  root := o.root
  bound x hx := ⟨(o.bound x hx).1, Nat.lt_of_lt_of_le (o.bound x hx).2 hl⟩
  child k b hb := by
    obtain ⟨w, h1, h2⟩ := o.child k b hb
    exact ⟨w, h1, hc.loc _ _ _ _ _ h2 hk (fun x hx => hs x (o.inside k x hx).1) hl⟩
  inside := o.inside
  apart := o.apart

theorem OwnDict.child (hc : Child h0 C) : Child h0 (OwnDict h0 C) where
  loc := by
    rintro h h' w b G ⟨a, d, G', rfl, o⟩ hk hs hl
    exact ⟨a, d, G', rfl, o.elsewhere hc hk hs hl⟩
  bound := by
    rintro h w b G ⟨a, d, G', rfl, o⟩
    exact o.bound

/-- Footprints with that of `k` replaced. -/
def setFP (G : String → FP) (k : String) (F : FP) : String → FP := fun k' => if k' = k then F else G k'

/-- Assigning an item. -/
theorem OwnAt.put (hc : Child h0 C) {h : Heap} {a : Nat} {d : Dict PKey HVal} {G : String → FP} {t : Dict String β} {F : FP}
    (o : OwnAt h0 C h a d G t F) {k : String} {w : HVal} {b : β} {G' : FP} (hw : C h w b G') (hd : ∀ x, G' x → ¬ F x) :
    OwnAt h0 C (h.set a (.dict (dset d (.str k) w))) a (dset d (.str k) w) (setFP G k G') (dset t k b) (fun x => F x ∨ G' x) := by
  have hk : Kept h0 (h.set a (.dict (dset d (.str k) w))) := by
    refine ⟨by simpa using o.kept.len, fun x hx => ?_⟩
    have : x ≠ a := by rintro rfl; have := (o.bound _ o.root).1; omega
    rw [getElem?_set_ne' this, o.kept.same x hx]
  refine ⟨hk, ?_, dkeys_set_map o.keys k w b, DWF_set o.wf k b, .inl o.root, ?_, ?_, ?_, ?_⟩
  · rw [List.getElem?_set_self (lt_of_getElem? o.get)]
  · rintro x (hx | hx)
    · simpa using o.bound x hx
    · simpa using hc.bound _ _ _ _ hw x hx
  · intro k' b' hb'
    rw [dget_set] at hb'
    rw [dget_set]
    unfold setFP
    by_cases he : k = k'
    · subst he
      rw [if_pos rfl] at hb'; injection hb' with hb'; subst hb'
      refine ⟨w, by simp, ?_⟩
      rw [if_pos rfl]
      exact hc.loc _ _ _ _ _ hw hk (fun x hx => getElem?_set_ne' (by rintro rfl; exact hd _ hx o.root)) (by simp)
    · rw [if_neg he] at hb'
      obtain ⟨w', h1, h2⟩ := o.child k' b' hb'
      rw [if_neg (fun h => he (by injection h)), if_neg (fun h => he h.symm)]
      exact ⟨w', h1, hc.loc _ _ _ _ _ h2 hk (fun x hx => getElem?_set_ne' (o.inside k' x hx).2) (by simp)⟩
  · intro k' x hx
    unfold setFP at hx
    split at hx
    · exact ⟨.inr hx, by rintro rfl; exact hd _ hx o.root⟩
    · exact ⟨.inl (o.inside k' x hx).1, (o.inside k' x hx).2⟩
  · intro k1 k2 x h1 h2
    unfold setFP at h1 h2
    split at h1 <;> split at h2
    · rename_i e1 e2; rw [e1, e2]
    · exact absurd (o.inside _ x h2).1 (hd x h1)
    · exact absurd (o.inside _ x h1).1 (hd x h2)
    · exact o.apart _ _ x h1 h2

/-- Deleting an item. -/
theorem OwnAt.del (hc : Child h0 C) {h : Heap} {a : Nat} {d : Dict PKey HVal} {G : String → FP} {t : Dict String β} {F : FP}
    (o : OwnAt h0 C h a d G t F) (k : String) :
    OwnAt h0 C (h.set a (.dict (ddel d (.str k)))) a (ddel d (.str k)) G (ddel t k) F := by
  have hk : Kept h0 (h.set a (.dict (ddel d (.str k)))) := by
    refine ⟨by simpa using o.kept.len, fun x hx => ?_⟩
    have : x ≠ a := by rintro rfl; have := (o.bound _ o.root).1; omega
    rw [getElem?_set_ne' this, o.kept.same x hx]
  refine ⟨hk, ?_, dkeys_del_map o.keys k, DWF_del o.wf k, o.root, ?_, ?_, o.inside, o.apart⟩
  · rw [List.getElem?_set_self (lt_of_getElem? o.get)]
  · intro x hx; simpa using o.bound x hx
  · intro k' b' hb'
    rw [dget_del] at hb'
    rw [dget_del]
    by_cases he : k = k'
    · rw [if_pos he] at hb'; simp at hb'
    · rw [if_neg he] at hb'
      obtain ⟨w', h1, h2⟩ := o.child k' b' hb'
      rw [if_neg (fun h => he (by injection h))]
      exact ⟨w', h1, hc.loc _ _ _ _ _ h2 hk (fun x hx => getElem?_set_ne' (o.inside k' x hx).2) (by simp)⟩

/-- Changing an inner value in place. -/
theorem OwnAt.inner (hc : Child h0 C) {h h' : Heap} {a : Nat} {d : Dict PKey HVal} {G : String → FP} {t : Dict String β} {F : FP}
    (o : OwnAt h0 C h a d G t F) {k : String} {w : HVal} {b b' : β} (hb : dget t k = some b) (hw : dget d (.str k) = some w) {G' : FP}
    (hs : Steps (G k) h h') (hf : Fresh (G k) h G') (hw' : C h' w b' G') :
    OwnAt h0 C h' a d (setFP G k G') (dset t k b') (fun x => F x ∨ G' x) := by
  have hk : Kept h0 h' := o.kept.steps hs (fun x hx => (o.bound x (o.inside k x hx).1).1)
  have hlen := hs.len
  refine ⟨hk, ?_, ?_, DWF_set o.wf k b', .inl o.root, ?_, ?_, ?_, ?_⟩
  · rw [hs.same a (o.bound a o.root).2 (fun h => (o.inside k a h).2 rfl), o.get]
  · rw [← dkeys_set_map o.keys k w b', dset_self_of_dget hw]
  · rintro x (hx | hx)
    · exact ⟨(o.bound x hx).1, Nat.lt_of_lt_of_le (o.bound x hx).2 hlen⟩
    · exact hc.bound _ _ _ _ hw' x hx
  · intro k' b1 hb1
    rw [dget_set] at hb1
    unfold setFP
    by_cases he : k = k'
    · subst he
      rw [if_pos rfl] at hb1; injection hb1 with hb1; subst hb1
      exact ⟨w, hw, by rw [if_pos rfl]; exact hw'⟩
    · rw [if_neg he] at hb1
      obtain ⟨w', h1, h2⟩ := o.child k' b1 hb1
      rw [if_neg (fun h => he h.symm)]
      refine ⟨w', h1, hc.loc _ _ _ _ _ h2 hk (fun x hx => hs.same x (o.bound x (o.inside k' x hx).1).2 (fun hg => he ?_)) hlen⟩
      exact o.apart _ _ x hg hx
  · intro k' x hx
    unfold setFP at hx
    split at hx
    · refine ⟨.inr hx, ?_⟩
      rintro rfl
      rcases hf _ hx with h | h
      · exact (o.inside k _ h).2 rfl
      · have := (o.bound _ o.root).2; omega
    · exact ⟨.inl (o.inside k' x hx).1, (o.inside k' x hx).2⟩
  · have out : ∀ k' x, k' ≠ k → G' x → ¬ G k' x := by
      intro k' x hne hx hg
      rcases hf x hx with h | h
      · exact hne (o.apart _ _ x hg h)
      · have := (o.bound x (o.inside k' x hg).1).2; omega
    intro k1 k2 x h1 h2
    unfold setFP at h1 h2
    split at h1 <;> split at h2
    · rename_i e1 e2; rw [e1, e2]
    · rename_i _ e; exact absurd h2 (out _ x e h1)
    · rename_i e _; exact absurd h1 (out _ x e h2)
    · exact o.apart _ _ x h1 h2

/-! ## Operations on owned dicts -/

/-- The result `t'` is owned, within `F` and new objects. -/
def Owned (I : Heap → γ → FP → Prop) (F : FP) (h : Heap) (t' : γ) (h' : Heap) : Prop := ∃ F', Fresh F h F' ∧ I h' t' F'

theorem OwnAt.dict {h : Heap} {a : Nat} {d : Dict PKey HVal} {G : String → FP} {t : Dict String β} {F : FP} (o : OwnAt h0 C h a d G t F) (e : Exc) :
    xdict e (.ref a) h = (.ok d, h) := by
  simp only [xdict, o.get]

theorem set_steps {F : FP} {h : Heap} {a : Nat} (ha : F a) (o : HObj) : Steps F h (h.set a o) :=
  ⟨by simp, fun x _ hn => getElem?_set_ne' (by rintro rfl; exact hn ha)⟩

theorem own_set (hc : Child h0 C) {h : Heap} {v : HVal} {t : Dict String β} {F : FP} (o : OwnDict h0 C h v t F) {k : String} {w : HVal} {b : β}
    {G' : FP} (hw : C h w b G') (hd : ∀ x, G' x → ¬ F x) :
    ∃ h', xset v (.str k) w h = (.ok (), h') ∧ Steps F h h' ∧ OwnDict h0 C h' v (dset t k b) (fun x => F x ∨ G' x) := by
  obtain ⟨a, d, G, rfl, o⟩ := o
  refine ⟨h.set a (.dict (dset d (.str k) w)), ?_, set_steps o.root _, a, _, _, rfl, o.put hc hw hd⟩
  simp only [xset]
  rw [hx_bind, o.dict]
  rfl

theorem own_del (hc : Child h0 C) {h : Heap} {v : HVal} {t : Dict String β} {F : FP} (o : OwnDict h0 C h v t F) {k : String} (hk : dhas t k = true) :
    ∃ h', xdel v (.str k) h = (.ok (), h') ∧ Steps F h h' ∧ OwnDict h0 C h' v (ddel t k) F := by
  obtain ⟨a, d, G, rfl, o⟩ := o
  refine ⟨h.set a (.dict (ddel d (.str k))), ?_, set_steps o.root _, a, _, _, rfl, o.del hc k⟩
  simp only [xdel]
  rw [hx_bind, o.dict]
  simp only [keys_dhas o.keys, hk, if_true]
  rfl

theorem own_has {h : Heap} {v : HVal} {t : Dict String β} {F : FP} (o : OwnDict h0 C h v t F) (k : String) :
    xhas v (.str k) h = (.ok (dhas t k), h) := by
  obtain ⟨a, d, G, rfl, o⟩ := o
  simp only [xhas]
  rw [hx_bind, o.dict]
  simp only [keys_dhas o.keys]
  rfl

theorem keys_isEmpty {d : Dict PKey α} {t : Dict String β} (hk : dkeys d = (dkeys t).map .str) : d.isEmpty = t.isEmpty := by
  cases d <;> cases t <;> simp [dkeys] at hk ⊢

theorem own_empty {h : Heap} {v : HVal} {t : Dict String β} {F : FP} (o : OwnDict h0 C h v t F) : xempty v h = (.ok t.isEmpty, h) := by
  obtain ⟨a, d, G, rfl, o⟩ := o
  simp only [xempty]
  rw [hx_bind, o.dict]
  simp only [keys_isEmpty o.keys]
  rfl

/-- Looking at an inner value and changing it in place. -/
theorem own_modify (hc : Child h0 C) {h : Heap} {v : HVal} {t : Dict String β} {F : FP} (o : OwnDict h0 C h v t F) {k : String} {b : β}
    (hb : dget t k = some b) {m : HVal → HX Unit} {x : Except Exc β}
    (hm : ∀ w G, C h w b G → Ref G h (m w) x (fun _ b' h' => Owned (fun h b F => C h w b F) G h b' h')) :
    Ref F h (xindex v (.str k) >>= m) (x >>= fun b' => pure (dset t k b')) (fun _ t' h' => Owned (fun h t F => OwnDict h0 C h v t F) F h t' h') := by
  obtain ⟨a, d, G, rfl, o⟩ := o
  obtain ⟨w, hw, hC⟩ := o.child k b hb
  refine Ref_read (a := w) ?_ ?_
  · simp only [xindex]
    rw [hx_bind, o.dict]
    simp only [hw]
    rfl
  · refine Ref_map (Q' := fun _ t' h' => Owned (fun h t F => OwnDict h0 C h (.ref a) t F) F h t' h') (Q := fun _ b' h' => Steps (G k) h h' ∧ Owned (fun h b F => C h w b F) (G k) h b' h') ?_ ?_
    · obtain ⟨r, h', e, s, ag⟩ := hm w (G k) hC
      refine ⟨r, h', e, s.mono (fun x hx => (o.inside k x hx).1), ?_⟩
      cases ag with
      | ok hq => exact .ok ⟨s, hq⟩
      | err e' => exact .err e'
    · rintro _ b' h' _ ⟨s, G', hf, hC'⟩
      refine ⟨fun x => F x ∨ G' x, ?_, a, d, _, rfl, o.inner hc hb hw s hf hC'⟩
      rintro x (hx | hx)
      · exact .inl hx
      · exact (hf x hx).imp (fun h => (o.inside k x h).1) id

/-- Creating a value and assigning it. -/
theorem own_create (hc : Child h0 C) {h : Heap} {v : HVal} {t : Dict String β} {F : FP} (o : OwnDict h0 C h v t F) (k : String) {m : HX HVal}
    {x : Except Exc β} (hm : Ref (fun _ => False) h m x (fun w b h' => Owned (fun h b F => C h w b F) (fun _ => False) h b h')) :
    Ref F h (m >>= fun w => xset v (.str k) w) (x >>= fun b => pure (dset t k b))
      (fun _ t' h' => Owned (fun h t F => OwnDict h0 C h v t F) F h t' h') := by
  refine Ref_bind (Ref_mono (Q := fun w b h' => Steps (fun _ => False) h h' ∧ Owned (fun h b F => C h w b F) (fun _ => False) h b h')
    (Ref_conseq hm (fun _ _ _ s q => ⟨s, q⟩)) (fun _ h => h.elim)) ?_
  rintro w b h1 ⟨s0, G', hf, hw⟩ s
  refine ⟨F, .refl F h, ?_⟩
  have hb : ∀ x, F x → x < h.length := by
    obtain ⟨a, d, G, rfl, o⟩ := o
    exact fun x hx => (o.bound x hx).2
  have o1 : OwnDict h0 C h1 v t F := by
    have hk : Kept h0 h1 := by
      obtain ⟨a, d, G, rfl, o⟩ := o
      exact o.kept.steps0 s0
    exact (OwnDict.child hc).loc _ _ _ _ _ o hk (fun x hx => s0.same x (hb x hx) id) s0.len
  have hd : ∀ x, G' x → ¬ F x := by
    intro x hx hF
    rcases hf x hx with h | h
    · exact h
    · have := hb x hF; omega
  obtain ⟨h2, e, s2, o2⟩ := own_set hc o1 (k := k) hw hd
  refine Ref_ok e s2 ⟨_, ?_, o2⟩
  rintro x (hx | hx)
  · exact .inl hx
  · rcases hf x hx with h | h
    · exact h.elim
    · exact .inr h

/-- A new empty dict. -/
theorem own_new {h : Heap} (hk : Kept h0 h) :
    Ref (fun _ => False) h xnew (pure []) (fun v t h' => Owned (fun h t F => OwnDict h0 C h v t F) (fun _ => False) h t h') := by
  refine Ref_ok (h' := h ++ [.dict []]) (a := .ref h.length) rfl ?_ ?_
  · refine ⟨by simp, fun x hx _ => ?_⟩
    rw [List.getElem?_append_left hx]
  · refine ⟨fun x => x = h.length, fun x hx => .inr (by simp [hx]), h.length, [], fun _ _ => False, rfl, ?_⟩
    refine ⟨⟨by simp; have := hk.len; omega, fun x hx => ?_⟩, by simp, rfl, by simp, rfl, ?_, ?_, fun _ _ h => h.elim, fun _ _ _ h => h.elim⟩
    · rw [List.getElem?_append_left (Nat.lt_of_lt_of_le hx hk.len), hk.same x hx]
    · rintro x rfl; simp; exact hk.len
    · intro k b hb; simp [dget] at hb

/-- Loops. -/
theorem forEach_ref {ι κ : Type} {I : Heap → γ → FP → Prop} {rel : ι → κ → Prop} {step : ι → HX Unit} {f : γ → κ → Except Exc γ}
    (hstep : ∀ x y acc F h, rel x y → I h acc F → Ref F h (step x) (f acc y) (fun _ t' h' => Owned I F h t' h')) {l : List ι} {t : List κ}
    (hr : List.Forall₂ rel l t) {acc : γ} {F : FP} {h : Heap} (hi : I h acc F) :
    Ref F h (xForEach step l) (t.foldlM f acc) (fun _ t' h' => Owned I F h t' h') := by
  induction hr generalizing acc F h with
  | nil => exact Ref_pure ⟨F, .refl F h, hi⟩
  | cons hxy _ ih =>
    simp only [xForEach, List.foldlM_cons]
    refine Ref_bind (hstep _ _ _ _ _ hxy hi) ?_
    rintro _ acc' h' ⟨F', hf, hi'⟩ s
    refine ⟨F', hf, Ref_conseq (ih hi') ?_⟩
    rintro _ b h2 s2 ⟨F2, hf2, hi2⟩
    exact ⟨F2, hf.trans hf2 s.len, hi2⟩

/-- `r = {}; ...; return r`. -/
theorem own_build {I : Heap → HVal → γ → FP → Prop} {m0 : HX HVal} {x0 : Except Exc γ} {f : HVal → HX Unit} {g : γ → Except Exc γ} {h : Heap}
    (h0 : Ref (fun _ => False) h m0 x0 (fun v t h' => Owned (fun h t F => I h v t F) (fun _ => False) h t h'))
    (hf : ∀ v t h' F, Steps (fun _ => False) h h' → I h' v t F → Ref F h' (f v) (g t) (fun _ t' h2 => Owned (fun h t F => I h v t F) F h' t' h2)) :
    Ref (fun _ => False) h (m0 >>= fun v => f v >>= fun _ => pure v) (x0 >>= g)
      (fun v t h' => Owned (fun h t F => I h v t F) (fun _ => False) h t h') := by
  refine Ref_bind h0 ?_
  rintro v t h1 ⟨F, hF, hi⟩ s
  refine ⟨F, hF, ?_⟩
  obtain ⟨r, h2, e, s2, ag⟩ := hf v t h1 F s hi
  generalize g t = y at ag ⊢
  cases ag with
  | ok hq =>
    rename_i u t'
    refine ⟨.ok v, h2, by rw [hx_bind, e]; rfl, s2, ?_⟩
    revert hq
    rintro ⟨F2, hF2, hi2⟩
    exact .ok ⟨F2, hF.trans hF2 s.len, hi2⟩
  | err e' => exact ⟨.error e', h2, by rw [hx_bind, e], s2, .err e'⟩

end Verif
