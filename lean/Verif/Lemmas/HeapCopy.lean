import Verif.Lemmas.HeapConfig6
/-!
# Deep copies
-/
set_option linter.unusedSimpArgs false
namespace Verif
variable {α : Type} {h0 : Heap}

/-- The number of objects not copied yet. -/
def Memo.free (h0 : Heap) (m : Memo) : Nat := (List.range h0.length).countP fun a => (m.find a).isNone

/-- The copies of the objects whose tree is smaller than `k` are complete and consist of objects in `D`. -/
def Memo.Good (h0 : Heap) (m : Memo) (h : Heap) (D : Nat → Prop) (k : Nat) : Prop :=
  ∀ x y, m.find x = some y → ∀ t, WritesOut h0 (.ref x) t → sizeOf t < k → TreeAt h D (.ref y) t

/-- What was added to the memo is complete. -/
def Memo.Ext (h0 : Heap) (m m' : Memo) (h' : Heap) (D' : Nat → Prop) : Prop :=
  (∀ x y, m'.find x = some y → m.find x = some y ∨ ∀ t, WritesOut h0 (.ref x) t → TreeAt h' D' (.ref y) t) ∧ ∀ x, (m.find x).isSome → (m'.find x).isSome

theorem Memo.free_mono {m m' : Memo} (h : ∀ x, (m.find x).isSome → (m'.find x).isSome) : m'.free h0 ≤ m.free h0 := by
  unfold Memo.free
  refine List.countP_mono_left fun x _ hx => ?_
  have := h x
  cases h1 : m.find x with
  | none => rfl
  | some y =>
    rw [h1] at this
    have := this rfl
    rw [Option.isNone_iff_eq_none] at hx
    rw [hx] at this
    cases this

theorem countP_lt {p q : Nat → Bool} {l : List Nat} (hpq : ∀ x ∈ l, p x = true → q x = true) {a : Nat} (ha : a ∈ l) (h1 : q a = true) (h2 : p a = false) :
    l.countP p < l.countP q := by
  induction l with
  | nil => cases ha
  | cons x l ih =>
    rw [List.countP_cons, List.countP_cons]
    rcases List.mem_cons.1 ha with rfl | ha
    · rw [h1, h2]
      have : l.countP p ≤ l.countP q := List.countP_mono_left fun x hx => hpq x (by simp [hx])
      simp only [Bool.false_eq_true, if_false, if_true]
      omega
    · have := ih (fun x hx => hpq x (by simp [hx])) ha
      have h3 := hpq x (by simp)
      cases hp : p x with
      | false =>
        simp only [Bool.false_eq_true, if_false]
        split <;> omega
      | true => rw [h3 hp]; simp; exact this

theorem Memo.free_cons {m : Memo} {a b : Nat} (ha : a < h0.length) (hm : m.find a = none) : Memo.free h0 ((a, b) :: m) < m.free h0 := by
  unfold Memo.free
  refine countP_lt (a := a) ?_ (List.mem_range.2 ha) (by simp [hm]) (by simp [Memo.find])
  intro x _ hx
  simp only [Memo.find] at hx
  split at hx
  · cases hx
  · exact hx

theorem Memo.Good.mono {m : Memo} {h h' : Heap} {D D' : Nat → Prop} {k k' : Nat} (hg : m.Good h0 h D k) (hk : k' ≤ k)
    (hD : ∀ a o, D a → h[a]? = some o → D' a ∧ h'[a]? = some o) : m.Good h0 h' D' k' :=
  fun x y hf t ht hs => TreeAt_mono hD _ _ (hg x y hf t ht (by omega))

theorem Memo.Good.ext {m m' : Memo} {h h' : Heap} {D D' : Nat → Prop} {k : Nat} (hg : m.Good h0 h D k) (hD : ∀ a o, D a → h[a]? = some o → D' a ∧ h'[a]? = some o)
    (he : m.Ext h0 m' h' D') : m'.Good h0 h' D' k := by
  intro x y hf t ht hs
  rcases he.1 x y hf with h1 | h1
  · exact TreeAt_mono hD _ _ (hg x y h1 t ht hs)
  · exact h1 t ht

/-- What copying one value does. -/
def CopiesVal (h0 : Heap) (m : Memo) (h : Heap) (D : Nat → Prop) (t : PVal) (run : Except Exc (HVal × Memo) × Heap) : Prop :=
  ∃ w m' h', run = (.ok (w, m'), h') ∧ Kept h h' ∧ TreeAt h' (fun a => D a ∨ h.length ≤ a) w t ∧ m.Ext h0 m' h' (fun a => D a ∨ h.length ≤ a)

theorem deepItems_spec {copy : Memo → HVal → HX (HVal × Memo)} {n : Nat}
    (hcopy : ∀ m v t h (D : Nat → Prop), Kept h0 h → WritesOut h0 v t → m.Good h0 h D (sizeOf t + 1) → (∀ a, D a → a < h.length) → m.free h0 < n →
      CopiesVal h0 m h D t (copy m v h)) {val : α → HVal} {put : α → HVal → HX Unit} {b : Nat} {add : HObj → α → HVal → HObj} {Ok : HObj → Prop}
    (hput : ∀ x w h o, h[b]? = some o → Ok o → put x w h = (.ok (), h.set b (add o x w)) ∧ Ok (add o x w)) {k : Nat} (hb : h0.length ≤ b) :
    ∀ (l : List α) (ts : List PVal) (m : Memo) (h : Heap) (D : Nat → Prop) (o : HObj), Kept h0 h → h[b]? = some o → Ok o →
      List.Forall₂ (fun x t => WritesOut h0 (val x) t ∧ sizeOf t < k) l ts → m.Good h0 h D k → (∀ a, D a → a < h.length ∧ a ≠ b) → m.free h0 < n →
      ∃ ws m' h', xDeepItems copy val put m l h = (.ok m', h') ∧ h.length ≤ h'.length ∧ (∀ x, x < h.length → x ≠ b → h'[x]? = h[x]?) ∧
        h'[b]? = some ((l.zip ws).foldl (fun o p => add o p.1 p.2) o) ∧ List.Forall₂ (TreeAt h' (fun a => D a ∨ (h.length ≤ a ∧ a ≠ b))) ws ts ∧
        m.Ext h0 m' h' (fun a => D a ∨ (h.length ≤ a ∧ a ≠ b)) := by
  intro l
  induction l with
  | nil =>
    intro ts m h D o hk ho _ hl _ _ _
    cases hl
    exact ⟨[], m, h, rfl, Nat.le_refl _, fun _ _ _ => rfl, ho, .nil, fun x y hf => .inl hf, fun x hx => hx⟩
  | cons x l ih =>
    intro ts m h D o hk ho hok hl hg hD hn
    cases hl with
    | @cons _ t _ ts hx hl =>
    have hbl := lt_of_getElem? ho
    obtain ⟨w, m1, h1, e1, k1, t1, x1⟩ := hcopy m (val x) t h D hk hx.1 (hg.mono (by have := hx.2; omega) fun a o ha hoa => ⟨ha, hoa⟩) (fun a ha => (hD a ha).1) hn
    have ho1 : h1[b]? = some o := k1.get ho
    obtain ⟨e2, hok2⟩ := hput x w h1 o ho1 hok
    have hbl1 := lt_of_getElem? ho1
    -- after storing the copy
    have same : ∀ y, y ≠ b → (h1.set b (add o x w))[y]? = h1[y]? := fun y hy => getElem?_set_ne' hy
    have move : ∀ a ob, (D a ∨ h.length ≤ a) → h1[a]? = some ob → (D a ∨ (h.length ≤ a ∧ a ≠ b)) ∧ (h1.set b (add o x w))[a]? = some ob := by
      intro a ob ha hoa
      have hab : a ≠ b := by
        rcases ha with ha | ha
        · exact (hD a ha).2
        · omega
      exact ⟨ha.imp id fun h => ⟨h, hab⟩, by rw [same a hab]; exact hoa⟩
    have hk2 : Kept h0 (h1.set b (add o x w)) := ⟨by simpa using Nat.le_trans hk.len k1.len, fun y hy => by
      rw [same y (by omega), k1.same y (Nat.lt_of_lt_of_le hy hk.len), hk.same y hy]⟩
    have x1' : m.Ext h0 m1 (h1.set b (add o x w)) (fun a => D a ∨ (h.length ≤ a ∧ a ≠ b)) :=
      ⟨fun y z hf => (x1.1 y z hf).imp id fun hh t ht => TreeAt_mono move _ _ (hh t ht), x1.2⟩
    have g2 : m1.Good h0 (h1.set b (add o x w)) (fun a => (D a ∨ (h.length ≤ a ∧ a ≠ b)) ∧ a < h1.length) k := by
      have : m1.Good h0 (h1.set b (add o x w)) (fun a => D a ∨ (h.length ≤ a ∧ a ≠ b)) k :=
        hg.ext (fun a ob ha hoa => move a ob (.inl ha) (k1.get hoa)) x1'
      refine this.mono (Nat.le_refl _) fun a ob ha hoa => ⟨⟨ha, ?_⟩, hoa⟩
      have := lt_of_getElem? hoa
      simpa using this
    obtain ⟨ws, m3, h3, e3, l3, s3, b3, t3, x3⟩ := ih ts m1 (h1.set b (add o x w)) (fun a => (D a ∨ (h.length ≤ a ∧ a ≠ b)) ∧ a < h1.length) (add o x w) hk2
      (List.getElem?_set_self hbl1) hok2 hl g2 (fun a ha => ⟨by simpa using ha.2, ha.1.elim (fun h => (hD a h).2) (fun h => h.2)⟩)
      (Nat.lt_of_le_of_lt (Memo.free_mono x1.2) hn)
    have hl1 : h.length ≤ (h1.set b (add o x w)).length := by simpa using k1.len
    have incl : ∀ a, (((D a ∨ (h.length ≤ a ∧ a ≠ b)) ∧ a < h1.length) ∨ ((h1.set b (add o x w)).length ≤ a ∧ a ≠ b)) → (D a ∨ (h.length ≤ a ∧ a ≠ b)) := by
      rintro a (ha | ha)
      · exact ha.1
      · exact .inr ⟨Nat.le_trans hl1 ha.1, ha.2⟩
    have keep : ∀ a ob, (D a ∨ (h.length ≤ a ∧ a ≠ b)) → (h1.set b (add o x w))[a]? = some ob → (D a ∨ (h.length ≤ a ∧ a ≠ b)) ∧ h3[a]? = some ob := by
      intro a ob ha hoa
      have hab : a ≠ b := ha.elim (fun h => (hD a h).2) (fun h => h.2)
      exact ⟨ha, by rw [s3 a (lt_of_getElem? hoa) hab]; exact hoa⟩
    refine ⟨w :: ws, m3, h3, ?_, Nat.le_trans hl1 l3, ?_, b3, ?_, ?_⟩
    · show (copy m (val x) >>= fun r => put x r.1 >>= fun _ => xDeepItems copy val put r.2 l) h = _
      rw [hx_bind, e1]
      simp only
      rw [hx_bind, e2]
      exact e3
    · intro y hy hyb
      rw [s3 y (by omega) hyb, same y hyb, k1.same y hy]
    · refine .cons ?_ (t3.imp fun a b hab => TreeAt_mono (fun a ob ha hoa => ⟨incl a ha, hoa⟩) _ _ hab)
      exact TreeAt_mono keep _ _ (TreeAt_mono move _ _ t1)
    · refine ⟨fun y z hf => ?_, fun y hy => x3.2 y (x1.2 y hy)⟩
      rcases x3.1 y z hf with h4 | h4
      · rcases x1'.1 y z h4 with h5 | h5
        · exact .inl h5
        · exact .inr fun t ht => TreeAt_mono keep _ _ (h5 t ht)
      · exact .inr fun t ht => TreeAt_mono (fun a ob ha hoa => ⟨incl a ha, hoa⟩) _ _ (h4 t ht)

theorem foldl_append_list : ∀ (l ws acc : List HVal), l.length = ws.length →
    (l.zip ws).foldl (fun o p => match o with | .list l => .list (l ++ [p.2]) | o => o) (HObj.list acc) = .list (acc ++ ws)
  | [], [], acc, _ => by simp
  | [], _ :: _, acc, h => by simp at h
  | _ :: _, [], acc, h => by simp at h
  | x :: l, w :: ws, acc, h => by
    simp only [List.zip_cons_cons, List.foldl_cons]
    rw [foldl_append_list l ws (acc ++ [w]) (by simpa using h)]
    simp

theorem foldl_dset_dict : ∀ (d : Dict PKey HVal) (ws : List HVal) (acc : Dict PKey HVal), d.length = ws.length → (dkeys acc ++ dkeys d).Nodup →
    (d.zip ws).foldl (fun o p => match o with | .dict e => .dict (dset e p.1.1 p.2) | o => o) (HObj.dict acc) = .dict (acc ++ (dkeys d).zip ws)
  | [], [], acc, _, _ => by simp [dkeys]
  | [], _ :: _, acc, h, _ => by simp at h
  | _ :: _, [], acc, h, _ => by simp at h
  | (k, x) :: d, w :: ws, acc, h, hn => by
    have hk : k ∉ dkeys acc := by
      intro hm
      exact (List.nodup_append.1 hn).2.2 k hm k (by simp [dkeys]) rfl
    simp only [List.zip_cons_cons, List.foldl_cons]
    rw [dset_fresh hk, foldl_dset_dict d ws (acc ++ [(k, w)]) (by simpa using h)]
    · simp [dkeys]
    · simp only [dkeys, List.map_append, List.map_cons, List.map_nil, List.append_assoc] at hn ⊢
      exact hn

theorem zip_items {h : Heap} {P : Nat → Prop} : ∀ (d : Dict PKey HVal) (e : Dict PKey PVal) (ws : List HVal), List.Forall₂ (fun x y => x.1 = y.1) d e →
    List.Forall₂ (TreeAt h P) ws (e.map Prod.snd) → List.Forall₂ (fun x y => x.1 = y.1 ∧ TreeAt h P x.2 y.2) ((dkeys d).zip ws) e
  | [], e, ws, h1, h2 => by cases h1; simp [dkeys]
  | x :: d, e, ws, h1, h2 => by
    cases h1 with
    | cons hx h1 =>
      cases h2 with
      | cons hw h2 =>
        simp only [dkeys, List.map_cons, List.zip_cons_cons]
        exact .cons ⟨hx, hw⟩ (zip_items d _ _ h1 h2)

theorem Memo.Good.start {m : Memo} {h : Heap} {D : Nat → Prop} {a : Nat} {t : PVal} (hg : m.Good h0 h D (sizeOf t + 1)) (ht : WritesOut h0 (.ref a) t) (b : Nat) {h' : Heap}
    (hD : ∀ a o, D a → h[a]? = some o → h'[a]? = some o) : Memo.Good h0 ((a, b) :: m) h' D (sizeOf t) := by
  intro x y hf t' ht' hs
  simp only [Memo.find] at hf
  split at hf
  · rename_i e; subst e
    rw [TreeAt_det _ _ _ ht' ht] at hs
    omega
  · exact TreeAt_mono (fun a o ha ho => ⟨ha, hD a o ha ho⟩) _ _ (hg x y hf t' ht' (by omega))

theorem Memo.Ext.finish {m m' : Memo} {h' : Heap} {D D' : Nat → Prop} {a b : Nat} {t : PVal} (ht : WritesOut h0 (.ref a) t) (hb : TreeAt h' D' (.ref b) t)
    (he : Memo.Ext h0 ((a, b) :: m) m' h' D) (hD : ∀ x, D x → D' x) (_hm : m.find a = none) : m.Ext h0 m' h' D' := by
  refine ⟨fun x y hf => ?_, fun x hx => he.2 x ?_⟩
  · rcases he.1 x y hf with h1 | h1
    · simp only [Memo.find] at h1
      split at h1
      · rename_i e; subst e
        injection h1 with h1; subst h1
        refine .inr fun t' ht' => ?_
        rw [TreeAt_det _ _ _ ht' ht]
        exact hb
      · exact .inl h1
    · exact .inr fun t' ht' => TreeAt_mono (fun a o ha ho => ⟨hD a ha, ho⟩) _ _ (h1 t' ht')
  · simp only [Memo.find]
    split
    · rfl
    · exact hx

theorem deepcopy_spec (hwf : h0.WF) : ∀ (n : Nat) (m : Memo) (v : HVal) (t : PVal) (h : Heap) (D : Nat → Prop), Kept h0 h → WritesOut h0 v t →
    m.Good h0 h D (sizeOf t + 1) → (∀ a, D a → a < h.length) → m.free h0 < n → CopiesVal h0 m h D t (xDeepcopy n m v h) := by
  intro n
  induction n with
  | zero => intro m v t h D _ _ _ _ hn; omega
  | succ n ih =>
    intro m v t h D hk ht hg hD hn
    have keep : ∀ o : HObj, ∀ a ob, D a → h[a]? = some ob → (h ++ [o])[a]? = some ob := fun o a ob ha hoa => (Kept.alloc h o).get hoa
    have scalar : (∀ a, v ≠ .ref a) → CopiesVal h0 m h D t (xDeepcopy (n + 1) m v h) := by
      intro hv
      refine ⟨v, m, h, ?_, .refl h, ?_, fun x y hf => .inl hf, fun x hx => hx⟩
      · cases v <;> first | rfl | exact absurd rfl (hv _)
      · rcases TreeAt_cases ht with ⟨rfl, rfl⟩ | ⟨b, rfl, rfl⟩ | ⟨b, rfl, rfl⟩ | ⟨b, rfl, rfl⟩ | ⟨b, rfl, rfl⟩ | ⟨ts, a, l, rfl, rfl, -⟩ | ⟨ts, a, l, rfl, rfl, -⟩ <;>
          first | exact absurd rfl (hv _) | simp [TreeAt]
    by_cases hv : ∀ a, v ≠ .ref a
    · exact scalar hv
    · simp only [not_forall, not_not] at hv
      obtain ⟨a, rfl⟩ := hv
      cases hf : m.find a with
      | some b =>
        refine ⟨.ref b, m, h, ?_, .refl h, ?_, fun x y hf => .inl hf, fun x hx => hx⟩
        · simp only [xDeepcopy, hf]
        · exact TreeAt_mono (fun a o ha ho => ⟨.inl ha, ho⟩) _ _ (hg a b hf t ht (by omega))
      | none =>
        rcases TreeAt_cases ht with ⟨rfl, e⟩ | ⟨b, rfl, e⟩ | ⟨b, rfl, e⟩ | ⟨b, rfl, e⟩ | ⟨b, rfl, e⟩ | ⟨ts, a', l, rfl, e, -, hga, hl⟩ | ⟨ts, a', l, rfl, e, -, hga, hl⟩ <;>
          first | (cases e; done) | skip
        · injection e with e; subst e
          have hlt := lt_of_getElem? hga
          obtain ⟨ws, m', h', e3, l3, s3, b3, t3, x3⟩ := deepItems_spec (h0 := h0) (copy := xDeepcopy n) (n := n) ih (val := id) (put := fun _ v => xAppend h.length v) (b := h.length)
            (add := fun o _ w => match o with | .list l => .list (l ++ [w]) | o => o) (Ok := fun o => ∃ l, o = .list l)
            (by
              rintro x w h2 o ho ⟨l, rfl⟩
              refine ⟨?_, _, rfl⟩
              simp only [xAppend, ho]) (k := sizeOf (PVal.list ts)) hk.len l ts ((a, h.length) :: m) (h ++ [.list []]) D (.list []) (hk.trans (.alloc _ _)) (get_alloc _ _) ⟨[], rfl⟩
            (by
              have : ∀ t ∈ ts, sizeOf t < sizeOf (PVal.list ts) := by
                intro t htm
                have := List.sizeOf_lt_of_mem htm
                simp only [PVal.list.sizeOf_spec]; omega
              exact (List.forall₂_iff_get.2 ⟨hl.length_eq, fun i h1 h2 => ⟨(List.forall₂_iff_get.1 hl).2 i h1 h2, this _ (List.get_mem _ _)⟩⟩))
            (hg.start ht _ (keep _)) (fun x hx => ⟨by have := hD x hx; simp; omega, by have := hD x hx; omega⟩)
            (by have := Memo.free_cons (b := h.length) hlt hf; omega)
          have hlen : l.length = ws.length := by rw [hl.length_eq, ← t3.length_eq]
          rw [foldl_append_list l ws [] hlen, List.nil_append] at b3
          have kk : Kept h h' := ⟨by simp at l3; omega, fun x hx => by
            rw [s3 x (by simp; omega) (by omega), List.getElem?_append_left hx]⟩
          have incl : ∀ x, (D x ∨ ((h ++ [HObj.list []]).length ≤ x ∧ x ≠ h.length)) → (D x ∨ h.length ≤ x) := by
            rintro x (hx | hx)
            · exact .inl hx
            · exact .inr (by have := hx.1; simp at this; omega)
          have tb : TreeAt h' (fun x => D x ∨ h.length ≤ x) (.ref h.length) (.list ts) :=
            tree_list (.inr (Nat.le_refl _)) b3 (t3.imp fun a b hab => TreeAt_mono (fun x o hx ho => ⟨incl x hx, ho⟩) _ _ hab)
          refine ⟨.ref h.length, m', h', ?_, kk, tb, x3.finish ht tb incl hf⟩
          simp only [xDeepcopy, hf, hk.get hga]
          show (xalloc (.list []) >>= fun b => xDeepItems (xDeepcopy n) id (fun _ v => xAppend b v) ((a, b) :: m) l >>= fun m' => pure (HVal.ref b, m')) h = _
          rw [hx_bind, alloc_ref]
          simp only
          rw [hx_bind, e3]
          rfl
        · injection e with e; subst e
          have hlt := lt_of_getElem? hga
          have hkeys : List.Forall₂ (fun (x : PKey × HVal) (y : PKey × PVal) => x.1 = y.1) l ts := hl.imp fun _ _ h => h.1
          obtain ⟨ws, m', h', e3, l3, s3, b3, t3, x3⟩ := deepItems_spec (h0 := h0) (copy := xDeepcopy n) (n := n) ih (val := Prod.snd) (put := fun (kv : PKey × HVal) v => xset (.ref h.length) kv.1 v) (b := h.length)
            (add := fun o p w => match o with | .dict l => .dict (dset l p.1 w) | o => o) (Ok := fun o => ∃ l, o = .dict l)
            (by
              rintro x w h2 o ho ⟨l, rfl⟩
              exact ⟨xset_at ho _ _, _, rfl⟩) (k := sizeOf (PVal.dict ts)) hk.len l (ts.map Prod.snd) ((a, h.length) :: m) (h ++ [.dict []]) D (.dict []) (hk.trans (.alloc _ _)) (get_alloc _ _) ⟨[], rfl⟩
            (by
              have : ∀ t ∈ ts, sizeOf t.2 < sizeOf (PVal.dict ts) := by
                intro t htm
                have := List.sizeOf_lt_of_mem htm
                obtain ⟨k, t⟩ := t
                simp only [PVal.dict.sizeOf_spec, Prod.mk.sizeOf_spec] at this ⊢; omega
              rw [List.forall₂_map_right_iff]
              exact (List.forall₂_iff_get.2 ⟨hl.length_eq, fun i h1 h2 => ⟨((List.forall₂_iff_get.1 hl).2 i h1 h2).2, this _ (List.get_mem _ _)⟩⟩))
            (hg.start ht _ (keep _)) (fun x hx => ⟨by have := hD x hx; simp; omega, by have := hD x hx; omega⟩)
            (by have := Memo.free_cons (b := h.length) hlt hf; omega)
          have hlen : l.length = ws.length := by rw [hl.length_eq, t3.length_eq]; simp
          rw [foldl_dset_dict l ws [] hlen (by have := hwf a l hga; unfold DWF at this; simpa [dkeys] using this), List.nil_append] at b3
          have kk : Kept h h' := ⟨by simp at l3; omega, fun x hx => by
            rw [s3 x (by simp; omega) (by omega), List.getElem?_append_left hx]⟩
          have incl : ∀ x, (D x ∨ ((h ++ [HObj.dict []]).length ≤ x ∧ x ≠ h.length)) → (D x ∨ h.length ≤ x) := by
            rintro x (hx | hx)
            · exact .inl hx
            · exact .inr (by have := hx.1; simp at this; omega)
          have tb : TreeAt h' (fun x => D x ∨ h.length ≤ x) (.ref h.length) (.dict ts) :=
            tree_dict (.inr (Nat.le_refl _)) b3 (zip_items l ts ws hkeys (t3.imp fun a b hab => TreeAt_mono (fun x o hx ho => ⟨incl x hx, ho⟩) _ _ hab))
          refine ⟨.ref h.length, m', h', ?_, kk, tb, x3.finish ht tb incl hf⟩
          simp only [xDeepcopy, hf, hk.get hga]
          show (xalloc (.dict []) >>= fun b => xDeepItems (xDeepcopy n) Prod.snd (fun kv v => xset (.ref b) kv.1 v) ((a, b) :: m) l >>= fun m' => pure (HVal.ref b, m')) h = _
          rw [hx_bind, alloc_ref]
          simp only
          rw [hx_bind, e3]
          rfl

/-- Making a copy that shares nothing with what was there before. -/
def MakesCopy (h : Heap) (t : PVal) (run : Except Exc HVal × Heap) : Prop :=
  ∃ w h', run = (.ok w, h') ∧ Kept h h' ∧ TreeAt h' (fun a => h.length ≤ a) w t

theorem Heap.WF.kept_free (h : Heap) : Memo.free h [] < h.length + 1 := by
  unfold Memo.free
  have := List.countP_le_length (p := fun a => (Memo.find [] a).isNone) (l := List.range h.length)
  simp at this
  omega

theorem deep_spec {h : Heap} (hwf : h.WF) {v : HVal} {t : PVal} (ht : WritesOut h v t) : MakesCopy h t (xDeep v h) := by
  obtain ⟨w, m', h', e, k, tw, -⟩ := deepcopy_spec hwf (h.length + 1) [] v t h (fun _ => False) (.refl h) ht (fun x y hf => by cases hf) (fun _ h => h.elim) (Heap.WF.kept_free h)
  refine ⟨w, h', ?_, k, TreeAt_mono (fun a o ha ho => ⟨ha.resolve_left id, ho⟩) _ _ tw⟩
  show (xDeepcopy (h.length + 1) [] v >>= fun r => pure r.1) h = _
  rw [hx_bind, e]
  rfl

/-! ## `copy_to_dict` -/

theorem MakesCopy.later {h h1 : Heap} {t : PVal} {run : Except Exc HVal × Heap} (hm : MakesCopy h1 t run) (hl : h.length ≤ h1.length) :
    ∃ w h', run = (.ok w, h') ∧ Kept h1 h' ∧ TreeAt h' (fun a => h.length ≤ a) w t := by
  obtain ⟨w, h', e, k, tw⟩ := hm
  exact ⟨w, h', e, k, TreeAt_mono (fun a o ha ho => ⟨Nat.le_trans hl ha, ho⟩) _ _ tw⟩

theorem copyEntries_spec {body : PKey × HVal → HX Unit} {one : HVal → HX HVal} {r : Nat} (hbody : ∀ kv, body kv = one kv.2 >>= fun v => xset (.ref r) kv.1 v)
    (hr : h0.length ≤ r) : ∀ (d : Dict PKey HVal) (e : Dict PKey PVal), List.Forall₂ (fun x y => x.1 = y.1) d e →
      (∀ kv ∈ d.zip e, ∀ h, Kept h0 h → MakesCopy h kv.2.2 (one kv.1.2 h)) → ∀ (h : Heap) (acc : Dict PKey HVal) (acc' : Dict PKey PVal),
      Kept h0 h → h[r]? = some (.dict acc) → (dkeys acc ++ dkeys d).Nodup →
      List.Forall₂ (fun x y => x.1 = y.1 ∧ TreeAt h (fun a => h0.length ≤ a ∧ a ≠ r) x.2 y.2) acc acc' →
      ∃ h' d', xForEach body d h = (.ok (), h') ∧ Kept h0 h' ∧ h'[r]? = some (.dict d') ∧ h.length ≤ h'.length ∧
        (∀ x, x < h.length → x ≠ r → h'[x]? = h[x]?) ∧
        List.Forall₂ (fun x y => x.1 = y.1 ∧ TreeAt h' (fun a => h0.length ≤ a ∧ a ≠ r) x.2 y.2) d' (acc' ++ e)
  | [], e, hd, hone, h, acc, acc', hk, hg, hn, ha => by
    cases hd
    exact ⟨h, acc, rfl, hk, hg, Nat.le_refl _, fun _ _ _ => rfl, by simpa using ha⟩
  | (k, v) :: d, e, hd, hone, h, acc, acc', hk, hg, hn, ha => by
    cases hd with
    | @cons _ y _ e hx hd =>
    obtain ⟨k', t⟩ := y
    simp only at hx
    subst hx
    obtain ⟨w, h1, e1, k1, t1⟩ := hone ((k, v), (k, t)) (by simp) h hk
    have hg1 := k1.get hg
    have hrl := lt_of_getElem? hg
    have hrl1 := lt_of_getElem? hg1
    have same : ∀ x, x ≠ r → (h1.set r (.dict (dset acc k w)))[x]? = h1[x]? := fun x hx => getElem?_set_ne' hx
    have hk2 : Kept h0 (h1.set r (.dict (dset acc k w))) := ⟨by simpa using Nat.le_trans hk.len k1.len, fun x hx => by
      rw [same x (by omega), k1.same x (Nat.lt_of_lt_of_le hx hk.len), hk.same x hx]⟩
    have hka : k ∉ dkeys acc := fun hm => (List.nodup_append.1 hn).2.2 k hm k (by simp [dkeys]) rfl
    have tw : TreeAt (h1.set r (.dict (dset acc k w))) (fun a => h0.length ≤ a ∧ a ≠ r) w t :=
      TreeAt_mono (fun a o hal ho => ⟨⟨Nat.le_trans hk.len hal, by omega⟩, by rw [same a (by omega)]; exact ho⟩) _ _ t1
    have ha2 : List.Forall₂ (fun x y => x.1 = y.1 ∧ TreeAt (h1.set r (.dict (dset acc k w))) (fun a => h0.length ≤ a ∧ a ≠ r) x.2 y.2) (dset acc k w) (acc' ++ [(k, t)]) := by
      have e5 : ∀ R : PKey × HVal → PKey × PVal → Prop, List.Forall₂ R (acc ++ [(k, w)]) (acc' ++ [(k, t)]) → List.Forall₂ R (dset acc k w) (acc' ++ [(k, t)]) :=
        fun R h => by rw [dset_fresh hka]; exact h
      refine e5 _ ?_
      refine List.rel_append (ha.imp fun a b hab => ⟨hab.1, TreeAt_mono (fun a o hal ho => ⟨hal, by rw [same a hal.2]; exact k1.get ho⟩) _ _ hab.2⟩) (.cons ⟨rfl, tw⟩ .nil)
    obtain ⟨h', d', e3, k3, g3, l3, s3, t3⟩ := copyEntries_spec hbody hr d e hd (fun kv hkv => hone kv (by simp [hkv])) (h1.set r (.dict (dset acc k w))) _ _ hk2 (List.getElem?_set_self hrl1)
      (by
        rw [dset_fresh hka]
        simp only [dkeys, List.map_append, List.map_cons, List.map_nil, List.append_assoc] at hn ⊢
        exact hn) ha2
    refine ⟨h', d', ?_, k3, g3, ?_, ?_, by simpa using t3⟩
    · show (body (k, v) >>= fun _ => xForEach body d) h = _
      rw [hbody, hx_bind, hx_bind, e1]
      simp only
      rw [xset_at hg1]
      exact e3
    · have := k1.len
      simp only [List.length_set] at l3
      omega
    · intro x hx hxr
      have := k1.len
      rw [s3 x (by simp only [List.length_set]; omega) hxr, same x hxr, k1.same x hx]

theorem deep_later (hwf : h0.WF) {h : Heap} (hk : Kept h0 h) {v : HVal} {t : PVal} (ht : WritesOut h0 v t) : MakesCopy h t (xDeep v h) := by
  obtain ⟨w, m', h', e, k, tw, -⟩ := deepcopy_spec hwf (h.length + 1) [] v t h (fun _ => False) hk ht (fun x y hf => by cases hf) (fun _ h => h.elim)
    (by have := Heap.WF.kept_free h0; have := hk.len; omega)
  refine ⟨w, h', ?_, k, TreeAt_mono (fun a o ha ho => ⟨ha.resolve_left id, ho⟩) _ _ tw⟩
  show (xDeepcopy (h.length + 1) [] v >>= fun r => pure r.1) h = _
  rw [hx_bind, e]
  rfl

/-- Copying one entry. -/
def xCopyValue (isConfig : Nat → Bool) (again : HVal → HX HVal) : HVal → HX HVal
  | .ref a => if isConfig a then again (.ref a) else xDeep (.ref a)
  | v => xDeep v

theorem copyEntry_eq (isConfig : Nat → Bool) (again : HVal → HX HVal) (r : HVal) (kv : PKey × HVal) :
    xCopyToDict.xCopyEntry' isConfig again r kv = xCopyValue isConfig again kv.2 >>= fun v => xset r kv.1 v := by
  unfold xCopyToDict.xCopyEntry' xCopyValue
  cases kv.2 <;> rfl

theorem copyToDict_spec (hwf : h0.WF) {isConfig : Nat → Bool} (hc : ∀ a, isConfig a = true → IsDict h0 a) : ∀ (n : Nat) (v : HVal) (e : Dict PKey PVal) (h : Heap),
    Kept h0 h → WritesOut h0 v (.dict e) → sizeOf e < n → MakesCopy h (.dict e) (xCopyToDict isConfig n v h)
  | 0, v, e, h, hk, ht, hn => by omega
  | n + 1, v, e, h, hk, ht, hn => by
    obtain ⟨a, d, rfl, -, hg, hi⟩ := dict_at ht
    have hk1 : Kept h0 (h ++ [.dict []]) := hk.trans (.alloc _ _)
    have step : ∀ (h2 : Heap) (k2 : Kept (h ++ [HObj.dict []]) h2 ∨ True) (w : HVal) (t : PVal), WritesOut h0 w t → sizeOf t < n →
        Kept h0 h2 → MakesCopy h2 t (xCopyValue isConfig (xCopyToDict isConfig n) w h2) := by
      intro h2 _ w t hw hs hk2
      have other : MakesCopy h2 t (xDeep w h2) := deep_later hwf hk2 hw
      cases w with
      | ref b =>
        have e6 : xCopyValue isConfig (xCopyToDict isConfig n) (.ref b) = if isConfig b then xCopyToDict isConfig n (.ref b) else xDeep (.ref b) := rfl
        cases hcb : isConfig b with
        | false => rw [e6, hcb]; exact other
        | true =>
          rw [e6, hcb, if_pos rfl]
          obtain ⟨db, hdb⟩ := hc b hcb
          rcases TreeAt_cases hw with ⟨rfl, e⟩ | ⟨b, rfl, e⟩ | ⟨b, rfl, e⟩ | ⟨b, rfl, e⟩ | ⟨b, rfl, e⟩ | ⟨ts, a', l, rfl, e, -, hga, hl⟩ | ⟨ts, a', l, rfl, e, -, hga, hl⟩ <;>
            first | (cases e; done) | skip
          · injection e with e; subst e
            rw [hdb] at hga; cases hga
          · exact copyToDict_spec hwf hc n _ ts h2 hk2 hw (by simp only [PVal.dict.sizeOf_spec] at hs; omega)
      | _ => exact other
    have hsz : ∀ kv ∈ d.zip e, WritesOut h0 kv.1.2 kv.2.2 ∧ sizeOf kv.2.2 < n := by
      intro kv hkv
      have h1 := List.forall₂_iff_zip.1 hi
      obtain ⟨x, y⟩ := kv
      refine ⟨(h1.2 hkv).2, ?_⟩
      have := List.sizeOf_lt_of_mem (List.of_mem_zip hkv).2
      obtain ⟨k, t⟩ := y
      simp only [Prod.mk.sizeOf_spec] at this ⊢
      omega
    obtain ⟨h', d', e3, k3, g3, l3, s3, t3⟩ := copyEntries_spec (h0 := h) (body := xCopyToDict.xCopyEntry' isConfig (xCopyToDict isConfig n) (.ref h.length))
      (one := xCopyValue isConfig (xCopyToDict isConfig n)) (r := h.length) (fun kv => copyEntry_eq _ _ _ kv) (Nat.le_refl _) d e (hi.imp fun _ _ h => h.1)
      (fun kv hkv h2 hk2 => step h2 (.inr trivial) _ _ (hsz kv hkv).1 (hsz kv hkv).2 (hk.trans hk2)) (h ++ [.dict []]) [] [] (.alloc _ _) (get_alloc _ _)
      (by have := hwf a d hg; unfold DWF at this; simpa [dkeys] using this) .nil
    refine ⟨.ref h.length, h', ?_, k3, ?_⟩
    · show (xdict .attributeError (.ref a) >>= fun d => xnew >>= fun r => xForEach (xCopyToDict.xCopyEntry' isConfig (xCopyToDict isConfig n) r) d >>= fun _ => pure r) h = _
      rw [hx_bind]
      simp only [xdict, hk.get hg]
      rw [hx_bind]
      show (xForEach (xCopyToDict.xCopyEntry' isConfig (xCopyToDict isConfig n) (.ref h.length)) d >>= fun _ => pure (HVal.ref h.length)) (h ++ [.dict []]) = _
      rw [hx_bind, e3]
      rfl
    · exact tree_dict (Nat.le_refl _) g3 ((by simpa using t3 : List.Forall₂ (fun x y => x.1 = y.1 ∧ TreeAt h' (fun a => h.length ≤ a ∧ a ≠ h.length) x.2 y.2) d' e).imp
        fun x y hxy => ⟨hxy.1, TreeAt_mono (fun a o ha ho => ⟨ha.1, ho⟩) _ _ hxy.2⟩)

end Verif
