import Verif.Spec.Heap
import Verif.Lemmas.Expand
import Mathlib.Data.List.Forall2
/-!
# Lemmas on objects with identity
-/
namespace Verif

/-! ## Written out values -/

mutual
theorem TreeAt_mono {h h' : Heap} {P P' : Nat → Prop} (H : ∀ (a : Nat) (o : HObj), P a → h[a]? = some o → P' a ∧ h'[a]? = some o) :
    ∀ (v : HVal) (t : PVal), TreeAt h P v t → TreeAt h' P' v t
  | v, .none, ht => by simpa only [TreeAt] using ht
  | v, .bool b, ht => by simpa only [TreeAt] using ht
  | v, .int i, ht => by simpa only [TreeAt] using ht
  | v, .str s, ht => by simpa only [TreeAt] using ht
  | v, .other n, ht => by simpa only [TreeAt] using ht
  | v, .list ts, ht => by
    simp only [TreeAt] at ht ⊢
    obtain ⟨a, l, rfl, hp, ha, hl⟩ := ht
    exact ⟨a, l, rfl, (H a _ hp ha).1, (H a _ hp ha).2, ListAt_mono H l ts hl⟩
  | v, .dict e, ht => by
    simp only [TreeAt] at ht ⊢
    obtain ⟨a, d, rfl, hp, ha, hl⟩ := ht
    exact ⟨a, d, rfl, (H a _ hp ha).1, (H a _ hp ha).2, ItemsAt_mono H d e hl⟩
theorem ListAt_mono {h h' : Heap} {P P' : Nat → Prop} (H : ∀ (a : Nat) (o : HObj), P a → h[a]? = some o → P' a ∧ h'[a]? = some o) :
    ∀ (l : List HVal) (ts : List PVal), ListAt h P l ts → ListAt h' P' l ts
  | l, [], ht => by simpa only [ListAt] using ht
  | l, t :: ts, ht => by
    simp only [ListAt] at ht ⊢
    obtain ⟨v, l', rfl, h1, h2⟩ := ht
    exact ⟨v, l', rfl, TreeAt_mono H v t h1, ListAt_mono H l' ts h2⟩
theorem ItemsAt_mono {h h' : Heap} {P P' : Nat → Prop} (H : ∀ (a : Nat) (o : HObj), P a → h[a]? = some o → P' a ∧ h'[a]? = some o) :
    ∀ (d : Dict PKey HVal) (e : List (PKey × PVal)), ItemsAt h P d e → ItemsAt h' P' d e
  | d, [], ht => by simpa only [ItemsAt] using ht
  | d, (k, t) :: e, ht => by
    simp only [ItemsAt] at ht ⊢
    obtain ⟨v, d', rfl, h1, h2⟩ := ht
    exact ⟨v, d', rfl, TreeAt_mono H v t h1, ItemsAt_mono H d' e h2⟩
end

mutual
theorem TreeAt_det {h : Heap} {P P' : Nat → Prop} :
    ∀ (v : HVal) (t t' : PVal), TreeAt h P v t → TreeAt h P' v t' → t = t'
  | v, .none, t', ht, ht' => by
    simp only [TreeAt] at ht; subst ht; cases t' <;> simp_all [TreeAt]
  | v, .bool b, t', ht, ht' => by
    simp only [TreeAt] at ht; subst ht; cases t' <;> simp_all [TreeAt]
  | v, .int b, t', ht, ht' => by
    simp only [TreeAt] at ht; subst ht; cases t' <;> simp_all [TreeAt]
  | v, .str b, t', ht, ht' => by
    simp only [TreeAt] at ht; subst ht; cases t' <;> simp_all [TreeAt]
  | v, .other b, t', ht, ht' => by
    simp only [TreeAt] at ht; subst ht; cases t' <;> simp_all [TreeAt]
  | v, .list ts, t', ht, ht' => by
    simp only [TreeAt] at ht
    obtain ⟨a, l, rfl, _, ha, hl⟩ := ht
    cases t' with
    | list ts' =>
      simp only [TreeAt] at ht'
      obtain ⟨a', l', hr, _, ha', hl'⟩ := ht'
      cases hr
      rw [ha] at ha'; cases ha'
      rw [ListAt_det l ts ts' hl hl']
    | dict e =>
      simp only [TreeAt] at ht'
      obtain ⟨a', l', hr, _, ha', hl'⟩ := ht'
      cases hr
      rw [ha] at ha'; cases ha'
    | _ => simp [TreeAt] at ht'
  | v, .dict e, t', ht, ht' => by
    simp only [TreeAt] at ht
    obtain ⟨a, l, rfl, _, ha, hl⟩ := ht
    cases t' with
    | list ts' =>
      simp only [TreeAt] at ht'
      obtain ⟨a', l', hr, _, ha', hl'⟩ := ht'
      cases hr
      rw [ha] at ha'; cases ha'
    | dict e' =>
      simp only [TreeAt] at ht'
      obtain ⟨a', l', hr, _, ha', hl'⟩ := ht'
      cases hr
      rw [ha] at ha'; cases ha'
      rw [ItemsAt_det l e e' hl hl']
    | _ => simp [TreeAt] at ht'
theorem ListAt_det {h : Heap} {P P' : Nat → Prop} :
    ∀ (l : List HVal) (t t' : List PVal), ListAt h P l t → ListAt h P' l t' → t = t'
  | l, [], t', ht, ht' => by
    simp only [ListAt] at ht; subst ht
    cases t' with
    | nil => rfl
    | cons x t' => simp [ListAt] at ht'
  | l, t :: ts, t', ht, ht' => by
    simp only [ListAt] at ht
    obtain ⟨v, l', rfl, h1, h2⟩ := ht
    cases t' with
    | nil => simp [ListAt] at ht'
    | cons x t' =>
      simp only [ListAt] at ht'
      obtain ⟨v', l'', he, h1', h2'⟩ := ht'
      cases he
      rw [TreeAt_det v t x h1 h1', ListAt_det l' ts t' h2 h2']
theorem ItemsAt_det {h : Heap} {P P' : Nat → Prop} :
    ∀ (l : Dict PKey HVal) (t t' : List (PKey × PVal)), ItemsAt h P l t → ItemsAt h P' l t' → t = t'
  | l, [], t', ht, ht' => by
    simp only [ItemsAt] at ht; subst ht
    cases t' with
    | nil => rfl
    | cons x t' => simp [ItemsAt] at ht'
  | l, (k, t) :: ts, t', ht, ht' => by
    simp only [ItemsAt] at ht
    obtain ⟨v, l', rfl, h1, h2⟩ := ht
    cases t' with
    | nil => simp [ItemsAt] at ht'
    | cons x t' =>
      obtain ⟨kx, x⟩ := x
      simp only [ItemsAt] at ht'
      obtain ⟨v', l'', he, h1', h2'⟩ := ht'
      cases he
      rw [TreeAt_det v t x h1 h1', ItemsAt_det l' ts t' h2 h2']
end

/-- Entries of two dicts correspond: same keys in the same order, values related by `R` (which may look at the key). -/
def Items (R : PKey → HVal → PVal → Prop) (d : Dict PKey HVal) (e : Dict PKey PVal) : Prop :=
  List.Forall₂ (fun x y => x.1 = y.1 ∧ R x.1 x.2 y.2) d e

theorem ItemsAt_iff {h : Heap} {P : Nat → Prop} {d : Dict PKey HVal} {e : Dict PKey PVal} :
    ItemsAt h P d e ↔ Items (fun _ => TreeAt h P) d e := by
  induction e generalizing d with
  | nil =>
    constructor
    · intro H; simp only [ItemsAt] at H; subst H; exact .nil
    · intro H; cases H; simp [ItemsAt]
  | cons x e ih =>
    obtain ⟨k, t⟩ := x
    constructor
    · intro H
      simp only [ItemsAt] at H
      obtain ⟨v, d', rfl, h1, h2⟩ := H
      exact .cons ⟨rfl, h1⟩ (ih.1 h2)
    · intro H
      cases H with
      | cons a b =>
        rename_i x d
        obtain ⟨k', v⟩ := x
        simp only at a
        obtain ⟨rfl, a⟩ := a
        simp only [ItemsAt]
        exact ⟨v, d, rfl, a, ih.2 b⟩

theorem Items_keys {R : PKey → HVal → PVal → Prop} {d : Dict PKey HVal} {e : Dict PKey PVal} (H : Items R d e) :
    dkeys d = dkeys e := by
  induction H with
  | nil => rfl
  | cons a b ih => simp only [dkeys, List.map_cons] at ih ⊢; rw [a.1, ih]

theorem Items_mono {R R' : PKey → HVal → PVal → Prop} {d : Dict PKey HVal} {e : Dict PKey PVal} (H : Items R d e)
    (hr : ∀ k v t, (k, v) ∈ d → (k, t) ∈ e → R k v t → R' k v t) : Items R' d e := by
  induction H with
  | nil => exact .nil
  | @cons x y d e a b ih =>
    obtain ⟨k, v⟩ := x
    obtain ⟨k', t⟩ := y
    simp only at a
    obtain ⟨rfl, a⟩ := a
    exact .cons ⟨rfl, hr k v t (by simp) (by simp) a⟩ (ih fun k v t h1 h2 => hr k v t (by simp [h1]) (by simp [h2]))

mutual
theorem TreeAt_WF {h : Heap} (hh : h.WF) {P : Nat → Prop} : ∀ (v : HVal) (t : PVal), TreeAt h P v t → t.WF
  | v, .none, ht => by simp [PVal.WF]
  | v, .bool b, ht => by simp [PVal.WF]
  | v, .int i, ht => by simp [PVal.WF]
  | v, .str s, ht => by simp [PVal.WF]
  | v, .other n, ht => by simp [PVal.WF]
  | v, .list ts, ht => by
    simp only [TreeAt] at ht
    obtain ⟨a, l, rfl, hp, ha, hl⟩ := ht
    simp only [PVal.WF]
    exact ListAt_WF hh l ts hl
  | v, .dict e, ht => by
    simp only [TreeAt] at ht
    obtain ⟨a, d, rfl, hp, ha, hl⟩ := ht
    simp only [PVal.WF]
    refine ⟨?_, ItemsAt_WF hh d e hl⟩
    have hk := Items_keys (ItemsAt_iff.1 hl)
    have := hh a d ha
    unfold DWF at this ⊢
    rw [← hk]; exact this
theorem ListAt_WF {h : Heap} (hh : h.WF) {P : Nat → Prop} : ∀ (l : List HVal) (ts : List PVal), ListAt h P l ts →
    PVal.WFList ts
  | l, [], ht => by simp [PVal.WFList]
  | l, t :: ts, ht => by
    simp only [ListAt] at ht
    obtain ⟨v, l', rfl, h1, h2⟩ := ht
    simp only [PVal.WFList]
    exact ⟨TreeAt_WF hh v t h1, ListAt_WF hh l' ts h2⟩
theorem ItemsAt_WF {h : Heap} (hh : h.WF) {P : Nat → Prop} : ∀ (d : Dict PKey HVal) (e : List (PKey × PVal)),
    ItemsAt h P d e → PVal.WFItems e
  | d, [], ht => by simp [PVal.WFItems]
  | d, (k, t) :: e, ht => by
    simp only [ItemsAt] at ht
    obtain ⟨v, d', rfl, h1, h2⟩ := ht
    simp only [PVal.WFItems]
    exact ⟨TreeAt_WF hh v t h1, ItemsAt_WF hh d' e h2⟩
end

/-! ## Levels -/

/-- `t` is a dict without `any_version`. -/
def instLike : PVal → Bool
  | .dict e => !dhas e (.str "any_version")
  | _ => false

/-- Memory together with the role of every dict. -/
structure HSt where
  h : Heap
  lv : Nat → Nat

/-- A value whose tree is a dict is an object of level `n` with entries related by `child`; any other value is
made of objects of level 0. -/
def DictAt (S : HSt) (n : Nat) (child : PKey → HVal → PVal → Prop) (v : HVal) (t : PVal) : Prop :=
  match t with
  | .dict e => ∃ a d, v = .ref a ∧ S.lv a = n ∧ S.h[a]? = some (.dict d) ∧ Items child d e
  | t => TreeAt S.h (fun a => S.lv a = 0) v t

/-- `v`, standing under key `k` in role `n`, is written out as `t`, and all objects have the levels of their role. -/
def Lev (S : HSt) : Nat → PKey → HVal → PVal → Prop
  | 0, _, v, t => TreeAt S.h (fun a => S.lv a = 0) v t
  | n + 1, k, v, t =>
    if n = 2 ∧ k = .str "any_os" ∧ instLike t = true then Lev S n k v t else DictAt S (n + 1) (Lev S n) v t

theorem Lev_zero {S : HSt} {k : PKey} {v : HVal} {t : PVal} : Lev S 0 k v t = TreeAt S.h (fun a => S.lv a = 0) v t := rfl

theorem Lev_pos {S : HSt} {n : Nat} {k : PKey} {v : HVal} {t : PVal}
    (hn : ¬ (n = 2 ∧ k = .str "any_os" ∧ instLike t = true)) :
    Lev S (n + 1) k v t ↔ DictAt S (n + 1) (Lev S n) v t := by
  simp only [Lev, if_neg hn]

theorem Lev_anyos {S : HSt} {v : HVal} {t : PVal} (ht : instLike t = true) :
    Lev S 3 (.str "any_os") v t ↔ Lev S 2 (.str "any_os") v t := by
  rw [show (3 : Nat) = 2 + 1 from rfl]
  conv => lhs; rw [Lev]
  rw [if_pos ⟨rfl, rfl, ht⟩]

theorem Lev_key {S : HSt} {n : Nat} (hn : n ≠ 3) {k k' : PKey} {v : HVal} {t : PVal} (H : Lev S n k v t) : Lev S n k' v t := by
  cases n with
  | zero => exact H
  | succ n =>
    have : n ≠ 2 := by omega
    rw [Lev_pos (by simp [this])] at H ⊢
    exact H

/-- A value that is not a dict has the same shape at every level. -/
theorem Lev_nondict {S : HSt} {n : Nat} {k : PKey} {v : HVal} {t : PVal} (ht : t.isDict = false) :
    Lev S n k v t ↔ TreeAt S.h (fun a => S.lv a = 0) v t := by
  cases n with
  | zero => rfl
  | succ n =>
    rw [Lev_pos]
    · cases t <;> simp_all [DictAt, PVal.isDict]
    · cases t <;> simp_all [instLike, PVal.isDict]

/-- Frame: levels up to `n` are not affected by changes elsewhere. -/
theorem Lev_frame {S S' : HSt} {n : Nat}
    (H : ∀ (a : Nat) (o : HObj), S.lv a ≤ n → S.h[a]? = some o → S'.h[a]? = some o ∧ S'.lv a = S.lv a) :
    ∀ (m : Nat), m ≤ n → ∀ (k : PKey) (v : HVal) (t : PVal), Lev S m k v t → Lev S' m k v t := by
  have h0 : ∀ (v : HVal) (t : PVal), TreeAt S.h (fun a => S.lv a = 0) v t → TreeAt S'.h (fun a => S'.lv a = 0) v t := by
    intro v t ht
    refine TreeAt_mono (fun a o ha ho => ?_) v t ht
    have := H a o (by omega) ho
    exact ⟨by omega, this.1⟩
  intro m
  induction m with
  | zero => intro _ k v t ht; exact h0 v t ht
  | succ m ih =>
    intro hm k v t ht
    by_cases hc : m = 2 ∧ k = .str "any_os" ∧ instLike t = true
    · obtain ⟨rfl, rfl, hi⟩ := hc
      rw [Lev_anyos hi] at ht ⊢
      exact ih (by omega) _ _ _ ht
    · rw [Lev_pos hc] at ht ⊢
      cases t with
      | dict e =>
        obtain ⟨a, d, rfl, hl, ha, hi⟩ := ht
        have := H a _ (by omega) ha
        exact ⟨a, d, rfl, by omega, this.1, Items_mono hi fun k v t _ _ h => ih (by omega) k v t h⟩
      | _ => exact h0 _ _ ht

/-- Forgetting the levels. -/
theorem Lev_out {S : HSt} : ∀ (m : Nat) (k : PKey) (v : HVal) (t : PVal), Lev S m k v t → WritesOut S.h v t := by
  intro m
  induction m with
  | zero => intro k v t ht; exact TreeAt_mono (fun a o _ ho => ⟨trivial, ho⟩) v t ht
  | succ m ih =>
    intro k v t ht
    by_cases hc : m = 2 ∧ k = .str "any_os" ∧ instLike t = true
    · obtain ⟨rfl, rfl, hi⟩ := hc
      rw [Lev_anyos hi] at ht
      exact ih _ _ _ ht
    · rw [Lev_pos hc] at ht
      cases t with
      | dict e =>
        obtain ⟨a, d, rfl, hl, ha, hi⟩ := ht
        simp only [WritesOut, TreeAt]
        exact ⟨a, d, rfl, trivial, ha, ItemsAt_iff.2 (Items_mono hi fun k v t _ _ h => ih k v t h)⟩
      | _ => exact TreeAt_mono (P := fun a => S.lv a = 0) (fun a o _ ho => ⟨trivial, ho⟩) _ _ ht

theorem Lev_det {S : HSt} {m m' : Nat} {k k' : PKey} {v : HVal} {t t' : PVal} (H : Lev S m k v t) (H' : Lev S m' k' v t') :
    t = t' := TreeAt_det v t t' (Lev_out m k v t H) (Lev_out m' k' v t' H')

theorem Lev_WF {S : HSt} (hS : S.h.WF) {m : Nat} {k : PKey} {v : HVal} {t : PVal} (H : Lev S m k v t) : t.WF :=
  TreeAt_WF hS v t (Lev_out m k v t H)

end Verif
