import Verif.Lemmas.HeapStep
/-!
# What a piece of the expansion may do to the memory
-/
namespace Verif

/-- `S'` is reached from `S` by code working on level `n`: objects of higher levels are untouched, and every value
is still what it was up to expansion of some of its parts. -/
structure Ext (n : Nat) (S S' : HSt) : Prop where
  wf : S'.h.WF
  len : S.h.length ≤ S'.h.length
  lv : ∀ (a : Nat), a < S.h.length → S'.lv a = S.lv a
  above : ∀ (a : Nat) (o : HObj), n < S.lv a → S.h[a]? = some o → S'.h[a]? = some o
  keep : ∀ (m : Nat), m ≤ 5 → ∀ (k : PKey) (v : HVal) (t : PVal), Lev S m k v t → ∃ t', Lev S' m k v t' ∧ HStep m k t t'

theorem lt_of_get {h : Heap} {a : Nat} {o : HObj} (H : h[a]? = some o) : a < h.length := by
  rw [List.getElem?_eq_some_iff] at H
  exact H.1

theorem Ext_refl {n : Nat} {S : HSt} (hS : S.h.WF) : Ext n S S :=
  ⟨hS, Nat.le_refl _, fun _ _ => rfl, fun _ _ _ h => h, fun m _ k _ t h => ⟨t, h, HStep_refl m k t⟩⟩

theorem Ext_trans {n n1 n2 : Nat} {S S1 S2 : HSt} (h1 : Ext n1 S S1) (h2 : Ext n2 S1 S2) (hn1 : n1 ≤ n) (hn2 : n2 ≤ n) :
    Ext n S S2 := by
  refine ⟨h2.wf, Nat.le_trans h1.len h2.len, fun a ha => ?_, fun a o hl ho => ?_, fun m hm k v t ht => ?_⟩
  · rw [h2.lv a (Nat.lt_of_lt_of_le ha h1.len), h1.lv a ha]
  · have := h1.above a o (by omega) ho
    refine h2.above a o ?_ this
    rw [h1.lv a (lt_of_get ho)]; omega
  · obtain ⟨t1, ht1, hs1⟩ := h1.keep m hm k v t ht
    obtain ⟨t2, ht2, hs2⟩ := h2.keep m hm k v t1 ht1
    exact ⟨t2, ht2, HStep_trans hs1 hs2⟩

theorem Ext_mono {n n' : Nat} {S S' : HSt} (h : Ext n S S') (hn : n ≤ n') : Ext n' S S' :=
  ⟨h.wf, h.len, h.lv, fun a o hl ho => h.above a o (by omega) ho, h.keep⟩

/-- The memory after a new object of level `n`. -/
def HSt.alloc (S : HSt) (o : HObj) (n : Nat) : HSt :=
  ⟨S.h ++ [o], fun a => if a = S.h.length then n else S.lv a⟩

/-- The memory after an assignment. -/
def HSt.write (S : HSt) (a : Nat) (o : HObj) : HSt := ⟨S.h.set a o, S.lv⟩

theorem alloc_old {S : HSt} {o o' : HObj} {n a : Nat} (h : S.h[a]? = some o') : (S.alloc o n).h[a]? = some o' := by
  simp only [HSt.alloc]
  rw [List.getElem?_append_left (lt_of_get h)]; exact h

theorem alloc_lv {S : HSt} {o : HObj} {n a : Nat} (h : a < S.h.length) : (S.alloc o n).lv a = S.lv a := by
  simp only [HSt.alloc]
  rw [if_neg (by omega)]

theorem alloc_new {S : HSt} {o : HObj} {n : Nat} : (S.alloc o n).h[S.h.length]? = some o := by
  simp [HSt.alloc]

theorem alloc_new_lv {S : HSt} {o : HObj} {n : Nat} : (S.alloc o n).lv S.h.length = n := by
  simp [HSt.alloc]

theorem write_get {S : HSt} {a b : Nat} {o : HObj} : (S.write a o).h[b]? =
    if a = b ∧ a < S.h.length then some o else S.h[b]? := by
  simp only [HSt.write, List.getElem?_set]
  by_cases h : a = b
  · subst h
    by_cases hl : a < S.h.length
    · simp [hl]
    · simp [hl]
  · simp [h]

theorem alloc_Lev {S : HSt} {o : HObj} {n : Nat} : ∀ (m : Nat) (k : PKey) (v : HVal) (t : PVal),
    Lev S m k v t → Lev (S.alloc o n) m k v t := fun m =>
  Lev_frame (n := m) (fun _ _ _ ho => ⟨alloc_old ho, alloc_lv (lt_of_get ho)⟩) m (Nat.le_refl m)

/-- Creating an object changes nothing that exists. -/
theorem Ext_alloc {S : HSt} (hS : S.h.WF) {o : HObj} (ho : ∀ d, o = .dict d → DWF d) (n : Nat) : Ext 0 S (S.alloc o n) := by
  refine ⟨fun a d ha => ?_, by simp [HSt.alloc], fun a ha => alloc_lv ha, fun a o' _ h => alloc_old h, fun m _ k v t ht =>
    ⟨t, alloc_Lev m k v t ht, HStep_refl m k t⟩⟩
  by_cases hl : a < S.h.length
  · refine hS a d ?_
    simp only [HSt.alloc] at ha
    rwa [List.getElem?_append_left hl] at ha
  · by_cases hl2 : a = S.h.length
    · subst hl2
      rw [alloc_new] at ha
      injection ha with ha
      exact ho d ha
    · simp only [HSt.alloc] at ha
      rw [List.getElem?_eq_none (by simp; omega)] at ha
      exact absurd ha (by simp)

theorem Items_step {S S' : HSt} {m : Nat} {d : Dict PKey HVal} {e : Dict PKey PVal} (H : Items (Lev S m) d e)
    (hk : ∀ (k : PKey) (v : HVal) (t : PVal), Lev S m k v t → ∃ t', Lev S' m k v t' ∧ HStep m k t t') :
    ∃ e', Items (Lev S' m) d e' ∧ StepItems m e e' := by
  induction H with
  | nil => exact ⟨[], .nil, .nil⟩
  | @cons x y d e a b ih =>
    obtain ⟨k, v⟩ := x
    obtain ⟨k', t⟩ := y
    simp only at a
    obtain ⟨rfl, a⟩ := a
    obtain ⟨t', h1, h2⟩ := hk k v t a
    obtain ⟨e', h3, h4⟩ := ih
    exact ⟨(k, t') :: e', .cons ⟨rfl, h1⟩ h3, .cons ⟨rfl, h2.1⟩ h4⟩

theorem Items_DWF {R : PKey → HVal → PVal → Prop} {d : Dict PKey HVal} {e : Dict PKey PVal} (H : Items R d e) :
    DWF e ↔ DWF d := by
  unfold DWF
  rw [Items_keys H]

theorem Items_det {S : HSt} {m m' : Nat} {d : Dict PKey HVal} {e e' : Dict PKey PVal} (H : Items (Lev S m) d e)
    (H' : Items (Lev S m') d e') : e = e' := by
  induction H generalizing e' with
  | nil => cases H'; rfl
  | @cons x y d e a b ih =>
    cases H' with
    | @cons _ y' _ e' a' b' =>
      obtain ⟨k, v⟩ := x
      obtain ⟨k', t⟩ := y
      obtain ⟨k'', t'⟩ := y'
      simp only at a a'
      obtain ⟨rfl, a⟩ := a
      obtain ⟨rfl, a'⟩ := a'
      rw [Lev_det a a', ih b']

/-- Assigning to a dict: every value stays what it was up to expansion, provided this holds of the dict. -/
theorem Ext_write {S : HSt} (hS : S.h.WF) {n a : Nat} {d d' : Dict PKey HVal} {e e' : Dict PKey PVal}
    (hl : S.lv a = n + 1) (ha : S.h[a]? = some (.dict d)) (hi : Items (Lev S n) d e)
    (hi' : Items (Lev S n) d' e') (hd' : DWF d')
    (hstep : ∀ k, ¬ (n = 2 ∧ k = .str "any_os" ∧ instLike (.dict e) = true) → HStep (n + 1) k (.dict e) (.dict e')) :
    Ext (n + 1) S (S.write a (.dict d')) := by
  have hother : ∀ (b : Nat) (o : HObj), b ≠ a → S.h[b]? = some o → (S.write a (.dict d')).h[b]? = some o := by
    intro b o hb ho
    rw [write_get, if_neg (fun h => hb h.1.symm)]; exact ho
  have hsame : (S.write a (.dict d')).h[a]? = some (.dict d') := by
    rw [write_get, if_pos ⟨rfl, lt_of_get ha⟩]
  have hframe : ∀ (m : Nat), m ≤ n → ∀ (k : PKey) (v : HVal) (t : PVal), Lev S m k v t →
      Lev (S.write a (.dict d')) m k v t :=
    Lev_frame (n := n) (fun b o hb ho => ⟨hother b o (by rintro rfl; omega) ho, rfl⟩)
  refine ⟨fun b f hb => ?_, by simp [HSt.write], fun _ _ => rfl, fun b o hb ho =>
    hother b o (by rintro rfl; omega) ho, fun m => ?_⟩
  · rw [write_get] at hb
    split at hb
    · injection hb with hb; injection hb with hb; subst hb; exact hd'
    · exact hS b f hb
  · induction m with
    | zero => intro _ k v t ht; exact ⟨t, hframe 0 (by omega) k v t ht, HStep_refl _ _ _⟩
    | succ m ih =>
      intro hm k v t ht
      by_cases hle : m + 1 ≤ n
      · exact ⟨t, hframe _ hle k v t ht, HStep_refl _ _ _⟩
      by_cases hc : m = 2 ∧ k = .str "any_os" ∧ instLike t = true
      · obtain ⟨rfl, rfl, hinst⟩ := hc
        rw [Lev_anyos hinst] at ht
        obtain ⟨t', h1, h2⟩ := ih (by omega) _ _ _ ht
        refine ⟨t', ?_, HStep_anyos hinst h2⟩
        rw [Lev_anyos (h2.2.trans hinst)]
        exact h1
      · cases ht' : t.isDict with
        | false =>
          rw [Lev_nondict ht'] at ht
          exact ⟨t, (Lev_nondict ht').2 (hframe 0 (by omega) k v t ht), HStep_refl _ _ _⟩
        | true =>
          cases t with
          | dict e0 =>
            rw [Lev_pos hc] at ht
            obtain ⟨b, f, rfl, hlb, hb, hif⟩ := ht
            by_cases hmn : m = n
            · subst hmn
              by_cases hba : b = a
              · subst hba
                rw [ha] at hb
                injection hb with hb; injection hb with hb; subst hb
                have := Items_det hi hif
                subst this
                have hs := hstep k hc
                refine ⟨.dict e', ?_, hs⟩
                rw [Lev_pos (by rw [hs.2]; exact hc)]
                exact ⟨b, d', rfl, hlb, hsame, Items_mono hi' fun k v t _ _ h => hframe m (by omega) k v t h⟩
              · refine ⟨.dict e0, ?_, HStep_refl _ _ _⟩
                rw [Lev_pos hc]
                exact ⟨b, f, rfl, hlb, hother b _ hba hb, Items_mono hif fun k v t _ _ h => hframe m (by omega) k v t h⟩
            · have hba : b ≠ a := by rintro rfl; omega
              obtain ⟨e1, h1, h2⟩ := Items_step hif (ih (by omega))
              have hdwf : DWF e0 := (Items_DWF hif).2 (hS b f hb)
              have hs := HStep_lift (by omega) (by omega) hdwf hc h2
              refine ⟨.dict e1, ?_, hs⟩
              rw [Lev_pos (by rw [hs.2]; exact hc)]
              exact ⟨b, f, rfl, hlb, hother b _ hba hb, h1⟩
          | _ => simp [PVal.isDict] at ht'

end Verif
