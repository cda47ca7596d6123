import Verif.Lemmas.HeapExt
/-!
# Expansion in memory follows expansion of trees
-/
namespace Verif

theorem hm_bind_ok {α β : Type} {m : HM α} {f : α → HM β} {h h' : Heap} {x : α} (H : m h = .ok (x, h')) :
    (m >>= f) h = f x h' := by
  simp only [bind, StateT.bind, Except.bind, H]

theorem hm_bind_err {α β : Type} {m : HM α} {f : α → HM β} {h : Heap} {e : Exc} (H : m h = .error e) :
    (m >>= f) h = .error e := by
  simp only [bind, StateT.bind, Except.bind, H]

theorem hm_pure {α : Type} {x : α} {h : Heap} : (pure x : HM α) h = .ok (x, h) := rfl

theorem hread_ok {a : Nat} {h : Heap} {o : HObj} (H : h[a]? = some o) : hread a h = .ok (o, h) := by
  simp only [hread, H]

theorem hitems_ok {a : Nat} {h : Heap} {d : Dict PKey HVal} (H : h[a]? = some (.dict d)) : hitems a h = .ok (d, h) := by
  unfold hitems
  rw [hm_bind_ok (hread_ok H)]
  rfl

theorem hsetItem_ok {a : Nat} {h : Heap} {d : Dict PKey HVal} {k : PKey} {v : HVal} (H : h[a]? = some (.dict d)) :
    hsetItem a k v h = .ok ((), h.set a (.dict (dset d k v))) := by
  unfold hsetItem
  rw [hm_bind_ok (hread_ok H)]
  rfl

/-- `m`, run in `S`, does what expansion in role `n` does to the tree `t`. -/
structure Sim (m : HM HVal) (S : HSt) (n : Nat) (k : PKey) (t : PVal) : Prop where
  err : ∀ x, Ex n k t = .error x → m S.h = .error x
  ok : ∀ t', Ex n k t = .ok t' → ∃ r S', m S.h = .ok (r, S'.h) ∧ Lev S' n k r t' ∧ Ext n S S'

/-! ## entries -/

theorem Items_append {R : PKey → HVal → PVal → Prop} {d1 d2 : Dict PKey HVal} {e1 e2 : Dict PKey PVal}
    (h1 : Items R d1 e1) (h2 : Items R d2 e2) : Items R (d1 ++ d2) (e1 ++ e2) := by
  induction h1 with
  | nil => exact h2
  | cons a _ ih => exact .cons a ih

theorem Items_dget {R : PKey → HVal → PVal → Prop} {d : Dict PKey HVal} {e : Dict PKey PVal} (H : Items R d e) (k : PKey) :
    (dget d k = none ∧ dget e k = none) ∨ ∃ v t, dget d k = some v ∧ dget e k = some t ∧ R k v t := by
  induction H with
  | nil => exact .inl ⟨rfl, rfl⟩
  | @cons x y d e a _ ih =>
    obtain ⟨k1, v⟩ := x
    obtain ⟨k2, t⟩ := y
    simp only at a
    obtain ⟨rfl, a⟩ := a
    simp only [dget]
    split
    · subst_vars; exact .inr ⟨v, t, rfl, rfl, a⟩
    · exact ih

theorem Items_dset {R : PKey → HVal → PVal → Prop} {d : Dict PKey HVal} {e : Dict PKey PVal} (H : Items R d e) {k : PKey}
    {v : HVal} {t : PVal} (hr : R k v t) : Items R (dset d k v) (dset e k t) := by
  induction H with
  | nil => exact .cons ⟨rfl, hr⟩ .nil
  | @cons x y d e a b ih =>
    obtain ⟨k1, v1⟩ := x
    obtain ⟨k2, t1⟩ := y
    simp only at a
    obtain ⟨rfl, a⟩ := a
    simp only [dset]
    split
    · subst_vars; exact .cons ⟨rfl, hr⟩ b
    · exact .cons ⟨rfl, a⟩ ih

theorem Items_ddel {R : PKey → HVal → PVal → Prop} {d : Dict PKey HVal} {e : Dict PKey PVal} (H : Items R d e) (k : PKey) :
    Items R (ddel d k) (ddel e k) := by
  induction H with
  | nil => exact .nil
  | @cons x y d e a b ih =>
    obtain ⟨k1, v1⟩ := x
    obtain ⟨k2, t1⟩ := y
    simp only at a
    obtain ⟨rfl, a⟩ := a
    simp only [ddel]
    split
    · exact ih
    · exact .cons ⟨rfl, a⟩ ih

/-! ## the loop -/

theorem write_Lev {S : HSt} {a n : Nat} {o : HObj} (hl : S.lv a = n + 1) : ∀ (m : Nat), m ≤ n →
    ∀ (k : PKey) (v : HVal) (t : PVal), Lev S m k v t → Lev (S.write a o) m k v t :=
  Lev_frame (n := n) (fun b o' hb ho => ⟨by
    rw [write_get, if_neg (by rintro ⟨rfl, _⟩; omega)]; exact ho, rfl⟩)

theorem StepItems_fixed {n : Nat} {e e' : Dict PKey PVal} (H : StepItems n e e') (hf : ∀ k t, (k, t) ∈ e → Ex n k t = .ok t) :
    e' = e := StepItems_fix H (mapVals_id hf)

theorem loop_sim {n : Nat} (h1 : 1 ≤ n) (h2 : n ≤ 4) {f : PKey → HVal → HM HVal} {a : Nat}
    (hf : ∀ (S : HSt) (k : PKey) (v : HVal) (t : PVal), S.h.WF → Lev S n k v t → Sim (f k v) S n k t) :
    ∀ (rest done : Dict PKey HVal) (eDone eRest : Dict PKey PVal) (S : HSt), S.h.WF → S.lv a = n + 1 →
      S.h[a]? = some (.dict (done ++ rest)) → Items (Lev S n) done eDone → (∀ k t, (k, t) ∈ eDone → Ex n k t = .ok t) →
      Items (Lev S n) rest eRest →
      (∀ x, mapVals (Ex n) eRest = .error x → hForLoop f a rest S.h = .error x) ∧
      (∀ eR, mapVals (Ex n) eRest = .ok eR → ∃ (S' : HSt) (d' : Dict PKey HVal), hForLoop f a rest S.h = .ok ((), S'.h) ∧
        Ext (n + 1) S S' ∧ S'.lv a = n + 1 ∧ S'.h[a]? = some (.dict d') ∧ Items (Lev S' n) d' (eDone ++ eR) ∧
        ((∀ k v h r h', f k v h = .ok (r, h') → r = v) → d' = done ++ rest)) := by
  intro rest
  induction rest with
  | nil =>
    intro done eDone eRest S hS hl ha hd _ hr
    cases hr
    refine ⟨fun x hx => by simp [mapVals] at hx, fun eR hR => ?_⟩
    simp only [mapVals, Except.ok.injEq] at hR
    subst hR
    refine ⟨S, done, rfl, Ext_refl hS, hl, by simpa using ha, by simpa using hd, by simp⟩
  | cons kv rest ih =>
    intro done eDone eRest S hS hl ha hd hdf hr
    obtain ⟨k, v⟩ := kv
    cases hr with
    | @cons _ y _ eRest hy hrest =>
      obtain ⟨k', t⟩ := y
      simp only at hy
      obtain ⟨hkk, hy⟩ := hy
      subst hkk
      have hsim := hf S k v t hS hy
      simp only [mapVals, hForLoop, hForStep]
      cases hx : Ex n k t with
      | error x =>
        have := hsim.err x hx
        refine ⟨fun x' hx' => ?_, fun eR hR => by simp at hR⟩
        simp only [Except.error.injEq] at hx'
        subst hx'
        exact hm_bind_err (hm_bind_err this)
      | ok t' =>
        obtain ⟨r, S1, hrun, hlev, hext⟩ := hsim.ok t' hx
        have hlt : a < S.h.length := lt_of_get ha
        have hl1 : S1.lv a = n + 1 := by rw [hext.lv a hlt]; exact hl
        have ha1 := hext.above a _ (by omega) ha
        obtain ⟨eDone1, hd1, hds⟩ := Items_step hd (hext.keep n (by omega))
        have hde := StepItems_fixed hds hdf
        subst hde
        obtain ⟨eRest1, hr1, hrs⟩ := Items_step hrest (hext.keep n (by omega))
        obtain ⟨t1, ht1, hts⟩ := hext.keep n (by omega) k v t hy
        have hm1 := StepItems_mapVals hrs
        -- the assignment
        have hdwf : DWF (done ++ (k, v) :: rest) := hext.wf a _ ha1
        have hk : k ∉ dkeys done := by
          simp only [DWF, dkeys, List.map_append, List.map_cons, List.nodup_append] at hdwf
          exact fun hh => hdwf.2.2 k hh k (by simp) rfl
        have hset : dset (done ++ (k, v) :: rest) k r = (done ++ [(k, r)]) ++ rest := by
          rw [dset_append_of_not_mem hk]; simp [dset]
        have hset' : (done ++ [(k, r)]) ++ rest = done ++ (k, r) :: rest := by simp
        have hi : Items (Lev S1 n) (done ++ (k, v) :: rest) (eDone1 ++ (k, t1) :: eRest1) :=
          Items_append hd1 (.cons ⟨rfl, ht1⟩ hr1)
        have hi' : Items (Lev S1 n) ((done ++ [(k, r)]) ++ rest) ((eDone1 ++ [(k, t')]) ++ eRest1) :=
          Items_append (Items_append hd1 (.cons ⟨rfl, hlev⟩ .nil)) hr1
        have hd' : DWF ((done ++ [(k, r)]) ++ rest) := by
          rw [hset']
          simpa [DWF, dkeys] using hdwf
        have hw1 := Lev_WF hext.wf ht1
        have hx1 : Ex n k t1 = .ok t' := by rw [hts.1.1]; exact hx
        have hse : StepE n k t1 t' := StepE_of_Ex h2 hw1 hx1
        have hewf : DWF (eDone1 ++ (k, t1) :: eRest1) := (Items_DWF hi).2 hdwf
        have hwr := Ext_write hext.wf hl1 ha1 hi hi' hd' (fun kk hkk => by
          refine HStep_lift h1 h2 hewf hkk ?_
          rw [List.append_assoc]
          exact List.rel_append (StepItems_refl _) (.cons ⟨rfl, hse⟩ (StepItems_refl _)))
        have hS2 := hwr.wf
        have hrun2 : hsetItem a k r S1.h = .ok ((), (S1.write a (.dict ((done ++ [(k, r)]) ++ rest))).h) := by
          rw [hsetItem_ok ha1, hset]; rfl
        rw [hm_bind_ok ((hm_bind_ok hrun).trans hrun2)]
        have hdone : Items (Lev (S1.write a (.dict ((done ++ [(k, r)]) ++ rest))) n) (done ++ [(k, r)]) (eDone1 ++ [(k, t')]) :=
          Items_mono (Items_append hd1 (.cons ⟨rfl, hlev⟩ .nil)) fun k v t _ _ h => write_Lev hl1 n (Nat.le_refl n) k v t h
        have hrest2 : Items (Lev (S1.write a (.dict ((done ++ [(k, r)]) ++ rest))) n) rest eRest1 :=
          Items_mono hr1 fun k v t _ _ h => write_Lev hl1 n (Nat.le_refl n) k v t h
        have hfix2 : ∀ k0 t0, (k0, t0) ∈ eDone1 ++ [(k, t')] → Ex n k0 t0 = .ok t0 := by
          intro k0 t0 h0
          rcases List.mem_append.1 h0 with h0 | h0
          · exact hdf k0 t0 h0
          · simp only [List.mem_singleton, Prod.mk.injEq] at h0
            obtain ⟨rfl, rfl⟩ := h0
            exact Ex_idem h2 hw1 hx1
        have hget : (S1.write a (.dict ((done ++ [(k, r)]) ++ rest))).h[a]? = some (.dict ((done ++ [(k, r)]) ++ rest)) := by
          rw [write_get, if_pos ⟨rfl, lt_of_get ha1⟩]
        have IH := ih (done ++ [(k, r)]) (eDone1 ++ [(k, t')]) eRest1 _ hS2 hl1 hget hdone hfix2 hrest2
        rw [hm1] at IH
        refine ⟨fun x hx' => ?_, fun eR hR => ?_⟩
        · refine IH.1 x ?_
          cases hmm : mapVals (Ex n) eRest with
          | error y => rw [hmm] at hx'; simpa using hx'
          | ok y => rw [hmm] at hx'; simp at hx'
        · cases hmm : mapVals (Ex n) eRest with
          | error y => rw [hmm] at hR; simp at hR
          | ok y =>
            rw [hmm] at hR
            simp only [Except.ok.injEq] at hR
            subst hR
            obtain ⟨S', d', g1, g2, g3, g4, g5, g6⟩ := IH.2 y hmm
            refine ⟨S', d', g1, Ext_trans (Ext_trans hext hwr (n := n + 1) (by omega) (Nat.le_refl _)) g2 (Nat.le_refl _) (Nat.le_refl _), g3, g4, ?_, ?_⟩
            · simpa using g5
            · intro hs
              rw [g6 hs, hs k v S.h r S1.h hrun]
              simp

/-! ## the single functions -/

/-- The dict at address `a` is of level `n + 1` with the tree `e`. -/
structure DictIs (S : HSt) (n : Nat) (a : Nat) (d : Dict PKey HVal) (e : Dict PKey PVal) : Prop where
  lv : S.lv a = n + 1
  obj : S.h[a]? = some (.dict d)
  items : Items (Lev S n) d e

theorem DictIs_Lev {S : HSt} {n a : Nat} {d : Dict PKey HVal} {e : Dict PKey PVal} (H : DictIs S n a d e) (k : PKey)
    (hc : ¬ (n = 2 ∧ k = .str "any_os" ∧ instLike (.dict e) = true)) : Lev S (n + 1) k (.ref a) (.dict e) := by
  rw [Lev_pos hc]
  exact ⟨a, d, rfl, H.lv, H.obj, H.items⟩

theorem wrap_sim {S : HSt} (hS : S.h.WF) {n : Nat} {kw : String} {v : HVal} {t : PVal} (ht : Lev S n (.str kw) v t) :
    ∃ (a : Nat) (S' : HSt), hwrap kw v S.h = .ok (a, S'.h) ∧ Ext 0 S S' ∧ DictIs S' n a [(.str kw, v)] [(.str kw, t)] := by
  refine ⟨S.h.length, S.alloc (.dict [(.str kw, v)]) (n + 1), rfl, Ext_alloc hS (fun d hd => ?_) _, ⟨alloc_new_lv, alloc_new, ?_⟩⟩
  · injection hd with hd; subst hd; simp [DWF, dkeys]
  · exact .cons ⟨rfl, alloc_Lev n _ _ _ ht⟩ .nil

theorem list_sim {S : HSt} (hS : S.h.WF) (l : List HVal) (ts : List PVal) (hl : ListAt S.h (fun a => S.lv a = 0) l ts) :
    ∃ (a : Nat) (S' : HSt), halloc (.list l) S.h = .ok (a, S'.h) ∧ Ext 0 S S' ∧ ∀ n k, Lev S' n k (.ref a) (.list ts) := by
  refine ⟨S.h.length, S.alloc (.list l) 0, rfl, Ext_alloc hS (fun d hd => by simp at hd) _, fun n k => ?_⟩
  rw [Lev_nondict rfl]
  simp only [TreeAt]
  refine ⟨_, l, rfl, alloc_new_lv, alloc_new, ListAt_mono (fun a o ha ho => ⟨?_, alloc_old ho⟩) l ts hl⟩
  rw [alloc_lv (lt_of_get ho)]; exact ha

/-- The up-conversion. -/
theorem up_sim {S : HSt} (hS : S.h.WF) {n : Nat} {kw : String} {v : HVal} {t : PVal} (ht : DictAt S (n + 1) (Lev S n) v t) :
    (∀ x, upConvert kw t = .error x → hUpConvert kw v S.h = .error x) ∧
    (∀ e, upConvert kw t = .ok e → ∃ (a : Nat) (d : Dict PKey HVal) (S' : HSt), hUpConvert kw v S.h = .ok (a, S'.h) ∧
      Ext 0 S S' ∧ DictIs S' n a d e) := by
  cases t with
  | none =>
    simp only [DictAt, TreeAt] at ht
    subst ht
    refine ⟨fun x hx => by simp [upConvert] at hx, fun e he => ?_⟩
    simp only [upConvert, Except.ok.injEq] at he
    subst he
    obtain ⟨l, S1, h1, h2, h3⟩ := list_sim hS [] [] (by simp [ListAt])
    obtain ⟨a, S2, h4, h5, h6⟩ := wrap_sim (kw := kw) h2.wf (h3 n (.str kw))
    exact ⟨a, _, S2, (hm_bind_ok h1).trans h4, Ext_trans h2 h5 (Nat.le_refl _) (Nat.le_refl _), h6⟩
  | str s =>
    simp only [DictAt, TreeAt] at ht
    subst ht
    refine ⟨fun x hx => by simp [upConvert] at hx, fun e he => ?_⟩
    simp only [upConvert, Except.ok.injEq] at he
    subst he
    obtain ⟨l, S1, h1, h2, h3⟩ := list_sim hS [.str s] [.str s] (by simp [ListAt, TreeAt])
    obtain ⟨a, S2, h4, h5, h6⟩ := wrap_sim (kw := kw) h2.wf (h3 n (.str kw))
    exact ⟨a, _, S2, (hm_bind_ok h1).trans h4, Ext_trans h2 h5 (Nat.le_refl _) (Nat.le_refl _), h6⟩
  | list ts =>
    have ht0 : Lev S n (.str kw) v (.list ts) := (Lev_nondict rfl).2 ht
    simp only [DictAt, TreeAt] at ht
    obtain ⟨b, l, rfl, hb, hg, hl⟩ := ht
    refine ⟨fun x hx => by simp [upConvert] at hx, fun e he => ?_⟩
    simp only [upConvert, Except.ok.injEq] at he
    subst he
    obtain ⟨a, S2, h4, h5, h6⟩ := wrap_sim (kw := kw) hS ht0
    exact ⟨a, _, S2, (hm_bind_ok (hread_ok hg)).trans h4, h5, h6⟩
  | dict e =>
    obtain ⟨b, d, rfl, hb, hg, hl⟩ := ht
    refine ⟨fun x hx => by simp [upConvert] at hx, fun e' he => ?_⟩
    simp only [upConvert, Except.ok.injEq] at he
    subst he
    exact ⟨b, d, S, (hm_bind_ok (hread_ok hg)).trans rfl, Ext_refl hS, ⟨hb, hg, hl⟩⟩
  | bool b =>
    simp only [DictAt, TreeAt] at ht
    subst ht
    refine ⟨fun x hx => ?_, fun e he => by simp [upConvert] at he⟩
    simp only [upConvert, Except.error.injEq] at hx
    subst hx; rfl
  | int b =>
    simp only [DictAt, TreeAt] at ht
    subst ht
    refine ⟨fun x hx => ?_, fun e he => by simp [upConvert] at he⟩
    simp only [upConvert, Except.error.injEq] at hx
    subst hx; rfl
  | other b =>
    simp only [DictAt, TreeAt] at ht
    subst ht
    refine ⟨fun x hx => ?_, fun e he => by simp [upConvert] at he⟩
    simp only [upConvert, Except.error.injEq] at hx
    subst hx; rfl

theorem isEmpty_sim {S : HSt} {v : HVal} {t : PVal} (ht : TreeAt S.h (fun a => S.lv a = 0) v t) :
    hIsEmptyList v S.h = .ok (pyEq t (.list []), S.h) := by
  cases t with
  | list ts =>
    simp only [TreeAt] at ht
    obtain ⟨b, l, rfl, hb, hg, hl⟩ := ht
    have : (hIsEmptyList (.ref b)) S.h = .ok (l.isEmpty, S.h) := (hm_bind_ok (hread_ok hg)).trans rfl
    rw [this]
    congr 2
    cases ts with
    | nil => simp only [ListAt] at hl; subst hl; rfl
    | cons x ts => simp only [ListAt] at hl; obtain ⟨_, _, rfl, _⟩ := hl; rfl
  | dict e =>
    simp only [TreeAt] at ht
    obtain ⟨b, l, rfl, hb, hg, hl⟩ := ht
    exact (hm_bind_ok (hread_ok hg)).trans rfl
  | _ => simp only [TreeAt] at ht; subst ht; rfl

end Verif
