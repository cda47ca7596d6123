import Verif.Lemmas.HeapSim
/-!
# Expansion in memory follows expansion of trees: the functions of each level
-/
namespace Verif

theorem expandDefinition_dict (e : Dict PKey PVal) :
    expandDefinition (.dict e) = .ok (.dict (normDepends (normPackages e))) := rfl

theorem listify_listify (t : PVal) : listify (listify t) = listify t := by cases t <;> rfl

theorem dget_dset_same {κ β : Type} [DecidableEq κ] (d : Dict κ β) (k : κ) (v : β) : dget (dset d k v) k = some v := by
  rw [dget_set, if_pos rfl]

theorem listify_not {t : PVal} : listify t ≠ .none ∧ ∀ s, listify t ≠ .str s := by
  cases t <;> simp [listify]

theorem listify_fix {t : PVal} (h : t ≠ .none ∧ ∀ s, t ≠ .str s) : listify t = t := by
  cases t <;> simp_all [listify]

theorem normPackages_some {e : Dict PKey PVal} {t : PVal} (h : dget e (.str "packages") = some t) :
    normPackages e = dset e (.str "packages") (listify t) := by
  unfold normPackages
  rw [h]
  cases t <;> simp [listify, dset_self_of_dget h]

theorem normPackages_none {e : Dict PKey PVal} (h : dget e (.str "packages") = none) : normPackages e = e := by
  unfold normPackages; rw [h]

theorem normPackages_fix {e : Dict PKey PVal} (h : ∀ p, dget e (.str "packages") = some p → p ≠ .none ∧ ∀ s, p ≠ .str s) :
    normPackages e = e := by
  cases hg : dget e (.str "packages") with
  | none => exact normPackages_none hg
  | some p => rw [normPackages_some hg, listify_fix (h p hg), dset_self_of_dget hg]

theorem normDepends_some {e : Dict PKey PVal} {t : PVal} (h : dget e (.str "depends") = some t) :
    normDepends e = if pyEq (listify t) (.list []) then ddel (dset e (.str "depends") (listify t)) (.str "depends")
      else dset e (.str "depends") (listify t) := by
  unfold normDepends; rw [h]

theorem normDepends_none {e : Dict PKey PVal} (h : dget e (.str "depends") = none) : normDepends e = e := by
  unfold normDepends; rw [h]

theorem instLike_dset {e : Dict PKey PVal} {K : PKey} {x : PVal} (hK : K ≠ .str "any_version") :
    instLike (.dict (dset e K x)) = instLike (.dict e) := by
  simp only [instLike, dhas]
  rw [dget_set, if_neg hK]

theorem instLike_ddel {e : Dict PKey PVal} {K : PKey} (hK : K ≠ .str "any_version") :
    instLike (.dict (ddel e K)) = instLike (.dict e) := by
  simp only [instLike, dhas]
  rw [dget_del, if_neg hK]

theorem ex1_expanded {e : Dict PKey PVal} (hw : (PVal.dict e).WF) {k : PKey} (h : Ex 1 k (.dict e) = .ok (.dict e)) :
    ExpandedRule (.dict e) := expandDefinition_spec hw h

theorem ex1_packages {e : Dict PKey PVal} (hw : (PVal.dict e).WF) {k : PKey} (h : Ex 1 k (.dict e) = .ok (.dict e)) {p : PVal}
    (hp : dget e (.str "packages") = some p) : listify p = p := by
  obtain ⟨d, hd, h1, _⟩ := ex1_expanded hw h
  injection hd with hd; subst hd
  exact listify_fix (h1 p (dget_some_mem hp))

theorem ex1_depends {e : Dict PKey PVal} (hw : (PVal.dict e).WF) {k : PKey} (h : Ex 1 k (.dict e) = .ok (.dict e)) {p : PVal}
    (hp : dget e (.str "depends") = some p) : listify p = p ∧ p ≠ .list [] := by
  obtain ⟨d, hd, _, h1⟩ := ex1_expanded hw h
  injection hd with hd; subst hd
  have := h1 p (dget_some_mem hp)
  exact ⟨listify_fix ⟨this.1, this.2.1⟩, this.2.2⟩

theorem step_packages {e : Dict PKey PVal} (hw : (PVal.dict e).WF) {t : PVal} (hg : dget e (.str "packages") = some t) (k : PKey) :
    HStep 1 k (.dict e) (.dict (dset e (.str "packages") (listify t))) := by
  refine ⟨⟨?_, fun hf => ?_⟩, instLike_dset (by decide)⟩
  · show expandDefinition _ = expandDefinition _
    rw [expandDefinition_dict, expandDefinition_dict, ← normPackages_some hg]
    rw [normPackages_fix (e := normPackages e)]
    intro p hp
    rw [normPackages_some hg, dget_dset_same] at hp
    injection hp with hp
    rw [← hp]
    exact listify_not
  · rw [ex1_packages hw hf hg, dset_self_of_dget hg]

/-- `packages` is done. -/
def PackagesDone (e : Dict PKey PVal) : Prop := ∀ p, dget e (.str "packages") = some p → p ≠ .none ∧ ∀ s, p ≠ .str s

theorem PackagesDone_set {e : Dict PKey PVal} (h : PackagesDone e) (x : PVal) : PackagesDone (dset e (.str "depends") x) := by
  intro p hp
  rw [dget_set, if_neg (by decide)] at hp
  exact h p hp

theorem PackagesDone_del {e : Dict PKey PVal} (h : PackagesDone e) : PackagesDone (ddel e (.str "depends")) := by
  intro p hp
  rw [dget_del, if_neg (by decide)] at hp
  exact h p hp

theorem step_depends {e : Dict PKey PVal} (hw : (PVal.dict e).WF) (hp : PackagesDone e) {t : PVal}
    (hg : dget e (.str "depends") = some t) (k : PKey) :
    HStep 1 k (.dict e) (.dict (dset e (.str "depends") (listify t))) := by
  refine ⟨⟨?_, fun hf => ?_⟩, instLike_dset (by decide)⟩
  · show expandDefinition _ = expandDefinition _
    rw [expandDefinition_dict, expandDefinition_dict, normPackages_fix hp, normPackages_fix (PackagesDone_set hp _)]
    rw [normDepends_some hg, normDepends_some (dget_dset_same e _ _), listify_listify,
      dset_self_of_dget (dget_dset_same e (.str "depends") (listify t))]
  · rw [(ex1_depends hw hf hg).1, dset_self_of_dget hg]

theorem step_drop {e : Dict PKey PVal} (hw : (PVal.dict e).WF) (hp : PackagesDone e)
    (hg : dget e (.str "depends") = some (.list [])) (k : PKey) :
    HStep 1 k (.dict e) (.dict (ddel e (.str "depends"))) := by
  refine ⟨⟨?_, fun hf => absurd rfl (ex1_depends hw hf hg).2⟩, instLike_ddel (by decide)⟩
  show expandDefinition _ = expandDefinition _
  rw [expandDefinition_dict, expandDefinition_dict, normPackages_fix hp, normPackages_fix (PackagesDone_del hp)]
  have h1 : dget (ddel e (.str "depends")) (.str "depends") = none := by rw [dget_del, if_pos rfl]
  rw [normDepends_some hg, normDepends_none h1]
  have h2 : pyEq (listify (.list [])) (.list []) = true := rfl
  rw [if_pos h2]
  rw [show listify (.list []) = .list [] from rfl, dset_self_of_dget hg]

/-- Replacing the object at `a`, as a simulation step. -/
theorem DictIs_write {S : HSt} (hS : S.h.WF) {n a : Nat} {d d' : Dict PKey HVal} {e e' : Dict PKey PVal} (H : DictIs S n a d e)
    (hi' : Items (Lev S n) d' e') (hd' : DWF d')
    (hstep : ∀ k, ¬ (n = 2 ∧ k = .str "any_os" ∧ instLike (.dict e) = true) → HStep (n + 1) k (.dict e) (.dict e')) :
    ∃ S' : HSt, S'.h = S.h.set a (.dict d') ∧ Ext (n + 1) S S' ∧ DictIs S' n a d' e' := by
  refine ⟨S.write a (.dict d'), rfl, Ext_write hS H.lv H.obj H.items hi' hd' hstep, H.lv, ?_, ?_⟩
  · rw [write_get, if_pos ⟨rfl, lt_of_get H.obj⟩]
  · exact Items_mono hi' fun k v t _ _ h => write_Lev H.lv n (Nat.le_refl n) k v t h

theorem DictIs_alloc {S : HSt} {o : HObj} {m n a : Nat} {d : Dict PKey HVal} {e : Dict PKey PVal} (H : DictIs S n a d e) :
    DictIs (S.alloc o m) n a d e :=
  ⟨by rw [alloc_lv (lt_of_get H.obj)]; exact H.lv, alloc_old H.obj, Items_mono H.items fun k v t _ _ h => alloc_Lev n k v t h⟩

theorem DictIs_WF {S : HSt} (hS : S.h.WF) {n a : Nat} {d : Dict PKey HVal} {e : Dict PKey PVal} (H : DictIs S n a d e) :
    (PVal.dict e).WF := by
  refine TreeAt_WF hS (.ref a) (.dict e) (P := fun _ => True) ?_
  simp only [TreeAt]
  exact ⟨a, d, rfl, trivial, H.obj, ItemsAt_iff.2 (Items_mono H.items fun k v t _ _ h => Lev_out n k v t h)⟩

theorem listify_sim {S : HSt} (hS : S.h.WF) {a : Nat} {d : Dict PKey HVal} {e : Dict PKey PVal} (H : DictIs S 0 a d e) {K : PKey}
    {v : HVal} {t : PVal} (hg : dget e K = some t) (hv : dget d K = some v) (ht : Lev S 0 K v t)
    (hstep : ∀ k, HStep 1 k (.dict e) (.dict (dset e K (listify t)))) :
    ∃ (S' : HSt) (d' : Dict PKey HVal), hListify a K v S.h = .ok ((), S'.h) ∧ Ext 1 S S' ∧
      DictIs S' 0 a d' (dset e K (listify t)) := by
  have hd : DWF d := hS a d H.obj
  have new : ∀ (l : List HVal) (ts : List PVal), ListAt S.h (fun a => S.lv a = 0) l ts → listify t = .list ts →
      hListify a K v = (do let x ← halloc (.list l); hsetItem a K (.ref x)) →
      ∃ (S' : HSt) (d' : Dict PKey HVal), hListify a K v S.h = .ok ((), S'.h) ∧ Ext 1 S S' ∧
        DictIs S' 0 a d' (dset e K (listify t)) := by
    intro l ts hl hlt hrun
    have hext := Ext_alloc hS (o := .list l) (fun d hd => by simp at hd) 0
    have hat := DictIs_alloc (o := .list l) (m := 0) H
    have hnew : Lev (S.alloc (.list l) 0) 0 K (.ref S.h.length) (listify t) := by
      rw [hlt, Lev_nondict rfl]
      simp only [TreeAt]
      refine ⟨_, l, rfl, alloc_new_lv, alloc_new, ListAt_mono (fun a o ha ho => ⟨?_, alloc_old ho⟩) l ts hl⟩
      rw [alloc_lv (lt_of_get ho)]; exact ha
    obtain ⟨S', h1, h2, h3⟩ := DictIs_write hext.wf hat (Items_dset hat.items hnew) (DWF_set hd K (.ref S.h.length))
      (fun k _ => hstep k)
    refine ⟨S', _, ?_, Ext_trans hext h2 (by omega) (Nat.le_refl _), h3⟩
    rw [hrun, hm_bind_ok (show halloc (.list l) S.h = .ok (S.h.length, (S.alloc (.list l) 0).h) from rfl),
      hsetItem_ok hat.obj, h1]
  cases t with
  | none =>
    simp only [Lev, TreeAt] at ht
    subst ht
    exact new [] [] (by simp [ListAt]) rfl rfl
  | str s =>
    simp only [Lev, TreeAt] at ht
    subst ht
    exact new [.str s] [.str s] (by simp [ListAt, TreeAt]) rfl rfl
  | list ts =>
    simp only [Lev, TreeAt] at ht
    obtain ⟨b, l, rfl, _⟩ := ht
    refine ⟨S, d, rfl, Ext_refl hS, ?_⟩
    rw [show listify (.list ts) = .list ts from rfl, dset_self_of_dget hg]; exact H
  | dict ts =>
    simp only [Lev, TreeAt] at ht
    obtain ⟨b, l, rfl, _⟩ := ht
    refine ⟨S, d, rfl, Ext_refl hS, ?_⟩
    rw [show listify (.dict ts) = .dict ts from rfl, dset_self_of_dget hg]; exact H
  | bool b =>
    simp only [Lev, TreeAt] at ht
    subst ht
    refine ⟨S, d, rfl, Ext_refl hS, ?_⟩
    rw [show listify (.bool b) = .bool b from rfl, dset_self_of_dget hg]; exact H
  | int b =>
    simp only [Lev, TreeAt] at ht
    subst ht
    refine ⟨S, d, rfl, Ext_refl hS, ?_⟩
    rw [show listify (.int b) = .int b from rfl, dset_self_of_dget hg]; exact H
  | other b =>
    simp only [Lev, TreeAt] at ht
    subst ht
    refine ⟨S, d, rfl, Ext_refl hS, ?_⟩
    rw [show listify (.other b) = .other b from rfl, dset_self_of_dget hg]; exact H

theorem normPackages_sim {S : HSt} (hS : S.h.WF) {a : Nat} {d : Dict PKey HVal} {e : Dict PKey PVal} (H : DictIs S 0 a d e) :
    ∃ (S' : HSt) (d' : Dict PKey HVal), hNormPackages a S.h = .ok ((), S'.h) ∧ Ext 1 S S' ∧ DictIs S' 0 a d' (normPackages e) := by
  unfold hNormPackages
  rw [hm_bind_ok (hitems_ok H.obj)]
  rcases Items_dget H.items (.str "packages") with ⟨h1, h2⟩ | ⟨v, t, h1, h2, h3⟩
  · rw [h1, normPackages_none h2]
    exact ⟨S, d, rfl, Ext_refl hS, H⟩
  · rw [h1, normPackages_some h2]
    exact listify_sim hS H h2 h1 h3 (step_packages (DictIs_WF hS H) h2)

theorem normDepends_sim {S : HSt} (hS : S.h.WF) {a : Nat} {d : Dict PKey HVal} {e : Dict PKey PVal} (H : DictIs S 0 a d e)
    (hp : PackagesDone e) :
    ∃ (S' : HSt) (d' : Dict PKey HVal), hNormDepends a S.h = .ok ((), S'.h) ∧ Ext 1 S S' ∧ DictIs S' 0 a d' (normDepends e) := by
  unfold hNormDepends
  rw [hm_bind_ok (hitems_ok H.obj)]
  rcases Items_dget H.items (.str "depends") with ⟨h1, h2⟩ | ⟨v, t, h1, h2, h3⟩
  · rw [h1, normDepends_none h2]
    exact ⟨S, d, rfl, Ext_refl hS, H⟩
  · rw [h1]
    simp only
    obtain ⟨S1, d1, g1, g2, g3⟩ := listify_sim hS H h2 h1 h3 (step_depends (DictIs_WF hS H) hp h2)
    rw [hm_bind_ok g1]
    unfold hDropDepends
    rw [hm_bind_ok (hitems_ok g3.obj)]
    rcases Items_dget g3.items (.str "depends") with ⟨k1, k2⟩ | ⟨v', t', k1, k2, k3⟩
    · rw [dget_dset_same] at k2; exact absurd k2 (by simp)
    · rw [dget_dset_same] at k2
      injection k2 with k2
      subst k2
      rw [k1]
      simp only
      rw [hm_bind_ok (isEmpty_sim k3), normDepends_some h2]
      by_cases hb : pyEq (listify t) (.list []) = true
      · rw [if_pos hb, if_pos hb]
        rw [pyEq_nil] at hb
        rw [hb] at g3 ⊢
        obtain ⟨S2, m1, m2, m3⟩ := DictIs_write g2.wf g3 (Items_ddel g3.items (.str "depends")) (DWF_del (g2.wf a d1 g3.obj) _)
          (fun k _ => step_drop (DictIs_WF g2.wf g3) (PackagesDone_set hp _) (dget_dset_same e _ _) k)
        exact ⟨S2, _, by rw [m1]; rfl, Ext_trans g2 m2 (Nat.le_refl _) (Nat.le_refl _), m3⟩
      · rw [if_neg hb, if_neg hb]
        exact ⟨S1, d1, rfl, g2, g3⟩

/-- `expand_definition`. -/
theorem definition_sim {S : HSt} (hS : S.h.WF) {k : PKey} {v : HVal} {t : PVal} (ht : Lev S 1 k v t) :
    Sim (hExpandDefinition v) S 1 k t := by
  rw [Lev_pos (by simp)] at ht
  obtain ⟨h1, h2⟩ := up_sim (kw := "packages") hS ht
  refine ⟨fun x hx => ?_, fun t' ht' => ?_⟩
  · refine hm_bind_err (h1 x ?_)
    cases hu : upConvert "packages" t with
    | error y =>
      have : expandDefinition t = .error x := hx
      simp only [expandDefinition, hu, bind, Except.bind, Except.error.injEq] at this
      rw [this]
    | ok y =>
      have : expandDefinition t = .error x := hx
      simp [expandDefinition, hu, bind, Except.bind, pure, Except.pure] at this
  · have ht2 : expandDefinition t = .ok t' := ht'
    unfold expandDefinition at ht2
    obtain ⟨e, he, hw⟩ := Except_bind_ok.1 ht2
    rw [pure_ok] at hw; subst hw
    obtain ⟨a, d, S1, g1, g2, g3⟩ := h2 e he
    obtain ⟨S2, d2, m1, m2, m3⟩ := normPackages_sim g2.wf g3
    have hp : PackagesDone (normPackages e) := by
      intro p hp
      have := normPackages_packages e
      exact ⟨fun h => this.1 (h ▸ hp), fun s h => this.2 s (h ▸ hp)⟩
    obtain ⟨S3, d3, n1, n2, n3⟩ := normDepends_sim m2.wf m3 hp
    refine ⟨.ref a, S3, ?_, DictIs_Lev n3 k (by simp), Ext_trans (Ext_trans g2 m2 (n := 1) (by omega) (Nat.le_refl _)) n2 (Nat.le_refl _) (Nat.le_refl _)⟩
    unfold hExpandDefinition
    rw [hm_bind_ok g1, hm_bind_ok m1, hm_bind_ok n1]
    rfl

/-- The item loop of a dict of level `n + 1`. -/
theorem items_sim {n : Nat} (h1 : 1 ≤ n) (h2 : n ≤ 4) {f : PKey → HVal → HM HVal}
    (hf : ∀ (S : HSt) (k : PKey) (v : HVal) (t : PVal), S.h.WF → Lev S n k v t → Sim (f k v) S n k t)
    {S : HSt} (hS : S.h.WF) {a : Nat} {d : Dict PKey HVal} {e : Dict PKey PVal} (H : DictIs S n a d e) :
    (∀ x, mapVals (Ex n) e = .error x → hForItems f a S.h = .error x) ∧
    (∀ e', mapVals (Ex n) e = .ok e' → ∃ (S' : HSt) (d' : Dict PKey HVal), hForItems f a S.h = .ok ((), S'.h) ∧
      Ext (n + 1) S S' ∧ DictIs S' n a d' e' ∧ ((∀ k v h r h', f k v h = .ok (r, h') → r = v) → d' = d)) := by
  have := loop_sim h1 h2 hf (a := a) d [] [] e S hS H.lv (by simpa using H.obj) .nil (by simp) H.items
  unfold hForItems
  rw [hm_bind_ok (hitems_ok H.obj)]
  refine ⟨this.1, fun e' he' => ?_⟩
  obtain ⟨S', d', g1, g2, g3, g4, g5, g6⟩ := this.2 e' he'
  exact ⟨S', d', g1, g2, ⟨g3, g4, by simpa using g5⟩, fun hs => by simpa using g6 hs⟩

/-- `expand_installer_definition`. -/
theorem installer_sim {S : HSt} (hS : S.h.WF) {k : PKey} {v : HVal} {t : PVal} (ht : Lev S 2 k v t) :
    Sim (hExpandInstaller v) S 2 k t := by
  rw [Lev_pos (by simp)] at ht
  obtain ⟨h1, h2⟩ := up_sim (kw := "default_installer") hS ht
  have hcases : ∀ e, upConvert "default_installer" t = .ok e → DWF e →
      expandInstallerDefinition t = (mapVals (Ex 1) e).map PVal.dict := by
    intro e he hd
    simp only [expandInstallerDefinition, he, bind, Except.bind, pure, Except.pure]
    rw [forItems_eq _ hd]
    rfl
  cases hu : upConvert "default_installer" t with
  | error y =>
    refine ⟨fun x hx => ?_, fun t' ht' => ?_⟩
    · have : expandInstallerDefinition t = .error x := hx
      simp only [expandInstallerDefinition, hu, bind, Except.bind, Except.error.injEq] at this
      subst this
      exact hm_bind_err (h1 y hu)
    · have : expandInstallerDefinition t = .ok t' := ht'
      simp [expandInstallerDefinition, hu, bind, Except.bind] at this
  | ok e =>
    obtain ⟨a, d, S1, g1, g2, g3⟩ := h2 e hu
    have hd : DWF e := (Items_DWF g3.items).2 (g2.wf a d g3.obj)
    have hex : Ex 2 k t = (mapVals (Ex 1) e).map PVal.dict := hcases e hu hd
    obtain ⟨m1, m2⟩ := items_sim (n := 1) (Nat.le_refl _) (by omega) (f := fun _ v => hExpandDefinition v)
      (fun S k v t hS ht => definition_sim hS ht) g2.wf g3
    refine ⟨fun x hx => ?_, fun t' ht' => ?_⟩
    · rw [hex] at hx
      unfold hExpandInstaller
      rw [hm_bind_ok g1]
      refine hm_bind_err (m1 x ?_)
      cases hm : mapVals (Ex 1) e with
      | error y => rw [hm] at hx; simpa [Except.map] using hx
      | ok y => rw [hm] at hx; simp [Except.map] at hx
    · rw [hex] at ht'
      cases hm : mapVals (Ex 1) e with
      | error y => rw [hm] at ht'; simp [Except.map] at ht'
      | ok y =>
        rw [hm] at ht'
        simp only [Except.map, Except.ok.injEq] at ht'
        subst ht'
        obtain ⟨S2, d2, n1, n2, n3, -⟩ := m2 y hm
        refine ⟨.ref a, S2, ?_, DictIs_Lev n3 k (by simp), Ext_trans g2 n2 (by omega) (Nat.le_refl _)⟩
        unfold hExpandInstaller
        rw [hm_bind_ok g1, hm_bind_ok n1]
        rfl

theorem isDict_none {S : HSt} {v : HVal} {t : PVal} (hd : t.isDict = false) (ht : TreeAt S.h (fun a => S.lv a = 0) v t) :
    hIsDict v S.h = .ok (none, S.h) := by
  cases t with
  | list ts =>
    simp only [TreeAt] at ht
    obtain ⟨b, l, rfl, hb, hg, hl⟩ := ht
    exact (hm_bind_ok (hread_ok hg)).trans rfl
  | dict e => simp [PVal.isDict] at hd
  | _ => simp only [TreeAt] at ht; subst ht; rfl

theorem isDict_some {h : Heap} {a : Nat} {d : Dict PKey HVal} (hg : h[a]? = some (.dict d)) :
    hIsDict (.ref a) h = .ok (some a, h) := (hm_bind_ok (hread_ok hg)).trans rfl

theorem dhas_keys {d : Dict PKey HVal} {e : Dict PKey PVal} (h : dkeys d = dkeys e) (k : PKey) : dhas d k = dhas e k := by
  rw [Bool.eq_iff_iff, dhas_iff, dhas_iff, h]

/-- The end of `expand_os_version_definition`: the loop over a version dict. -/
theorem version_loop {S S1 : HSt} {k : PKey} {v : HVal} {t : PVal} {a : Nat} {d : Dict PKey HVal} {e : Dict PKey PVal}
    (hext : Ext 0 S S1) (hat : DictIs S1 2 a d e) (hc : ¬ (k = .str "any_os" ∧ instLike (.dict e) = true))
    (hrun : hExpandOsVersion k v S.h = (hForItems (fun _ v => hExpandInstaller v) a >>= fun _ => pure (.ref a)) S1.h)
    (hex : Ex 3 k t = (mapVals (Ex 2) e).map PVal.dict) : Sim (hExpandOsVersion k v) S 3 k t := by
  obtain ⟨m1, m2⟩ := items_sim (n := 2) (by omega) (by omega) (f := fun _ v => hExpandInstaller v)
      (fun S k v t hS ht => installer_sim hS ht) hext.wf hat
  refine ⟨fun x hx => ?_, fun t' ht' => ?_⟩
  · rw [hex] at hx
    rw [hrun]
    refine hm_bind_err (m1 x ?_)
    cases hm : mapVals (Ex 2) e with
    | error y => rw [hm] at hx; simpa [Except.map] using hx
    | ok y => rw [hm] at hx; simp [Except.map] at hx
  · rw [hex] at ht'
    cases hm : mapVals (Ex 2) e with
    | error y => rw [hm] at ht'; simp [Except.map] at ht'
    | ok y =>
      rw [hm] at ht'
      simp only [Except.map, Except.ok.injEq] at ht'
      subst ht'
      obtain ⟨S2, d2, n1, n2, n3, -⟩ := m2 y hm
      refine ⟨.ref a, S2, ?_, DictIs_Lev n3 k ?_, Ext_trans hext n2 (by omega) (Nat.le_refl _)⟩
      · rw [hrun, hm_bind_ok n1]; rfl
      · rw [instLike_keys (mapVals_keys hm)]
        rintro ⟨_, h⟩
        exact hc h

theorem anyOsWrap_ok {k : PKey} {e : Dict PKey PVal} (hc : ¬ (k = .str "any_os" ∧ instLike (.dict e) = true)) :
    anyOsWrap k e = if anyOsBad 2 k e then .error .valueError else .ok e := by
  unfold anyOsWrap
  by_cases hk : k = .str "any_os"
  · have hi : dhas e (.str "any_version") = true := by
      by_contra hne
      exact hc ⟨hk, by simpa [instLike] using hne⟩
    rw [if_pos hk, if_pos hi]
    by_cases hl : e.length = 1
    · rw [if_neg (show ¬ anyOsBad 2 k e by simp [anyOsBad, hl])]
      simp [hl]
    · rw [if_pos (show anyOsBad 2 k e from ⟨rfl, hk, hl⟩)]
      simp [hl]
  · rw [if_neg hk, if_neg (show ¬ anyOsBad 2 k e by simp [anyOsBad, hk])]

theorem hAnyOs_ok {k : PKey} {h : Heap} {a : Nat} {d : Dict PKey HVal} {e : Dict PKey PVal} (hg : h[a]? = some (.dict d))
    (hk : dkeys d = dkeys e) (hc : ¬ (k = .str "any_os" ∧ instLike (.dict e) = true)) :
    hAnyOs k a h = if anyOsBad 2 k e then .error .valueError else .ok (a, h) := by
  unfold hAnyOs
  have hlen : d.length = e.length := by
    have := congrArg List.length hk
    simpa [dkeys] using this
  by_cases ho : k = .str "any_os"
  · have hi : dhas e (.str "any_version") = true := by
      by_contra hne
      exact hc ⟨ho, by simpa [instLike] using hne⟩
    rw [if_pos ho, hm_bind_ok (hitems_ok hg), if_pos (by rw [dhas_keys hk]; exact hi), hlen]
    by_cases hl : e.length = 1
    · rw [if_neg (show ¬ anyOsBad 2 k e by simp [anyOsBad, hl])]
      simp [hl, hm_pure]
    · rw [if_pos (show anyOsBad 2 k e from ⟨rfl, ho, hl⟩)]
      simp [hl, hraise]
  · rw [if_neg ho, if_neg (show ¬ anyOsBad 2 k e by simp [anyOsBad, ho])]
    rfl

/-- `expand_os_version_definition`. -/
theorem version_sim {S : HSt} (hS : S.h.WF) {k : PKey} {v : HVal} {t : PVal} (ht : Lev S 3 k v t) :
    Sim (hExpandOsVersion k v) S 3 k t := by
  by_cases hc : k = .str "any_os" ∧ instLike t = true
  · obtain ⟨rfl, hi⟩ := hc
    rw [Lev_anyos hi] at ht
    have ht2 : Lev S 2 (.str "any_version") v t := Lev_key (by decide) ht
    cases t with
    | dict e =>
      rw [Lev_pos (by simp)] at ht
      obtain ⟨a, d, rfl, hl, hg, hit⟩ := ht
      have hk := Items_keys hit
      have hnv : dhas e (.str "any_version") = false := by simpa [instLike] using hi
      obtain ⟨b, S1, g1, g2, g3⟩ := wrap_sim (kw := "any_version") hS ht2
      refine version_loop g2 g3 (by simp [instLike, dhas, dget]) ?_ ?_
      · unfold hExpandOsVersion
        have hu : hUpConvert "any_version" (.ref a) S.h = .ok (a, S.h) := (hm_bind_ok (hread_ok hg)).trans rfl
        have ha : hAnyOs (.str "any_os") a S.h = .ok (b, S1.h) := by
          unfold hAnyOs
          rw [if_pos rfl, hm_bind_ok (hitems_ok hg), if_neg (by rw [dhas_keys hk, hnv]; decide)]
          exact g1
        rw [hm_bind_ok hu, hm_bind_ok ha]
      · show expandOsVersionDefinition _ _ = _
        rw [expandVersion_eq]
        have hw : anyOsWrap (.str "any_os") e = .ok [(.str "any_version", .dict e)] := by
          unfold anyOsWrap
          rw [if_pos rfl, if_neg (by rw [hnv]; decide)]
        simp only [upConvert, bind, Except.bind, pure, Except.pure, hw]
        rw [forItems_eq _ (by simp [DWF, dkeys])]
        rfl
    | _ => simp [instLike] at hi
  · rw [Lev_pos (by rintro ⟨_, h⟩; exact hc h)] at ht
    obtain ⟨h1, h2⟩ := up_sim (kw := "any_version") hS ht
    cases hu : upConvert "any_version" t with
    | error y =>
      refine ⟨fun x hx => ?_, fun t' ht' => ?_⟩
      · have : expandOsVersionDefinition k t = .error x := hx
        rw [expandVersion_eq] at this
        simp only [hu, bind, Except.bind, Except.error.injEq] at this
        subst this
        exact hm_bind_err (h1 y hu)
      · have : expandOsVersionDefinition k t = .ok t' := ht'
        rw [expandVersion_eq] at this
        simp [hu, bind, Except.bind] at this
    | ok e =>
      obtain ⟨a, d, S1, g1, g2, g3⟩ := h2 e hu
      have hd : DWF e := (Items_DWF g3.items).2 (g2.wf a d g3.obj)
      have hc' : ¬ (k = .str "any_os" ∧ instLike (.dict e) = true) := by
        cases t with
        | dict e0 =>
          simp only [upConvert, Except.ok.injEq] at hu
          subst hu; exact hc
        | none => simp only [upConvert, Except.ok.injEq] at hu; subst hu; simp [instLike, dhas, dget]
        | str s => simp only [upConvert, Except.ok.injEq] at hu; subst hu; simp [instLike, dhas, dget]
        | list s => simp only [upConvert, Except.ok.injEq] at hu; subst hu; simp [instLike, dhas, dget]
        | _ => simp [upConvert] at hu
      have hwrap := anyOsWrap_ok hc'
      have hrun := hAnyOs_ok g3.obj (Items_keys g3.items) hc'
      by_cases hbad : anyOsBad 2 k e
      · rw [if_pos hbad] at hwrap hrun
        refine ⟨fun x hx => ?_, fun t' ht' => ?_⟩
        · have : expandOsVersionDefinition k t = .error x := hx
          rw [expandVersion_eq] at this
          simp only [hu, hwrap, bind, Except.bind, Except.error.injEq] at this
          subst this
          unfold hExpandOsVersion
          rw [hm_bind_ok g1]
          exact hm_bind_err hrun
        · have : expandOsVersionDefinition k t = .ok t' := ht'
          rw [expandVersion_eq] at this
          simp [hu, hwrap, bind, Except.bind] at this
      · rw [if_neg hbad] at hwrap hrun
        refine version_loop g2 g3 hc' ?_ ?_
        · unfold hExpandOsVersion
          rw [hm_bind_ok g1, hm_bind_ok hrun]
        · show expandOsVersionDefinition _ _ = _
          rw [expandVersion_eq]
          simp only [hu, hwrap, bind, Except.bind, pure, Except.pure]
          rw [forItems_eq _ hd]
          rfl

theorem hReraise_ok {α : Type} {m : HM α} {h h' : Heap} {x : α} (H : m h = .ok (x, h')) : hReraise m h = .ok (x, h') := by
  simp only [hReraise, H]

/-- `expand_os_definition` within the `try` of `expand_rules`. -/
theorem os_sim {S : HSt} (hS : S.h.WF) {k : PKey} {v : HVal} {t : PVal} (ht : Lev S 4 k v t) :
    Sim (hReraise (hExpandOs v)) S 4 k t := by
  cases hd : t.isDict with
  | false =>
    rw [Lev_nondict hd] at ht
    have hex : Ex 4 k t = .error raiseSpecParsingError := by
      show expandKey k t = _
      cases t <;> first | rfl | simp [PVal.isDict] at hd
    have hrun : hReraise (hExpandOs v) S.h = .error raiseSpecParsingError := by
      have : hExpandOs v S.h = .error .valueError := by
        unfold hExpandOs
        rw [hm_bind_ok (isDict_none hd ht)]; rfl
      simp only [hReraise, this]
    refine ⟨fun x hx => ?_, fun t' ht' => ?_⟩
    · rw [hex] at hx; injection hx with hx; subst hx; exact hrun
    · rw [hex] at ht'; simp at ht'
  | true =>
    cases t with
    | dict e =>
      rw [Lev_pos (by simp)] at ht
      obtain ⟨a, d, rfl, hl, hg, hit⟩ := ht
      have hat : DictIs S 3 a d e := ⟨hl, hg, hit⟩
      have hdw : DWF e := (Items_DWF hit).2 (hS a d hg)
      have hex := (Ex_dict (n := 3) (k := k) (by omega) (by omega) hdw (by simp)).2 rfl
      obtain ⟨m1, m2⟩ := items_sim (n := 3) (by omega) (by omega) (f := hExpandOsVersion)
        (fun S k v t hS ht => version_sim hS ht) hS hat
      have hstart : ∀ {h' : Heap} , hExpandOs (.ref a) S.h = (hForItems hExpandOsVersion a >>= fun _ => pure (.ref a)) S.h := by
        intro h'
        unfold hExpandOs
        rw [hm_bind_ok (isDict_some hg)]
      have hstart := hstart (h' := S.h)
      refine ⟨fun x hx => ?_, fun t' ht' => ?_⟩
      · rw [hex] at hx
        cases hm : mapVals (Ex 3) e with
        | ok y => rw [hm] at hx; simp at hx
        | error y =>
          have hrun : hExpandOs (.ref a) S.h = .error y := by rw [hstart]; exact hm_bind_err (m1 y hm)
          rw [hm] at hx
          simp only [hReraise, hrun]
          revert hx
          cases y <;> simp
      · rw [hex] at ht'
        cases hm : mapVals (Ex 3) e with
        | error y => rw [hm] at ht'; cases y <;> simp at ht'
        | ok y =>
          rw [hm] at ht'
          simp only [Except.ok.injEq] at ht'
          subst ht'
          obtain ⟨S2, d2, n1, n2, n3, -⟩ := m2 y hm
          refine ⟨.ref a, S2, ?_, DictIs_Lev n3 k (by simp), n2⟩
          refine hReraise_ok ?_
          rw [hstart, hm_bind_ok n1]; rfl
    | _ => simp [PVal.isDict] at hd

/-- `expand_rules`. -/
theorem rules_sim {S : HSt} (hS : S.h.WF) {k : PKey} {v : HVal} {t : PVal} (ht : Lev S 5 k v t) :
    (∀ x, expandRules t = .error x → hExpandRules v S.h = .error x) ∧
    (∀ t', expandRules t = .ok t' → ∃ r S', hExpandRules v S.h = .ok (r, S'.h) ∧ Lev S' 5 k r t' ∧ Ext 5 S S') := by
  cases hd : t.isDict with
  | false =>
    rw [Lev_nondict hd] at ht
    cases t with
    | none =>
      simp only [TreeAt] at ht
      subst ht
      refine ⟨fun x hx => by simp [expandRules] at hx, fun t' ht' => ?_⟩
      simp only [expandRules, Except.ok.injEq] at ht'
      subst ht'
      refine ⟨.ref S.h.length, S.alloc (.dict []) 5, rfl, ?_, Ext_mono (Ext_alloc hS (fun d hd => ?_) 5) (by omega)⟩
      · rw [Lev_pos (by simp)]
        exact ⟨_, [], rfl, alloc_new_lv, alloc_new, .nil⟩
      · injection hd with hd; subst hd; simp [DWF, dkeys]
    | dict e => simp [PVal.isDict] at hd
    | list ts =>
      have hn := isDict_none hd ht
      simp only [TreeAt] at ht
      obtain ⟨b, l, rfl, _, hg, _⟩ := ht
      refine ⟨fun x hx => ?_, fun t' ht' => by simp [expandRules] at ht'⟩
      simp only [expandRules, Except.error.injEq] at hx
      subst hx
      show (hIsDict (.ref b) >>= _) S.h = _
      rw [hm_bind_ok hn]; rfl
    | bool b =>
      simp only [TreeAt] at ht
      subst ht
      refine ⟨fun x hx => ?_, fun t' ht' => by simp [expandRules] at ht'⟩
      simp only [expandRules, Except.error.injEq] at hx
      subst hx; rfl
    | int b =>
      simp only [TreeAt] at ht
      subst ht
      refine ⟨fun x hx => ?_, fun t' ht' => by simp [expandRules] at ht'⟩
      simp only [expandRules, Except.error.injEq] at hx
      subst hx; rfl
    | str b =>
      simp only [TreeAt] at ht
      subst ht
      refine ⟨fun x hx => ?_, fun t' ht' => by simp [expandRules] at ht'⟩
      simp only [expandRules, Except.error.injEq] at hx
      subst hx; rfl
    | other b =>
      simp only [TreeAt] at ht
      subst ht
      refine ⟨fun x hx => ?_, fun t' ht' => by simp [expandRules] at ht'⟩
      simp only [expandRules, Except.error.injEq] at hx
      subst hx; rfl
  | true =>
    cases t with
    | dict e =>
      rw [Lev_pos (by simp)] at ht
      obtain ⟨a, d, rfl, hl, hg, hit⟩ := ht
      have hat : DictIs S 4 a d e := ⟨hl, hg, hit⟩
      have hdw : DWF e := (Items_DWF hit).2 (hS a d hg)
      have hex := (Ex_dict (n := 4) (k := k) (by omega) (by omega) hdw (by simp)).1 (.inr rfl)
      rw [if_neg (by simp [anyOsBad])] at hex
      have hex : expandRules (.dict e) = (mapVals (Ex 4) e).map PVal.dict := hex
      obtain ⟨m1, m2⟩ := items_sim (n := 4) (by omega) (by omega) (f := fun _ v => hReraise (hExpandOs v))
        (fun S k v t hS ht => os_sim hS ht) hS hat
      have hstart : hExpandRules (.ref a) S.h =
          (hForItems (fun _ v => hReraise (hExpandOs v)) a >>= fun _ => pure (.ref a)) S.h := by
        show (hIsDict (.ref a) >>= _) S.h = _
        rw [hm_bind_ok (isDict_some hg)]
      refine ⟨fun x hx => ?_, fun t' ht' => ?_⟩
      · rw [hex] at hx
        rw [hstart]
        refine hm_bind_err (m1 x ?_)
        cases hm : mapVals (Ex 4) e with
        | error y => rw [hm] at hx; simpa [Except.map] using hx
        | ok y => rw [hm] at hx; simp [Except.map] at hx
      · rw [hex] at ht'
        cases hm : mapVals (Ex 4) e with
        | error y => rw [hm] at ht'; simp [Except.map] at ht'
        | ok y =>
          rw [hm] at ht'
          simp only [Except.map, Except.ok.injEq] at ht'
          subst ht'
          obtain ⟨S2, d2, n1, n2, n3, -⟩ := m2 y hm
          refine ⟨.ref a, S2, ?_, DictIs_Lev n3 k (by simp), n2⟩
          rw [hstart, hm_bind_ok n1]; rfl
    | _ => simp [PVal.isDict] at hd

theorem hExpandOs_same {v r : HVal} {h h' : Heap} (H : hExpandOs v h = .ok (r, h')) : r = v := by
  cases v with
  | ref a =>
    cases hg : h[a]? with
    | none =>
      exfalso
      have hi : hread a h = .error .xylemInternalError := by simp only [hread, hg]
      have : hExpandOs (.ref a) h = .error .xylemInternalError := by
        unfold hExpandOs
        exact hm_bind_err (hm_bind_err hi)
      rw [this] at H; cases H
    | some o =>
      cases o with
      | list l =>
        have : hExpandOs (.ref a) h = .error .valueError := by
          unfold hExpandOs
          rw [hm_bind_ok (show hIsDict (.ref a) h = .ok (none, h) from (hm_bind_ok (hread_ok hg)).trans rfl)]; rfl
        rw [this] at H; cases H
      | dict d =>
        have : hExpandOs (.ref a) h = (hForItems hExpandOsVersion a >>= fun _ => pure (.ref a)) h := by
          unfold hExpandOs
          rw [hm_bind_ok (isDict_some hg)]
        rw [this] at H
        cases hr : hForItems hExpandOsVersion a h with
        | error x => rw [hm_bind_err hr] at H; cases H
        | ok y =>
          obtain ⟨u, h1⟩ := y
          rw [hm_bind_ok hr] at H
          cases H; rfl
  | _ => exact absurd H (by intro H; cases H)

theorem hReraise_inv {α : Type} {m : HM α} {h h' : Heap} {x : α} (H : hReraise m h = .ok (x, h')) : m h = .ok (x, h') := by
  unfold hReraise at H
  cases hm : m h with
  | ok y => rw [hm] at H; simpa using H
  | error e => rw [hm] at H; cases e <;> cases H

/-- Expanding a rules dict leaves the dict itself as it is: only the os dicts in it are modified. -/
theorem rules_sim_root {S : HSt} (hS : S.h.WF) {a : Nat} {d : Dict PKey HVal} {e e' : Dict PKey PVal} (hat : DictIs S 4 a d e)
    (he : expandRules (.dict e) = .ok (.dict e')) :
    ∃ S', hExpandRules (.ref a) S.h = .ok (.ref a, S'.h) ∧ Ext 5 S S' ∧ DictIs S' 4 a d e' := by
  have hdw : DWF e := (Items_DWF hat.items).2 (hS a d hat.obj)
  have hex := (Ex_dict (n := 4) (k := .none) (by omega) (by omega) hdw (by simp)).1 (.inr rfl)
  rw [if_neg (by simp [anyOsBad])] at hex
  have hex : expandRules (.dict e) = (mapVals (Ex 4) e).map PVal.dict := hex
  obtain ⟨m1, m2⟩ := items_sim (n := 4) (by omega) (by omega) (f := fun _ v => hReraise (hExpandOs v))
    (fun S k v t hS ht => os_sim hS ht) hS hat
  have hstart : hExpandRules (.ref a) S.h =
      (hForItems (fun _ v => hReraise (hExpandOs v)) a >>= fun _ => pure (.ref a)) S.h := by
    show (hIsDict (.ref a) >>= _) S.h = _
    rw [hm_bind_ok (isDict_some hat.obj)]
  rw [hex] at he
  cases hm : mapVals (Ex 4) e with
  | error y => rw [hm] at he; simp [Except.map] at he
  | ok y =>
    rw [hm] at he
    simp only [Except.map, Except.ok.injEq, PVal.dict.injEq] at he
    subst he
    obtain ⟨S2, d2, n1, n2, n3, n4⟩ := m2 y hm
    have hd2 : d2 = d := n4 fun k v h r h' hr => hExpandOs_same (hReraise_inv hr)
    subst hd2
    exact ⟨S2, by rw [hstart, hm_bind_ok n1]; rfl, n2, n3⟩

end Verif
