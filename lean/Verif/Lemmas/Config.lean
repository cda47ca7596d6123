import Verif.Model.Config
import Verif.Lemmas.Dict
import Verif.Lemmas.Expand
import Verif.Lemmas.Database
/-! Helper lemmas about option names, descriptions and config dicts. -/
namespace Verif

/-! ## Names -/

theorem takeWhile_ne_append {c : Char} {a b : List Char} (h : c ∉ a) : (a ++ c :: b).takeWhile (fun x => x != c) = a := by
  induction a with
  | nil => simp
  | cons x a ih =>
    simp only [List.mem_cons, not_or] at h
    have hx : (x != c) = true := by simpa using fun e => h.1 e.symm
    simp [hx, ih h.2]

theorem dropWhile_ne_append {c : Char} {a b : List Char} (h : c ∉ a) : (a ++ c :: b).dropWhile (fun x => x != c) = c :: b := by
  induction a with
  | nil => simp
  | cons x a ih =>
    simp only [List.mem_cons, not_or] at h
    have hx : (x != c) = true := by simpa using fun e => h.1 e.symm
    simp [hx, ih h.2]

theorem splitOnce_append {c : Char} {a b : List Char} (h : c ∉ a) : splitOnce c (a ++ c :: b) = [a, b] := by
  simp [splitOnce, takeWhile_ne_append h, dropWhile_ne_append h]

theorem splitOnce_free {c : Char} {s : List Char} (h : c ∉ s) : splitOnce c s = [s] := by simp [splitOnce, h]

theorem exists_first {c : Char} {s : List Char} (h : c ∈ s) : ∃ a b, s = a ++ c :: b ∧ c ∉ a := by
  induction s with
  | nil => simp at h
  | cons x s ih =>
    by_cases hx : x = c
    · exact ⟨[], s, by simp [hx], by simp⟩
    · rcases List.mem_cons.1 h with h | h
      · exact absurd h.symm hx
      · obtain ⟨a, b, he, ha⟩ := ih h
        exact ⟨x :: a, b, by simp [he], by simp [ha, Ne.symm hx]⟩

theorem splitGroup_append {a b : List Char} (h : '/' ∉ b) : splitGroup (a ++ '/' :: b) = [a, b] := by
  have e : (a ++ '/' :: b).reverse = b.reverse ++ '/' :: a.reverse := by simp
  simp [splitGroup, e, splitOnce_append (a := b.reverse) (b := a.reverse) (c := '/') (by simpa using h)]

theorem splitGroup_free {s : List Char} (h : '/' ∉ s) : splitGroup s = [s] := by
  simp [splitGroup, splitOnce_free (s := s.reverse) (c := '/') (by simpa using h)]

theorem exists_last {c : Char} {s : List Char} (h : c ∈ s) : ∃ a b, s = a ++ c :: b ∧ c ∉ b := by
  obtain ⟨a, b, he, ha⟩ := exists_first (s := s.reverse) (c := c) (by simpa using h)
  refine ⟨b.reverse, a.reverse, ?_, by simpa using ha⟩
  have := congrArg List.reverse he
  simpa using this

theorem groupOf_none {n : String} : groupOf n = none ↔ '/' ∉ n.toList := by
  by_cases h : '/' ∈ n.toList
  · obtain ⟨a, b, he, hb⟩ := exists_last h
    simp [groupOf, he, splitGroup_append hb]
  · simp [groupOf, splitGroup_free h, h]

theorem groupOf_some {n g s : String} : groupOf n = some (g, s) ↔ n = g ++ "/" ++ s ∧ '/' ∉ s.toList := by
  constructor
  · intro h
    have hm : '/' ∈ n.toList := by
      refine Classical.byContradiction fun hn => ?_
      rw [groupOf_none.2 hn] at h; simp at h
    obtain ⟨a, b, he, hb⟩ := exists_last hm
    simp only [groupOf, he, splitGroup_append hb, Option.some.injEq, Prod.mk.injEq] at h
    obtain ⟨h1, h2⟩ := h
    subst h1; subst h2
    refine ⟨?_, by simpa using hb⟩
    apply String.toList_inj.1
    simp [he]
  · rintro ⟨rfl, hb⟩
    have : (g ++ "/" ++ s).toList = g.toList ++ '/' :: s.toList := by simp
    simp [groupOf, this, splitGroup_append hb]

theorem groupOf_inj {n m : String} {p : String × String} (hn : groupOf n = some p) (hm : groupOf m = some p) : n = m := by
  obtain ⟨g, s⟩ := p
  rw [(groupOf_some.1 hn).1, (groupOf_some.1 hm).1]

/-! ## Descriptions -/

/-- What every description built with `add` satisfies. -/
structure Desc.Wf (d : Desc) : Prop where
  items : DWF d.items
  groups : DWF d.groups
  named : ∀ n i, dget d.items n = some i → i.name = n
  listed : d.itemlist.map (fun i => (i.name, i)) = d.items
  disjoint : ∀ n, n ∈ dkeys d.items → n ∉ dkeys d.groups
  inGroup : ∀ n i g s, dget d.items n = some i → groupOf n = some (g, s) → ∃ gd, dget d.groups g = some gd ∧ dget gd s = some i
  ofGroup : ∀ g gd, dget d.groups g = some gd → DWF gd ∧ gd ≠ [] ∧
    ∀ s i, dget gd s = some i → groupOf i.name = some (g, s) ∧ dget d.items i.name = some i

theorem dset_fresh {κ β : Type} [DecidableEq κ] {d : Dict κ β} {k : κ} {v : β} (h : k ∉ dkeys d) : dset d k v = d ++ [(k, v)] := by
  have := dset_append_of_not_mem (d := d) (e := []) (v := v) h
  simpa [dset] using this

theorem Desc.Wf.empty : Desc.Wf {} := by
  constructor <;> simp

theorem mkItem_name (s : ItemSpec) : (mkItem s).name = s.name := rfl

/-- The description after a successful passage of the checks of `add`. -/
def Desc.added (d : Desc) (s : ItemSpec) : Desc :=
  { itemlist := d.itemlist ++ [mkItem s]
    items := dset d.items s.name (mkItem s)
    groups := match groupOf s.name with
      | none => d.groups
      | some (g, sub) => dset d.groups g (dset ((dget d.groups g).getD []) sub (mkItem s))
    arguments := if (mkItem s).commandLine = true ∧ dhas d.arguments (mkItem s).argument = false
      then dset d.arguments (mkItem s).argument (mkItem s) else d.arguments }

/-- When `add` refuses an item outright. -/
def Desc.Refuses (d : Desc) (s : ItemSpec) : Prop :=
  s.name ∈ dkeys d.items ∨ s.name ∈ dkeys d.groups ∨ ∃ g sub, groupOf s.name = some (g, sub) ∧ g ∉ dkeys d.groups ∧ g ∈ dkeys d.items

theorem dhas_eq_false {κ β : Type} [DecidableEq κ] {d : Dict κ β} {k : κ} : dhas d k = false ↔ k ∉ dkeys d := by
  rw [← dhas_iff]; simp

theorem Desc.add_refused {d : Desc} {s : ItemSpec} (h : d.Refuses s) : d.add s = (d, .error .configDescriptionError) := by
  rcases h with h | h | ⟨g, sub, hg, h1, h2⟩
  · simp [Desc.add, dhas_iff.2 h]
  · simp [Desc.add, dhas_iff.2 h]
  · unfold Desc.add
    split
    · rfl
    split
    · rfl
    · simp [hg, dget_eq_none.2 h1, dhas_iff.2 h2]

theorem Desc.addItem_fst (d : Desc) (i : ConfigItem) : (d.addItem i).1 =
    { d with itemlist := d.itemlist ++ [i], items := dset d.items i.name i,
             arguments := if i.commandLine = true ∧ dhas d.arguments i.argument = false then dset d.arguments i.argument i else d.arguments } := by
  unfold Desc.addItem
  cases hc : i.commandLine <;> simp
  cases hd : dhas d.arguments i.argument <;> simp

theorem Desc.addItem_snd (d : Desc) (i : ConfigItem) : (d.addItem i).2 =
    if i.commandLine = true ∧ i.argument ∈ dkeys d.arguments then .error .configDescriptionError else .ok () := by
  unfold Desc.addItem
  cases hc : i.commandLine <;> simp
  cases hd : dhas d.arguments i.argument
  · simp [dhas_eq_false.1 hd]
  · simp [dhas_iff.1 hd]

theorem Desc.add_accepted {d : Desc} {s : ItemSpec} (h : ¬ d.Refuses s) : d.add s = (d.added s,
    if (mkItem s).commandLine = true ∧ (mkItem s).argument ∈ dkeys d.arguments then .error .configDescriptionError else .ok ()) := by
  unfold Desc.Refuses at h
  have h1 : dhas d.items s.name = false := dhas_eq_false.2 fun hh => h (.inl hh)
  have h2 : dhas d.groups s.name = false := dhas_eq_false.2 fun hh => h (.inr (.inl hh))
  unfold Desc.add
  rw [if_neg (by simp [h1]), if_neg (by simp [h2])]
  cases hg : groupOf s.name with
  | none =>
    apply Prod.ext
    · rw [Desc.addItem_fst]; simp [Desc.added, hg, mkItem_name]
    · rw [Desc.addItem_snd]
  | some p =>
    obtain ⟨g, sub⟩ := p
    cases hgd : dget d.groups g with
    | some gd =>
      simp only [hgd]
      apply Prod.ext
      · rw [Desc.addItem_fst]; simp [Desc.added, hg, mkItem_name, hgd]
      · rw [Desc.addItem_snd]
    | none =>
      have h3 : dhas d.items g = false := dhas_eq_false.2 fun hh => h (.inr (.inr ⟨g, sub, hg, dget_eq_none.1 hgd, hh⟩))
      simp only [hgd, h3, Bool.false_eq_true, if_false]
      apply Prod.ext
      · rw [Desc.addItem_fst]; simp [Desc.added, hg, mkItem_name, hgd]
      · rw [Desc.addItem_snd]

theorem Desc.Wf.added {d : Desc} (hd : d.Wf) {s : ItemSpec} (h : ¬ d.Refuses s) : (d.added s).Wf := by
  have h1 : s.name ∉ dkeys d.items := fun hh => h (.inl hh)
  have h2 : s.name ∉ dkeys d.groups := fun hh => h (.inr (.inl hh))
  have hgr : (d.added s).groups = match groupOf s.name with
      | none => d.groups
      | some (g, sub) => dset d.groups g (dset ((dget d.groups g).getD []) sub (mkItem s)) := rfl
  have hit : (d.added s).items = dset d.items s.name (mkItem s) := rfl
  have hself : ∀ g sub, groupOf s.name = some (g, sub) → s.name ≠ g := by
    intro g sub hg e
    have := (groupOf_some.1 hg).1
    have hl := congrArg (fun x => x.toList.length) this
    rw [e] at hl; simp at hl
  have hgI : ∀ g sub, groupOf s.name = some (g, sub) → g ∉ dkeys d.items := by
    intro g sub hg hm
    by_cases hgm : g ∈ dkeys d.groups
    · exact hd.disjoint g hm hgm
    · exact h (.inr (.inr ⟨g, sub, hg, hgm, hm⟩))
  have hgrKeys : ∀ x, x ∈ dkeys (d.added s).groups → x ∈ dkeys d.groups ∨ ∃ sub, groupOf s.name = some (x, sub) := by
    intro x hx
    rw [hgr] at hx
    cases hg : groupOf s.name with
    | none => rw [hg] at hx; exact .inl hx
    | some p =>
      obtain ⟨g, sub⟩ := p
      rw [hg] at hx
      rcases mem_dkeys_set.1 hx with rfl | hx
      · exact .inr ⟨sub, rfl⟩
      · exact .inl hx
  constructor
  · rw [hit]; exact DWF_set hd.items _ _
  · rw [hgr]; cases groupOf s.name with
    | none => exact hd.groups
    | some p => exact DWF_set hd.groups _ _
  · intro n i hi
    rw [hit, dget_set] at hi
    split at hi
    · cases hi; rw [mkItem_name]; assumption
    · exact hd.named n i hi
  · rw [hit, dset_fresh h1, ← hd.listed]
    simp [Desc.added, mkItem_name]
  · intro n hn hng
    rw [hit] at hn
    rcases mem_dkeys_set.1 hn with rfl | hn
    · rcases hgrKeys _ hng with hh | ⟨sub, hh⟩
      · exact h2 hh
      · exact hself _ _ hh rfl
    · rcases hgrKeys _ hng with hh | ⟨sub, hh⟩
      · exact hd.disjoint n hn hh
      · exact hgI _ _ hh hn
  · intro n i g sub hi hg
    rw [hit, dget_set] at hi
    split at hi
    · next hn =>
      cases hi; subst hn
      refine ⟨dset ((dget d.groups g).getD []) sub (mkItem s), ?_, by simp⟩
      rw [hgr, hg]; simp
    · next hn =>
      obtain ⟨gd, h3, h4⟩ := hd.inGroup n i g sub hi hg
      rw [hgr]
      cases hg' : groupOf s.name with
      | none => exact ⟨gd, h3, h4⟩
      | some p =>
        obtain ⟨g', sub'⟩ := p
        by_cases hgg : g' = g
        · subst hgg
          refine ⟨dset gd sub' (mkItem s), by simp [h3], ?_⟩
          rw [dget_set, if_neg, h4]
          rintro rfl
          exact hn (groupOf_inj hg' hg)
        · exact ⟨gd, by simp [dget_set, hgg, h3], h4⟩
  · intro g gd hgd
    have keep : ∀ i, dget d.items i.name = some i → dget (d.added s).items i.name = some i := by
      intro i hi
      rw [hit, dget_set, if_neg, hi]
      intro e
      exact h1 (by rw [e]; exact mem_dkeys_iff.2 (by simp [hi]))
    have old : dget d.groups g = some gd → DWF gd ∧ gd ≠ [] ∧
        ∀ s' i, dget gd s' = some i → groupOf i.name = some (g, s') ∧ dget (d.added s).items i.name = some i := by
      intro ho
      obtain ⟨a, b, c⟩ := hd.ofGroup g gd ho
      exact ⟨a, b, fun s' i hi => ⟨(c s' i hi).1, keep i (c s' i hi).2⟩⟩
    rw [hgr] at hgd
    cases hg' : groupOf s.name with
    | none => rw [hg'] at hgd; exact old hgd
    | some p =>
      obtain ⟨g', sub'⟩ := p
      rw [hg'] at hgd
      simp only [dget_set] at hgd
      split at hgd
      · next hgg =>
        subst hgg
        cases hgd
        have new : groupOf (mkItem s).name = some (g', sub') ∧ dget (d.added s).items (mkItem s).name = some (mkItem s) := by
          rw [mkItem_name, hit]; exact ⟨hg', by simp⟩
        cases ho : dget d.groups g' with
        | none =>
          refine ⟨by simp [dset], by simp [dset], ?_⟩
          intro s' i hi
          simp only [Option.getD_none, dset, dget] at hi
          split at hi
          · next e => cases hi; subst e; exact new
          · simp at hi
        | some gd =>
          obtain ⟨a, b, c⟩ := hd.ofGroup g' gd ho
          refine ⟨DWF_set a _ _, ?_, ?_⟩
          · intro e
            have : sub' ∈ dkeys (dset gd sub' (mkItem s)) := mem_dkeys_set.2 (.inl rfl)
            simp only [Option.getD_some] at e
            rw [e] at this; simp at this
          · intro s' i hi
            simp only [Option.getD_some, dget_set] at hi
            split at hi
            · next e => cases hi; subst e; exact new
            · exact ⟨(c s' i hi).1, keep i (c s' i hi).2⟩
      · exact old hgd

theorem Desc.Wf.add {d : Desc} (hd : d.Wf) (s : ItemSpec) : (d.add s).1.Wf := by
  by_cases h : d.Refuses s
  · rw [Desc.add_refused h]; exact hd
  · rw [Desc.add_accepted h]; exact hd.added h

theorem Desc.Wf.foldl {d : Desc} (hd : d.Wf) (l : List ItemSpec) : (l.foldl (fun d s => (d.add s).1) d).Wf := by
  induction l generalizing d with
  | nil => exact hd
  | cons s l ih => exact ih (hd.add s)

end Verif
