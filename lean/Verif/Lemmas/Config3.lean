import Verif.Lemmas.Config2
/-! Helper lemmas about making config dicts from values, and about value types. -/
namespace Verif

/-! ## Filling config dicts -/

theorem fillGroup_spec {value : String → ConfigItem → Except Exc PVal} (l : List (String × ConfigItem)) (hl : DWF l) {acc d : Dict String PVal}
    (h : fillGroup value acc l = .ok d) :
    (∀ s i, dget l s = some i → ∃ v, value s i = .ok v ∧ dget d s = some v) ∧ ∀ s, s ∉ dkeys l → dget d s = dget acc s := by
  induction l generalizing acc with
  | nil => cases h; simp
  | cons x l ih =>
    obtain ⟨s0, i0⟩ := x
    rw [DWF_cons] at hl
    obtain ⟨v, hv, h⟩ := Except_bind_ok.1 h
    obtain ⟨h1, h2⟩ := ih hl.2 h
    constructor
    · intro s i hs
      rw [dget_cons] at hs
      split at hs
      · next e =>
        simp only at e; subst e; cases hs
        exact ⟨v, hv, by rw [h2 _ hl.1]; simp⟩
      · exact h1 s i hs
    · intro s hs
      simp only [dkeys_cons, List.mem_cons, not_or] at hs
      rw [h2 s hs.2, dget_set, if_neg (Ne.symm hs.1)]

theorem fillGroup_error {value : String → ConfigItem → Except Exc PVal} (l : List (String × ConfigItem)) {acc : Dict String PVal} {e : Exc}
    (h : fillGroup value acc l = .error e) : ∃ s i, (s, i) ∈ l ∧ value s i = .error e := by
  induction l generalizing acc with
  | nil => cases h
  | cons x l ih =>
    obtain ⟨s0, i0⟩ := x
    rcases Except_bind_err.1 h with h | ⟨v, hv, h⟩
    · exact ⟨s0, i0, by simp, h⟩
    · obtain ⟨s, i, hm, he⟩ := ih h
      exact ⟨s, i, List.mem_cons_of_mem _ hm, he⟩

theorem fillGroups_spec {value : String → String → ConfigItem → Except Exc PVal} (l : List (String × Dict String ConfigItem)) (hl : DWF l)
    {acc c : Config} (h : fillGroups value acc l = .ok c) :
    (∀ g gd, dget l g = some gd → ∃ d, fillGroup (value g) [] gd = .ok d ∧ dget c g = some (.grp d)) ∧
      ∀ g, g ∉ dkeys l → dget c g = dget acc g := by
  induction l generalizing acc with
  | nil => cases h; simp
  | cons x l ih =>
    obtain ⟨g0, gd0⟩ := x
    rw [DWF_cons] at hl
    obtain ⟨d, hd, h⟩ := Except_bind_ok.1 h
    obtain ⟨h1, h2⟩ := ih hl.2 h
    constructor
    · intro g gd hg
      rw [dget_cons] at hg
      split at hg
      · next e =>
        simp only at e; subst e; cases hg
        exact ⟨d, hd, by rw [h2 _ hl.1]; simp⟩
      · exact h1 g gd hg
    · intro g hg
      simp only [dkeys_cons, List.mem_cons, not_or] at hg
      rw [h2 g hg.2, dget_set, if_neg (Ne.symm hg.1)]

theorem fillGroups_error {value : String → String → ConfigItem → Except Exc PVal} (l : List (String × Dict String ConfigItem)) {acc : Config} {e : Exc}
    (h : fillGroups value acc l = .error e) : ∃ g gd s i, (g, gd) ∈ l ∧ (s, i) ∈ gd ∧ value g s i = .error e := by
  induction l generalizing acc with
  | nil => cases h
  | cons x l ih =>
    obtain ⟨g0, gd0⟩ := x
    rcases Except_bind_err.1 h with h | ⟨v, hv, h⟩
    · obtain ⟨s, i, hm, he⟩ := fillGroup_error gd0 h
      exact ⟨g0, gd0, s, i, by simp, hm, he⟩
    · obtain ⟨g, gd, s, i, hm, hm2, he⟩ := ih h
      exact ⟨g, gd, s, i, List.mem_cons_of_mem _ hm, hm2, he⟩

theorem fillItems_cons_grp {value : String → ConfigItem → Except Exc PVal} {acc : Config} {n : String} {i : ConfigItem}
    {t : List (String × ConfigItem)} {p : String × String} (h : groupOf n = some p) :
    fillItems value acc ((n, i) :: t) = fillItems value acc t := by simp [fillItems, h]

theorem fillItems_cons_top {value : String → ConfigItem → Except Exc PVal} {acc : Config} {n : String} {i : ConfigItem}
    {t : List (String × ConfigItem)} (h : groupOf n = none) :
    fillItems value acc ((n, i) :: t) = (value n i >>= fun v => fillItems value (dset acc n (.val v)) t) := by simp [fillItems, h]

theorem fillItems_spec {value : String → ConfigItem → Except Exc PVal} (l : List (String × ConfigItem)) (hl : DWF l) {acc c : Config}
    (h : fillItems value acc l = .ok c) :
    (∀ n i, dget l n = some i → groupOf n = none → ∃ v, value n i = .ok v ∧ dget c n = some (.val v)) ∧
      ∀ n, (n ∉ dkeys l ∨ groupOf n ≠ none) → dget c n = dget acc n := by
  induction l generalizing acc with
  | nil => cases h; simp
  | cons x l ih =>
    obtain ⟨n0, i0⟩ := x
    rw [DWF_cons] at hl
    cases hg : groupOf n0 with
    | some p =>
      rw [fillItems_cons_grp hg] at h
      obtain ⟨h1, h2⟩ := ih hl.2 h
      constructor
      · intro n i hn hng
        rw [dget_cons] at hn
        split at hn
        · next e => simp only at e; subst e; rw [hng] at hg; cases hg
        · exact h1 n i hn hng
      · intro n hn
        simp only [dkeys_cons, List.mem_cons, not_or] at hn
        exact h2 n (hn.imp And.right id)
    | none =>
      rw [fillItems_cons_top hg] at h
      obtain ⟨v, hv, h⟩ := Except_bind_ok.1 h
      obtain ⟨h1, h2⟩ := ih hl.2 h
      constructor
      · intro n i hn hng
        rw [dget_cons] at hn
        split at hn
        · next e =>
          simp only at e; subst e; cases hn
          exact ⟨v, hv, by rw [h2 _ (.inl hl.1)]; simp⟩
        · exact h1 n i hn hng
      · intro n hn
        simp only [dkeys_cons, List.mem_cons, not_or] at hn
        rw [h2 n (hn.imp And.right id), dget_set, if_neg]
        rintro rfl
        rcases hn with hn | hn
        · exact hn.1 rfl
        · exact hn hg

theorem fillItems_error {value : String → ConfigItem → Except Exc PVal} (l : List (String × ConfigItem)) {acc : Config} {e : Exc}
    (h : fillItems value acc l = .error e) : ∃ n i, (n, i) ∈ l ∧ groupOf n = none ∧ value n i = .error e := by
  induction l generalizing acc with
  | nil => cases h
  | cons x l ih =>
    obtain ⟨n0, i0⟩ := x
    cases hg : groupOf n0 with
    | some p =>
      rw [fillItems_cons_grp hg] at h
      obtain ⟨n, i, hm, he⟩ := ih h
      exact ⟨n, i, List.mem_cons_of_mem _ hm, he⟩
    | none =>
      rw [fillItems_cons_top hg] at h
      rcases Except_bind_err.1 h with h | ⟨v, hv, h⟩
      · exact ⟨n0, i0, by simp, hg, h⟩
      · obtain ⟨n, i, hm, he⟩ := ih h
        exact ⟨n, i, List.mem_cons_of_mem _ hm, he⟩

/-- The value an option gets when a config is filled in, given how values are found for options in and outside groups. -/
def optValue (vg : String → String → ConfigItem → Except Exc PVal) (vi : String → ConfigItem → Except Exc PVal) (n : String) (i : ConfigItem) :
    Except Exc PVal :=
  match groupOf n with
  | none => vi n i
  | some (g, s) => vg g s i

theorem fill_spec {desc : Desc} (hw : desc.Wf) {vg : String → String → ConfigItem → Except Exc PVal} {vi : String → ConfigItem → Except Exc PVal}
    {c : Config} (h : (fillGroups vg [] desc.groups >>= fun c => fillItems vi c desc.items) = .ok c) :
    (∀ n i, dget desc.items n = some i → ∃ v, optValue vg vi n i = .ok v ∧ readOpt c n = .ok v) ∧
      ∀ g, g ∈ dkeys desc.groups → HasGroup c g := by
  obtain ⟨c0, h0, h⟩ := Except_bind_ok.1 h
  obtain ⟨g1, g2⟩ := fillGroups_spec _ hw.groups h0
  obtain ⟨i1, i2⟩ := fillItems_spec _ hw.items h
  constructor
  · intro n i hi
    cases hg : groupOf n with
    | none =>
      obtain ⟨v, hv, hc⟩ := i1 n i hi hg
      exact ⟨v, by simpa [optValue, hg] using hv, (readOpt_top hg).2 hc⟩
    | some p =>
      obtain ⟨g, s⟩ := p
      obtain ⟨gd, hgd, hs⟩ := hw.inGroup n i g s hi hg
      obtain ⟨d, hd, hc⟩ := g1 g gd hgd
      obtain ⟨v, hv, hdv⟩ := (fillGroup_spec gd (hw.ofGroup g gd hgd).1 hd).1 s i hs
      refine ⟨v, by simpa [optValue, hg] using hv, (readOpt_grp hg).2 ⟨d, ?_, hdv⟩⟩
      rw [i2 g (.inl fun hm => hw.disjoint g hm (mem_dkeys_iff.2 (by simp [hgd])))]
      exact hc
  · intro g hg
    obtain ⟨gd, hgd⟩ := Option.isSome_iff_exists.1 (mem_dkeys_iff.1 hg)
    obtain ⟨d, hd, hc⟩ := g1 g gd hgd
    exact ⟨d, by rw [i2 g (.inl fun hm => hw.disjoint g hm hg)]; exact hc⟩

theorem fill_error {desc : Desc} (hw : desc.Wf) {vg : String → String → ConfigItem → Except Exc PVal} {vi : String → ConfigItem → Except Exc PVal}
    {e : Exc} (h : (fillGroups vg [] desc.groups >>= fun c => fillItems vi c desc.items) = .error e) :
    ∃ n i, dget desc.items n = some i ∧ optValue vg vi n i = .error e := by
  rcases Except_bind_err.1 h with h | ⟨c, -, h⟩
  · obtain ⟨g, gd, s, i, hm, hm2, he⟩ := fillGroups_error _ h
    obtain ⟨w, -, hh⟩ := hw.ofGroup g gd (mem_dget hw.groups hm)
    obtain ⟨h1, h2⟩ := hh s i (mem_dget w hm2)
    exact ⟨i.name, i, h2, by simpa [optValue, h1] using he⟩
  · obtain ⟨n, i, hm, hg, he⟩ := fillItems_error _ h
    exact ⟨n, i, mem_dget hw.items hm, by simpa [optValue, hg] using he⟩

/-! ## Defaults -/

theorem defaults_list {desc : Desc} (hw : desc.Wf) (l : List (String × ConfigItem)) (hl : ∀ x ∈ l, dget desc.items x.1 = some x.2) (hnd : DWF l)
    {c : Config} (hc : ∀ g, g ∈ dkeys desc.groups → dget c g = none ∨ HasGroup c g) :
    ∃ r, l.foldlM defaultsStep c = .ok r ∧ (∀ g, g ∈ dkeys desc.groups → dget r g = none ∨ HasGroup r g) ∧
      (∀ n i, dget desc.items n = some i → (n ∈ dkeys l → readOpt r n = .ok i.default) ∧ (n ∉ dkeys l → readOpt c n = .ok i.default → readOpt r n = .ok i.default)) ∧
      (∀ n g s, n ∈ dkeys l → groupOf n = some (g, s) → HasGroup r g) ∧ ∀ g, g ∈ dkeys desc.groups → HasGroup c g → HasGroup r g := by
  induction l generalizing c with
  | nil => exact ⟨c, rfl, hc, fun n i _ => ⟨by simp, fun _ h => h⟩, by simp, fun _ _ h => h⟩
  | cons x l ih =>
    obtain ⟨n, i⟩ := x
    rw [DWF_cons] at hnd
    have hi : dget desc.items n = some i := hl (n, i) (by simp)
    have hn : n ∈ dkeys desc.items := mem_dkeys_iff.2 (by simp [hi])
    -- the config just before writing
    have key : ∃ c0 c1, defaultsStep c (n, i) = .ok c1 ∧ writeOpt c0 n i.default = .ok c1 ∧
        (∀ m, m ∈ dkeys desc.items → ∀ v, readOpt c m = .ok v → readOpt c0 m = .ok v) ∧
        (∀ g, g ∈ dkeys desc.groups → dget c0 g = none ∨ HasGroup c0 g) ∧ (∀ g, HasGroup c g → HasGroup c0 g) ∧
        (∀ g s, groupOf n = some (g, s) → HasGroup c0 g) := by
      cases hg : groupOf n with
      | none => exact ⟨c, _, by simp [defaultsStep, hg, writeOpt_top hg], writeOpt_top hg, fun _ _ _ h => h, hc, fun _ h => h, by simp⟩
      | some p =>
        obtain ⟨g, s⟩ := p
        obtain ⟨gd, hgd, -⟩ := hw.inGroup n i g s hi hg
        have hgm : g ∈ dkeys desc.groups := mem_dkeys_iff.2 (by simp [hgd])
        rcases hc g hgm with hnone | hsome
        · refine ⟨dset c g (.grp []), _, ?_, writeOpt_grp hg (by simp; rfl), ?_, ?_, ?_, ?_⟩
          · simp only [defaultsStep, hg, dhas_false.2 hnone, Bool.false_eq_true, if_false]
            exact writeOpt_grp hg (by simp)
          · intro m hm v hv
            cases hmg : groupOf m with
            | none =>
              rw [readOpt_top hmg] at hv ⊢
              rw [dget_set, if_neg, hv]
              rintro rfl; exact hw.disjoint _ hm hgm
            | some q =>
              obtain ⟨g', s'⟩ := q
              rw [readOpt_grp hmg] at hv ⊢
              obtain ⟨d, hd, hdv⟩ := hv
              refine ⟨d, ?_, hdv⟩
              rw [dget_set, if_neg, hd]
              rintro rfl; rw [hnone] at hd; cases hd
          · intro g' hg'
            by_cases e : g = g'
            · subst e; exact .inr ⟨[], by simp⟩
            · simp only [HasGroup, dget_set, e, if_false]; exact hc g' hg'
          · intro g' ⟨d, hd⟩
            by_cases e : g = g'
            · subst e; exact ⟨[], by simp⟩
            · exact ⟨d, by simp [dget_set, e, hd]⟩
          · intro g' s' h; cases h; exact ⟨[], by simp⟩
        · obtain ⟨d, hd⟩ := hsome
          have hh : dhas c g = true := by simp [dhas, hd]
          refine ⟨c, _, ?_, writeOpt_grp hg hd, fun _ _ _ h => h, hc, fun _ h => h, ?_⟩
          · simp only [defaultsStep, hg, hh, if_true]
            exact writeOpt_grp hg hd
          · intro g' s' h; cases h; exact ⟨d, hd⟩
    obtain ⟨c0, c1, hstep, hwr, hkeep, hnone, hgk, hgn⟩ := key
    have hc1g : ∀ g, g ∈ dkeys desc.groups → HasGroup c0 g → HasGroup c1 g := fun g hg h =>
      write_group hwr (fun e => hw.disjoint n hn (e ▸ hg)) h
    have hc1 : ∀ g, g ∈ dkeys desc.groups → dget c1 g = none ∨ HasGroup c1 g := by
      intro g hg
      rcases hnone g hg with h | h
      · rcases writeOpt_ok hwr with ⟨-, rfl⟩ | ⟨g', s, d, hg', hd, rfl⟩
        · left; rw [dget_set, if_neg, h]; rintro rfl; exact hw.disjoint _ hn hg
        · left; rw [dget_set, if_neg, h]; rintro rfl; rw [h] at hd; cases hd
      · exact .inr (hc1g g hg h)
    obtain ⟨r, h1, h2, h3, h4, h5⟩ := ih (fun x hx => hl x (List.mem_cons_of_mem _ hx)) hnd.2 hc1
    refine ⟨r, ?_, h2, ?_, ?_, ?_⟩
    · simp only [List.foldlM_cons, hstep, bind, Except.bind]; exact h1
    · intro m j hj
      have hm : m ∈ dkeys desc.items := mem_dkeys_iff.2 (by simp [hj])
      constructor
      · intro hmem
        by_cases hml : m ∈ dkeys l
        · exact (h3 m j hj).1 hml
        · rcases List.mem_cons.1 hmem with h | h
          · simp only at h; subst h
            rw [hi] at hj; cases hj
            exact (h3 _ _ hi).2 hml (write_read hwr)
          · exact absurd h hml
      · intro hmem hread
        simp only [dkeys_cons, List.mem_cons, not_or] at hmem
        refine (h3 m j hj).2 hmem.2 ?_
        rw [write_other hwr (Ne.symm hmem.1) (sep_of_items hw hn hm) (sep_of_items hw hm hn)]
        exact hkeep m hm _ hread
    · intro m g s hmem hg
      rcases List.mem_cons.1 hmem with h | h
      · simp only at h; subst h
        obtain ⟨gd, hgd, -⟩ := hw.inGroup m i g s hi hg
        have hgm : g ∈ dkeys desc.groups := mem_dkeys_iff.2 (by simp [hgd])
        exact h5 g hgm (hc1g g hgm (hgn g s hg))
      · exact h4 m g s h hg
    · intro g hg h
      exact h5 g hg (hc1g g hg (hgk g h))

/-- The config of the defaults gives every option its default. -/
theorem defaults_spec {desc : Desc} (hw : desc.Wf) : ∃ r, configFromDefaults desc = .ok r ∧
    (∀ n i, dget desc.items n = some i → readOpt r n = .ok i.default) ∧ ∀ g, g ∈ dkeys desc.groups → HasGroup r g := by
  obtain ⟨r, h1, -, h3, h4, -⟩ := defaults_list hw desc.items (fun x hx => mem_dget hw.items hx) hw.items (c := []) (by simp)
  refine ⟨r, h1, fun n i hi => (h3 n i hi).1 (mem_dkeys_iff.2 (by simp [hi])), ?_⟩
  intro g hg
  obtain ⟨gd, hgd⟩ := Option.isSome_iff_exists.1 (mem_dkeys_iff.1 hg)
  obtain ⟨w, hne, hh⟩ := hw.ofGroup g gd hgd
  cases gd with
  | nil => exact absurd rfl hne
  | cons x gd =>
    obtain ⟨s, i⟩ := x
    obtain ⟨a, b⟩ := hh s i (by simp [dget])
    exact h4 i.name g s (mem_dkeys_iff.2 (by simp [b])) a

/-! ## Values -/

theorem convertItems_DWF {fk fv : PVal → Except Exc PVal} (l : List (PKey × PVal)) {acc d : Dict PKey PVal} (ha : DWF acc)
    (h : convertItems fk fv acc l = .ok d) : DWF d := by
  induction l generalizing acc with
  | nil => cases h; exact ha
  | cons x l ih =>
    obtain ⟨k, v⟩ := x
    obtain ⟨v', -, h⟩ := Except_bind_ok.1 h
    obtain ⟨k', -, h⟩ := Except_bind_ok.1 h
    obtain ⟨k'', -, h⟩ := Except_bind_ok.1 h
    exact ih (DWF_set ha _ _) h

theorem verify_same {t : CType} {v w : PVal} (h : t.verify v = .ok w) : w = v := by
  cases t with
  | any => simp [CType.verify] at h; exact h.symm
  | string => cases v <;> simp [CType.verify, PVal.isNone] at h <;> exact h.symm
  | path => cases v <;> simp [CType.verify, PVal.isNone] at h <;> exact h.symm
  | boolean => cases v <;> simp [CType.verify, PVal.isNone] at h <;> exact h.symm
  | list e =>
    cases v with
    | list l =>
      simp only [CType.verify, PVal.isNone, Bool.false_eq_true, if_false] at h
      obtain ⟨_, -, h⟩ := Except_bind_ok.1 h
      cases h; rfl
    | none => simp [CType.verify, PVal.isNone] at h; exact h.symm
    | _ => simp [CType.verify, PVal.isNone] at h
  | dict a b =>
    cases v with
    | dict l =>
      simp only [CType.verify, PVal.isNone, Bool.false_eq_true, if_false] at h
      obtain ⟨_, -, h⟩ := Except_bind_ok.1 h
      cases h; rfl
    | none => simp [CType.verify, PVal.isNone] at h; exact h.symm
    | _ => simp [CType.verify, PVal.isNone] at h
  | mergingDict a b =>
    simp only [CType.verify] at h
    split at h
    · cases h; rfl
    · cases v with
      | dict l =>
        obtain ⟨_, -, h⟩ := Except_bind_ok.1 h
        cases h; rfl
      | _ => simp at h

theorem fromYaml_shaped {expand : String → String} {t : CType} {v w : PVal} (h : t.fromYaml expand v = .ok w) : Shaped t w := by
  cases t with
  | mergingDict a b =>
    cases v with
    | none => simp only [CType.fromYaml] at h; cases h; exact ⟨[], rfl, by simp⟩
    | dict d =>
      simp only [CType.fromYaml] at h
      obtain ⟨d', hd', h⟩ := Except_bind_ok.1 h
      exact ⟨d', verify_same h, convertItems_DWF d (by simp) hd'⟩
    | _ => simp [CType.fromYaml] at h
  | _ => trivial

theorem unset_shaped (t : CType) : Shaped t t.unset := by
  cases t with
  | mergingDict a b => exact ⟨[], rfl, by simp⟩
  | _ => trivial

theorem fromCommandLine_shaped {loadYaml : String → Except Exc PVal} {expand : String → String} {t : CType} {v : CmdVal} {w : PVal}
    (h : t.fromCommandLine loadYaml expand v = .ok w) : Shaped t w := by
  cases t with
  | mergingDict a b =>
    cases v with
    | none => simp only [CType.fromCommandLine] at h; cases h; exact unset_shaped _
    | one s =>
      simp only [CType.fromCommandLine] at h
      obtain ⟨d, -, h⟩ := Except_bind_ok.1 h
      exact fromYaml_shaped h
    | many l =>
      simp only [CType.fromCommandLine] at h
      obtain ⟨d, -, h⟩ := Except_bind_ok.1 h
      exact fromYaml_shaped h
  | _ => trivial

theorem argValue_shaped {loadYaml : String → Except Exc PVal} {expand : String → String} {args : String → Option CmdVal} {i : ConfigItem} {w : PVal}
    (h : argValue loadYaml expand args i = .ok w) : Shaped i.type w := by
  unfold argValue at h
  split at h
  · split at h
    · cases h
    · exact fromCommandLine_shaped h
  · cases h; exact unset_shaped _

end Verif
