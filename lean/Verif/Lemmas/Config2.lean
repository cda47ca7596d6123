import Verif.Lemmas.Config
import Verif.Spec.Config
/-! Helper lemmas about reading, writing and merging config dicts. -/
namespace Verif

theorem Desc.Built.wf {d : Desc} (h : d.Built) : d.Wf := by
  induction h with
  | empty => exact Desc.Wf.empty
  | add _ s ih => exact ih.add s

theorem Desc.Wf.has {d : Desc} (h : d.Wf) {n : String} {i : ConfigItem} : d.Has n i ↔ dget d.items n = some i := by
  constructor
  · rintro ⟨h1, rfl⟩
    apply mem_dget h.items
    rw [← h.listed]
    exact List.mem_map.2 ⟨i, h1, rfl⟩
  · intro hi
    have hm := dget_some_mem hi
    rw [← h.listed] at hm
    obtain ⟨j, hj, he⟩ := List.mem_map.1 hm
    simp only [Prod.mk.injEq] at he
    obtain ⟨rfl, rfl⟩ := he
    exact ⟨hj, rfl⟩

/-! ## Reading and writing -/

theorem writeOpt_top {c : Config} {n : String} {v : PVal} (h : groupOf n = none) : writeOpt c n v = .ok (dset c n (.val v)) := by
  simp [writeOpt, h]

theorem writeOpt_grp {c : Config} {n g s : String} {v : PVal} {d : Dict String PVal} (h : groupOf n = some (g, s)) (hd : dget c g = some (.grp d)) :
    writeOpt c n v = .ok (dset c g (.grp (dset d s v))) := by
  simp [writeOpt, h, hd]

theorem readOpt_top {c : Config} {n : String} (h : groupOf n = none) {v : PVal} : readOpt c n = .ok v ↔ dget c n = some (.val v) := by
  simp only [readOpt, h]
  cases dget c n with
  | none => simp
  | some e => cases e <;> simp

theorem readOpt_grp {c : Config} {n g s : String} (h : groupOf n = some (g, s)) {v : PVal} :
    readOpt c n = .ok v ↔ ∃ d, dget c g = some (.grp d) ∧ dget d s = some v := by
  simp only [readOpt, h]
  cases dget c g with
  | none => simp
  | some e =>
    cases e with
    | val => simp
    | grp d => cases hd : dget d s <;> simp [hd]

/-- The ways `writeOpt` can succeed. -/
theorem writeOpt_ok {c c' : Config} {n : String} {v : PVal} (h : writeOpt c n v = .ok c') :
    (groupOf n = none ∧ c' = dset c n (.val v)) ∨
    ∃ g s d, groupOf n = some (g, s) ∧ dget c g = some (.grp d) ∧ c' = dset c g (.grp (dset d s v)) := by
  cases hg : groupOf n with
  | none => rw [writeOpt_top hg] at h; cases h; exact .inl ⟨rfl, rfl⟩
  | some p =>
    obtain ⟨g, s⟩ := p
    right
    unfold writeOpt at h
    simp only [hg] at h
    cases hd : dget c g with
    | none => simp [hd] at h
    | some e =>
      cases e with
      | val => simp [hd] at h
      | grp d => simp only [hd] at h; cases h; exact ⟨g, s, d, rfl, hd, rfl⟩

theorem write_read {c c' : Config} {n : String} {v : PVal} (h : writeOpt c n v = .ok c') : readOpt c' n = .ok v := by
  rcases writeOpt_ok h with ⟨hg, rfl⟩ | ⟨g, s, d, hg, hd, rfl⟩
  · exact (readOpt_top hg).2 (by simp)
  · exact (readOpt_grp hg).2 ⟨dset d s v, by simp, by simp⟩

theorem write_other {c c' : Config} {n m : String} {v : PVal} (h : writeOpt c n v = .ok c') (hne : n ≠ m)
    (h1 : ∀ g s, groupOf n = some (g, s) → g ≠ m) (h2 : ∀ g s, groupOf m = some (g, s) → g ≠ n) : readOpt c' m = readOpt c m := by
  rcases writeOpt_ok h with ⟨hg, rfl⟩ | ⟨g, s, d, hg, hd, rfl⟩
  · cases hm : groupOf m with
    | none => simp [readOpt, hm, dget_set, hne]
    | some p =>
      obtain ⟨g', s'⟩ := p
      have := h2 g' s' hm
      simp [readOpt, hm, dget_set, Ne.symm this]
  · cases hm : groupOf m with
    | none => simp [readOpt, hm, dget_set, h1 g s hg]
    | some p =>
      obtain ⟨g', s'⟩ := p
      by_cases hgg : g = g'
      · subst hgg
        have : s ≠ s' := by rintro rfl; exact hne (groupOf_inj hg hm)
        simp [readOpt, hm, hd, dget_set, this]
      · simp [readOpt, hm, dget_set, hgg]

theorem write_ok {c : Config} {n : String} {w : PVal} (v : PVal) (h : readOpt c n = .ok w) : ∃ c', writeOpt c n v = .ok c' := by
  cases hg : groupOf n with
  | none => exact ⟨_, writeOpt_top hg⟩
  | some p =>
    obtain ⟨g, s⟩ := p
    obtain ⟨d, hd, -⟩ := (readOpt_grp hg).1 h
    exact ⟨_, writeOpt_grp hg hd⟩

/-- The config has a dict at `g`. -/
def HasGroup (c : Config) (g : String) : Prop := ∃ d, dget c g = some (.grp d)

theorem write_group {c c' : Config} {n g : String} {v : PVal} (h : writeOpt c n v = .ok c') (hne : n ≠ g) (hg : HasGroup c g) :
    HasGroup c' g := by
  obtain ⟨e, he⟩ := hg
  rcases writeOpt_ok h with ⟨-, rfl⟩ | ⟨g', s, d, -, hd, rfl⟩
  · exact ⟨e, by simp [dget_set, hne, he]⟩
  · by_cases hgg : g' = g
    · subst hgg; exact ⟨_, by simp; rfl⟩
    · exact ⟨e, by simp [dget_set, hgg, he]⟩

/-! ## Merging -/

/-- The value has the form merging needs. -/
def Shaped (t : CType) (v : PVal) : Prop :=
  match t with
  | .mergingDict _ _ => ∃ d, v = .dict d ∧ DWF d
  | _ => True

/-- The config has a value for every option and a dict for every group. -/
structure Fits (desc : Desc) (c : Config) : Prop where
  opts : ∀ n i, dget desc.items n = some i → ∃ v, readOpt c n = .ok v ∧ Shaped i.type v
  grps : ∀ g, g ∈ dkeys desc.groups → HasGroup c g

theorem dget_dupdate {κ β : Type} [DecidableEq κ] {d e : Dict κ β} (he : DWF e) (k : κ) : dget (dupdate d e) k = (dget e k).or (dget d k) := by
  unfold dupdate
  induction e generalizing d with
  | nil => simp
  | cons x e ih =>
    obtain ⟨a, w⟩ := x
    rw [DWF_cons] at he
    simp only [List.foldl_cons, ih he.2, dget_cons, dget_set]
    by_cases hak : a = k
    · subst hak
      have : dget e a = none := dget_eq_none.2 he.1
      simp [this]
    · simp [hak]

theorem DWF_dupdate {κ β : Type} [DecidableEq κ] {d e : Dict κ β} (hd : DWF d) : DWF (dupdate d e) := by
  unfold dupdate
  induction e generalizing d with
  | nil => exact hd
  | cons x e ih => exact ih (DWF_set hd _ _)

theorem merge_shaped {t : CType} {a b : PVal} (ha : Shaped t a) (hb : Shaped t b) : ∃ m, t.merge a b = .ok m ∧ Shaped t m := by
  cases t with
  | mergingDict vt kt =>
    obtain ⟨da, rfl, -⟩ := ha
    obtain ⟨db, rfl, hdb⟩ := hb
    exact ⟨_, rfl, _, rfl, DWF_dupdate hdb⟩
  | _ => exact ⟨_, rfl, trivial⟩

theorem sep_of_items {desc : Desc} (hw : desc.Wf) {n m : String} (hn : n ∈ dkeys desc.items) (hm : m ∈ dkeys desc.items) :
    ∀ g s, groupOf n = some (g, s) → g ≠ m := by
  rintro g s hg rfl
  obtain ⟨i, hi⟩ := Option.isSome_iff_exists.1 (mem_dkeys_iff.1 hn)
  obtain ⟨gd, h1, -⟩ := hw.inGroup n i g s hi hg
  exact hw.disjoint g hm (mem_dkeys_iff.2 (by simp [h1]))

/-- Writing an option of the description keeps the rest of the config. -/
theorem Fits.write {desc : Desc} (hw : desc.Wf) {c : Config} (hc : Fits desc c) {n : String} {i : ConfigItem} (hi : dget desc.items n = some i)
    {v : PVal} (hv : Shaped i.type v) : ∃ c', writeOpt c n v = .ok c' ∧ Fits desc c' ∧ readOpt c' n = .ok v ∧
      ∀ m, m ∈ dkeys desc.items → m ≠ n → readOpt c' m = readOpt c m := by
  have hn : n ∈ dkeys desc.items := mem_dkeys_iff.2 (by simp [hi])
  obtain ⟨w, hw1, -⟩ := hc.opts n i hi
  obtain ⟨c', hc'⟩ := write_ok v hw1
  have other : ∀ m, m ∈ dkeys desc.items → m ≠ n → readOpt c' m = readOpt c m := fun m hm hmn =>
    write_other hc' (Ne.symm hmn) (sep_of_items hw hn hm) (sep_of_items hw hm hn)
  refine ⟨c', hc', ⟨?_, ?_⟩, write_read hc', other⟩
  · intro m j hj
    by_cases hmn : m = n
    · subst hmn
      rw [hi] at hj; cases hj
      exact ⟨v, write_read hc', hv⟩
    · rw [other m (mem_dkeys_iff.2 (by simp [hj])) hmn]
      exact hc.opts m j hj
  · intro g hg
    exact write_group hc' (fun e => hw.disjoint n hn (e ▸ hg)) (hc.grps g hg)

theorem mergeConfig_list {desc : Desc} (hw : desc.Wf) {bottom : Config} (hb : Fits desc bottom) (l : List (String × ConfigItem))
    (hl : ∀ x ∈ l, dget desc.items x.1 = some x.2) (hnd : DWF l) {c : Config} (hc : Fits desc c) :
    ∃ r, l.foldlM (mergeItem bottom) c = .ok r ∧ Fits desc r ∧
      ∀ n i, dget desc.items n = some i →
        (n ∈ dkeys l → ∀ a b, readOpt c n = .ok a → readOpt bottom n = .ok b → readOpt r n = i.type.merge a b) ∧
        (n ∉ dkeys l → readOpt r n = readOpt c n) := by
  induction l generalizing c with
  | nil => exact ⟨c, rfl, hc, fun n i _ => ⟨by simp, fun _ => rfl⟩⟩
  | cons x l ih =>
    obtain ⟨n, i⟩ := x
    rw [DWF_cons] at hnd
    have hi : dget desc.items n = some i := hl (n, i) (by simp)
    obtain ⟨a, ha, has⟩ := hc.opts n i hi
    obtain ⟨b, hb1, hbs⟩ := hb.opts n i hi
    obtain ⟨m, hm, hms⟩ := merge_shaped has hbs
    obtain ⟨c', hc', hf', hr', ho'⟩ := hc.write hw hi hms
    obtain ⟨r, hr, hfr, hrr⟩ := ih (fun x hx => hl x (List.mem_cons_of_mem _ hx)) hnd.2 hf'
    have hstep : mergeItem bottom c (n, i) = .ok c' := by
      simp only [mergeItem, ha, hb1, hm, hc', bind, Except.bind]
    refine ⟨r, ?_, hfr, ?_⟩
    · simp only [List.foldlM_cons, hstep, bind, Except.bind]
      exact hr
    · intro n' j hj
      constructor
      · intro hmem a' b' ha' hb'
        by_cases hnn : n' = n
        · subst hnn
          rw [hi] at hj; cases hj
          rw [(hrr _ _ hi).2 hnd.1, hr', ← hm]
          rw [ha] at ha'; rw [hb1] at hb'
          cases ha'; cases hb'; rfl
        · rcases List.mem_cons.1 hmem with h | h
          · exact absurd h hnn
          · exact (hrr _ _ hj).1 h a' b' (by rw [ho' n' (mem_dkeys_iff.2 (by simp [hj])) hnn]; exact ha') hb'
      · intro hmem
        simp only [dkeys_cons, List.mem_cons, not_or] at hmem
        rw [(hrr _ _ hj).2 hmem.2, ho' n' (mem_dkeys_iff.2 (by simp [hj])) hmem.1]

theorem mergeConfig_spec {desc : Desc} (hw : desc.Wf) {c bottom : Config} (hc : Fits desc c) (hb : Fits desc bottom) :
    ∃ r, mergeConfig desc c bottom = .ok r ∧ Fits desc r ∧
      ∀ n i a b, dget desc.items n = some i → readOpt c n = .ok a → readOpt bottom n = .ok b → readOpt r n = i.type.merge a b := by
  obtain ⟨r, h1, h2, h3⟩ := mergeConfig_list hw hb desc.items (fun x hx => mem_dget hw.items hx) hw.items hc
  exact ⟨r, h1, h2, fun n i a b hi ha hb => (h3 n i hi).1 (mem_dkeys_iff.2 (by simp [hi])) a b ha hb⟩

theorem copyConfigDict_ok {desc : Desc} {c : Config} (hc : Fits desc c) : copyConfigDict desc c = .ok c := by
  unfold copyConfigDict
  rw [if_pos]
  rw [List.all_eq_true]
  rintro ⟨g, gd⟩ hx
  obtain ⟨d, hd⟩ := hc.grps g (mem_dkeys_of_mem hx)
  simp [dhas, hd]

theorem mergeAll_spec {desc : Desc} (hw : desc.Wf) (more : List Config) (hm : ∀ c ∈ more, Fits desc c) {c : Config} (hc : Fits desc c) :
    ∃ r, more.foldlM (mergeConfig desc) c = .ok r ∧ Fits desc r ∧
      ∀ n i a (bs : List PVal), dget desc.items n = some i → readOpt c n = .ok a → more.mapM (fun c => readOpt c n) = .ok bs →
        readOpt r n = bs.foldlM i.type.merge a := by
  induction more generalizing c with
  | nil =>
    refine ⟨c, rfl, hc, fun n i a bs _ ha hbs => ?_⟩
    simp [pure, Except.pure] at hbs
    subst hbs; simpa [pure, Except.pure] using ha
  | cons b more ih =>
    obtain ⟨r1, h1, h2, h3⟩ := mergeConfig_spec hw hc (hm b (by simp))
    obtain ⟨r, h4, h5, h6⟩ := ih (fun c hc => hm c (List.mem_cons_of_mem _ hc)) h2
    refine ⟨r, ?_, h5, ?_⟩
    · simp only [List.foldlM_cons, h1, bind, Except.bind]; exact h4
    · intro n i a bs hi ha hbs
      rw [List.mapM_cons] at hbs
      obtain ⟨b0, hb0, hbs⟩ := Except_bind_ok.1 hbs
      obtain ⟨bs', hbs', he⟩ := Except_bind_ok.1 hbs
      rw [pure_ok] at he; subst he
      have hr1 := h3 n i a b0 hi ha hb0
      obtain ⟨x, hx, hxs⟩ := h2.opts n i hi
      rw [List.foldlM_cons, ← hr1, hx]
      simp only [bind, Except.bind]
      exact h6 n i x bs' hi hx hbs'

/-! ## What merging a stack of values gives -/

theorem firstSet_cons (v : PVal) (t : List PVal) : firstSet (v :: t) = if v.isNone then firstSet t else v := by
  cases v <;> rfl

theorem merge_plain {t : CType} (ht : ∀ vt kt, t ≠ .mergingDict vt kt) (a b : PVal) : t.merge a b = .ok (if a.isNone then b else a) := by
  cases t with
  | mergingDict vt kt => exact absurd rfl (ht vt kt)
  | _ => rfl

theorem foldlM_plain {t : CType} (ht : ∀ vt kt, t ≠ .mergingDict vt kt) (a : PVal) (bs : List PVal) :
    bs.foldlM t.merge a = .ok (firstSet (a :: bs)) := by
  induction bs generalizing a with
  | nil => cases a <;> rfl
  | cons b bs ih =>
    rw [List.foldlM_cons, merge_plain ht]
    simp only [bind, Except.bind]
    rw [ih]
    cases a <;> rfl

theorem foldlM_dicts {vt kt : CType} (da : Dict PKey PVal) (hda : DWF da) (bs : List PVal) (hbs : ∀ b ∈ bs, ∃ d, b = .dict d ∧ DWF d) :
    ∃ d, bs.foldlM (CType.merge (.mergingDict vt kt)) (.dict da) = .ok (.dict d) ∧ DWF d ∧ ∀ k, dget d k = firstWith k (.dict da :: bs) := by
  induction bs generalizing da with
  | nil => exact ⟨da, rfl, hda, fun k => by simp [firstWith]⟩
  | cons b bs ih =>
    obtain ⟨db, rfl, hdb⟩ := hbs b (by simp)
    have hm : CType.merge (.mergingDict vt kt) (.dict da) (.dict db) = .ok (.dict (dupdate db da)) := rfl
    obtain ⟨d, h1, h2, h3⟩ := ih (dupdate db da) (DWF_dupdate hdb) (fun b hb => hbs b (List.mem_cons_of_mem _ hb))
    refine ⟨d, ?_, h2, ?_⟩
    · rw [List.foldlM_cons, hm]; exact h1
    · intro k
      rw [h3]
      simp only [firstWith, dget_dupdate hda]
      cases dget da k <;> simp

theorem mapM_shaped {desc : Desc} {n : String} {i : ConfigItem} (hi : dget desc.items n = some i) (more : List Config)
    (hm : ∀ c ∈ more, Fits desc c) : ∃ bs, more.mapM (fun c => readOpt c n) = .ok bs ∧ ∀ b ∈ bs, Shaped i.type b := by
  induction more with
  | nil => exact ⟨[], rfl, by simp⟩
  | cons c more ih =>
    obtain ⟨v, hv, hs⟩ := (hm c (by simp)).opts n i hi
    obtain ⟨bs, hbs, hss⟩ := ih (fun c hc => hm c (List.mem_cons_of_mem _ hc))
    refine ⟨v :: bs, by simp [List.mapM_cons, hv, hbs, bind, Except.bind, pure, Except.pure], ?_⟩
    intro b hb
    rcases List.mem_cons.1 hb with rfl | hb
    · exact hs
    · exact hss b hb

theorem foldlM_effective {t : CType} {a : PVal} {bs : List PVal} (ha : Shaped t a) (hbs : ∀ b ∈ bs, Shaped t b) :
    ∃ v, bs.foldlM t.merge a = .ok v ∧ Effective t (a :: bs) v := by
  by_cases ht : ∃ vt kt, t = .mergingDict vt kt
  · obtain ⟨vt, kt, rfl⟩ := ht
    obtain ⟨da, rfl, hda⟩ := ha
    obtain ⟨d, h1, h2, h3⟩ := foldlM_dicts (vt := vt) (kt := kt) da hda bs hbs
    exact ⟨_, h1, d, rfl, h2, h3⟩
  · have ht' : ∀ vt kt, t ≠ .mergingDict vt kt := fun vt kt e => ht ⟨vt, kt, e⟩
    refine ⟨_, foldlM_plain ht' a bs, ?_⟩
    cases t with
    | mergingDict vt kt => exact absurd rfl (ht' vt kt)
    | _ => rfl

/-- Merging fitting configs succeeds and every option has its effective value. -/
theorem mergeConfigs_spec {desc : Desc} (hw : desc.Wf) {top : Config} {more : List Config} (hm : ∀ c ∈ top :: more, Fits desc c) :
    ∃ r, mergeConfigs desc top more = .ok r ∧ Fits desc r ∧
      ∀ n i, dget desc.items n = some i → ∃ layers v, (top :: more).mapM (fun c => readOpt c n) = .ok layers ∧
        readOpt r n = .ok v ∧ Effective i.type layers v := by
  have htop := hm top (by simp)
  obtain ⟨r, h1, h2, h3⟩ := mergeAll_spec hw more (fun c hc => hm c (List.mem_cons_of_mem _ hc)) htop
  refine ⟨r, ?_, h2, ?_⟩
  · simp only [mergeConfigs, copyConfigDict_ok htop, bind, Except.bind]; exact h1
  · intro n i hi
    obtain ⟨a, ha, has⟩ := htop.opts n i hi
    obtain ⟨bs, hbs, hbss⟩ := mapM_shaped hi more (fun c hc => hm c (List.mem_cons_of_mem _ hc))
    obtain ⟨v, hv, he⟩ := foldlM_effective has hbss
    refine ⟨a :: bs, v, by simp [List.mapM_cons, ha, hbs, bind, Except.bind, pure, Except.pure], ?_, he⟩
    rw [h3 n i a bs hi ha hbs, hv]

end Verif
