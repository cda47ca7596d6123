import Verif.Spec.Startup
import Verif.Props.ConfigReread
import Verif.Props.CommandLine
/-! # Lemmas on the start of xylem -/
namespace Verif

/-! ## Values that are read as they are -/

theorem fromYaml_unset (expand : String → String) (t : CType) : t.fromYaml expand t.unset = .ok t.unset := by
  cases t <;> rfl

/-- Read as it is. -/
def Fixed (expand : String → String) (t : CType) (v : PVal) : Prop := t.fromYaml expand v = .ok v

theorem merging_items {expand : String → String} (hexp : ∀ s, expand (expand s) = expand s) {vt kt : CType} (ht : (CType.mergingDict vt kt).KeysOk)
    {w : PVal} {d : Dict PKey PVal} (h : (CType.mergingDict vt kt).fromYaml expand w = .ok (.dict d)) :
    ∀ k x, (k, x) ∈ d → Fixed expand kt k.toVal ∧ Fixed expand vt x := by
  cases w with
  | none => cases h; simp
  | dict e =>
    simp only [CType.fromYaml] at h
    obtain ⟨d', hd', h⟩ := Except_bind_ok.1 h
    have e1 := verify_same h
    injection e1 with e1
    subst e1
    refine convertItems_mem e hd' (P := fun k x => kt.fromYaml expand k.toVal = .ok k.toVal ∧ vt.fromYaml expand x = .ok x) (by simp) ?_
    intro k x k' x' k'' _ hk1 hx1 hk2
    obtain ⟨k3, rfl⟩ := fromYaml_key ht.2.2 hk1
    rw [PKey.keyOfVal_toVal] at hk2; cases hk2
    exact ⟨C74_reading_again hexp ht.2.1 hk1, C74_reading_again hexp ht.1 hx1⟩
  | _ => simp [CType.fromYaml] at h

theorem merging_fixed {expand : String → String} {vt kt : CType} {d : Dict PKey PVal} (hd : DWF d)
    (h : ∀ k x, (k, x) ∈ d → Fixed expand kt k.toVal ∧ Fixed expand vt x) : Fixed expand (.mergingDict vt kt) (.dict d) := by
  have e := convertItems_fixed (fk := kt.fromYaml expand) (fv := vt.fromYaml expand) d [] (by simpa using hd) h
  rw [List.nil_append] at e
  unfold Fixed
  simp only [CType.fromYaml, e, bind, Except.bind]
  rw [verify_iff]
  refine ⟨rfl, d, rfl, fun k x hm => ?_⟩
  exact ⟨(C50_accepted_values_verify (h k x hm).1).2, (C50_accepted_values_verify (h k x hm).2).2⟩

/-- What comes from the command line is unset or was read. -/
theorem fromCommandLine_read {loadYaml : String → Except Exc PVal} {expand : String → String} {t : CType} {r : CmdVal} {v : PVal}
    (h : t.fromCommandLine loadYaml expand r = .ok v) : ∃ w, t.fromYaml expand w = .ok v := by
  unfold CType.fromCommandLine at h
  cases r with
  | none => cases h; exact ⟨_, fromYaml_unset expand t⟩
  | one s =>
    cases t <;> first
      | exact ⟨_, h⟩
      | (obtain ⟨l, -, h⟩ := Except_bind_ok.1 h; exact ⟨_, h⟩)
  | many s =>
    cases t <;> first
      | (simp at h; done)
      | (obtain ⟨l, -, h⟩ := Except_bind_ok.1 h; exact ⟨_, h⟩)

/-- The default does not say more than the value. -/
def Covers (t : CType) (dflt v : PVal) : Prop :=
  match t with
  | .mergingDict _ _ => ∃ d e, v = .dict d ∧ DWF d ∧ dflt = .dict e ∧ ∀ k, (dget e k).isSome = true → (dget d k).isSome = true
  | _ => v = .none → dflt = .none

theorem firstSet_mem {l : List PVal} (h : firstSet l ≠ .none) : firstSet l ∈ l := by
  induction l with
  | nil => exact absurd rfl h
  | cons x l ih =>
    rw [firstSet_cons] at h ⊢
    split
    · rename_i hx
      rw [if_pos hx] at h
      exact List.mem_cons_of_mem _ (ih h)
    · exact List.mem_cons_self ..

theorem firstSet_none {l : List PVal} (h : firstSet l = .none) : ∀ x ∈ l, x = .none := by
  induction l with
  | nil => simp
  | cons x l ih =>
    rw [firstSet_cons] at h
    intro y hy
    by_cases hx : x.isNone = true
    · rw [if_pos hx] at h
      rcases List.mem_cons.1 hy with rfl | hy
      · cases y <;> simp [PVal.isNone] at hx; rfl
      · exact ih h y hy
    · rw [if_neg hx] at h; subst h; exact absurd rfl hx

theorem firstWith_mem {k : PKey} {l : List PVal} {x : PVal} (h : firstWith k l = some x) : ∃ d, .dict d ∈ l ∧ dget d k = some x := by
  induction l with
  | nil => simp [firstWith] at h
  | cons y l ih =>
    cases y with
    | dict d =>
      simp only [firstWith] at h
      cases hd : dget d k with
      | some z => rw [hd] at h; simp at h; subst h; exact ⟨d, by simp, hd⟩
      | none =>
        rw [hd] at h; simp at h
        obtain ⟨e, h1, h2⟩ := ih h
        exact ⟨e, List.mem_cons_of_mem _ h1, h2⟩
    | _ =>
      simp only [firstWith] at h
      obtain ⟨e, h1, h2⟩ := ih h
      exact ⟨e, List.mem_cons_of_mem _ h1, h2⟩

theorem effective_fixed {expand : String → String} (hexp : ∀ s, expand (expand s) = expand s) {t : CType} (ht : t.KeysOk) {layers : List PVal} {v : PVal}
    (hl : ∀ x ∈ layers, ∃ w, t.fromYaml expand w = .ok x) (h : Effective t layers v) : Fixed expand t v := by
  have other : t.unset = .none → v = firstSet layers → Fixed expand t v := by
    intro hu h
    subst h
    by_cases hn : firstSet layers = .none
    · rw [hn]
      unfold Fixed
      rw [C50_null_is_unset, hu]
    · obtain ⟨w, hw⟩ := hl _ (firstSet_mem hn)
      exact C74_reading_again hexp ht hw
  cases t with
  | mergingDict vt kt =>
    obtain ⟨d, rfl, hd, hk⟩ := h
    refine merging_fixed hd fun k x hm => ?_
    have := hk k
    rw [mem_dget hd hm] at this
    obtain ⟨e, he, hx⟩ := firstWith_mem this.symm
    obtain ⟨w, hw⟩ := hl _ he
    exact merging_items hexp ht hw k x (dget_some_mem hx)
  | _ => exact other rfl h

theorem effective_covers {t : CType} {layers : List PVal} {dflt v : PVal} (hf : ∀ vt kt, t = .mergingDict vt kt → ∃ d, dflt = .dict d ∧ DWF d)
    (h : Effective t (layers ++ [dflt]) v) : Covers t dflt v := by
  cases t with
  | mergingDict vt kt =>
    obtain ⟨d, rfl, hd, hk⟩ := h
    obtain ⟨e, rfl, he⟩ := hf vt kt rfl
    refine ⟨d, e, rfl, hd, rfl, fun k hs => ?_⟩
    rw [hk k, firstWith_append]
    obtain ⟨x, hx⟩ := Option.isSome_iff_exists.1 hs
    simp only [firstWith, hx]
    cases firstWith k layers <;> simp
  | _ =>
    intro hn
    have h' : v = firstSet (layers ++ [dflt]) := h
    rw [hn] at h'
    exact firstSet_none h'.symm dflt (by simp)

/-- Merging again with the default changes nothing. -/
theorem covers_again {t : CType} {dflt v w : PVal} (hc : Covers t dflt v) (h : Effective t [t.unset, v, dflt] w) : SameValue v w := by
  have other : (v = .none → dflt = .none) → w = firstSet [.none, v, dflt] → SameValue v w := by
    intro hc h
    refine .inl ?_
    subst h
    cases v with
    | none => rw [hc rfl]; rfl
    | _ => rfl
  cases t with
  | mergingDict vt kt =>
    obtain ⟨d, e, rfl, hd, rfl, hk⟩ := hc
    obtain ⟨f, rfl, hf, hfk⟩ := h
    refine .inr ⟨d, f, rfl, rfl, fun k => ?_⟩
    rw [hfk k]
    simp only [CType.unset, firstWith, dget, Option.none_or]
    cases hx : dget d k with
    | some x => rfl
    | none =>
      cases hy : dget e k with
      | none => rfl
      | some y =>
        have := hk k (by rw [hy]; rfl)
        rw [hx] at this
        simp at this
  | _ => exact other hc h

/-! ## The printed config as a file -/

theorem dget_strKeys {β γ : Type} (f : β → γ) (l : Dict String β) (k : String) :
    dget (l.map fun kv => (PKey.str kv.1, f kv.2)) (.str k) = (dget l k).map f := by
  induction l with
  | nil => rfl
  | cons x l ih =>
    obtain ⟨a, b⟩ := x
    rw [List.map_cons, dget_cons, dget_cons, ih]
    by_cases h : a = k
    · subst h; simp
    · rw [if_neg h, if_neg (fun e => h (PKey.str.inj e))]

theorem items_fileEntry {c : Config} {n : String} {v : PVal} (h : readOpt c n = .ok v) : fileEntry c.items n = some v := by
  unfold fileEntry Config.items
  cases hg : groupOf n with
  | none =>
    simp only
    rw [dget_strKeys, (readOpt_top hg).1 h]
    rfl
  | some p =>
    obtain ⟨g, s⟩ := p
    obtain ⟨d, h1, h2⟩ := (readOpt_grp hg).1 h
    simp only
    rw [dget_strKeys, h1]
    simp only [Option.map_some, Entry.toVal, dictVal, id]
    rw [dget_strKeys (fun v => v), h2]
    rfl

theorem items_group {c : Config} {n g s : String} (hg : groupOf n = some (g, s)) {w : PVal} (h : readOpt c n = .ok w) {v : PVal}
    (hv : dget c.items (.str g) = some v) : v.isDict = true := by
  obtain ⟨d, h1, h2⟩ := (readOpt_grp hg).1 h
  unfold Config.items at hv
  rw [dget_strKeys, h1] at hv
  injection hv with hv
  subst hv
  rfl

theorem items_load {loadYaml : String → Except Exc PVal} {c : Config} {t : String} (h : loadYaml t = .ok (.dict c.items)) :
    loadConfigFileYaml loadYaml (.text t) = .ok c.items := by
  have : (c.items.all fun kv => match kv.1 with | .str _ => true | _ => false) = true := by
    unfold Config.items
    rw [List.all_eq_true]
    intro x hx
    obtain ⟨y, -, rfl⟩ := List.mem_map.1 hx
    rfl
  show yamlToConfig (loadYaml t) >>= processConfigFileYaml = _
  rw [h]
  show processConfigFileYaml (.dict c.items) = _
  unfold processConfigFileYaml
  exact if_pos this

theorem nothing_value {loadYaml : String → Except Exc PVal} {expand : String → String} {desc : Desc} {args : String → Option CmdVal}
    (h : NothingGiven desc args) {n : String} {i : ConfigItem} (hi : desc.Has n i) : argValue loadYaml expand args i = .ok i.type.unset := by
  unfold argValue
  split
  · rename_i hc
    rw [h n i hi hc]
    rfl
  · rfl

theorem nothing_loads {loadYaml : String → Except Exc PVal} {expand : String → String} {desc : Desc} (hd : desc.Built) {args : String → Option CmdVal}
    (h : NothingGiven desc args) : ∃ c, configFromArgs loadYaml expand args desc = .ok c := by
  have hw := hd.wf
  rcases he : (fillGroups (fun _ _ item => argValue loadYaml expand args item) [] desc.groups >>= fun c =>
    fillItems (fun _ item => argValue loadYaml expand args item) c desc.items) with e | c
  · obtain ⟨n, i, hi, he⟩ := fill_error hw he
    have hx : argValue loadYaml expand args i = .error e := by
      unfold optValue at he
      split at he <;> exact he
    rw [nothing_value h (hw.has.2 hi)] at hx
    cases hx
  · exact ⟨c, he⟩

/-- A config whose values are read as they are and cover the defaults, used as the only config file, is loaded as the same config. -/
theorem reload {loadYaml : String → Except Exc PVal} {expand : String → String} {file : String → FileText} {home tool ns : String} {desc : Desc}
    (hd : desc.Built) (hdef : ∀ n i, desc.Has n i → DefaultFits i ∧ i.type.KeysOk) {c : Config}
    (hc : ∀ n i, desc.Has n i → ∃ v, readOpt c n = .ok v ∧ Fixed expand i.type v ∧ Covers i.type i.default v) {a : GlobalArgs} {d : String}
    (ha : a.configDir = some d) {t : String} (hf : file (pathJoin d ns) = .text t) (hy : loadYaml t = .ok (.dict c.items))
    {args : String → Option CmdVal} (hn : NothingGiven desc args) :
    ∃ c', loadConfig loadYaml expand file home tool ns a args desc = .ok c' ∧
      ∀ n i, desc.Has n i → ∃ v w, readOpt c n = .ok v ∧ readOpt c' n = .ok w ∧ SameValue v w := by
  have hdirs : configDirs home tool a = [d] := by unfold configDirs; rw [ha]
  have hfile : ∃ c0, configFromFile loadYaml expand desc (.text t) = .ok c0 := by
    unfold configFromFile
    rw [items_load hy]
    rcases C51_errors_partial (expand := expand) (data := c.items) hd (fun n i hi => (hdef n i hi).2) (by
      intro n i g s hi hg v hv
      obtain ⟨w, hw, -⟩ := hc n i hi
      exact items_group hg hw hv) with h | ⟨-, n, i, v, hi, hv, hr⟩
    · exact h
    · obtain ⟨w, hw, hfx, -⟩ := hc n i hi
      rw [items_fileEntry hw] at hv
      injection hv with hv
      subst hv
      exact absurd ((fromYaml_ok_iff (expand := expand) (hdef n i hi).2).1 ⟨_, hfx⟩) hr
  obtain ⟨c', h'⟩ := C48_loading_succeeds (home := home) (tool := tool) (ns := ns) (a := a) (file := file) hd (fun n i hi => (hdef n i hi).1)
    (nothing_loads (loadYaml := loadYaml) (expand := expand) hd hn) (by
      intro dir hdir
      rw [hdirs, List.mem_singleton] at hdir
      subst hdir
      rw [hf]; exact hfile)
  refine ⟨c', h', fun n i hi => ?_⟩
  obtain ⟨cmd, files, w, h1, h2, h3, h4⟩ := C48_loaded_config hd (fun n i hi => (hdef n i hi).1) h' hi
  obtain ⟨v, hv, hfx, hcov⟩ := hc n i hi
  have hcmd : cmd = i.type.unset := by
    unfold CommandLineGives at h1
    split at h1
    · rename_i hcl
      obtain ⟨raw, hr1, hr2⟩ := h1
      rw [hn n i hi hcl] at hr1
      cases hr1
      exact (Except.ok.inj hr2).symm
    · exact h1
  rw [hdirs] at h2
  cases h2 with
  | cons hx hrest =>
    cases hrest
    obtain ⟨data, hdata, hval⟩ := hx
    rw [hf, items_load hy] at hdata
    cases hdata
    rw [items_fileEntry hv] at hval
    simp only [Option.getD_some] at hval
    have := hfx.symm.trans hval
    injection this with this
    subst this
    subst hcmd
    exact ⟨v, w, hv, h3, covers_again hcov h4⟩

/-- The values of a loaded config are read as they are and cover the defaults. -/
theorem loaded_fixed {loadYaml : String → Except Exc PVal} {expand : String → String} (hexp : ∀ s, expand (expand s) = expand s)
    {file : String → FileText} {home tool ns : String} {desc : Desc} (hd : desc.Built)
    (hdef : ∀ n i, desc.Has n i → DefaultFits i ∧ i.type.KeysOk) (hdf : ∀ n i, desc.Has n i → Fixed expand i.type i.default) {a : GlobalArgs}
    {args : String → Option CmdVal} {c : Config} (h : loadConfig loadYaml expand file home tool ns a args desc = .ok c) {n : String} {i : ConfigItem}
    (hi : desc.Has n i) : ∃ v, readOpt c n = .ok v ∧ Fixed expand i.type v ∧ Covers i.type i.default v := by
  obtain ⟨cmd, files, v, h1, h2, h3, h4⟩ := C48_loaded_config hd (fun n i hi => (hdef n i hi).1) h hi
  refine ⟨v, h3, effective_fixed hexp (hdef n i hi).2 ?_ h4, effective_covers (layers := cmd :: files) ?_ h4⟩
  · intro x hx
    rcases List.mem_append.1 hx with hx | hx
    · rcases List.mem_cons.1 hx with rfl | hx
      · unfold CommandLineGives at h1
        split at h1
        · obtain ⟨raw, -, hr⟩ := h1
          exact fromCommandLine_read hr
        · subst h1; exact ⟨_, fromYaml_unset expand _⟩
      · have : ∀ {l : List String} {fs : List PVal}, List.Forall₂ (fun dir v => FileGives loadYaml expand (file (pathJoin dir ns)) n i v) l fs →
            ∀ y ∈ fs, ∃ w, i.type.fromYaml expand w = .ok y := by
          intro l fs hfa
          induction hfa with
          | nil => simp
          | cons hx _ ih =>
            intro y hy
            rcases List.mem_cons.1 hy with rfl | hy
            · obtain ⟨data, -, hv⟩ := hx; exact ⟨_, hv⟩
            · exact ih y hy
        exact this h2 x hx
    · rw [List.mem_singleton] at hx
      subst hx
      exact ⟨_, hdf n i hi⟩
  · intro vt kt ht
    have := (hdef n i hi).1
    unfold DefaultFits at this
    rw [ht] at this
    exact this

end Verif
