import Verif.Props.ConfigNames
/-!
# What values of options are read as, defaults of options, and the effective os override

Second part of C48, C50 and C54 (tightened after wrong programs were accepted).
-/
namespace Verif

theorem convertItems_readAs {expand : String → String} {fk fv : PVal → Except Exc PVal} {gk gv : PVal → PVal}
    (hk : ∀ v w, fk v = .ok w → w = gk v) (hv : ∀ v w, fv v = .ok w → w = gv v) :
    ∀ (d acc r : Dict PKey PVal), convertItems fk fv acc d = .ok r →
      r = d.foldl (fun acc kv => dset acc (readAs.readAsKey (gk kv.1.toVal) kv.1) (gv kv.2)) acc := by
  intro d
  induction d with
  | nil => intro acc r h; cases h; rfl
  | cons x d ih =>
    intro acc r h
    obtain ⟨k, v⟩ := x
    obtain ⟨v', h1, h⟩ := Except_bind_ok.1 h
    obtain ⟨k', h2, h⟩ := Except_bind_ok.1 h
    obtain ⟨k'', h3, h⟩ := Except_bind_ok.1 h
    have e1 := hv _ _ h1
    have e2 := hk _ _ h2
    have e3 : readAs.readAsKey (gk k.toVal) k = k'' := by rw [← e2]; unfold readAs.readAsKey; rw [h3]
    rw [List.foldl_cons]
    simp only [e3, ← e1]
    exact ih _ _ h

theorem mapM_readAs {f : PVal → Except Exc PVal} {g : PVal → PVal} (hf : ∀ v w, f v = .ok w → w = g v) {l r : List PVal} (h : l.mapM f = .ok r) :
    r = l.map g := by
  have h' := mapM_ok_iff.1 h
  clear h
  induction h' with
  | nil => rfl
  | cons h1 h2 ih => rw [List.map_cons, ← ih, hf _ _ h1]

/-- C50: what is read is what the file says, with paths expanded at every depth. -/
theorem C50_values_read {expand : String → String} {t : CType} {v w : PVal} (h : t.fromYaml expand v = .ok w) : w = readAs expand t v := by
  induction t generalizing v w with
  | any => cases h; cases v <;> rfl
  | string => have e := verify_same h; subst e; cases w <;> rfl
  | boolean => have e := verify_same h; subst e; cases w <;> rfl
  | path =>
    cases v <;> first | (cases h; rfl) | (simp [CType.fromYaml] at h)
  | list e ih =>
    cases v with
    | none => cases h; rfl
    | list l =>
      simp only [CType.fromYaml] at h
      obtain ⟨l', h1, h2⟩ := Except_bind_ok.1 h
      rw [verify_same h2]
      simp only [readAs, mapM_readAs (fun _ _ h => ih h) h1]
    | _ => simp [CType.fromYaml] at h
  | dict vt kt ihv ihk =>
    cases v with
    | none => cases h; rfl
    | dict l =>
      simp only [CType.fromYaml] at h
      obtain ⟨l', h1, h2⟩ := Except_bind_ok.1 h
      rw [verify_same h2]
      simp only [readAs, convertItems_readAs (expand := expand) (fun _ _ h => ihk h) (fun _ _ h => ihv h) _ _ _ h1]
    | _ => simp [CType.fromYaml] at h
  | mergingDict vt kt ihv ihk =>
    cases v with
    | none => cases h; rfl
    | dict l =>
      simp only [CType.fromYaml] at h
      obtain ⟨l', h1, h2⟩ := Except_bind_ok.1 h
      rw [verify_same h2]
      simp only [readAs, convertItems_readAs (expand := expand) (fun _ _ h => ihk h) (fun _ _ h => ihv h) _ _ _ h1]
    | _ => simp [CType.fromYaml] at h

example : readAs (fun s => "/x" ++ s) (.dict (.list .path) .string) (.dict [(.str "a", .list [.str "p", .none])])
    = .dict [(.str "a", .list [.str "/xp", .none])] := by rfl
example : ∃ w, CType.fromYaml (fun s => "/x" ++ s) (.mergingDict .path .path) (.dict [(.str "a", .str "b")]) = .ok w ∧
    w = .dict [(.str "/xa", .str "/xb")] := ⟨_, rfl, rfl⟩

/-! ## defaults -/

theorem items_of_add (d : Desc) (s : ItemSpec) {i : ConfigItem} (h : i ∈ (d.add s).1.itemlist) : i ∈ d.itemlist ∨ i = mkItem s := by
  have key : ∀ d' : Desc, d'.itemlist = d.itemlist → i ∈ (d'.addItem (mkItem s)).1.itemlist → i ∈ d.itemlist ∨ i = mkItem s := by
    intro d' e h
    unfold Desc.addItem at h
    simp only [e] at h
    split at h
    · split at h <;> simpa using h
    · simpa using h
  unfold Desc.add at h
  split at h
  · exact .inl h
  split at h
  · exact .inl h
  split at h
  · exact key d rfl h
  split at h
  · refine key _ ?_ h; rfl
  · split at h
    · exact .inl h
    · refine key _ ?_ h; rfl

/-- The options of a description are made from what was passed to `add`. -/
theorem items_of_addAll {l : List ItemSpec} {d0 desc : Desc}
    (h : l.foldlM (fun d s => match d.add s with
      | (d', .ok _) => .ok d'
      | (_, .error e) => .error e) d0 = (.ok desc : Except Exc Desc)) {i : ConfigItem} (hi : i ∈ desc.itemlist) :
    i ∈ d0.itemlist ∨ ∃ s ∈ l, i = mkItem s := by
  induction l generalizing d0 with
  | nil => cases h; exact .inl hi
  | cons s l ih =>
    rw [List.foldlM_cons] at h
    obtain ⟨d1, h1, h⟩ := Except_bind_ok.1 h
    rcases ih h with h2 | ⟨s', hs', e⟩
    · have e1 : d1 = (d0.add s).1 := by
        rcases ha : d0.add s with ⟨d', e | u⟩ <;> rw [ha] at h1 <;> cases h1
        rfl
      rw [e1] at h2
      rcases items_of_add d0 s h2 with h3 | h3
      · exact .inl h3
      · exact .inr ⟨s, by simp, h3⟩
    · exact .inr ⟨s', List.mem_cons_of_mem _ hs', e⟩

/-- C48: the default of an option is the one given when it was declared; an option declared without default is unset by default: null, or the
empty dict if dicts are merged. -/
theorem C48_declared_default {l : List ItemSpec} {desc : Desc} (h : addAll l = .ok desc) {n : String} {i : ConfigItem} (hi : desc.Has n i) :
    ∃ s ∈ l, s.name = n ∧ i.type = s.type ∧ (s.default ≠ .none → i.default = s.default) ∧
      (s.default = .none → i.default = match s.type with
        | .mergingDict _ _ => .dict []
        | _ => .none) := by
  rcases items_of_addAll h hi.1 with h1 | ⟨s, hs, e⟩
  · cases h1
  · refine ⟨s, hs, ?_, ?_, ?_, ?_⟩
    · rw [← hi.2, e]; rfl
    · rw [e]; rfl
    · intro hne
      rw [e]
      have : s.default.isNone = false := by cases hd : s.default <;> simp_all [PVal.isNone]
      simp [mkItem, this]
    · intro he
      rw [e]
      simp only [mkItem, he, PVal.isNone, if_true]
      cases s.type <;> rfl

/-- C48: if every declared default of a merging dict is a dict (or left out), every option can be merged. -/
theorem C48_defaults_fit {l : List ItemSpec} {desc : Desc} (h : addAll l = .ok desc)
    (hl : ∀ s ∈ l, ∀ vt kt, s.type = .mergingDict vt kt → s.default = .none ∨ ∃ d, s.default = .dict d ∧ DWF d) {n : String} {i : ConfigItem}
    (hi : desc.Has n i) : DefaultFits i := by
  obtain ⟨s, hs, -, ht, h1, h2⟩ := C48_declared_default h hi
  unfold DefaultFits
  rw [ht]
  cases hty : s.type with
  | mergingDict vt kt =>
    simp only
    rcases hl s hs vt kt hty with hd | ⟨d, hd, hw⟩
    · have := h2 hd
      rw [hty] at this
      exact ⟨[], this, by simp [DWF, dkeys]⟩
    · exact ⟨d, by rw [h1 (by rw [hd]; simp), hd], hw⟩
  | _ => trivial

example : addAll xylemItems = .ok xylemDescription ∧
    xylemDescription.Has "install_from" (mkItem { name := "install_from", type := .mergingDict (.list .string) .string, metavar := some "\"inst1:[key1,key2,...] ...\"" }) := by
  refine ⟨C52_xylem_description, ?_, rfl⟩
  have e : xylemDescription.itemlist = xylemItems.map mkItem := by rfl
  rw [e]
  exact List.mem_map.2 ⟨_, by simp only [xylemItems, List.mem_cons, true_or, or_true], rfl⟩

/-! ## the effective os override -/

/-- C54: without an os override the detected os is used and the configured features; with one, its name and version are taken, and its features
take precedence over the configured ones. -/
theorem C54_effective_override (ws : Char → Bool) (home : String) (a : GlobalArgs) (cache sources : Option String) (user : Bool)
    (os : Option (List Char)) (features : Option (List (List Char))) :
    let p := processConfig ws home a cache sources user os features
    (os = none → p.osOverride = none ∧ p.features = features) ∧
    (∀ o n v fs, os = some o → parseOsOverride ws o = (n, v, fs) →
      p.osOverride = some (n, v) ∧ (∀ l, fs = some l → p.features = some l) ∧ (fs = none → p.features = features)) := by
  intro p
  refine ⟨?_, ?_⟩
  · rintro rfl; exact ⟨rfl, rfl⟩
  · rintro o n v fs rfl ho
    refine ⟨?_, ?_, ?_⟩
    · simp [p, processConfig, ho]
    · rintro l rfl; simp [p, processConfig, ho]
    · rintro rfl; simp [p, processConfig, ho]

example : (processConfig (· == ' ') "/home" ⟨none, none, false⟩ none none true (some "ubuntu:trusty&a".toList) (some ["b".toList])).features
    = some ["a".toList] := by rfl

end Verif
