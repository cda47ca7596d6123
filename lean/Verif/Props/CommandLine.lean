import Verif.Lemmas.CommandLine
import Verif.Props.ConfigNames
/-! # C96, C97: options on the command line -/
namespace Verif

/-! ## Places of values -/

/-- argparse keeps the value of an option where `config_from_args` looks for it, if the argument has no slash and does not start with a dash. -/
theorem dest_agrees {a : String} (h1 : '/' ∉ a.toList) (h2 : a.toList.head? ≠ some '-') :
    argparseDest ("--" ++ a) = String.ofList (underscorify a.toList) := by
  unfold argparseDest
  have e : ("--" ++ a).toList.dropWhile (fun c => c == '-') = a.toList := by
    rw [String.toList_append, show "--".toList = ['-', '-'] from rfl]
    simp only [List.cons_append, List.nil_append, List.dropWhile_cons, beq_self_eq_true, if_true]
    cases ha : a.toList with
    | nil => rfl
    | cons c t =>
      rw [ha] at h2
      have : ¬ c = '-' := fun e => h2 (by rw [e]; rfl)
      rw [List.dropWhile_cons, if_neg (by simpa using this)]
  rw [e, underscorify_eq, pyReplace_single]
  congr 1
  clear e h2
  revert h1
  generalize a.toList = w
  intro h1
  induction w with
  | nil => rfl
  | cons c t ih =>
    have hc : ¬ c = '/' := fun e => h1 (by simp [e])
    have ht : '/' ∉ t := fun h => h1 (by simp [h])
    rw [List.flatMap_cons, List.map_cons, ih ht]
    by_cases hx : c = '-'
    · simp [hx]
    · simp [hx, hc]

theorem option_mem {extra opts : List OptSpec} {desc : Desc} (h : mkParser extra desc = .ok opts) {i : ConfigItem} (hi : i ∈ desc.itemlist)
    (hc : i.commandLine = true) : i.option ∈ opts := by
  rw [(mkParser_ok h).1]
  have : i.option ∈ desc.options := List.mem_map_of_mem (List.mem_filter.2 ⟨hi, hc⟩)
  simp [this]

theorem action_eq (i : ConfigItem) : i.option.action = if i.type.multiple then .append else .store := rfl

theorem runAction_value {o : OptSpec} {v : Option String} {ns ns' : ArgSpace} {m : Bool} (ha : o.action = if m then .append else .store)
    (h : runAction o v ns = .ok ns') : ∃ s, v = some s := by
  unfold runAction at h
  cases v with
  | some s => exact ⟨s, rfl⟩
  | none => cases m <;> simp [ha] at h

theorem fold_values {opts : List OptSpec} (hf : FlagsApart opts) {o : OptSpec} (ho : o ∈ opts) {fl : String} {m : Bool} (hfl : o.flags = [fl])
    (ha : o.action = if m then .append else .store) (l : List Given) (hfull : ∀ g ∈ l, g.flag ∈ allFlags opts) :
    ∀ {ns ns' : ArgSpace} (acc : List String), l.foldlM (takeGiven opts) ns = .ok ns' →
      l.foldl (destStep opts o) (some (.cmd (asGiven m acc))) = some (.cmd (asGiven m (acc ++ valuesFor fl l))) := by
  induction l with
  | nil => intro ns ns' acc h; simp [valuesFor]
  | cons g l ih =>
    intro ns ns' acc h
    have hl : ∀ g ∈ l, g.flag ∈ allFlags opts := fun g hg => hfull g (List.mem_cons_of_mem _ hg)
    rw [List.foldlM_cons] at h
    obtain ⟨n1, h1, h2⟩ := Except_bind_ok.1 h
    obtain ⟨p, hp, hr⟩ := takeGiven_ok h1
    rw [List.foldl_cons]
    by_cases hpo : p = o
    · subst hpo
      have hgf := findOption_flag (hfull g (List.mem_cons_self ..)) hp
      rw [hfl, List.mem_singleton] at hgf
      obtain ⟨s, hs⟩ := runAction_value ha hr
      have e : destStep opts p (some (.cmd (asGiven m acc))) g = some (.cmd (asGiven m (acc ++ [s]))) := by
        unfold destStep
        simp only [hp]
        rw [if_pos trivial, ha, hs, actVal_asGiven]
      rw [e, ih hl (acc ++ [s]) h2]
      congr 3
      simp [valuesFor, hgf, hs]
    · have e : destStep opts o (some (.cmd (asGiven m acc))) g = some (.cmd (asGiven m acc)) := by
        unfold destStep
        simp only [hp]
        rw [if_neg hpo]
      have hne : ¬ g.flag = fl := by
        intro e
        have h3 := findOption_flag (hfull g (List.mem_cons_self ..)) hp
        exact hpo (apart_unique hf (findOption_mem hp) ho h3 (by rw [hfl, e]; simp))
      rw [e, ih hl acc h2]
      congr 4
      simp [valuesFor, hne]

theorem multiple_eq (t : CType) : t.multiple = t.repeatable := by cases t <;> rfl

/-- **C96** The value of a config option on the command line is made of exactly the values given with its option string (options written in
full): none if it was not given, the last one for options taking one value, all of them in order for list and dict options. This holds for
every description whose arguments do not contain slashes or start with a dash, and every parser made for it in which no two options
share the place of their value. -/
theorem C96_values_arrive {extra opts : List OptSpec} {desc : Desc} (hp : mkParser extra desc = .ok opts)
    (hd : (opts.map OptSpec.dest).Nodup) {l : List Given} (hfull : ∀ g ∈ l, g.flag ∈ allFlags opts) {ns : ArgSpace}
    (h : parseInto opts [] l = .ok ns) (loadYaml : String → Except Exc PVal) (expand : String → String) {i : ConfigItem}
    (hi : i ∈ desc.itemlist) (hc : i.commandLine = true) (h1 : '/' ∉ i.argument.toList) (h2 : i.argument.toList.head? ≠ some '-') :
    argValue loadYaml expand (argsOf ns) i =
      i.type.fromCommandLine loadYaml expand (asGiven i.type.repeatable (valuesFor ("--" ++ i.argument) l)) := by
  rw [← multiple_eq]
  have hm := option_mem hp hi hc
  have e : dget ns i.option.dest = some (.cmd (asGiven i.type.multiple (valuesFor ("--" ++ i.argument) l))) := by
    rw [fold_dest hd hm l h, addDefaults_dget, findSome_dest hd hm]
    have : (dget ([] : ArgSpace) i.option.dest).or (dfltVal i.option.action) = some (.cmd (asGiven i.type.multiple [])) := by
      rw [action_eq]
      cases i.type.multiple <;> rfl
    rw [this, fold_values (mkParser_ok hp).2 hm rfl (action_eq i) l hfull [] h, List.nil_append]
  unfold argValue
  rw [if_pos hc]
  unfold argsOf
  rw [← dest_agrees h1 h2, show argparseDest ("--" ++ i.argument) = i.option.dest from rfl, e]

/-- A switch is on iff one of its option strings was given; in the order of the command line, once on it stays on. -/
theorem fold_switch {opts : List OptSpec} (hf : FlagsApart opts) {o : OptSpec} (ho : o ∈ opts) (ha : o.action = .storeTrue) (l : List Given)
    (hfull : ∀ g ∈ l, g.flag ∈ allFlags opts) : ∀ {ns ns' : ArgSpace} (b : Bool), l.foldlM (takeGiven opts) ns = .ok ns' →
      l.foldl (destStep opts o) (some (.flag b)) = some (.flag (b || l.any fun g => o.flags.contains g.flag)) := by
  induction l with
  | nil => intro ns ns' b h; simp
  | cons g l ih =>
    intro ns ns' b h
    have hl : ∀ g ∈ l, g.flag ∈ allFlags opts := fun g hg => hfull g (List.mem_cons_of_mem _ hg)
    rw [List.foldlM_cons] at h
    obtain ⟨n1, h1, h2⟩ := Except_bind_ok.1 h
    obtain ⟨p, hp, hr⟩ := takeGiven_ok h1
    have h3 := findOption_flag (hfull g (List.mem_cons_self ..)) hp
    rw [List.foldl_cons]
    by_cases hpo : p = o
    · subst hpo
      have hv : g.value = none := by
        unfold runAction at hr
        rw [ha] at hr
        cases hv : g.value with
        | none => rfl
        | some v => rw [hv] at hr; simp at hr
      have e : destStep opts p (some (.flag b)) g = some (.flag true) := by
        unfold destStep
        simp only [hp]
        rw [if_pos trivial, ha, hv]
        rfl
      rw [e, ih hl true h2]
      simp [h3]
    · have e : destStep opts o (some (.flag b)) g = some (.flag b) := by
        unfold destStep
        simp only [hp]
        rw [if_neg hpo]
      have hne : g.flag ∉ o.flags := fun hx => hpo (apart_unique hf (findOption_mem hp) ho h3 hx)
      rw [e, ih hl b h2]
      simp [hne]

/-- **C96** A switch (`--verbose`, `--dry-run`, ...) is on iff one of its option strings was given. -/
theorem C96_switches {extra opts : List OptSpec} {desc : Desc} (hp : mkParser extra desc = .ok opts)
    (hd : (opts.map OptSpec.dest).Nodup) {l : List Given} (hfull : ∀ g ∈ l, g.flag ∈ allFlags opts) {ns : ArgSpace}
    (h : parseInto opts [] l = .ok ns) {o : OptSpec} (ho : o ∈ opts) (ha : o.action = .storeTrue) :
    dget ns o.dest = some (.flag true) ∧ (∃ g ∈ l, g.flag ∈ o.flags) ∨ dget ns o.dest = some (.flag false) ∧ ¬ ∃ g ∈ l, g.flag ∈ o.flags := by
  have e : dget ns o.dest = some (.flag (l.any fun g => o.flags.contains g.flag)) := by
    rw [fold_dest hd ho l h, addDefaults_dget, findSome_dest hd ho]
    have : (dget ([] : ArgSpace) o.dest).or (dfltVal o.action) = some (.flag false) := by rw [ha]; rfl
    rw [this, fold_switch (mkParser_ok hp).2 ho ha l hfull false h, Bool.false_or]
  rw [e]
  cases hb : l.any fun g => o.flags.contains g.flag with
  | true => exact .inl ⟨rfl, by simpa using hb⟩
  | false => exact .inr ⟨rfl, by simpa using hb⟩

/-- **C96** The text given with an option like `--prefix` that has one option string and takes one value: the last one given, if any. -/
theorem C96_texts {extra opts : List OptSpec} {desc : Desc} (hp : mkParser extra desc = .ok opts)
    (hd : (opts.map OptSpec.dest).Nodup) {l : List Given} (hfull : ∀ g ∈ l, g.flag ∈ allFlags opts) {ns : ArgSpace}
    (h : parseInto opts [] l = .ok ns) {o : OptSpec} {fl : String} (ho : o ∈ opts) (hfl : o.flags = [fl]) (ha : o.action = .store) :
    dget ns o.dest = some (.cmd (asGiven false (valuesFor fl l))) := by
  rw [fold_dest hd ho l h, addDefaults_dget, findSome_dest hd ho]
  have : (dget ([] : ArgSpace) o.dest).or (dfltVal o.action) = some (.cmd (asGiven false [])) := by rw [ha]; rfl
  rw [this, fold_values (mkParser_ok hp).2 ho hfl (m := false) (by simpa using ha) l hfull [] h, List.nil_append]

/-! ### Which command lines are accepted -/

/-- The values of `append` options can be appended to. -/
def Appendable (opts : List OptSpec) (ns : ArgSpace) : Prop := ∀ o ∈ opts, o.action = .append → ∃ l, listSoFar ns o.dest = .ok l

theorem listSoFar_congr {ns ns' : ArgSpace} {d : String} (h : dget ns d = dget ns' d) : listSoFar ns d = listSoFar ns' d := by
  unfold listSoFar; rw [h]

theorem appendable_step {opts : List OptSpec} (hd : (opts.map OptSpec.dest).Nodup) {ns ns' : ArgSpace} (hA : Appendable opts ns) {o : OptSpec}
    (ho : o ∈ opts) {v : Option String} (h : runAction o v ns = .ok ns') : Appendable opts ns' := by
  intro p hpm hpa
  obtain ⟨l, hl⟩ := hA p hpm hpa
  have hg := runAction_dget h p.dest
  by_cases e : o.dest = p.dest
  · have : o = p := dests_unique hd ho hpm e
    subst this
    rw [if_pos rfl] at hg
    cases v with
    | none => exact ⟨l, by rw [← hl]; apply listSoFar_congr; rw [hg, hpa]; rfl⟩
    | some v => exact ⟨soFar (dget ns o.dest) ++ [v], by unfold listSoFar; rw [hg, hpa]; rfl⟩
  · rw [if_neg e] at hg
    exact ⟨l, by rw [← hl]; exact listSoFar_congr hg⟩

theorem appendable_start {opts : List OptSpec} (hd : (opts.map OptSpec.dest).Nodup) : Appendable opts (opts.foldl addDefault []) := by
  intro o ho ha
  refine ⟨[], ?_⟩
  have : dget (opts.foldl addDefault []) o.dest = some (.cmd .none) := by
    rw [addDefaults_dget, findSome_dest hd ho, ha]; rfl
  unfold listSoFar; rw [this]

theorem runAction_proper {opts : List OptSpec} {ns : ArgSpace} (hA : Appendable opts ns) {o : OptSpec} (ho : o ∈ opts) {v : Option String} :
    (∃ ns', runAction o v ns = .ok ns') ↔ (o.action ≠ .quit ∧ (v.isSome = true ↔ o.action ≠ .storeTrue)) := by
  unfold runAction
  cases ha : o.action <;> cases v <;> simp
  obtain ⟨l, hl⟩ := hA o ho ha
  rw [hl]
  exact ⟨_, rfl⟩

theorem takeGiven_proper {opts : List OptSpec} (hf : FlagsApart opts) {ns : ArgSpace} (hA : Appendable opts ns) {g : Given}
    (hg : g.flag ∈ allFlags opts) : (∃ ns', takeGiven opts ns g = .ok ns') ↔ ProperUse opts g := by
  obtain ⟨o, ho, hfo⟩ := List.mem_flatMap.1 hg
  have e : takeGiven opts ns g = runAction o g.value ns := by unfold takeGiven; rw [findOption_full hf ho hfo]; rfl
  rw [e, runAction_proper hA ho]
  constructor
  · exact fun h => ⟨o, ho, hfo, h⟩
  · rintro ⟨p, hp, hfp, h⟩
    rw [apart_unique hf ho hp hfo hfp]; exact h

theorem fold_proper {opts : List OptSpec} (hf : FlagsApart opts) (hd : (opts.map OptSpec.dest).Nodup) (l : List Given)
    (hfull : ∀ g ∈ l, g.flag ∈ allFlags opts) : ∀ {ns : ArgSpace}, Appendable opts ns →
      ((∃ ns', l.foldlM (takeGiven opts) ns = .ok ns') ↔ ∀ g ∈ l, ProperUse opts g) := by
  induction l with
  | nil => intro ns _; exact ⟨fun _ _ h => by simp at h, fun _ => ⟨ns, rfl⟩⟩
  | cons g l ih =>
    intro ns hA
    have hl : ∀ g ∈ l, g.flag ∈ allFlags opts := fun g hg => hfull g (List.mem_cons_of_mem _ hg)
    have hg := takeGiven_proper hf hA (hfull g (List.mem_cons_self ..))
    have hstep : ∀ n1, takeGiven opts ns g = .ok n1 → Appendable opts n1 := by
      intro n1 h1
      obtain ⟨p, hp, hr⟩ := takeGiven_ok h1
      exact appendable_step hd hA (findOption_mem hp) hr
    constructor
    · rintro ⟨ns', h⟩
      rw [List.foldlM_cons] at h
      obtain ⟨n1, h1, h2⟩ := Except_bind_ok.1 h
      intro x hx
      rcases List.mem_cons.1 hx with rfl | hx
      · exact hg.1 ⟨n1, h1⟩
      · exact (ih hl (hstep n1 h1)).1 ⟨ns', h2⟩ x hx
    · intro h
      obtain ⟨n1, h1⟩ := hg.2 (h g (List.mem_cons_self ..))
      obtain ⟨ns', h2⟩ := (ih hl (hstep n1 h1)).2 (fun x hx => h x (List.mem_cons_of_mem _ hx))
      exact ⟨ns', by rw [List.foldlM_cons, h1]; exact h2⟩

/-- **C96** Options written in full are accepted exactly if each of them is used properly: with a value if it takes one, without if it is a
switch, and if none of them prints help or version. -/
theorem C96_accepted_iff {extra opts : List OptSpec} {desc : Desc} (hp : mkParser extra desc = .ok opts)
    (hd : (opts.map OptSpec.dest).Nodup) {l : List Given} (hfull : ∀ g ∈ l, g.flag ∈ allFlags opts) :
    (∃ ns, parseInto opts [] l = .ok ns) ↔ ∀ g ∈ l, ProperUse opts g :=
  fold_proper (mkParser_ok hp).2 hd l hfull (appendable_start hd)

/-! ### Abbreviations -/

theorem flagTable_nodup {opts : List OptSpec} (hf : FlagsApart opts) (hn : ∀ o ∈ opts, o.flags.Nodup) : ((flagTable opts).map Prod.fst).Nodup := by
  have : (flagTable opts).map Prod.fst = allFlags opts := by
    unfold flagTable allFlags
    rw [List.map_flatMap]
    congr 1
    funext o
    rw [List.map_map]
    exact List.map_id _
  rw [this]
  unfold allFlags
  rw [List.nodup_flatMap]
  refine ⟨hn, hf.imp ?_⟩
  intro a b h
  rw [Function.onFun, List.disjoint_left]
  exact fun x hx => h x hx

theorem singleton_of {α : Type} {l : List α} {a : α} (hn : l.Nodup) (h : ∀ x, x ∈ l ↔ x = a) : l = [a] := by
  cases l with
  | nil => exact absurd ((h a).2 rfl) (by simp)
  | cons x t =>
    have hx := (h x).1 (by simp)
    subst hx
    rw [List.nodup_cons] at hn
    cases t with
    | nil => rfl
    | cons y t =>
      have := (h y).1 (by simp)
      subst this
      exact absurd (by simp) hn.1

/-- **C96** An option string written in full always means its option, also if it is the beginning of another one (`--os` and `--os-features`);
a text that is the beginning of exactly one option string means that one; everything else ends the program with status 2. -/
theorem C96_abbreviations {extra opts : List OptSpec} {desc : Desc} (hp : mkParser extra desc = .ok opts) (hn : ∀ o ∈ extra, o.flags.Nodup)
    (ns : ArgSpace) (v : Option String) (f : String) :
    (∀ o ∈ opts, f ∈ o.flags → takeGiven opts ns ⟨f, v⟩ = runAction o v ns) ∧
    (∀ g, Abbreviates opts f g → takeGiven opts ns ⟨f, v⟩ = takeGiven opts ns ⟨g, v⟩) ∧
    (f ∉ allFlags opts → (¬ ∃ g, Abbreviates opts f g) → takeGiven opts ns ⟨f, v⟩ = .error (.systemExit 2)) := by
  obtain ⟨he, hf⟩ := mkParser_ok hp
  have hn' : ∀ o ∈ opts, o.flags.Nodup := by
    intro o ho
    rw [he, List.mem_append, List.mem_append] at ho
    rcases ho with (ho | ho) | ho
    · exact hn o ho
    · obtain ⟨i, _, rfl⟩ := List.mem_map.1 ho
      simp [ConfigItem.option]
    · revert o
      decide
  have hnd := flagTable_nodup hf hn'
  have hfull : ∀ f, ∀ o ∈ opts, f ∈ o.flags → takeGiven opts ns ⟨f, v⟩ = runAction o v ns := by
    intro f o ho hfo
    unfold takeGiven; simp only [findOption_full hf ho hfo]; rfl
  have hnone : f ∉ allFlags opts → (opts.find? fun o => o.flags.contains f) = none := by
    intro h
    rw [List.find?_eq_none]
    intro o ho hc
    exact h (List.mem_flatMap.2 ⟨o, ho, by simpa using hc⟩)
  have hab : ∀ x, x ∈ abbreviated opts f ↔ "--".toList <+: f.toList ∧ x ∈ flagTable opts ∧ f.toList <+: x.1.toList := by
    intro x
    unfold abbreviated
    split
    · rename_i h
      rw [List.mem_filter, List.isPrefixOf_iff_prefix]
      exact ⟨fun h' => ⟨List.isPrefixOf_iff_prefix.1 h, h'⟩, fun h' => h'.2⟩
    · rename_i h
      have : ¬ "--".toList <+: f.toList := fun h' => h (List.isPrefixOf_iff_prefix.2 h')
      simp only [List.not_mem_nil, false_iff]
      exact fun hh => this hh.1
  have hand : (abbreviated opts f).Nodup := by
    unfold abbreviated
    split
    · exact (List.Nodup.of_map _ hnd).filter _
    · exact List.nodup_nil
  refine ⟨fun o ho hfo => hfull f o ho hfo, ?_, ?_⟩
  · rintro g ⟨h1, h2, h3, h4, h5⟩
    obtain ⟨o, ho, hgo⟩ := List.mem_flatMap.1 h3
    rw [hfull g o ho hgo]
    have : abbreviated opts f = [(g, o)] := by
      apply singleton_of hand
      intro x
      rw [hab]
      constructor
      · rintro ⟨_, hx, hpx⟩
        obtain ⟨a, b⟩ := x
        obtain ⟨hb, hab'⟩ := mem_flagTable.1 hx
        have : a = g := h5 a (List.mem_flatMap.2 ⟨b, hb, hab'⟩) hpx
        subst this
        rw [apart_unique hf hb ho hab' hgo]
      · rintro rfl
        exact ⟨h2, mem_flagTable.2 ⟨ho, hgo⟩, h4⟩
    unfold takeGiven findOption
    simp only [hnone h1, this]
    rfl
  · intro h1 h2
    unfold takeGiven findOption
    simp only [hnone h1]
    split
    · rename_i g o he1
      exfalso
      apply h2
      have hm := (hab (g, o)).1 (by rw [he1]; simp)
      obtain ⟨ho, hgo⟩ := mem_flagTable.1 hm.2.1
      refine ⟨g, h1, hm.1, List.mem_flatMap.2 ⟨o, ho, hgo⟩, hm.2.2, ?_⟩
      intro h hh hfh
      obtain ⟨q, hq, hhq⟩ := List.mem_flatMap.1 hh
      have := (hab (h, q)).2 ⟨hm.1, mem_flagTable.2 ⟨hq, hhq⟩, hfh⟩
      rw [he1, List.mem_singleton] at this
      exact congrArg Prod.fst this
    · rfl

/-! ### Xylem's own options -/

theorem xylem_options : xylemDescription.options = (xylemItems.map mkItem).map ConfigItem.option := by rfl

/-- The parser of every xylem command can be built, and its options do not share places. -/
theorem xylem_parser (cmd : String) : ∃ opts, mkParser (commandOptions cmd) xylemDescription = .ok opts ∧ (opts.map OptSpec.dest).Nodup ∧
    ∀ o ∈ commandOptions cmd, o.flags.Nodup := by
  unfold commandOptions
  split
  · exact ⟨_, rfl, by decide, by decide⟩
  · exact ⟨_, rfl, by decide, by decide⟩
  · exact ⟨_, rfl, by decide, by decide⟩
  · exact ⟨_, rfl, by decide, by decide⟩
  · exact ⟨_, rfl, by decide, by decide⟩

/-- **C96** For every builtin command and for xylem's own options no hypothesis is left: whatever the options on the command line (written in
full), the config options get the values given with their option strings. -/
theorem C96_xylem_command_line (cmd : String) : ∃ opts, mkParser (commandOptions cmd) xylemDescription = .ok opts ∧
    ∀ {l : List Given} {ns : ArgSpace}, (∀ g ∈ l, g.flag ∈ allFlags opts) → parseInto opts [] l = .ok ns →
      ∀ (loadYaml : String → Except Exc PVal) (expand : String → String) {n : String} {i : ConfigItem}, xylemDescription.Has n i →
        i.commandLine = true ∧ argValue loadYaml expand (argsOf ns) i =
          i.type.fromCommandLine loadYaml expand (asGiven i.type.repeatable (valuesFor ("--" ++ i.argument) l)) := by
  obtain ⟨opts, h1, h2, _⟩ := xylem_parser cmd
  refine ⟨opts, h1, ?_⟩
  intro l ns hfull h loadYaml expand n i hi
  have key : ∀ i ∈ xylemItems.map mkItem, i.commandLine = true ∧ '/' ∉ i.argument.toList ∧ i.argument.toList.head? ≠ some '-' := by decide
  have e : xylemDescription.itemlist = xylemItems.map mkItem := by rfl
  obtain ⟨k1, k2, k3⟩ := key i (e ▸ hi.1)
  exact ⟨k1, C96_values_arrive h1 h2 hfull h loadYaml expand hi.1 k1 k2 k3⟩

/-- `xylem install --core-installers apt --os ubuntu --core-installers pip --os debian`: the last os, both installers. -/
def exGivens : List Given :=
  [⟨"--core-installers", some "apt"⟩, ⟨"--os", some "ubuntu"⟩, ⟨"--dry-run", none⟩, ⟨"--core-installers", some "pip"⟩, ⟨"--os", some "debian"⟩]

example : ∃ opts ns, mkParser (commandOptions "install") xylemDescription = .ok opts ∧ parseInto opts [] exGivens = .ok ns ∧
    (∀ g ∈ exGivens, g.flag ∈ allFlags opts) ∧ asGiven true (valuesFor "--core-installers" exGivens) = .many ["apt", "pip"] ∧
    asGiven false (valuesFor "--os" exGivens) = .one "debian" ∧ asGiven false (valuesFor "--cache-dir" exGivens) = .none := by
  refine ⟨_, _, rfl, rfl, by decide, rfl, rfl, rfl⟩

/-- `--core` abbreviates `--core-installers`; `--os` is an option string, `--o` abbreviates nothing. -/
example : ∃ opts, mkParser (commandOptions "install") xylemDescription = .ok opts ∧ Abbreviates opts "--core" "--core-installers" ∧
    "--os" ∈ allFlags opts ∧ "--o" ∉ allFlags opts ∧ ¬ ∃ g, Abbreviates opts "--o" g := by
  refine ⟨_, rfl, ⟨by decide, by decide, by decide, by decide, by decide⟩, by decide, by decide, ?_⟩
  rintro ⟨g, _, _, _, _, h⟩
  have h1 := h "--os" (by decide) (by decide)
  have h2 := h "--os-features" (by decide) (by decide)
  rw [← h1] at h2
  exact absurd h2 (by decide)

/-! ### Refutations for other descriptions -/

/-- **C96 refuted** for arguments with a slash: `config_from_args` looks for the value in a place argparse does not use, so loading the config
fails with KeyError, even if the option is not given at all. -/
theorem C96_slash_refuted {extra opts : List OptSpec} {desc : Desc} (_hp : mkParser extra desc = .ok opts) {l : List Given} {ns : ArgSpace}
    (h : parseInto opts [] l = .ok ns) (loadYaml : String → Except Exc PVal) (expand : String → String) {i : ConfigItem}
    (hc : i.commandLine = true) (hs : String.ofList (underscorify i.argument.toList) ∉ opts.map OptSpec.dest) :
    argValue loadYaml expand (argsOf ns) i = .error .keyError := by
  have e : dget ns (String.ofList (underscorify i.argument.toList)) = none := by
    rw [fold_other hs l h, addDefaults_dget]
    have : (opts.findSome? fun o => if o.dest = String.ofList (underscorify i.argument.toList) then dfltVal o.action else none) = none := by
      rw [List.findSome?_eq_none_iff]
      intro o ho
      rw [if_neg]
      exact fun e => hs (e ▸ List.mem_map_of_mem ho)
    rw [this]; rfl
  unfold argValue argsOf
  rw [if_pos hc, e]

/-- A description with such an argument is accepted, and so is the parser. -/
example : ∃ desc opts, addAll [{ name := "x", type := .string, argument := some "a/b" }] = .ok desc ∧ mkParser [] desc = .ok opts ∧
    String.ofList (underscorify "a/b".toList) ∉ opts.map OptSpec.dest ∧ (∃ ns, parseInto opts [] [] = .ok ns) := by
  refine ⟨_, _, rfl, rfl, by decide, _, rfl⟩

/-- **C96 refuted** for the argument `config-dir`: it is accepted next to the global options, but `--xylem-dir` sets it, too. -/
theorem C96_config_dir_refuted : ∃ desc opts i, addAll [{ name := "x", type := .string, argument := some "config-dir" }] = .ok desc ∧
    mkParser [] desc = .ok opts ∧ i ∈ desc.itemlist ∧ ∃ ns, parseInto opts [] [⟨"--xylem-dir", some "/tmp"⟩] = .ok ns ∧
      ∀ loadYaml expand, argValue loadYaml expand (argsOf ns) i = .ok (.str "/tmp") := by
  refine ⟨_, _, mkItem { name := "x", type := .string, argument := some "config-dir" }, rfl, rfl, List.mem_cons_self .., _, rfl, ?_⟩
  intro loadYaml expand
  rfl

/-! ## C97: options before the command -/

/-- The options that have a value (all but help and version). -/
def hasPlace (o : OptSpec) : Prop := o.action ≠ .quit

theorem fold_DWF {opts : List OptSpec} (l : List Given) : ∀ {ns ns' : ArgSpace}, DWF ns → l.foldlM (takeGiven opts) ns = .ok ns' → DWF ns' := by
  induction l with
  | nil => intro ns ns' h0 h; cases h; exact h0
  | cons g l ih =>
    intro ns ns' h0 h
    rw [List.foldlM_cons] at h
    obtain ⟨n1, h1, h2⟩ := Except_bind_ok.1 h
    obtain ⟨p, hp, hr⟩ := takeGiven_ok h1
    refine ih ?_ h2
    unfold runAction at hr
    cases ha : p.action <;> cases hv : g.value <;> simp only [ha, hv] at hr <;> try (simp at hr; done)
    · injection hr with hr; subst hr; exact DWF_set h0 ..
    · cases hl : listSoFar ns p.dest with
      | error e => rw [hl] at hr; simp [Except.map] at hr
      | ok q =>
        rw [hl] at hr; simp only [Except.map] at hr
        injection hr with hr; subst hr; exact DWF_set h0 ..
    · injection hr with hr; subst hr; exact DWF_set h0 ..

theorem addDefaults_DWF (opts : List OptSpec) {ns : ArgSpace} (h : DWF ns) : DWF (opts.foldl addDefault ns) := by
  induction opts generalizing ns with
  | nil => exact h
  | cons o l ih =>
    rw [List.foldl_cons]
    apply ih
    unfold addDefault
    split
    · exact h
    · split
      · exact h
      · exact DWF_set h ..
      · exact DWF_set h ..

theorem parse_DWF {opts : List OptSpec} {l : List Given} {ns : ArgSpace} (h : parseInto opts [] l = .ok ns) : DWF ns :=
  fold_DWF l (addDefaults_DWF opts (by simp [DWF])) h

theorem actVal_isSome {a : OptAction} {cur : Option ArgVal} {v : Option String} (h : cur.isSome = true) : (actVal a cur v).isSome = true := by
  unfold actVal; split <;> first | rfl | exact h

theorem fold_isSome {opts : List OptSpec} (l : List Given) {d : String} : ∀ {ns ns' : ArgSpace}, l.foldlM (takeGiven opts) ns = .ok ns' →
    (dget ns d).isSome = true → (dget ns' d).isSome = true := by
  induction l with
  | nil => intro ns ns' h h0; cases h; exact h0
  | cons g l ih =>
    intro ns ns' h h0
    rw [List.foldlM_cons] at h
    obtain ⟨n1, h1, h2⟩ := Except_bind_ok.1 h
    obtain ⟨p, hp, hr⟩ := takeGiven_ok h1
    apply ih h2
    rw [runAction_dget hr]
    split
    · rename_i e; subst e; exact actVal_isSome h0
    · exact h0

/-- An attribute that is set after parsing belongs to an option that has a value. -/
theorem fold_set {opts : List OptSpec} (l : List Given) {d : String} (hd : ∀ o ∈ opts, o.dest = d → o.action = .quit) :
    ∀ {ns ns' : ArgSpace}, l.foldlM (takeGiven opts) ns = .ok ns' → dget ns' d = dget ns d := by
  induction l with
  | nil => intro ns ns' h; cases h; rfl
  | cons g l ih =>
    intro ns ns' h
    rw [List.foldlM_cons] at h
    obtain ⟨n1, h1, h2⟩ := Except_bind_ok.1 h
    obtain ⟨p, hp, hr⟩ := takeGiven_ok h1
    rw [ih h2, runAction_dget hr]
    split
    · rename_i e
      have hq := hd p (findOption_mem hp) e
      unfold runAction at hr
      rw [hq] at hr
      cases hv : g.value <;> rw [hv] at hr <;> simp at hr
    · rfl

/-- **C97 refuted** for python 2.7.9 and later (`fresh`): whatever options are given before the name of the command, if they are accepted, the
result is that of the command line without them. -/
theorem C97_options_before_command_ignored_refuted {extra top sub : List OptSpec} {desc : Desc} (ht : mkParser [] desc = .ok top)
    (hs : mkParser extra desc = .ok sub) {before after : List Given} {ns : ArgSpace}
    (h : parseCommandLine true top sub before after = .ok ns) :
    ∃ ns', parseCommandLine true top sub [] after = .ok ns' ∧ (∀ d, dget ns d = dget ns' d) ∧ argsOf ns = argsOf ns' := by
  unfold parseCommandLine at h
  obtain ⟨n1, h1, h2⟩ := Except_bind_ok.1 h
  rw [if_pos rfl] at h2
  obtain ⟨n2, h3, h4⟩ := Except_bind_ok.1 h2
  have h4 := pure_ok.1 h4
  subst h4
  have h0 : parseInto top [] [] = .ok (top.foldl addDefault []) := rfl
  have hsub : ∀ o ∈ top, o ∈ sub := by
    rw [(mkParser_ok ht).1, (mkParser_ok hs).1]
    intro o ho
    simp only [List.mem_append] at ho ⊢
    rcases ho with (ho | ho) | ho
    · simp at ho
    · exact .inl (.inr ho)
    · exact .inr ho
  have heq : ∀ d, dget (dupdate n1 n2) d = dget (dupdate (top.foldl addDefault []) n2) d := by
    intro d
    rw [dget_dupdate (parse_DWF h3), dget_dupdate (parse_DWF h3)]
    by_cases hd : ∀ o ∈ top, o.dest = d → o.action = .quit
    · rw [fold_set before hd h1]
    · push_neg at hd
      obtain ⟨o, ho, hod, hoq⟩ := hd
      have : (dget n2 d).isSome = true := by
        apply fold_isSome after h3
        rw [addDefaults_dget]
        have : (sub.findSome? fun p => if p.dest = d then dfltVal p.action else none).isSome = true := by
          rw [List.findSome?_isSome_iff]
          refine ⟨o, hsub o ho, ?_⟩
          rw [if_pos hod]
          cases ha : o.action <;> first | rfl | exact absurd ha hoq
        simpa using this
      cases hx : dget n2 d with
      | none => rw [hx] at this; simp at this
      | some v => rfl
  refine ⟨dupdate (top.foldl addDefault []) n2, ?_, heq, ?_⟩
  · unfold parseCommandLine
    rw [h0]
    simp only [if_true, h3, bind, Except.bind, pure, Except.pure]
  · funext d
    unfold argsOf
    rw [heq d]

/-- `xylem --os ubuntu:precise resolve`: the os is lost. -/
example : ∃ top sub ns, mkParser [] xylemDescription = .ok top ∧ mkParser (commandOptions "resolve") xylemDescription = .ok sub ∧
    parseCommandLine true top sub [⟨"--os", some "ubuntu:precise"⟩] [⟨"--all", none⟩] = .ok ns ∧ argsOf ns "os" = some .none := by
  refine ⟨_, _, _, rfl, rfl, rfl, rfl⟩

theorem takeGiven_congr {opts : List OptSpec} {ns ms ns' : ArgSpace} {g : Given} (he : ∀ d, dget ns d = dget ms d)
    (h : takeGiven opts ns g = .ok ns') : ∃ ms', takeGiven opts ms g = .ok ms' ∧ ∀ d, dget ns' d = dget ms' d := by
  obtain ⟨o, ho, hr⟩ := takeGiven_ok h
  have hdet := runAction_dget hr
  have : ∃ ms', runAction o g.value ms = .ok ms' := by
    unfold runAction at hr ⊢
    cases ha : o.action <;> cases hv : g.value <;> simp only [ha, hv] at hr ⊢ <;> try (simp at hr; done)
    · exact ⟨_, rfl⟩
    · cases hl : listSoFar ns o.dest with
      | error e => rw [hl] at hr; simp [Except.map] at hr
      | ok q => rw [← listSoFar_congr (he o.dest), hl]; exact ⟨_, rfl⟩
    · exact ⟨_, rfl⟩
  obtain ⟨ms', hm⟩ := this
  refine ⟨ms', by unfold takeGiven; rw [ho]; exact hm, ?_⟩
  intro d
  rw [hdet, runAction_dget hm, he, he]

theorem fold_congr {opts : List OptSpec} (l : List Given) : ∀ {ns ms ns' : ArgSpace}, (∀ d, dget ns d = dget ms d) →
    l.foldlM (takeGiven opts) ns = .ok ns' → ∃ ms', l.foldlM (takeGiven opts) ms = .ok ms' ∧ ∀ d, dget ns' d = dget ms' d := by
  induction l with
  | nil => intro ns ms ns' he h; cases h; exact ⟨ms, rfl, he⟩
  | cons g l ih =>
    intro ns ms ns' he h
    rw [List.foldlM_cons] at h
    obtain ⟨n1, h1, h2⟩ := Except_bind_ok.1 h
    obtain ⟨m1, h3, h4⟩ := takeGiven_congr he h1
    obtain ⟨ms', h5, h6⟩ := ih h4 h2
    exact ⟨ms', by rw [List.foldlM_cons, h3]; exact h5, h6⟩

theorem foldl_congr_mem {α β : Type} {f g : β → α → β} (l : List α) (h : ∀ b, ∀ a ∈ l, f b a = g b a) (b : β) : l.foldl f b = l.foldl g b := by
  induction l generalizing b with
  | nil => rfl
  | cons a l ih =>
    rw [List.foldl_cons, List.foldl_cons, h b a (List.mem_cons_self ..)]
    exact ih (fun b x hx => h b x (List.mem_cons_of_mem _ hx)) _

theorem foldl_const_mem {α β : Type} {f : β → α → β} (l : List α) (h : ∀ b, ∀ a ∈ l, f b a = b) (b : β) : l.foldl f b = b := by
  induction l generalizing b with
  | nil => rfl
  | cons a l ih =>
    rw [List.foldl_cons, h b a (List.mem_cons_self ..)]
    exact ih (fun b x hx => h b x (List.mem_cons_of_mem _ hx)) _

theorem destStep_isSome {opts : List OptSpec} {o : OptSpec} (l : List Given) {cur : Option ArgVal} (h : cur.isSome = true) :
    (l.foldl (destStep opts o) cur).isSome = true := by
  induction l generalizing cur with
  | nil => exact h
  | cons g l ih =>
    rw [List.foldl_cons]
    apply ih
    unfold destStep
    split
    · split
      · exact actVal_isSome h
      · exact h
    · exact h

/-- Reading options with the top level parser and completing the defaults of the command is reading them with the parser of the command. -/
theorem top_then_defaults {top sub : List OptSpec} (hft : FlagsApart top) (hfs : FlagsApart sub) (hd : (sub.map OptSpec.dest).Nodup)
    (hdt : (top.map OptSpec.dest).Nodup) (hsub : ∀ o ∈ top, o ∈ sub) {before : List Given} (hfull : ∀ g ∈ before, g.flag ∈ allFlags top)
    {n0 k0 : ArgSpace} (h0 : parseInto top [] before = .ok n0) (h1 : parseInto sub [] before = .ok k0) (d : String) :
    dget (sub.foldl addDefault n0) d = dget k0 d := by
  rw [addDefaults_dget]
  have hopt : ∀ g ∈ before, ∃ p ∈ top, findOption top g.flag = .ok p ∧ findOption sub g.flag = .ok p := by
    intro g hg
    obtain ⟨p, hp, hgp⟩ := List.mem_flatMap.1 (hfull g hg)
    exact ⟨p, hp, findOption_full hft hp hgp, findOption_full hfs (hsub p hp) hgp⟩
  by_cases hds : ∃ o ∈ sub, o.dest = d
  · obtain ⟨o, ho, rfl⟩ := hds
    rw [findSome_dest hd ho]
    have hk := fold_dest hd ho before h1
    rw [addDefaults_dget, findSome_dest hd ho] at hk
    by_cases hot : o ∈ top
    · have hn := fold_dest hdt hot before h0
      rw [addDefaults_dget, findSome_dest hdt hot] at hn
      have e : before.foldl (destStep top o) ((dget ([] : ArgSpace) o.dest).or (dfltVal o.action)) =
          before.foldl (destStep sub o) ((dget ([] : ArgSpace) o.dest).or (dfltVal o.action)) := by
        apply foldl_congr_mem
        intro b g hg
        obtain ⟨p, _, hp1, hp2⟩ := hopt g hg
        unfold destStep
        rw [hp1, hp2]
      rw [e, ← hk] at hn
      rw [hn]
      cases hx : dget k0 o.dest with
      | some v => rfl
      | none =>
        cases hy : dfltVal o.action with
        | none => rfl
        | some v =>
          rw [hy] at hk
          have := destStep_isSome (opts := sub) (o := o) before (cur := (dget ([] : ArgSpace) o.dest).or (some v)) rfl
          rw [← hk, hx] at this
          simp at this
    · have hnd : o.dest ∉ top.map OptSpec.dest := by
        intro hm
        obtain ⟨q, hq, hqd⟩ := List.mem_map.1 hm
        exact hot (dests_unique hd (hsub q hq) ho hqd ▸ hq)
      have hn : dget n0 o.dest = none := by
        rw [fold_other hnd before h0, addDefaults_dget]
        have : (top.findSome? fun p => if p.dest = o.dest then dfltVal p.action else none) = none := by
          rw [List.findSome?_eq_none_iff]
          intro q hq
          rw [if_neg]
          exact fun e => hnd (e ▸ List.mem_map_of_mem hq)
        rw [this]; rfl
      rw [hn, hk, foldl_const_mem]
      · rfl
      · intro b g hg
        obtain ⟨p, hp, _, hp2⟩ := hopt g hg
        unfold destStep
        rw [hp2]
        have hne : ¬ p = o := fun e => hot (e ▸ hp)
        exact if_neg hne
  · have hnd : d ∉ sub.map OptSpec.dest := by
      intro hm
      obtain ⟨q, hq, hqd⟩ := List.mem_map.1 hm
      exact hds ⟨q, hq, hqd⟩
    have hnd' : d ∉ top.map OptSpec.dest := by
      intro hm
      obtain ⟨q, hq, hqd⟩ := List.mem_map.1 hm
      exact hds ⟨q, hsub q hq, hqd⟩
    rw [fold_other hnd' before h0, fold_other hnd before h1, addDefaults_dget, addDefaults_dget]
    have : ∀ opts : List OptSpec, d ∉ opts.map OptSpec.dest →
        (opts.findSome? fun p => if p.dest = d then dfltVal p.action else none) = none := by
      intro opts h
      rw [List.findSome?_eq_none_iff]
      intro q hq
      rw [if_neg]
      exact fun e => h (e ▸ List.mem_map_of_mem hq)
    rw [this sub hnd, this top hnd']
    rfl

/-- **C97 (partial)** With argparse before python 2.7.9 options may be given before or after the name of the command: giving some of them before it
has the effect of giving all of them after it, in the same order; in particular list options accumulate. Missing: later versions of argparse
(refuted above). -/
theorem C97_options_before_command_partial {extra top sub : List OptSpec} {desc : Desc} (ht : mkParser [] desc = .ok top)
    (hs : mkParser extra desc = .ok sub) (hd : (sub.map OptSpec.dest).Nodup) {before after : List Given}
    (hfull : ∀ g ∈ before, g.flag ∈ allFlags top) :
    (∀ ns, parseCommandLine false top sub before after = .ok ns → ∃ ns', parseInto sub [] (before ++ after) = .ok ns' ∧ ∀ d, dget ns d = dget ns' d) ∧
    (∀ ns', parseInto sub [] (before ++ after) = .ok ns' → ∃ ns, parseCommandLine false top sub before after = .ok ns ∧ ∀ d, dget ns d = dget ns' d) := by
  obtain ⟨et, hft⟩ := mkParser_ok ht
  obtain ⟨es, hfs⟩ := mkParser_ok hs
  have hsl : top.Sublist sub := by
    rw [et, es, List.nil_append, List.append_assoc]
    exact List.sublist_append_right ..
  have hsub : ∀ o ∈ top, o ∈ sub := fun o ho => hsl.subset ho
  have hdt : (top.map OptSpec.dest).Nodup := hd.sublist (hsl.map _)
  have hfull' : ∀ g ∈ before, g.flag ∈ allFlags sub := by
    intro g hg
    obtain ⟨o, ho, hgo⟩ := List.mem_flatMap.1 (hfull g hg)
    exact List.mem_flatMap.2 ⟨o, hsub o ho, hgo⟩
  have hproper : ∀ g ∈ before, (ProperUse top g ↔ ProperUse sub g) := by
    intro g hg
    constructor
    · rintro ⟨o, ho, h⟩; exact ⟨o, hsub o ho, h⟩
    · rintro ⟨o, ho, hgo, h⟩
      obtain ⟨p, hp, hgp⟩ := List.mem_flatMap.1 (hfull g hg)
      have := apart_unique hfs ho (hsub p hp) hgo hgp
      subst this
      exact ⟨o, hp, hgo, h⟩
  have e1 : ∀ n, (parseInto top [] before = .ok n → parseCommandLine false top sub before after = after.foldlM (takeGiven sub) (sub.foldl addDefault n)) := by
    intro n h
    unfold parseCommandLine
    rw [h]
    rfl
  have e2 : parseInto sub [] (before ++ after) = parseInto sub [] before >>= fun k => after.foldlM (takeGiven sub) k := by
    unfold parseInto
    rw [List.foldlM_append]
  constructor
  · intro ns h
    have h' := h
    unfold parseCommandLine at h'
    obtain ⟨n0, h0, _⟩ := Except_bind_ok.1 h'
    rw [e1 n0 h0] at h
    obtain ⟨k0, hk⟩ := (C96_accepted_iff hs hd hfull').2 fun g hg => (hproper g hg).1 ((C96_accepted_iff ht hdt hfull).1 ⟨n0, h0⟩ g hg)
    obtain ⟨ms', h5, h6⟩ := fold_congr after (top_then_defaults hft hfs hd hdt hsub hfull h0 hk) h
    exact ⟨ms', by rw [e2, hk]; exact h5, h6⟩
  · intro ns' h
    rw [e2] at h
    obtain ⟨k0, hk, h3⟩ := Except_bind_ok.1 h
    obtain ⟨n0, h0⟩ := (C96_accepted_iff ht hdt hfull).2 fun g hg => (hproper g hg).2 ((C96_accepted_iff hs hd hfull').1 ⟨k0, hk⟩ g hg)
    obtain ⟨ms', h5, h6⟩ := fold_congr after (fun d => (top_then_defaults hft hfs hd hdt hsub hfull h0 hk d).symm) h3
    exact ⟨ms', by rw [e1 n0 h0]; exact h5, fun d => (h6 d).symm⟩

set_option maxRecDepth 20000 in
/-- The list options of `xylem --core-installers apt resolve --core-installers pip` accumulate (old argparse). -/
example : ∃ top sub ns, mkParser [] xylemDescription = .ok top ∧ mkParser (commandOptions "resolve") xylemDescription = .ok sub ∧
    (sub.map OptSpec.dest).Nodup ∧ parseCommandLine false top sub [⟨"--core-installers", some "apt"⟩] [⟨"--core-installers", some "pip"⟩] = .ok ns ∧
    argsOf ns "core_installers" = some (.many ["apt", "pip"]) := by
  obtain ⟨sub, h1, h2, _⟩ := xylem_parser "resolve"
  have e : ∀ r, (do
      let top ← mkParser [] xylemDescription
      let sub ← mkParser (commandOptions "resolve") xylemDescription
      let ns ← parseCommandLine false top sub [⟨"--core-installers", some "apt"⟩] [⟨"--core-installers", some "pip"⟩]
      pure (argsOf ns "core_installers")) = r → r = .ok (some (.many ["apt", "pip"])) := by
    intro r h; rw [← h]; rfl
  have e0 := e _ rfl
  obtain ⟨top, a1, e1⟩ := Except_bind_ok.1 e0
  obtain ⟨sub', a2, e2⟩ := Except_bind_ok.1 e1
  obtain ⟨ns, a3, e3⟩ := Except_bind_ok.1 e2
  have hs := Except.ok.inj (h1.symm.trans a2)
  subst hs
  exact ⟨top, sub, ns, a1, h1, h2, a3, pure_ok.1 e3⟩

end Verif
