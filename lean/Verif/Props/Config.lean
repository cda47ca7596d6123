import Verif.Lemmas.Config4
/-!
# Layers of configuration

C48 (precedence), C49 (laws of merging), C51 (config files), C52 (descriptions).
-/
namespace Verif

theorem complete_iff {desc : Desc} (hw : desc.Wf) {c : Config} : Complete desc c ↔ Fits desc c := by
  constructor
  · rintro ⟨h1, h2⟩
    refine ⟨fun n i hi => ?_, fun g hg => ?_⟩
    · obtain ⟨v, hv, hs⟩ := h1 n i (hw.has.2 hi)
      exact ⟨v, hv, by unfold Shaped; exact hs⟩
    · obtain ⟨gd, hgd⟩ := Option.isSome_iff_exists.1 (mem_dkeys_iff.1 hg)
      obtain ⟨w, hne, hh⟩ := hw.ofGroup g gd hgd
      cases gd with
      | nil => exact absurd rfl hne
      | cons x gd =>
        obtain ⟨s, i⟩ := x
        obtain ⟨a, b⟩ := hh s i (by simp [dget])
        exact h2 i.name i g s (hw.has.2 b) a
  · rintro ⟨h1, h2⟩
    refine ⟨fun n i hi => ?_, fun n i g s hi hg => ?_⟩
    · obtain ⟨v, hv, hs⟩ := h1 n i (hw.has.1 hi)
      exact ⟨v, hv, by unfold Shaped at hs; exact hs⟩
    · obtain ⟨gd, hgd, -⟩ := hw.inGroup n i g s (hw.has.1 hi) hg
      exact h2 g (mem_dkeys_iff.2 (by simp [hgd]))

/-! ## C48 -/

/-- Merging layers gives every option its effective value. -/
theorem C48_merged_layers {desc : Desc} (hd : desc.Built) {top : Config} {more : List Config} (hc : ∀ c ∈ top :: more, Complete desc c) :
    ∃ r, mergeConfigs desc top more = .ok r ∧ Complete desc r ∧
      ∀ n i, desc.Has n i → ∃ layers v, (top :: more).mapM (fun c => readOpt c n) = .ok layers ∧ readOpt r n = .ok v ∧ Effective i.type layers v := by
  have hw := hd.wf
  obtain ⟨r, h1, h2, h3⟩ := mergeConfigs_spec hw (fun c hm => (complete_iff hw).1 (hc c hm))
  exact ⟨r, h1, (complete_iff hw).2 h2, fun n i hi => h3 n i (hw.has.1 hi)⟩

/-- The value of the option on the command line: converted, or unset if the option is not exposed there. -/
def CommandLineGives (loadYaml : String → Except Exc PVal) (expand : String → String) (args : String → Option CmdVal) (i : ConfigItem) (v : PVal) : Prop :=
  if i.commandLine then ∃ raw, args (String.ofList (underscorify i.argument.toList)) = some raw ∧ i.type.fromCommandLine loadYaml expand raw = .ok v
  else v = i.type.unset

/-- The value of the option in the config file of a directory. -/
def FileGives (loadYaml : String → Except Exc PVal) (expand : String → String) (f : FileText) (n : String) (i : ConfigItem) (v : PVal) : Prop :=
  ∃ data, loadConfigFileYaml loadYaml f = .ok data ∧ i.type.fromYaml expand ((fileEntry data n).getD .none) = .ok v

theorem yaml_optValue {expand : String → String} {data : Dict PKey PVal} {n : String} {i : ConfigItem} {v : PVal}
    (h : optValue (yamlGroupValue expand data) (yamlValue expand data) n i = .ok v) : i.type.fromYaml expand ((fileEntry data n).getD .none) = .ok v := by
  unfold optValue at h
  unfold fileEntry
  cases hg : groupOf n with
  | none => simp only [hg] at h; exact h
  | some p =>
    obtain ⟨g, s⟩ := p
    simp only [hg, yamlGroupValue] at h
    cases hd : dget data (.str g) with
    | none => simpa [hd, yamlValue] using h
    | some e =>
      cases e with
      | dict d => simpa [hd, yamlValue] using h
      | _ => simp [hd] at h

theorem parsedYaml_spec {expand : String → String} {data : Dict PKey PVal} {desc : Desc} (hw : desc.Wf) {c : Config}
    (h : configFromParsedYaml expand data desc false = .ok c) :
    Fits desc c ∧ ∀ n i, dget desc.items n = some i → ∃ v, i.type.fromYaml expand ((fileEntry data n).getD .none) = .ok v ∧ readOpt c n = .ok v := by
  have h' : (fillGroups (yamlGroupValue expand data) [] desc.groups >>= fun c => fillItems (yamlValue expand data) c desc.items) = .ok c := by
    unfold configFromParsedYaml at h
    obtain ⟨c0, h0, h⟩ := Except_bind_ok.1 h
    obtain ⟨c1, h1, h⟩ := Except_bind_ok.1 h
    simp only [Bool.false_eq_true, if_false] at h
    rw [pure_ok] at h; subst h
    exact Except_bind_ok.2 ⟨c0, h0, h1⟩
  obtain ⟨h1, h2⟩ := fill_spec hw h'
  refine ⟨⟨fun n i hi => ?_, h2⟩, fun n i hi => ?_⟩
  · obtain ⟨v, hv, hr⟩ := h1 n i hi
    exact ⟨v, hr, fromYaml_shaped (yaml_optValue hv)⟩
  · obtain ⟨v, hv, hr⟩ := h1 n i hi
    exact ⟨v, yaml_optValue hv, hr⟩

theorem args_spec {loadYaml : String → Except Exc PVal} {expand : String → String} {args : String → Option CmdVal} {desc : Desc} (hw : desc.Wf) {c : Config}
    (h : configFromArgs loadYaml expand args desc = .ok c) :
    Fits desc c ∧ ∀ n i, dget desc.items n = some i → ∃ v, argValue loadYaml expand args i = .ok v ∧ readOpt c n = .ok v := by
  obtain ⟨h1, h2⟩ := fill_spec hw (vg := fun _ _ i => argValue loadYaml expand args i) (vi := fun _ i => argValue loadYaml expand args i) h
  have key : ∀ n i, dget desc.items n = some i → ∃ v, argValue loadYaml expand args i = .ok v ∧ readOpt c n = .ok v := by
    intro n i hi
    obtain ⟨v, hv, hr⟩ := h1 n i hi
    refine ⟨v, ?_, hr⟩
    unfold optValue at hv
    cases hg : groupOf n with
    | none => simpa [hg] using hv
    | some p => simpa [hg] using hv
  refine ⟨⟨fun n i hi => ?_, h2⟩, key⟩
  obtain ⟨v, hv, hr⟩ := key n i hi
  exact ⟨v, hr, argValue_shaped hv⟩

theorem argValue_gives {loadYaml : String → Except Exc PVal} {expand : String → String} {args : String → Option CmdVal} {i : ConfigItem} {v : PVal}
    (h : argValue loadYaml expand args i = .ok v) : CommandLineGives loadYaml expand args i v := by
  unfold argValue at h
  unfold CommandLineGives
  split at h
  · rw [if_pos (by assumption)]
    cases ha : args (String.ofList (underscorify i.argument.toList)) with
    | none => rw [ha] at h; cases h
    | some raw => rw [ha] at h; exact ⟨raw, rfl, h⟩
  · rw [if_neg (by assumption)]; cases h; rfl

theorem defaults_fit {desc : Desc} (hw : desc.Wf) (hdef : ∀ n i, dget desc.items n = some i → DefaultFits i) {c : Config}
    (h : configFromDefaults desc = .ok c) : Fits desc c ∧ ∀ n i, dget desc.items n = some i → readOpt c n = .ok i.default := by
  obtain ⟨r, h1, h2, h3⟩ := defaults_spec hw
  rw [h] at h1; cases h1
  refine ⟨⟨fun n i hi => ⟨_, h2 n i hi, ?_⟩, h3⟩, h2⟩
  have := hdef n i hi
  unfold DefaultFits at this
  unfold Shaped
  exact this

theorem files_fit {loadYaml : String → Except Exc PVal} {expand : String → String} {desc : Desc} (hw : desc.Wf) (l : List FileText) {cs : List Config}
    (h : l.mapM (configFromFile loadYaml expand desc) = .ok cs) :
    (∀ c ∈ cs, Fits desc c) ∧ ∀ n i, dget desc.items n = some i →
      ∃ vs, cs.mapM (fun c => readOpt c n) = .ok vs ∧ List.Forall₂ (fun f v => FileGives loadYaml expand f n i v) l vs := by
  have hf := mapM_ok_iff.1 h
  clear h
  induction hf with
  | nil => exact ⟨by simp, fun n i hi => ⟨[], rfl, .nil⟩⟩
  | cons hx _ ih =>
    rename_i f c l cs _
    obtain ⟨data, hdata, hx⟩ := Except_bind_ok.1 hx
    obtain ⟨h1, h2⟩ := parsedYaml_spec hw hx
    obtain ⟨h3, h4⟩ := ih
    constructor
    · intro c' hc'
      rcases List.mem_cons.1 hc' with rfl | hc'
      · exact h1
      · exact h3 c' hc'
    · intro n i hi
      obtain ⟨v, hv, hr⟩ := h2 n i hi
      obtain ⟨vs, hvs, hfa⟩ := h4 n i hi
      exact ⟨v :: vs, by simp [List.mapM_cons, hr, hvs, bind, Except.bind, pure, Except.pure], .cons ⟨data, hdata, hv⟩ hfa⟩

theorem mapM_append_ok {α β : Type} {f : α → Except Exc β} {l m : List α} {a b : List β} (h1 : l.mapM f = .ok a) (h2 : m.mapM f = .ok b) :
    (l ++ m).mapM f = .ok (a ++ b) := by
  rw [List.mapM_append, h1, h2]; rfl

/-- The loaded config: every option has the value of the command line if given, else of the first config file that sets it, in the order of the
config directories, else its default; key by key for merging dicts. -/
theorem C48_loaded_config {loadYaml : String → Except Exc PVal} {expand : String → String} {file : String → FileText} {home tool ns : String}
    {a : GlobalArgs} {args : String → Option CmdVal} {desc : Desc} (hd : desc.Built) (hdef : ∀ n i, desc.Has n i → DefaultFits i) {r : Config}
    (h : loadConfig loadYaml expand file home tool ns a args desc = .ok r) {n : String} {i : ConfigItem} (hi : desc.Has n i) :
    ∃ cmd files v, CommandLineGives loadYaml expand args i cmd ∧
      List.Forall₂ (fun dir v => FileGives loadYaml expand (file (pathJoin dir ns)) n i v) (configDirs home tool a) files ∧
      readOpt r n = .ok v ∧ Effective i.type (cmd :: files ++ [i.default]) v := by
  have hw := hd.wf
  have hi' := hw.has.1 hi
  unfold loadConfig at h
  obtain ⟨c, hc, h⟩ := Except_bind_ok.1 h
  obtain ⟨fs, hfs, h⟩ := Except_bind_ok.1 h
  obtain ⟨dflt, hdflt, h⟩ := Except_bind_ok.1 h
  obtain ⟨a1, a2⟩ := args_spec hw hc
  obtain ⟨f1, f2⟩ := files_fit hw _ hfs
  obtain ⟨d1, d2⟩ := defaults_fit hw (fun n i hi => hdef n i (hw.has.2 hi)) hdflt
  obtain ⟨r', hr', -, hall⟩ := mergeConfigs_spec hw (top := c) (more := fs ++ [dflt]) (by
    intro x hx
    simp only [List.mem_cons, List.mem_append, List.not_mem_nil, or_false] at hx
    rcases hx with rfl | hx | rfl
    · exact a1
    · exact f1 x hx
    · exact d1)
  rw [h] at hr'; cases hr'
  obtain ⟨layers, v, hl, hv, he⟩ := hall n i hi'
  obtain ⟨cmd, hcmd, hrc⟩ := a2 n i hi'
  obtain ⟨vs, hvs, hfa⟩ := f2 n i hi'
  have hl' : (c :: (fs ++ [dflt])).mapM (fun c => readOpt c n) = .ok (cmd :: (vs ++ [i.default])) := by
    have h1 : (fs ++ [dflt]).mapM (fun c => readOpt c n) = .ok (vs ++ [i.default]) :=
      mapM_append_ok hvs (by simp [List.mapM_cons, d2 n i hi', bind, Except.bind, pure, Except.pure])
    simp only [List.mapM_cons, hrc, h1, bind, Except.bind, pure, Except.pure]
  rw [hl'] at hl; cases hl
  refine ⟨cmd, vs, v, argValue_gives hcmd, ?_, hv, he⟩
  rw [List.forall₂_map_left_iff] at hfa
  exact hfa

/-- Corollary: a value given on the command line is the effective one (options that are not merging dicts). -/
theorem C48_command_line_wins {loadYaml : String → Except Exc PVal} {expand : String → String} {file : String → FileText} {home tool ns : String}
    {a : GlobalArgs} {args : String → Option CmdVal} {desc : Desc} (hd : desc.Built) (hdef : ∀ n i, desc.Has n i → DefaultFits i) {r : Config}
    (h : loadConfig loadYaml expand file home tool ns a args desc = .ok r) {n : String} {i : ConfigItem} (hi : desc.Has n i)
    (ht : ∀ vt kt, i.type ≠ .mergingDict vt kt) (hcl : i.commandLine = true) {raw : CmdVal} {v : PVal}
    (hraw : args (String.ofList (underscorify i.argument.toList)) = some raw) (hv : i.type.fromCommandLine loadYaml expand raw = .ok v) (hne : v ≠ .none) :
    readOpt r n = .ok v := by
  obtain ⟨cmd, files, w, h1, -, h3, h4⟩ := C48_loaded_config hd hdef h hi
  unfold CommandLineGives at h1
  rw [if_pos hcl] at h1
  obtain ⟨raw', hr', hc'⟩ := h1
  rw [hraw] at hr'; cases hr'
  rw [hv] at hc'; cases hc'
  have : w = v := by
    unfold Effective at h4
    split at h4
    · next e => exact absurd e (ht _ _)
    · rw [h4, List.cons_append, firstSet_cons, if_neg]; cases v <;> simp_all [PVal.isNone]
  rw [h3, this]

/-- Loading succeeds if every layer of every option can be converted. -/
theorem C48_loading_succeeds {loadYaml : String → Except Exc PVal} {expand : String → String} {file : String → FileText} {home tool ns : String}
    {a : GlobalArgs} {args : String → Option CmdVal} {desc : Desc} (hd : desc.Built) (hdef : ∀ n i, desc.Has n i → DefaultFits i)
    (hargs : ∃ c, configFromArgs loadYaml expand args desc = .ok c)
    (hfiles : ∀ dir ∈ configDirs home tool a, ∃ c, configFromFile loadYaml expand desc (file (pathJoin dir ns)) = .ok c) :
    ∃ r, loadConfig loadYaml expand file home tool ns a args desc = .ok r := by
  have hw := hd.wf
  obtain ⟨c, hc⟩ := hargs
  obtain ⟨dflt, hdflt, -⟩ := defaults_spec hw
  rcases hfs : ((configDirs home tool a).map fun d => file (pathJoin d ns)).mapM (configFromFile loadYaml expand desc) with e | fs
  · obtain ⟨f, hf, he⟩ := mapM_error hfs
    obtain ⟨dir, hdir, rfl⟩ := List.mem_map.1 hf
    obtain ⟨c', hc'⟩ := hfiles dir hdir
    rw [hc'] at he; cases he
  · obtain ⟨a1, -⟩ := args_spec hw hc
    obtain ⟨f1, -⟩ := files_fit hw _ hfs
    obtain ⟨d1, -⟩ := defaults_fit hw (fun n i hi => hdef n i (hw.has.2 hi)) hdflt
    obtain ⟨r, hr, -⟩ := mergeConfigs_spec hw (top := c) (more := fs ++ [dflt]) (by
      intro x hx
      simp only [List.mem_cons, List.mem_append, List.not_mem_nil, or_false] at hx
      rcases hx with rfl | hx | rfl
      · exact a1
      · exact f1 x hx
      · exact d1)
    exact ⟨r, by simp only [loadConfig, hc, hfs, hdflt, bind, Except.bind]; exact hr⟩

/-! ## C49 -/

theorem firstSet_append (xs ys : List PVal) : firstSet (xs ++ ys) = firstSet (xs ++ [firstSet ys]) := by
  induction xs with
  | nil =>
    simp only [List.nil_append, firstSet_cons]
    cases firstSet ys <;> rfl
  | cons x xs ih => simp only [List.cons_append, firstSet_cons, ih]

theorem firstWith_append (k : PKey) (xs ys : List PVal) : firstWith k (xs ++ ys) = (firstWith k xs).or (firstWith k ys) := by
  induction xs with
  | nil => simp [firstWith]
  | cons x xs ih =>
    cases x with
    | dict d => simp only [List.cons_append, firstWith, ih]; cases dget d k <;> simp
    | _ => simpa [firstWith] using ih

/-- Values that are effective for the same layers are the same. -/
theorem Effective.same {t : CType} {l l' : List PVal} {v w : PVal} (h1 : firstSet l = firstSet l') (h2 : ∀ k, firstWith k l = firstWith k l')
    (hv : Effective t l v) (hw : Effective t l' w) : SameValue v w := by
  cases t with
  | mergingDict a b =>
    obtain ⟨d, rfl, -, hd⟩ := hv
    obtain ⟨e, rfl, -, he⟩ := hw
    exact .inr ⟨d, e, rfl, rfl, fun k => by rw [hd, he, h2]⟩
  | _ => left; simp only [Effective] at hv hw; rw [hv, hw, h1]

/-- Merging is associative: replacing the last layers by their merge does not change any option. -/
theorem C49_associative {desc : Desc} (hd : desc.Built) {a c : Config} {bs cs : List Config} (hc : ∀ x ∈ a :: bs ++ c :: cs, Complete desc x)
    {m r r' : Config} (hm : mergeConfigs desc c cs = .ok m) (hr : mergeConfigs desc a (bs ++ c :: cs) = .ok r)
    (hr' : mergeConfigs desc a (bs ++ [m]) = .ok r') : SameOptions desc r r' := by
  obtain ⟨m2, hm2, mC, mV⟩ := C48_merged_layers hd (top := c) (more := cs) (fun x hx => hc x (by simp at hx ⊢; tauto))
  rw [hm] at hm2; cases hm2
  obtain ⟨r2, hr2, -, rV⟩ := C48_merged_layers hd (top := a) (more := bs ++ c :: cs) (fun x hx => hc x (by simpa using hx))
  rw [hr] at hr2; cases hr2
  obtain ⟨r3, hr3, -, rV'⟩ := C48_merged_layers hd (top := a) (more := bs ++ [m]) (by
    intro x hx
    simp only [List.mem_cons, List.mem_append, List.not_mem_nil, or_false] at hx
    rcases hx with rfl | hx | rfl
    · exact hc _ (by simp)
    · exact hc _ (by simp [hx])
    · exact mC)
  rw [hr'] at hr3; cases hr3
  intro n i hi
  obtain ⟨lm, vm, hlm, hvm, em⟩ := mV n i hi
  obtain ⟨l, v, hl, hv, e⟩ := rV n i hi
  obtain ⟨l', v', hl', hv', e'⟩ := rV' n i hi
  refine ⟨v, v', hv, hv', ?_⟩
  -- the layers of `a :: bs`
  have split : ∀ (xs ys : List Config) (zs : List PVal), (xs ++ ys).mapM (fun c => readOpt c n) = .ok zs →
      ∃ as bs, xs.mapM (fun c => readOpt c n) = .ok as ∧ ys.mapM (fun c => readOpt c n) = .ok bs ∧ zs = as ++ bs := by
    intro xs ys zs h
    rw [List.mapM_append] at h
    obtain ⟨as, h1, h⟩ := Except_bind_ok.1 h
    obtain ⟨bs, h2, h⟩ := Except_bind_ok.1 h
    rw [pure_ok] at h
    exact ⟨as, bs, h1, h2, h.symm⟩
  obtain ⟨x1, y1, hx1, hy1, rfl⟩ := split (a :: bs) (c :: cs) l (by simpa using hl)
  obtain ⟨x2, y2, hx2, hy2, rfl⟩ := split (a :: bs) [m] l' (by simpa using hl')
  rw [hx1] at hx2; cases hx2
  rw [hlm] at hy1; cases hy1
  have hy2' : y2 = [vm] := by
    simp [List.mapM_cons, hvm, bind, Except.bind, pure, Except.pure] at hy2; exact hy2.symm
  subst hy2'
  by_cases ht : ∃ vt kt, i.type = .mergingDict vt kt
  · obtain ⟨vt, kt, ht⟩ := ht
    rw [ht] at e e' em
    obtain ⟨dm, rfl, -, hdm⟩ := em
    obtain ⟨d1, rfl, -, hd1⟩ := e
    obtain ⟨d2, rfl, -, hd2⟩ := e'
    refine .inr ⟨d1, d2, rfl, rfl, fun k => ?_⟩
    rw [hd1, hd2, firstWith_append, firstWith_append, ← hdm]
    simp [firstWith]
  · have hm' : vm = firstSet lm := by
      unfold Effective at em
      split at em
      · next hh => exact absurd ⟨_, _, hh⟩ ht
      · exact em
    left
    have h1 : v = firstSet (x1 ++ lm) := by
      unfold Effective at e
      split at e
      · next hh => exact absurd ⟨_, _, hh⟩ ht
      · exact e
    have h2 : v' = firstSet (x1 ++ [vm]) := by
      unfold Effective at e'
      split at e'
      · next hh => exact absurd ⟨_, _, hh⟩ ht
      · exact e'
    rw [h1, h2, hm', ← firstSet_append]

/-- Merging in the other grouping is literally the same computation. -/
theorem C49_associative_left {desc : Desc} (hd : desc.Built) {a : Config} {bs cs : List Config} (hc : ∀ x ∈ a :: bs, Complete desc x) {m : Config}
    (hm : mergeConfigs desc a bs = .ok m) : mergeConfigs desc m cs = mergeConfigs desc a (bs ++ cs) := by
  have hw := hd.wf
  have hfit := fun x hx => (complete_iff hw).1 (hc x hx)
  obtain ⟨m2, hm2, mC, -⟩ := mergeConfigs_spec hw hfit
  rw [hm] at hm2; cases hm2
  have h1 := copyConfigDict_ok (hfit a (by simp))
  simp only [mergeConfigs, h1, copyConfigDict_ok mC, bind, Except.bind] at hm ⊢
  rw [List.foldlM_append, hm]
  rfl

/-- A config where nothing is set. -/
def AllUnset (desc : Desc) (u : Config) : Prop := ∀ n i, desc.Has n i → readOpt u n = .ok i.type.unset

theorem two_layers {desc : Desc} (hd : desc.Built) {a b r : Config} (ha : Complete desc a) (hb : Complete desc b) (h : mergeConfigs desc a [b] = .ok r)
    {n : String} {i : ConfigItem} (hi : desc.Has n i) : ∃ va vb v, readOpt a n = .ok va ∧ readOpt b n = .ok vb ∧ readOpt r n = .ok v ∧
      Effective i.type [va, vb] v := by
  obtain ⟨r2, hr2, -, hV⟩ := C48_merged_layers hd (top := a) (more := [b]) (by
    intro x hx
    simp only [List.mem_cons, List.not_mem_nil, or_false] at hx
    rcases hx with rfl | rfl
    · exact ha
    · exact hb)
  rw [h] at hr2; cases hr2
  obtain ⟨l, v, hl, hv, he⟩ := hV n i hi
  obtain ⟨va, hva, -⟩ := ha.1 n i hi
  obtain ⟨vb, hvb, -⟩ := hb.1 n i hi
  simp [List.mapM_cons, hva, hvb, bind, Except.bind, pure, Except.pure] at hl
  subst hl
  exact ⟨va, vb, v, hva, hvb, hv, he⟩

/-- An unset config is an identity for merging, on either side. -/
theorem C49_unset_identity {desc : Desc} (hd : desc.Built) {a u : Config} (ha : Complete desc a) (hu : Complete desc u) (huu : AllUnset desc u) :
    (∀ r, mergeConfigs desc u [a] = .ok r → SameOptions desc r a) ∧ ∀ r, mergeConfigs desc a [u] = .ok r → SameOptions desc r a := by
  constructor
  · intro r hr n i hi
    obtain ⟨va, vb, v, h1, h2, h3, he⟩ := two_layers hd hu ha hr hi
    refine ⟨v, vb, h3, h2, ?_⟩
    rw [huu n i hi] at h1; cases h1
    obtain ⟨vb', hvb', hs⟩ := ha.1 n i hi
    rw [h2] at hvb'; cases hvb'
    cases hty : i.type with
    | mergingDict p q =>
      rw [hty] at he hs
      obtain ⟨d, rfl, -, hdd⟩ := he
      obtain ⟨e, rfl, -⟩ := hs
      exact .inr ⟨d, e, rfl, rfl, fun k => by rw [hdd]; simp [CType.unset, firstWith]⟩
    | _ =>
      rw [hty] at he
      left; simp only [Effective, CType.unset, firstSet] at he; rw [he]; cases vb <;> rfl
  · intro r hr n i hi
    obtain ⟨va, vb, v, h1, h2, h3, he⟩ := two_layers hd ha hu hr hi
    refine ⟨v, va, h3, h1, ?_⟩
    rw [huu n i hi] at h2; cases h2
    obtain ⟨va', hva', hs⟩ := ha.1 n i hi
    rw [h1] at hva'; cases hva'
    cases hty : i.type with
    | mergingDict p q =>
      rw [hty] at he hs
      obtain ⟨d, rfl, -, hdd⟩ := he
      obtain ⟨e, rfl, -⟩ := hs
      exact .inr ⟨d, e, rfl, rfl, fun k => by rw [hdd]; simp [CType.unset, firstWith]⟩
    | _ =>
      rw [hty] at he
      left; simp only [Effective, CType.unset] at he; rw [he]; cases va <;> rfl

/-- Merging a config with itself changes nothing. -/
theorem C49_idempotent {desc : Desc} (hd : desc.Built) {a r : Config} (ha : Complete desc a) (h : mergeConfigs desc a [a] = .ok r) :
    SameOptions desc r a := by
  intro n i hi
  obtain ⟨va, vb, v, h1, h2, h3, he⟩ := two_layers hd ha ha h hi
  refine ⟨v, va, h3, h1, ?_⟩
  rw [h1] at h2; cases h2
  obtain ⟨va', hva', hs⟩ := ha.1 n i hi
  rw [h1] at hva'; cases hva'
  cases hty : i.type with
  | mergingDict p q =>
    rw [hty] at he hs
    obtain ⟨d, rfl, -, hdd⟩ := he
    obtain ⟨e, rfl, -⟩ := hs
    exact .inr ⟨d, e, rfl, rfl, fun k => by rw [hdd]; cases hk : dget e k <;> simp [firstWith, hk]⟩
  | _ =>
    rw [hty] at he
    left; simp only [Effective] at he; rw [he]; cases va <;> rfl

end Verif
