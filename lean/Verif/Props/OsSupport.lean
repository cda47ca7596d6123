import Verif.Model.OsSupport
import Verif.Lemmas.Dict
import Verif.Props.Plugins
/-! # Operating systems: C44, C45, C46, C47, C76 -/
namespace Verif

/-! ## C44: detection -/

/-- The plugin detects the machine. -/
def Detects (p : OsPlugin) : Prop := p.isOs = .ok true

/-- The detected os (what `detect_os` sets as current os), or the exception. -/
def detected (plugins : List OsPlugin) : Except Exc OsPlugin :=
  match detectOs ⟨plugins, none⟩ with
  | (_, .error e) => .error e
  | (s, .ok ()) =>
    match s.current with
    | some (.detected p) => .ok p
    | _ => .error .attributeError

theorem detected_eq (plugins : List OsPlugin) :
    detected plugins = match detectLoop none plugins with
      | .error e => .error e
      | .ok none => .error .unsupportedOSError
      | .ok (some p) => .ok p := by
  unfold detected detectOs
  cases h : detectLoop none plugins with
  | error e => simp
  | ok r => cases r <;> simp

theorem detectLoop_cons (r : Option OsPlugin) (p : OsPlugin) (t : List OsPlugin) :
    detectLoop r (p :: t) = match p.isOs with
      | .error e => .error e
      | .ok false => detectLoop r t
      | .ok true => detectLoop (some (match r with | none => p | some q => moreSpecific q p)) t := by
  cases h : p.isOs with
  | error e => cases r <;> simp [detectLoop, h]
  | ok b => cases b <;> cases r <;> simp [detectLoop, h]

theorem moreSpecific_or (r p : OsPlugin) : moreSpecific r p = r ∨ moreSpecific r p = p := by
  unfold moreSpecific
  split
  · exact .inl rfl
  · split
    · exact .inr rfl
    · exact .inl rfl

/-- An invariant of the loop that holds at the beginning and is kept by each detecting plugin holds at the end. -/
theorem detectLoop_inv {I : Option OsPlugin → List OsPlugin → Prop} {plugins : List OsPlugin} (done : List OsPlugin) (r : Option OsPlugin)
    (h0 : I r done)
    (step : ∀ r done p, I r done → p ∈ plugins → Detects p → I (some (match r with | none => p | some q => moreSpecific q p)) (done ++ [p]))
    (skip : ∀ r done p, I r done → p ∈ plugins → p.isOs = .ok false → I r (done ++ [p]))
    {l : List OsPlugin} (hl : ∀ p ∈ l, p ∈ plugins) {r' : Option OsPlugin} (h : detectLoop r l = .ok r') : I r' (done ++ l) := by
  induction l generalizing r done with
  | nil => rw [detectLoop] at h; injection h with h; subst h; simpa using h0
  | cons p t ih =>
    rw [detectLoop_cons] at h
    have ht : ∀ q ∈ t, q ∈ plugins := fun q hq => hl q (List.mem_cons_of_mem _ hq)
    have hp := hl p (by simp)
    cases hb : p.isOs with
    | error e => rw [hb] at h; simp at h
    | ok b =>
      rw [hb] at h
      cases b with
      | false => have := ih (done ++ [p]) r (skip _ _ _ h0 hp hb) ht h; simpa using this
      | true => have := ih (done ++ [p]) _ (step _ _ _ h0 hp hb) ht h; simpa using this

theorem detectLoop_total {l : List OsPlugin} (h : ∀ p ∈ l, ∃ b, p.isOs = .ok b) (r : Option OsPlugin) : ∃ r', detectLoop r l = .ok r' := by
  induction l generalizing r with
  | nil => exact ⟨r, rfl⟩
  | cons p t ih =>
    obtain ⟨b, hb⟩ := h p (by simp)
    rw [detectLoop_cons, hb]
    cases b <;> exact ih (fun q hq => h q (List.mem_cons_of_mem _ hq)) _

theorem detectLoop_some {l : List OsPlugin} {r r' : Option OsPlugin} (h : detectLoop r l = .ok r') :
    r' = none ↔ r = none ∧ ∀ p ∈ l, p.isOs = .ok false := by
  induction l generalizing r with
  | nil => rw [detectLoop] at h; injection h with h; subst h; simp
  | cons p t ih =>
    rw [detectLoop_cons] at h
    cases hb : p.isOs with
    | error e => rw [hb] at h; simp at h
    | ok b =>
      rw [hb] at h
      cases b with
      | false => rw [ih h]; simp [hb]
      | true => rw [ih h]; simp [hb]

/-- **C44** If no plugin's detection raises, detection succeeds iff some plugin detects the machine, and raises UnsupportedOSError otherwise. -/
theorem C44_detects_iff (plugins : List OsPlugin) (h : ∀ p ∈ plugins, ∃ b, p.isOs = .ok b) :
    ((∃ p, detected plugins = .ok p) ↔ ∃ p ∈ plugins, Detects p) ∧
    ((¬ ∃ p ∈ plugins, Detects p) → detected plugins = .error .unsupportedOSError) := by
  obtain ⟨r, hr⟩ := detectLoop_total h none
  have key := detectLoop_some hr
  rw [detected_eq, hr]
  have hno : r = none ↔ ¬ ∃ p ∈ plugins, Detects p := by
    rw [key]
    constructor
    · rintro ⟨-, h1⟩ ⟨p, hp, hd⟩
      unfold Detects at hd; rw [h1 p hp] at hd; simp at hd
    · intro hn
      refine ⟨rfl, fun p hp => ?_⟩
      obtain ⟨b, hb⟩ := h p hp
      cases b with
      | false => exact hb
      | true => exact absurd ⟨p, hp, hb⟩ hn
  cases r with
  | none => exact ⟨⟨by rintro ⟨p, hp⟩; simp at hp, fun hd => absurd hd (hno.1 rfl)⟩, fun _ => rfl⟩
  | some q =>
    have : ∃ p ∈ plugins, Detects p := Classical.byContradiction fun hn => by simpa using hno.2 hn
    exact ⟨⟨fun _ => this, fun _ => ⟨q, rfl⟩⟩, fun hn => absurd this hn⟩

theorem detectLoop_raises (before after : List OsPlugin) (q : OsPlugin) (e : Exc) (hq : q.isOs = .error e)
    (hb : ∀ p ∈ before, ∃ b, p.isOs = .ok b) (r : Option OsPlugin) : detectLoop r (before ++ q :: after) = .error e := by
  induction before generalizing r with
  | nil => simp [detectLoop, hq]
  | cons p t ih =>
    obtain ⟨b, hp⟩ := hb p (by simp)
    have ih' := fun r => ih (fun x hx => hb x (by simp [hx])) r
    rw [List.cons_append]
    cases b with
    | false => simp [detectLoop, hp, ih']
    | true => cases r <;> simp [detectLoop, hp, ih']

/-- **C44** If the check of a plugin raises, detection raises the same (that of the first such plugin), even if others detect the machine. -/
theorem C44_raising_plugin (before after : List OsPlugin) (q : OsPlugin) (e : Exc) (hq : q.isOs = .error e)
    (hb : ∀ p ∈ before, ∃ b, p.isOs = .ok b) : detected (before ++ q :: after) = .error e := by
  rw [detected_eq, detectLoop_raises before after q e hq hb]

/-- **C44** The detected os is one of the plugins, and it detects the machine. -/
theorem C44_result_detects (plugins : List OsPlugin) (p : OsPlugin) (h : detected plugins = .ok p) : p ∈ plugins ∧ Detects p := by
  rw [detected_eq] at h
  cases hl : detectLoop none plugins with
  | error e => rw [hl] at h; simp at h
  | ok r =>
    rw [hl] at h
    cases r with
    | none => simp at h
    | some q =>
      simp only [Except.ok.injEq] at h
      subst h
      have := detectLoop_inv (I := fun r _ => ∀ q, r = some q → q ∈ plugins ∧ Detects q) (plugins := plugins) [] none (by simp)
        (fun r done p ih hp hd q hq => by
          cases r with
          | none => simp only [Option.some.injEq] at hq; subst hq; exact ⟨hp, hd⟩
          | some r =>
            simp only [Option.some.injEq] at hq
            subst hq
            rcases moreSpecific_or r p with h | h <;> rw [h]
            · exact ih r rfl
            · exact ⟨hp, hd⟩)
        (fun r done p ih _ _ => ih) (fun _ h => h) hl
      exact this q rfl

/-- **C44** The current os is only set if detection succeeds. -/
theorem C44_sets_current (s : OsSupport) :
    (∀ p, detected s.plugins = .ok p → detectOs s = ({ s with current := some (.detected p) }, .ok ())) ∧
    (∀ e, detected s.plugins = .error e → detectOs s = (s, .error e)) := by
  rw [detected_eq]
  unfold detectOs
  cases h : detectLoop none s.plugins with
  | error e => simp
  | ok r => cases r <;> simp

/-- **C44** A detecting plugin that derives from all other detecting plugins (and none of them from it) is chosen, in whatever order the plugins
are. -/
theorem C44_most_specific (plugins : List OsPlugin) (h : ∀ p ∈ plugins, ∃ b, p.isOs = .ok b) (d : OsPlugin) (hd : d ∈ plugins) (hdet : Detects d)
    (derives : ∀ p ∈ plugins, Detects p → p ≠ d → p.name ∈ d.allNames ∧ d.name ∉ p.allNames) : detected plugins = .ok d := by
  obtain ⟨r, hr⟩ := detectLoop_total h none
  have := detectLoop_inv (I := fun r done => (∀ q, r = some q → q ∈ plugins ∧ Detects q) ∧ (d ∈ done → r = some d)) (plugins := plugins) [] none
    (by simp)
    (fun r done p ih hp hdp => by
      obtain ⟨i1, i2⟩ := ih
      refine ⟨fun q hq => ?_, fun hm => ?_⟩
      · cases r with
        | none => simp only [Option.some.injEq] at hq; subst hq; exact ⟨hp, hdp⟩
        | some r =>
          simp only [Option.some.injEq] at hq
          subst hq
          rcases moreSpecific_or r p with h | h <;> rw [h]
          · exact i1 r rfl
          · exact ⟨hp, hdp⟩
      · by_cases hpd : p = d
        · subst hpd
          cases r with
          | none => rfl
          | some r =>
            by_cases hrd : r = p
            · subst hrd
              rcases moreSpecific_or r r with h | h <;> simp [h]
            · obtain ⟨h1, h2⟩ := i1 r rfl
              obtain ⟨h3, h4⟩ := derives r h1 h2 hrd
              simp only [Option.some.injEq]
              unfold moreSpecific
              rw [if_neg (by simpa using h4), if_pos (by simpa using h3)]
        · have hdd : d ∈ done := by
            rcases List.mem_append.1 hm with hm | hm
            · exact hm
            · exact absurd (List.mem_singleton.1 hm).symm hpd
          have := i2 hdd
          subst this
          simp only [Option.some.injEq]
          unfold moreSpecific
          rw [if_pos (by simpa using (derives p hp hdp hpd).1)])
    (fun r done p ih hp hf => by
      refine ⟨ih.1, fun hm => ?_⟩
      rcases List.mem_append.1 hm with hm | hm
      · exact ih.2 hm
      · have := List.mem_singleton.1 hm
        subst this
        unfold Detects at hdet
        rw [hf] at hdet; simp at hdet)
    (fun _ h => h) hr
  have hrd := this.2 (by simpa using hd)
  rw [detected_eq, hr, hrd]

/-- **C44** If derivation is transitive among the detecting plugins, none of them is strictly more specific than the detected one. -/
theorem C44_nothing_more_specific (plugins : List OsPlugin) (p : OsPlugin) (h : detected plugins = .ok p)
    (trans : ∀ a ∈ plugins, ∀ b ∈ plugins, ∀ c ∈ plugins, Detects a → Detects b → Detects c →
      b.name ∈ a.allNames → c.name ∈ b.allNames → c.name ∈ a.allNames)
    (q : OsPlugin) (hq : q ∈ plugins) (hdq : Detects q) (hder : p.name ∈ q.allNames) : q.name ∈ p.allNames := by
  rw [detected_eq] at h
  cases hl : detectLoop none plugins with
  | error e => rw [hl] at h; simp at h
  | ok r =>
    rw [hl] at h
    cases r with
    | none => simp at h
    | some x =>
      simp only [Except.ok.injEq] at h
      subst h
      have := detectLoop_inv
        (I := fun r done => (∀ x, r = some x → x ∈ plugins ∧ Detects x ∧
          ∀ q ∈ done, q ∈ plugins → Detects q → x.name ∈ q.allNames → q.name ∈ x.allNames) ∧ (r = none → ∀ q ∈ done, ¬ Detects q))
        (plugins := plugins) [] none (by simp)
        (fun r done p ih hp hd => by
          obtain ⟨i1, i2⟩ := ih
          refine ⟨fun x hx => ?_, by simp⟩
          cases r with
          | none =>
            simp only [Option.some.injEq] at hx
            subst hx
            refine ⟨hp, hd, fun q hm _ hdq hder => ?_⟩
            rcases List.mem_append.1 hm with hm | hm
            · exact absurd hdq (i2 rfl q hm)
            · have := List.mem_singleton.1 hm; subst this; exact hder
          | some r =>
            simp only [Option.some.injEq] at hx
            obtain ⟨r1, r2, r3⟩ := i1 r rfl
            unfold moreSpecific at hx
            by_cases c1 : p.name ∈ r.allNames
            · rw [if_pos (by simpa using c1)] at hx
              subst hx
              refine ⟨r1, r2, fun q hm hqp hdq hder => ?_⟩
              rcases List.mem_append.1 hm with hm | hm
              · exact r3 q hm hqp hdq hder
              · have := List.mem_singleton.1 hm; subst this; exact c1
            · rw [if_neg (by simpa using c1)] at hx
              by_cases c2 : r.name ∈ p.allNames
              · rw [if_pos (by simpa using c2)] at hx
                subst hx
                refine ⟨hp, hd, fun q hm hqp hdq hder => ?_⟩
                rcases List.mem_append.1 hm with hm | hm
                · have := r3 q hm hqp hdq (trans q hqp p hp r r1 hdq hd r2 hder c2)
                  exact trans p hp r r1 q hqp hd r2 hdq c2 this
                · have := List.mem_singleton.1 hm; subst this; exact hder
              · rw [if_neg (by simpa using c2)] at hx
                subst hx
                refine ⟨r1, r2, fun q hm hqp hdq hder => ?_⟩
                rcases List.mem_append.1 hm with hm | hm
                · exact r3 q hm hqp hdq hder
                · have := List.mem_singleton.1 hm; subst this; exact absurd hder c2)
        (fun r done p ih hp hf => by
          refine ⟨fun x hx => ?_, fun hn q hm => ?_⟩
          · obtain ⟨h1, h2, h3⟩ := ih.1 x hx
            refine ⟨h1, h2, fun q hm hqp hdq hder => ?_⟩
            rcases List.mem_append.1 hm with hm | hm
            · exact h3 q hm hqp hdq hder
            · have := List.mem_singleton.1 hm; subst this
              unfold Detects at hdq; rw [hf] at hdq; simp at hdq
          · rcases List.mem_append.1 hm with hm | hm
            · exact ih.2 hn q hm
            · have := List.mem_singleton.1 hm; subst this
              unfold Detects; rw [hf]; simp)
        (fun _ h => h) hl
      exact (this.1 x rfl).2.2 q (by simpa using hq) hq hdq hder

/-- A plugin for examples. -/
def exOs (names : List String) (det : Bool) : OsPlugin :=
  { name := names.headD "", allNames := names, isOs := .ok det, getVersion := .ok "1", knownVersions := ["1", "2"],
    allTuples := fun v => names.map fun n => (n, v), coreInstallers := fun _ _ => .ok [], defaultInstaller := none,
    optionsDesc := describe osOptionItems }

example : detected [exOs ["debian"] true, exOs ["mint", "ubuntu", "debian"] true, exOs ["osx"] false, exOs ["ubuntu", "debian"] true] =
    .ok (exOs ["mint", "ubuntu", "debian"] true) := rfl

/-- The hypotheses of `C44_most_specific` are met by a derived os in any order of the plugins. -/
example : detected [exOs ["debian"] true, { exOs ["osx"] true with isOs := .error .osError }] = .error .osError :=
  C44_raising_plugin [exOs ["debian"] true] [] _ _ rfl (by simp [exOs])

example (l : List OsPlugin) (hl : l.Perm [exOs ["debian"] true, exOs ["mint", "ubuntu", "debian"] true, exOs ["osx"] false, exOs ["ubuntu", "debian"] true]) :
    detected l = .ok (exOs ["mint", "ubuntu", "debian"] true) := by
  have hm : ∀ p, p ∈ l → p = exOs ["debian"] true ∨ p = exOs ["mint", "ubuntu", "debian"] true ∨ p = exOs ["osx"] false ∨ p = exOs ["ubuntu", "debian"] true := by
    intro p hp; have := hl.mem_iff.1 hp; simpa using this
  refine C44_most_specific l (fun p hp => ?_) _ (hl.mem_iff.2 (by simp)) rfl (fun p hp hd hne => ?_)
  · rcases hm p hp with rfl | rfl | rfl | rfl <;> exact ⟨_, rfl⟩
  · rcases hm p hp with rfl | rfl | rfl | rfl
    · exact ⟨by decide, by decide⟩
    · exact absurd rfl hne
    · exact absurd hd (by simp [Detects, exOs])
    · exact ⟨by decide, by decide⟩

/-- **C44** Between plugins that do not derive from each other, the order decides. -/
theorem C44_unrelated_depends_on_order :
    detected [exOs ["a"] true, exOs ["b"] true] = .ok (exOs ["a"] true) ∧ detected [exOs ["b"] true, exOs ["a"] true] = .ok (exOs ["b"] true) :=
  ⟨rfl, rfl⟩

/-! ## C45: override -/

/-- **C45** Overriding with a known os name and one of its versions makes it the current os with that version, whatever the machine is. -/
theorem C45_override_version (s : OsSupport) (name version : String) (p : OsPlugin) (h : lookupOs s.plugins name = some p)
    (hv : version ∈ p.knownVersions) :
    ∃ c, overrideOs s (some (name, some version)) = ({ s with current := some c }, .ok ()) ∧ c.getTuple = .ok (name, version) ∧
      c.plugin = p ∧ c.isOs = .ok true := by
  have hn : p.name = name := by
    unfold lookupOs at h
    have := List.find?_some h
    simpa using this
  refine ⟨.override p version, ?_, ?_, rfl, rfl⟩
  · unfold overrideOs
    simp only [h, mkOverride]
    rw [if_pos (by simpa using hv)]
  · simp only [CurrentOs.getTuple, CurrentOs.getVersion, CurrentOs.plugin, bind, Except.bind, pure, Except.pure, hn]

/-- **C45** Overriding with a known name only: the version is the one detected by the plugin. -/
theorem C45_override_detects_version (s : OsSupport) (name : String) (p : OsPlugin) (h : lookupOs s.plugins name = some p) :
    (∀ v, p.getVersion = .ok v → ∃ c, overrideOs s (some (name, none)) = ({ s with current := some c }, .ok ()) ∧
      c.getTuple = .ok (name, v) ∧ c.plugin = p) ∧
    (∀ e, p.getVersion = .error e → overrideOs s (some (name, none)) = (s, .error e)) := by
  have hn : p.name = name := by
    unfold lookupOs at h
    have := List.find?_some h
    simpa using this
  refine ⟨fun v hv => ⟨.override p v, ?_, ?_, rfl⟩, fun e he => ?_⟩
  · unfold overrideOs
    simp only [h, mkOverride, hv, bind, Except.bind, pure, Except.pure]
  · simp only [CurrentOs.getTuple, CurrentOs.getVersion, CurrentOs.plugin, bind, Except.bind, pure, Except.pure, hn]
  · unfold overrideOs
    simp only [h, mkOverride, he, bind, Except.bind]

/-- **C45** An unknown name or version raises the respective error and leaves everything as it was; no override leaves everything as it was. -/
theorem C45_refused (s : OsSupport) :
    (∀ name version, (∀ p ∈ s.plugins, p.name ≠ name) → overrideOs s (some (name, version)) = (s, .error .unsupportedOSError)) ∧
    (∀ name version p, lookupOs s.plugins name = some p → version ∉ p.knownVersions →
      overrideOs s (some (name, some version)) = (s, .error .unsupportedOSVersionError)) ∧
    overrideOs s none = (s, .ok ()) := by
  refine ⟨fun name version h => ?_, fun name version p h hv => ?_, rfl⟩
  · have : lookupOs s.plugins name = none := by
      unfold lookupOs
      rw [List.find?_eq_none]
      intro p hp
      simpa using h p hp
    unfold overrideOs
    simp only [this]
  · unfold overrideOs
    simp only [h, mkOverride]
    rw [if_neg (by simpa using hv)]

/-- `lookup_os` finds the loaded plugin of that name. -/
theorem C45_lookup_os (plugins : List OsPlugin) (hn : (plugins.map OsPlugin.name).Nodup) (p : OsPlugin) (hp : p ∈ plugins) :
    lookupOs plugins p.name = some p := by
  unfold lookupOs
  induction plugins with
  | nil => simp at hp
  | cons q t ih =>
    simp only [List.map_cons, List.nodup_cons] at hn
    rcases List.mem_cons.1 hp with rfl | hp
    · simp
    · have : q.name ≠ p.name := fun h => hn.1 (h ▸ List.mem_map.2 ⟨p, hp, rfl⟩)
      rw [List.find?_cons_of_neg (by simpa using this)]
      exact ih hn.2 hp

theorem osOptions_spec (expand : String → String) (data : Dict PKey PVal) :
    setOptions expand (describe osOptionItems) (.dict data) = (do
      let p ← (CType.list .string).fromYaml expand ((dget data (.str "features")).getD .none)
      pure [("features", .val (if p.isNone then .list [] else p))]) := by
  have g : groupOf "features" = none := by rfl
  have hg : (describe osOptionItems).groups = [] := by rfl
  have hi : (describe osOptionItems).items = [("features", mkItem { name := "features", type := .list .string, default := .list [] })] := by rfl
  have hd : configFromDefaults (describe osOptionItems) = .ok [("features", .val (.list []))] := by rfl
  simp only [setOptions, configFromParsedYaml, hg, fillGroups, bind, Except.bind, hi, fillItems, g, yamlValue, if_true, hd]
  rw [show (mkItem { name := "features", type := .list .string, default := .list [] }).type = .list .string from rfl]
  cases h1 : (CType.list .string).fromYaml expand ((dget data (.str "features")).getD .none) with
  | error e => rfl
  | ok p => cases p <;> rfl

/-- The options of an os plugin with the given features. -/
def featureOptions (fs : List String) : Config := [("features", .val (.list (fs.map .str)))]

theorem fromYaml_texts (expand : String → String) (fs : List String) :
    (CType.list .string).fromYaml expand (.list (fs.map .str)) = .ok (.list (fs.map .str)) := by
  obtain ⟨w, hw⟩ := (fromYaml_ok_iff (expand := expand) (t := .list .string) (v := .list (fs.map .str)) (by simp [CType.KeysOk])).2
    (by simp [Readable])
  have h2 : (PVal.list (fs.map .str)).WF := by
    simp only [PVal.WF, PVal.WFList_iff]
    intro v hv
    obtain ⟨s, -, rfl⟩ := List.mem_map.1 hv
    simp [PVal.WF]
  rw [hw, fromYaml_plain (by simp [CType.Plain]) h2 hw]

/-- **C45** Setting up with an override to a loaded builtin-style os (its options are the features) and one of its versions gives that name and version, and
the configured features (none if there is no such option); detection is not involved. -/
theorem C45_setup_override (expand : String → String) (plugins : List OsPlugin) (hn : (plugins.map OsPlugin.name).Nodup) (p : OsPlugin) (hp : p ∈ plugins)
    (ho : p.optionsDesc = describe osOptionItems) (version : String) (hv : version ∈ p.knownVersions) (fs : List String) :
    (∃ c, setupOs expand plugins (.pair p.name (some version)) (.dict [(.str "features", .list (fs.map .str))]) = .ok ⟨c, featureOptions fs⟩ ∧
      c.getTuple = .ok (p.name, version) ∧ c.plugin = p) ∧
    (∃ c, setupOs expand plugins (.pair p.name (some version)) (.dict [(.str "features", .none)]) = .ok ⟨c, featureOptions []⟩ ∧
      c.getTuple = .ok (p.name, version) ∧ c.plugin = p) := by
  obtain ⟨c, h1, h2, h3, -⟩ := C45_override_version ⟨plugins, none⟩ p.name version p (C45_lookup_os plugins hn p hp) hv
  have hc : chooseOs plugins (.pair p.name (some version)) = .ok c := by
    unfold chooseOs
    simp only [h1, currentOs, bind, Except.bind, pure, Except.pure]
  refine ⟨⟨c, ?_, h2, h3⟩, ⟨c, ?_, h2, h3⟩⟩
  · simp only [setupOs, hc, h3, ho, osOptions_spec, bind, Except.bind]
    simp only [dget, if_true, Option.getD_some, fromYaml_texts, PVal.isNone]
    rfl
  · simp only [setupOs, hc, h3, ho, osOptions_spec, bind, Except.bind]
    rfl

example : setupOs id [exOs ["debian"] true, exOs ["ubuntu", "debian"] false] (.pair "ubuntu" (some "2")) (.dict [(.str "features", .list [.str "python3"])]) =
    .ok ⟨.override (exOs ["ubuntu", "debian"] false) "2", featureOptions ["python3"]⟩ := rfl

/-- **C45** Without an override the detected os is used, with the configured options. -/
theorem C45_setup_detects (expand : String → String) (plugins : List OsPlugin) (p : OsPlugin) (h : detected plugins = .ok p) (v : String)
    (hv : p.getVersion = .ok v) (data : Dict PKey PVal) (o : Config) (ho : setOptions expand p.optionsDesc (.dict data) = .ok o) :
    ∃ c, setupOs expand plugins .none (.dict data) = .ok ⟨c, o⟩ ∧ c.getTuple = .ok (p.name, v) ∧ c.plugin = p := by
  have h1 := (C44_sets_current ⟨plugins, none⟩).1 p h
  refine ⟨.detected p, ?_, ?_, rfl⟩
  · unfold setupOs chooseOs
    simp only [h1, currentOs, bind, Except.bind, pure, Except.pure, CurrentOs.getTuple, CurrentOs.getVersion, hv, CurrentOs.plugin, ho]
  · simp only [CurrentOs.getTuple, CurrentOs.getVersion, CurrentOs.plugin, hv, bind, Except.bind, pure, Except.pure]

/-- **C45** If no os is detected, nothing is set up. -/
theorem C45_setup_fails (expand : String → String) (plugins : List OsPlugin) (e : Exc) (h : detected plugins = .error e) (options : PVal) :
    setupOs expand plugins .none options = .error e := by
  have h1 := (C44_sets_current ⟨plugins, none⟩).2 e h
  unfold setupOs chooseOs
  simp only [h1, bind, Except.bind]

/-! ## C46: version order -/

/-- `a` is released before `b`: it comes earlier in the table. -/
def Before (versions : List String) (a b : String) : Prop := ∃ l m r, versions = l ++ a :: m ++ b :: r

theorem idxOf_lt_iff {l : List String} (hn : l.Nodup) {a b : String} (ha : a ∈ l) (hb : b ∈ l) : l.idxOf a < l.idxOf b ↔ Before l a b := by
  induction l with
  | nil => simp at ha
  | cons x t ih =>
    rw [List.nodup_cons] at hn
    have step : a ≠ x → b ≠ x → (Before t a b ↔ Before (x :: t) a b) := by
      intro hax hbx
      constructor
      · rintro ⟨l, m, r, rfl⟩; exact ⟨x :: l, m, r, rfl⟩
      · rintro ⟨l, m, r, h⟩
        cases l with
        | nil => simp only [List.nil_append, List.cons_append, List.cons.injEq] at h; exact absurd h.1.symm hax
        | cons y l => simp only [List.cons_append, List.cons.injEq] at h; exact ⟨l, m, r, h.2⟩
    by_cases hax : a = x
    · subst hax
      by_cases hbx : b = a
      · subst hbx
        simp only [Nat.lt_irrefl, false_iff]
        rintro ⟨l, m, r, h⟩
        cases l with
        | nil => simp only [List.nil_append, List.cons_append, List.cons.injEq] at h; exact hn.1 (by rw [h.2]; simp)
        | cons y l =>
          simp only [List.cons_append, List.cons.injEq] at h
          exact hn.1 (by rw [h.2]; simp)
      · have hb' : b ∈ t := (List.mem_cons.1 hb).resolve_left hbx
        simp only [List.idxOf_cons_self]
        rw [List.idxOf_cons_ne _ (Ne.symm hbx)]
        simp only [Nat.zero_lt_succ, true_iff]
        obtain ⟨m, r, rfl⟩ := List.append_of_mem hb'
        exact ⟨[], m, r, rfl⟩
    · have ha' : a ∈ t := (List.mem_cons.1 ha).resolve_left hax
      rw [List.idxOf_cons_ne _ (Ne.symm hax)]
      by_cases hbx : b = x
      · subst hbx
        simp only [List.idxOf_cons_self, Nat.not_lt_zero, false_iff]
        rintro ⟨l, m, r, h⟩
        cases l with
        | nil => simp only [List.nil_append, List.cons_append, List.cons.injEq] at h; exact hax h.1.symm
        | cons y l =>
          simp only [List.cons_append, List.cons.injEq] at h
          exact hn.1 (by rw [h.2]; simp)
      · have hb' : b ∈ t := (List.mem_cons.1 hb).resolve_left hbx
        rw [List.idxOf_cons_ne _ (Ne.symm hbx), Nat.succ_lt_succ_iff, ih hn.2 ha' hb', step hax hbx]

theorem versionLess_spec {versions : List String} (hn : versions.Nodup) (a b : String) (r : Bool) :
    versionLess versions a b = .ok r ↔ a ∈ versions ∧ b ∈ versions ∧ (r = true ↔ Before versions a b) := by
  unfold versionLess
  by_cases ha : a ∈ versions
  · rw [if_neg (by simpa using ha)]
    by_cases hb : b ∈ versions
    · rw [if_neg (by simpa using hb), ← idxOf_lt_iff hn ha hb]
      simp only [Except.ok.injEq, ha, hb, true_and]
      cases r <;> simp
    · rw [if_pos (by simpa using hb)]; simp [hb]
  · rw [if_pos (by simpa using ha)]; simp [ha]

theorem eraseDups_length_iff (l : List String) : l.length = l.eraseDups.length ↔ l.Nodup := by
  have h : ∀ n (l : List String), l.length ≤ n → l.eraseDups.length ≤ l.length ∧ (l.length = l.eraseDups.length ↔ l.Nodup) := by
    intro n
    induction n with
    | zero => intro l hl; have : l = [] := List.length_eq_zero_iff.1 (by omega); subst this; simp
    | succ n ih =>
      intro l hl
      cases l with
      | nil => simp
      | cons a t =>
        rw [List.eraseDups_cons]
        have hf : (t.filter fun b => !b == a).length ≤ t.length := List.length_filter_le _ _
        have hl' : t.length ≤ n := by simp at hl; omega
        obtain ⟨h1, h2⟩ := ih (t.filter fun b => !b == a) (by omega)
        simp only [List.length_cons, List.nodup_cons]
        refine ⟨by omega, ?_⟩
        constructor
        · intro h
          have hft : (t.filter fun b => !b == a).length = t.length := by omega
          have hall := List.length_filter_eq_length_iff.1 hft
          have heq : (t.filter fun b => !b == a) = t := List.filter_eq_self.2 hall
          refine ⟨fun hm => ?_, ?_⟩
          · have := hall a hm; simp at this
          · rw [heq] at h2 h; exact h2.1 (by omega)
        · rintro ⟨h3, h4⟩
          have heq : (t.filter fun b => !b == a) = t := List.filter_eq_self.2 fun b hb => by
            have : b ≠ a := fun h => h3 (h ▸ hb)
            simpa using this
          rw [heq] at h2 ⊢
          have := h2.2 h4
          omega
  exact (h _ l (Nat.le_refl _)).2

/-- **C46** The order of a table without duplicates: two versions are compared iff both are known, and `a` is less than `b` iff `a` comes before `b` in the
table; an unknown version raises UnsupportedOSVersionError. A table with duplicates has no order (AssertionError). -/
theorem C46_follows_table (versions : List String) :
    (versions.Nodup → ∃ less, versionOrderFromList versions = .ok less ∧
      (∀ a b r, less a b = .ok r ↔ a ∈ versions ∧ b ∈ versions ∧ (r = true ↔ Before versions a b)) ∧
      (∀ a b, a ∉ versions ∨ b ∉ versions → less a b = .error .unsupportedOSVersionError)) ∧
    (¬ versions.Nodup → versionOrderFromList versions = .error .assertionError) := by
  constructor
  · intro hn
    refine ⟨versionLess versions, ?_, versionLess_spec hn, fun a b h => ?_⟩
    · unfold versionOrderFromList; rw [if_pos ((eraseDups_length_iff _).2 hn)]
    · unfold versionLess
      rcases h with h | h
      · rw [if_pos (by simpa using h)]
      · rw [if_pos (show (!versions.contains b) = true by simpa using h)]
        split <;> rfl
  · intro hn
    unfold versionOrderFromList; rw [if_neg (fun h => hn ((eraseDups_length_iff _).1 h))]

/-- **C46** The comparison is a strict total order on the known versions. -/
theorem C46_strict_total_order (versions : List String) (hn : versions.Nodup) (less : String → String → Except Exc Bool)
    (h : versionOrderFromList versions = .ok less) :
    (∀ a ∈ versions, less a a = .ok false) ∧
    (∀ a b c, less a b = .ok true → less b c = .ok true → less a c = .ok true) ∧
    (∀ a ∈ versions, ∀ b ∈ versions, a = b ∨ (less a b = .ok true ∧ less b a = .ok false) ∨ (less b a = .ok true ∧ less a b = .ok false)) := by
  obtain ⟨less', h1, h2, -⟩ := (C46_follows_table versions).1 hn
  rw [h] at h1
  injection h1 with h1
  subst h1
  have key : ∀ a ∈ versions, ∀ b ∈ versions, less a b = .ok (decide (versions.idxOf a < versions.idxOf b)) := by
    intro a ha b hb
    rw [h2]
    refine ⟨ha, hb, ?_⟩
    rw [decide_eq_true_iff, idxOf_lt_iff hn ha hb]
  refine ⟨fun a ha => by rw [key a ha a ha]; simp, fun a b c hab hbc => ?_, fun a ha b hb => ?_⟩
  · obtain ⟨ha, hb, -⟩ := (h2 a b true).1 hab
    obtain ⟨-, hc, -⟩ := (h2 b c true).1 hbc
    rw [key a ha b hb] at hab
    rw [key b hb c hc] at hbc
    rw [key a ha c hc]
    simp only [Except.ok.injEq, decide_eq_true_eq] at *
    omega
  · rw [key a ha b hb, key b hb a ha]
    rcases Nat.lt_trichotomy (versions.idxOf a) (versions.idxOf b) with h | h | h
    · refine .inr (.inl ⟨by simpa using h, ?_⟩)
      simp only [Except.ok.injEq, decide_eq_false_iff_not]; omega
    · exact .inl ((List.idxOf_inj ha).1 h)
    · refine .inr (.inr ⟨by simpa using h, ?_⟩)
      simp only [Except.ok.injEq, decide_eq_false_iff_not]; omega

/-- **C46** The tables of the builtin plugins have no duplicates. -/
theorem C46_builtin_tables (p : Platform) : ∀ o ∈ builtinPlugins p, o.knownVersions.Nodup := by
  intro o ho
  simp only [builtinPlugins, List.mem_cons, List.not_mem_nil, or_false] at ho
  rcases ho with rfl | rfl | rfl | rfl <;> (simp only [BuiltinOs.plugin, debianOs, ubuntuOs, xubuntuOs, osxOs]; decide)

example : ∃ less, versionOrderFromList ["lucid", "precise", "trusty"] = .ok less ∧ less "lucid" "trusty" = .ok true ∧ less "trusty" "precise" = .ok false ∧
    less "lucid" "xenial" = .error .unsupportedOSVersionError := ⟨_, rfl, rfl, rfl, rfl⟩

/-! ## C47: os tuples -/

/-- Spec: the tuples for the names, given the version of the first one: each further version is the mapped previous one. -/
inductive TuplesFor : List (String × VersionMapping) → Option String → List (String × Option String) → Prop
  | nil (v : Option String) : TuplesFor [] v []
  | unknownVersion {n m t l} : TuplesFor t none l → TuplesFor ((n, m) :: t) none ((n, none) :: l)
  | noMapping {n t l} (v : String) : TuplesFor t none l → TuplesFor ((n, .unknown) :: t) (some v) ((n, some v) :: l)
  | inTable {n d t l} (v w : String) : (v, w) ∈ d → TuplesFor t (some w) l → TuplesFor ((n, .table d) :: t) (some v) ((n, some v) :: l)
  | notInTable {n d t l} (v : String) : (∀ w, (v, w) ∉ d) → TuplesFor t none l → TuplesFor ((n, .table d) :: t) (some v) ((n, some v) :: l)
  | function {n f t l} (v : String) : TuplesFor t (f v) l → TuplesFor ((n, .function f) :: t) (some v) ((n, some v) :: l)

/-- **C47 (partial)** The tuples of a builtin os: its names in order, the version of each being the mapped version of the one before. Missing: unknown versions
do not raise, see below. -/
theorem C47_tuples_partial (b : BuiltinOs) (v : Option String) : TuplesFor b.names v (b.plugin.allTuples v) := by
  show TuplesFor b.names v (allTuples b.names v)
  generalize b.names = l
  induction l generalizing v with
  | nil => exact .nil v
  | cons x t ih =>
    obtain ⟨n, m⟩ := x
    rw [allTuples]
    cases v with
    | none => exact .unknownVersion (ih none)
    | some v =>
      cases m with
      | unknown => exact .noMapping v (ih none)
      | table d =>
        show TuplesFor _ _ ((n, some v) :: allTuples t (dget d v))
        cases hd : dget d v with
        | none =>
          refine .notInTable v (fun w hw => ?_) (ih none)
          have : v ∈ dkeys d := List.mem_map.2 ⟨_, hw, rfl⟩
          rw [mem_dkeys_iff, hd] at this; simp at this
        | some w => exact .inTable v w (dget_some_mem hd) (ih (some w))
      | function f => exact .function v (ih (f v))

/-- **C47** The first tuple has the name of the os and the given version, and the names are all names of the os. -/
theorem C47_first_and_names (b : BuiltinOs) (v : Option String) :
    (b.plugin.allTuples v).map Prod.fst = b.plugin.allNames ∧ (b.names ≠ [] → (b.plugin.allTuples v).head? = some (b.plugin.name, v)) := by
  constructor
  · show (allTuples b.names v).map Prod.fst = b.names.map Prod.fst
    generalize b.names = l
    induction l generalizing v with
    | nil => rfl
    | cons x t ih => obtain ⟨n, m⟩ := x; simp [allTuples, ih]
  · show b.names ≠ [] → (allTuples b.names v).head? = some ((b.names.map Prod.fst).headD "", v)
    cases b.names with
    | nil => exact fun h => absurd rfl h
    | cons x t => obtain ⟨n, m⟩ := x; exact fun _ => rfl

/-- **C47** The tuples of the builtin os for any version. -/
theorem C47_builtin (p : Platform) (v : String) :
    (debianOs p).plugin.allTuples (some v) = [("debian", some v)] ∧
    (ubuntuOs p).plugin.allTuples (some v) = [("ubuntu", some v), ("debian", none)] ∧
    (xubuntuOs p).plugin.allTuples (some v) = [("xubuntu", some v), ("ubuntu", some v), ("debian", none)] ∧
    (osxOs p).plugin.allTuples (some v) = [("osx", some v)] := ⟨rfl, rfl, rfl, rfl⟩

/-- **C47 refuted**: unknown versions do not raise: there is a builtin os and a version it does not know for which the tuples are returned. -/
theorem C47_unknown_version_accepted (p : Platform) :
    ∃ v, v ∉ (ubuntuOs p).plugin.knownVersions ∧ (ubuntuOs p).plugin.allTuples (some v) = [("ubuntu", some v), ("debian", none)] :=
  ⟨"no such version", by simp only [BuiltinOs.plugin, ubuntuOs]; decide, rfl⟩

example : allTuples [("mint", .table [("qiana", "trusty")]), ("ubuntu", .unknown), ("debian", .unknown)] (some "qiana") =
    [("mint", some "qiana"), ("ubuntu", some "trusty"), ("debian", none)] := rfl

/-! ## C76: the builtin plugins -/

/-- The builtin plugins in any order. -/
def Builtins (p : Platform) (l : List OsPlugin) : Prop := l.Perm (builtinPlugins p)

theorem builtin_cases {p : Platform} {l : List OsPlugin} (hl : Builtins p l) {o : OsPlugin} (ho : o ∈ l) :
    o = (debianOs p).plugin ∨ o = (ubuntuOs p).plugin ∨ o = (xubuntuOs p).plugin ∨ o = (osxOs p).plugin := by
  have := hl.mem_iff.1 ho
  simpa [builtinPlugins] using this

/-- The builtin os for an LSB distribution name. -/
def lsbOs (p : Platform) : String → Option OsPlugin
  | "debian" => some (debianOs p).plugin
  | "Ubuntu" => some (ubuntuOs p).plugin
  | "Xubuntu" => some (xubuntuOs p).plugin
  | _ => none

/-- **C76** On a machine with LSB information (and without `sw_vers`) the builtin plugins, in any order, detect exactly the os of that name, with the codename as
version. -/
theorem C76_lsb (p : Platform) (l : List OsPlugin) (hl : Builtins p l) (id_ release codename : String) (hi : p.lsbInfo = some (id_, release, codename))
    (hs : p.swVersExists = false) :
    (∀ o, lsbOs p id_ = some o → detected l = .ok o ∧ o.getVersion = .ok codename) ∧
    (lsbOs p id_ = none → detected l = .error .unsupportedOSError) := by
  have ret : ∀ o ∈ l, ∃ b, o.isOs = .ok b := by
    intro o ho
    rcases builtin_cases hl ho with rfl | rfl | rfl | rfl <;> exact ⟨_, rfl⟩
  have det : Detects (debianOs p).plugin = (id_ = "debian") ∧ Detects (ubuntuOs p).plugin = (id_ = "Ubuntu") ∧
      Detects (xubuntuOs p).plugin = (id_ = "Xubuntu") ∧ Detects (osxOs p).plugin = False := by
    simp [Detects, BuiltinOs.plugin, debianOs, ubuntuOs, xubuntuOs, osxOs, lsbDetect, hi, osxDetect, hs]
  obtain ⟨d1, d2, d3, d4⟩ := det
  constructor
  · intro o ho
    unfold lsbOs at ho
    split at ho
    · injection ho with ho; subst ho
      refine ⟨C44_most_specific l ret _ (hl.mem_iff.2 (by simp [builtinPlugins])) (by rw [d1]) (fun q hq hd hne => ?_), ?_⟩
      · rcases builtin_cases hl hq with rfl | rfl | rfl | rfl
        · exact absurd rfl hne
        · rw [d2] at hd; exact absurd hd (by decide)
        · rw [d3] at hd; exact absurd hd (by decide)
        · rw [d4] at hd; exact hd.elim
      · simp [BuiltinOs.plugin, debianOs, lsbDetect, hi, builtinGetVersion]
    · injection ho with ho; subst ho
      refine ⟨C44_most_specific l ret _ (hl.mem_iff.2 (by simp [builtinPlugins])) (by rw [d2]) (fun q hq hd hne => ?_), ?_⟩
      · rcases builtin_cases hl hq with rfl | rfl | rfl | rfl
        · rw [d1] at hd; exact absurd hd (by decide)
        · exact absurd rfl hne
        · rw [d3] at hd; exact absurd hd (by decide)
        · rw [d4] at hd; exact hd.elim
      · simp [BuiltinOs.plugin, ubuntuOs, lsbDetect, hi, builtinGetVersion]
    · injection ho with ho; subst ho
      refine ⟨C44_most_specific l ret _ (hl.mem_iff.2 (by simp [builtinPlugins])) (by rw [d3]) (fun q hq hd hne => ?_), ?_⟩
      · rcases builtin_cases hl hq with rfl | rfl | rfl | rfl
        · rw [d1] at hd; exact absurd hd (by decide)
        · rw [d2] at hd; exact absurd hd (by decide)
        · exact absurd rfl hne
        · rw [d4] at hd; exact hd.elim
      · simp [BuiltinOs.plugin, xubuntuOs, lsbDetect, hi, builtinGetVersion]
    · simp at ho
  · intro hn
    refine (C44_detects_iff l ret).2 ?_
    rintro ⟨q, hq, hd⟩
    rcases builtin_cases hl hq with rfl | rfl | rfl | rfl
    · rw [d1] at hd; subst hd; simp [lsbOs] at hn
    · rw [d2] at hd; subst hd; simp [lsbOs] at hn
    · rw [d3] at hd; subst hd; simp [lsbOs] at hn
    · rw [d4] at hd; exact hd

/-- **C76** On OS X (`sw_vers` exists, no LSB information) the builtin plugins, in any order, detect `osx`; its version, if it has one, is one of the known
versions: the codename of `10.minor`. -/
theorem C76_osx (p : Platform) (l : List OsPlugin) (hl : Builtins p l) (hi : p.lsbInfo = none) (hs : p.swVersExists = true) :
    detected l = .ok (osxOs p).plugin ∧
    (∀ v, (osxOs p).plugin.getVersion = .ok v → v ∈ (osxOs p).plugin.knownVersions ∧
      ∃ s minor, p.swVers = some s ∧ p.strictVersion s = some (10, minor) ∧ (minor, v) ∈ osxCodenameMap) := by
  constructor
  · refine C44_most_specific l (fun o ho => ?_) _ (hl.mem_iff.2 (by simp [builtinPlugins])) ?_ (fun q hq hd hne => ?_)
    · rcases builtin_cases hl ho with rfl | rfl | rfl | rfl <;> exact ⟨_, rfl⟩
    · simp [Detects, BuiltinOs.plugin, osxOs, osxDetect, hs]
    · rcases builtin_cases hl hq with rfl | rfl | rfl | rfl
      · simp [Detects, BuiltinOs.plugin, debianOs, lsbDetect, hi] at hd
      · simp [Detects, BuiltinOs.plugin, ubuntuOs, lsbDetect, hi] at hd
      · simp [Detects, BuiltinOs.plugin, xubuntuOs, lsbDetect, hi] at hd
      · exact absurd rfl hne
  · intro v hv
    have hv' : (osxDetect p).getCodename = .ok v := by
      have : builtinGetVersion (osxDetect p) = .ok v := hv
      unfold builtinGetVersion at this
      split at this
      · simp at this
      · exact this
    simp only [osxDetect, hs, if_true] at hv'
    cases h1 : p.swVers with
    | none => rw [h1] at hv'; simp at hv'
    | some s =>
      rw [h1] at hv'
      simp only at hv'
      split at hv'
      · simp at hv'
      · cases h2 : p.strictVersion s with
        | none => rw [h2] at hv'; simp at hv'
        | some mm =>
          obtain ⟨major, minor⟩ := mm
          rw [h2] at hv'
          simp only [osxCodename] at hv'
          cases h3 : dget osxCodenameMap minor with
          | none => rw [h3] at hv'; simp at hv'
          | some c =>
            rw [h3] at hv'
            simp only at hv'
            split at hv'
            · next hm =>
              injection hv' with hv'
              subst hv' hm
              have hmem := dget_some_mem h3
              refine ⟨?_, s, minor, rfl, h2, hmem⟩
              have : c ∈ osxCodenameMap.map Prod.snd := List.mem_map.2 ⟨_, hmem, rfl⟩
              exact this
            · simp at hv'

/-- **C76** Version detection of a builtin os on another os raises UnsupportedOSVersionError (so overriding with the name alone is refused there). -/
theorem C76_other_os (p : Platform) (o : OsPlugin) (ho : o ∈ builtinPlugins p) (hn : ¬ Detects o) : o.getVersion = .error .unsupportedOSVersionError := by
  simp only [builtinPlugins, List.mem_cons, List.not_mem_nil, or_false] at ho
  have lsb : ∀ n, (lsbDetect p n).isOs = false → builtinGetVersion (lsbDetect p n) = .error .unsupportedOSVersionError := by
    intro n h
    unfold builtinGetVersion
    simp only [lsbDetect] at h ⊢
    cases hi : p.lsbInfo with
    | none => rfl
    | some x =>
      obtain ⟨a, b, c⟩ := x
      rw [hi] at h
      simp only at h ⊢
      rw [if_neg (by simp [h])]
  rcases ho with rfl | rfl | rfl | rfl
  · exact lsb _ (by simpa [Detects, BuiltinOs.plugin, debianOs] using hn)
  · exact lsb _ (by simpa [Detects, BuiltinOs.plugin, ubuntuOs] using hn)
  · exact lsb _ (by simpa [Detects, BuiltinOs.plugin, xubuntuOs] using hn)
  · have hs : p.swVersExists = false := by simpa [Detects, BuiltinOs.plugin, osxOs, osxDetect] using hn
    simp [BuiltinOs.plugin, osxOs, osxDetect, hs, builtinGetVersion]

/-- A trusty machine. -/
def trustyPlatform : Platform := ⟨some ("Ubuntu", "14.04", "trusty"), false, none, fun _ => none⟩

example : detected (builtinPlugins trustyPlatform) = .ok (ubuntuOs trustyPlatform).plugin ∧ (ubuntuOs trustyPlatform).plugin.getVersion = .ok "trusty" :=
  (C76_lsb trustyPlatform _ (List.Perm.refl _) "Ubuntu" "14.04" "trusty" rfl rfl).1 _ rfl
example : overrideOs ⟨builtinPlugins trustyPlatform, none⟩ (some ("debian", none)) = (⟨builtinPlugins trustyPlatform, none⟩, .error .unsupportedOSVersionError) := rfl
example : (builtinPlugins trustyPlatform).map OsPlugin.name = ["debian", "ubuntu", "xubuntu", "osx"] := rfl
example : ((builtinPlugins trustyPlatform).map OsPlugin.name).Nodup := by decide

end Verif
