import Verif.Spec.Uninstalled
import Verif.Props.InstallOutput
import Verif.Props.Setup
import Verif.Props.ArgvProgram
import Verif.Props.ProgramExamples
namespace Verif
variable {α σ : Type}

/-! ## Loading -/

theorem loadStep_off {uni : Char → Bool} {disabled : List PVal} (s : LoadState α) {ep : EntryPoint α} (h : SwitchedOff disabled ep) :
    ∃ r, loadStep uni disabled s ep = .ok (s.report r) := by
  obtain ⟨d, n, t, k, rfl, h1, h2, h3, h4⟩ := h
  have hw : Whole d n k := ⟨t, h1, h2, h3⟩
  refine ⟨.disabled (.str n), ?_⟩
  simp only [loadStep, verifyDefinition_whole hw, bind, Except.bind, useDefinition, h1, (any_pyEq_str n disabled).2 h4, if_true]

/-- The result up to the reports. -/
def loadedOnly (r : Except Exc (LoadState α)) : Except Exc (List (String × α)) := r.map LoadState.loaded

theorem loadStep_loaded (uni : Char → Bool) (disabled : List PVal) {s s' : LoadState α} (h : s.loaded = s'.loaded) (ep : EntryPoint α) :
    loadedOnly (loadStep uni disabled s ep) = loadedOnly (loadStep uni disabled s' ep) := by
  obtain ⟨l, r⟩ := s
  obtain ⟨l', r'⟩ := s'
  simp only at h
  subst h
  cases ep with
  | error e => rfl
  | ok d =>
    simp only [loadStep, bind, Except.bind]
    split
    · rfl
    · rfl
    · simp only [useDefinition, bind, Except.bind]
      split
      · rfl
      · split
        · rfl
        · split
          · rfl
          · split
            · simp only [instantiate, bind, Except.bind]
              split
              · rfl
              · split
                · rfl
                · split
                  · rfl
                  · rfl
                  · split
                    · simp only [addPlugin]
                      split <;> rfl
                    · rfl
            · rfl

theorem load_without {uni : Char → Bool} {disabled : List PVal} {eps eps' : List (EntryPoint α)} (h : Without disabled eps eps') :
    ∀ s s' : LoadState α, s.loaded = s'.loaded →
      loadedOnly (eps.foldlM (loadStep uni disabled) s) = loadedOnly (eps'.foldlM (loadStep uni disabled) s') := by
  induction h with
  | nil => intro s s' hs; simp only [List.foldlM_nil, loadedOnly, pure, Except.pure, Except.map, hs]
  | keep ep h ih =>
    intro s s' hs
    rw [List.foldlM_cons, List.foldlM_cons]
    have := loadStep_loaded uni disabled hs ep
    cases h1 : loadStep uni disabled s ep with
    | error e =>
      cases h2 : loadStep uni disabled s' ep with
      | error e' => rw [h1, h2] at this; simpa [loadedOnly, Except.map, bind, Except.bind] using this
      | ok y => rw [h1, h2] at this; simp [loadedOnly, Except.map] at this
    | ok x =>
      cases h2 : loadStep uni disabled s' ep with
      | error e' => rw [h1, h2] at this; simp [loadedOnly, Except.map] at this
      | ok y =>
        rw [h1, h2] at this
        simp only [loadedOnly, Except.map, Except.ok.injEq] at this
        exact ih x y this
  | drop hd h ih =>
    intro s s' hs
    rw [List.foldlM_cons]
    obtain ⟨r, hr⟩ := loadStep_off (uni := uni) s hd
    rw [hr]
    exact ih _ s' hs

theorem load_bind {β : Type} {uni : Char → Bool} {disabled : List PVal} {eps eps' : List (EntryPoint α)} (h : Without disabled eps eps')
    (f : List (String × α) → Except Exc β) :
    (loadPlugins uni disabled eps >>= fun l => f l.loaded) = (loadPlugins uni disabled eps' >>= fun l => f l.loaded) := by
  have := load_without (uni := uni) h ⟨[], []⟩ ⟨[], []⟩ rfl
  have e : ∀ x : Except Exc (LoadState α), (x >>= fun l => f l.loaded) = (loadedOnly x >>= f) := by
    intro x; cases x <;> rfl
  unfold loadPlugins
  rw [e, e, this]

/-! ## The contexts -/

theorem settings_disabled {c : Config} {s : Settings} (h : effectiveSettings c = .ok s) :
    readOpt c "disabled_plugins/os" = .ok (.list s.disabledOs) ∧ readOpt c "disabled_plugins/installer" = .ok (.list s.disabledInstallers) := by
  have lv : ∀ {x : Except Exc PVal} {l : List PVal}, (x >>= listValue) = .ok l → x = .ok (.list l) := by
    intro x l hx
    obtain ⟨v, rfl, hv⟩ := Except_bind_ok.1 hx
    cases v <;> simp [listValue] at hv
    rw [hv]
  unfold effectiveSettings settingsOf at h
  obtain ⟨o, -, h⟩ := Except_bind_ok.1 h
  obtain ⟨ov, -, h⟩ := Except_bind_ok.1 h
  obtain ⟨f, -, h⟩ := Except_bind_ok.1 h
  obtain ⟨a, ha, h⟩ := Except_bind_ok.1 h
  obtain ⟨b, hb, h⟩ := Except_bind_ok.1 h
  obtain ⟨_, -, h⟩ := Except_bind_ok.1 h
  obtain ⟨_, -, h⟩ := Except_bind_ok.1 h
  obtain ⟨_, -, h⟩ := Except_bind_ok.1 h
  have := pure_ok.1 h
  subst this
  exact ⟨lv ha, lv hb⟩


section
variable {env : StartEnv} {c : Config} {w : Surroundings σ} {a : List (EntryPoint OsPlugin)} {b : List (EntryPoint (InstallerPlugin σ))}
  {d : List (EntryPoint Spec)}

theorem off_os (h : Uninstalled c w { w with osEntries := a, installerEntries := b, specEntries := d }) :
    osFor env { w with osEntries := a, installerEntries := b, specEntries := d } c = osFor env w c := by
  unfold osFor
  cases hs : effectiveSettings c with
  | error e => rfl
  | ok s =>
    obtain ⟨l, hl, ho⟩ := h.os
    rw [(settings_disabled hs).1] at hl
    cases hl
    exact (load_bind (uni := w.uni) ho fun l => setupOs env.expand (l.map Prod.snd) s.override s.osOptions).symm

theorem off_context (h : Uninstalled c w { w with osEntries := a, installerEntries := b, specEntries := d }) :
    contextFor env { w with osEntries := a, installerEntries := b, specEntries := d } c = contextFor env w c := by
  unfold contextFor installerContext
  cases hs : effectiveSettings c with
  | error e => rfl
  | ok s =>
    obtain ⟨l, hl, ho⟩ := h.os
    rw [(settings_disabled hs).1] at hl
    cases hl
    obtain ⟨l, hl, hi⟩ := h.installer
    rw [(settings_disabled hs).2] at hl
    cases hl
    have e1 := fun os => load_bind (uni := w.uni) hi fun l => setupInstallers s os (l.map Prod.snd)
    have e2 := load_bind (uni := w.uni) ho fun l => setupOs env.expand (l.map Prod.snd) s.override s.osOptions >>= fun os =>
      loadPlugins w.uni s.disabledInstallers b >>= fun insts => setupInstallers s os (insts.loaded.map Prod.snd)
    refine Eq.trans e2.symm ?_
    show (loadPlugins w.uni s.disabledOs w.osEntries >>= fun l => setupOs env.expand (l.loaded.map Prod.snd) s.override s.osOptions >>= fun os =>
      loadPlugins w.uni s.disabledInstallers b >>= fun insts => setupInstallers s os (insts.loaded.map Prod.snd)) =
      (loadPlugins w.uni s.disabledOs w.osEntries >>= fun l => setupOs env.expand (l.loaded.map Prod.snd) s.override s.osOptions >>= fun os =>
      loadPlugins w.uni s.disabledInstallers w.installerEntries >>= fun insts => setupInstallers s os (insts.loaded.map Prod.snd))
    simp only [e1]

theorem off_specs (h : Uninstalled c w { w with osEntries := a, installerEntries := b, specEntries := d }) :
    specsFor { w with osEntries := a, installerEntries := b, specEntries := d } c = specsFor w c := by
  unfold specsFor
  obtain ⟨l, hl, ho⟩ := h.spec
  rw [hl]
  exact (load_bind (uni := w.uni) ho fun l => pure (l.map Prod.snd)).symm

theorem off_ctx (h : Uninstalled c w { w with osEntries := a, installerEntries := b, specEntries := d }) :
    lookupCtxFor env { w with osEntries := a, installerEntries := b, specEntries := d } c = lookupCtxFor env w c := by
  unfold lookupCtxFor
  rw [off_os h]

theorem off_loaded (h : Uninstalled c w { w with osEntries := a, installerEntries := b, specEntries := d }) :
    loadedFor { w with osEntries := a, installerEntries := b, specEntries := d } c = loadedFor w c := by
  unfold loadedFor sourcesFor
  rw [off_specs h]
  rfl

theorem off_inputs (h : Uninstalled c w { w with osEntries := a, installerEntries := b, specEntries := d }) :
    installInputs env { w with osEntries := a, installerEntries := b, specEntries := d } c = installInputs env w c := by
  unfold installInputs databaseFor
  rw [off_context h, off_loaded h, off_ctx h]

theorem off_installRun {p : Process} {ns : ArgSpace} {keys : List String}
    (h : Uninstalled p.config w { w with osEntries := a, installerEntries := b, specEntries := d }) :
    installRun env { w with osEntries := a, installerEntries := b, specEntries := d } keys p ns = installRun env w keys p ns := by
  funext s
  unfold installRun
  rw [off_inputs h]

theorem off_updateRun {p : Process} {ns : ArgSpace}
    (h : Uninstalled p.config w { w with osEntries := a, installerEntries := b, specEntries := d }) :
    updateRun { w with osEntries := a, installerEntries := b, specEntries := d } p ns = updateRun w p ns := by
  unfold updateRun
  rw [off_specs h]
  rfl

/-! ## What is printed -/

theorem alike_symm {β : Type} {r r' : Run β} (h : AlikeBut r r') : AlikeBut r' r := ⟨h.1.symm, h.2.symm⟩

theorem off_contextAndOs (h : Uninstalled c w { w with osEntries := a, installerEntries := b, specEntries := d }) :
    contextAndOs env { w with osEntries := a, installerEntries := b, specEntries := d } c = contextAndOs env w c := by
  unfold contextAndOs
  rw [off_context h, off_os h]

theorem off_contextSaying (k : Console) (h : Uninstalled c w { w with osEntries := a, installerEntries := b, specEntries := d }) :
    AlikeBut (contextSaying k env { w with osEntries := a, installerEntries := b, specEntries := d } c) (contextSaying k env w c) := by
  refine (context_same k env _ c).trans ?_
  rw [off_contextAndOs h]
  exact alike_symm (context_same k env w c)

theorem off_specsSaying (k : Console) (h : Uninstalled c w { w with osEntries := a, installerEntries := b, specEntries := d }) :
    AlikeBut (specsSaying k { w with osEntries := a, installerEntries := b, specEntries := d } c) (specsSaying k w c) := by
  refine (specs_same k _ c).trans ?_
  rw [off_specs h]
  exact alike_symm (specs_same k w c)

theorem off_loadedSaying (k : Console) (h : Uninstalled c w { w with osEntries := a, installerEntries := b, specEntries := d }) :
    AlikeBut (loadedSaying k { w with osEntries := a, installerEntries := b, specEntries := d } c) (loadedSaying k w c) := by
  unfold loadedSaying
  exact .bind (.refl _) fun p _ => .bind (off_specsSaying k h) fun specs _ => .refl _

theorem off_inputsSaying (k : Console) (h : Uninstalled c w { w with osEntries := a, installerEntries := b, specEntries := d }) :
    AlikeBut (resolveInputsSaying k env { w with osEntries := a, installerEntries := b, specEntries := d } c) (resolveInputsSaying k env w c) := by
  unfold resolveInputsSaying
  rw [off_ctx h]
  exact .bind (off_loadedSaying k h) fun _ _ => .refl _

theorem off_lookupSaying (k : Console) (h : Uninstalled c w { w with osEntries := a, installerEntries := b, specEntries := d }) (key : String) :
    AlikeBut (lookupSaying k env { w with osEntries := a, installerEntries := b, specEntries := d } c key) (lookupSaying k env w c key) := by
  unfold lookupSaying
  rw [off_ctx h]
  exact .bind (off_loadedSaying k h) fun _ _ => .refl _

theorem off_lookupLoop (k : Console) (dump : PVal → Except Exc (List Char)) (os : Except Exc (List Char))
    (h : Uninstalled c w { w with osEntries := a, installerEntries := b, specEntries := d }) (keys : List String) :
    AlikeBut (lookupLoopSaying k dump (lookupSaying k env { w with osEntries := a, installerEntries := b, specEntries := d } c) os keys)
      (lookupLoopSaying k dump (lookupSaying k env w c) os keys) := by
  induction keys with
  | nil => exact .refl _
  | cons x t ih => exact .bind (off_lookupSaying k h x) fun _ _ => .bind (.refl _) fun _ _ => ih

theorem off_command (o : Outside σ) (s : σ) (keys : List String) (name : String) (p : Process) (ns : ArgSpace)
    (h : Uninstalled p.config o.world { o.world with osEntries := a, installerEntries := b, specEntries := d }) :
    AlikeBut (commandFunc { o with world := { o.world with osEntries := a, installerEntries := b, specEntries := d } } s keys name p ns)
      (commandFunc o s keys name p ns) ∧
    commandDone { o with world := { o.world with osEntries := a, installerEntries := b, specEntries := d } } s keys p ns name =
      commandDone o s keys p ns name := by
  constructor
  · unfold commandFunc
    split
    · unfold installFuncTelling
      refine .none (.interruptible ?_)
      exact .bind (off_contextSaying _ h) fun x _ => .bind (off_inputsSaying _ h) fun i _ => .refl _
    · unfold resolveFuncSaying
      refine .none (.interruptible ?_)
      exact .bind (off_contextSaying _ h) fun x _ => .bind (off_inputsSaying _ h) fun i _ => .refl _
    · unfold lookupFuncSaying osStringFor
      refine .none (.interruptible ?_)
      simp only [off_ctx h]
      exact .bind (off_contextSaying _ h) fun x _ => off_lookupLoop _ _ _ h keys
    · unfold updateFuncSaying
      refine .none (.interruptible ?_)
      exact .bind (.refl _) fun x _ => .bind (off_specsSaying _ h) fun _ _ => .refl _
    · exact .refl _
  · unfold commandDone
    split
    · simp only [off_installRun h]
    · simp only [off_updateRun h]
    · rfl
    · rfl

end

/-! ## C142 -/

/-- **C142** A plugin that the config disables might as well not be installed: with and without it xylem, called with any words, does the same to the
machine, to the cached files and to rules files, ends the same way with the same settings, and prints the same on stdout (it may print more on stderr). -/
theorem C142_as_if_uninstalled (o : Outside σ) (w' : Surroundings σ) (desc : Desc) (fresh : Bool) (p : Process) (words : List String) (s : σ)
    (h : ∀ r c, parseXylem fresh desc words = .ok r → (handleConfigArguments o.env desc (handleSwitches o.env r.2.1 p) r.2.1).res = .ok c →
      Uninstalled c o.world w') :
    let o' := { o with world := w' }
    xylemDone o' desc fresh p words s = xylemDone o desc fresh p words s ∧
    (xylemMain o' desc fresh p words s).1 = (xylemMain o desc fresh p words s).1 ∧
    (xylemMain o' desc fresh p words s).2.ending = (xylemMain o desc fresh p words s).2.ending ∧
    (xylemMain o' desc fresh p words s).2.lines.filter Line.notErr = (xylemMain o desc fresh p words s).2.lines.filter Line.notErr := by
  intro o'
  unfold xylemDone xylemMain
  cases hp : parseXylem fresh desc words with
  | error e => exact ⟨rfl, rfl, rfl, rfl⟩
  | ok r =>
    simp only
    cases hc : handleConfigArguments o.env desc (handleSwitches o.env r.2.1 p) r.2.1 with
    | mk lines res =>
      cases res with
      | error e => simp only [mainParsed, o', hc]; exact ⟨trivial, trivial, trivial, trivial⟩
      | ok c =>
        have hu := h r c hp (by rw [hc])
        obtain ⟨uni, e1, e2, e3, g1, g2, g3, g4, g5, g6, g7, g8, g9⟩ := w'
        have hr := hu.rest
        injection hr with r1 _ _ _ r2 r3 r4 r5 r6 r7 r8 r9 r10
        subst r1 r2 r3 r4 r5 r6 r7 r8 r9 r10
        have key := off_command (a := e1) (b := e2) (d := e3) o s r.2.2 r.1.name { handleSwitches o.env r.2.1 p with config := c } r.2.1 hu
        refine ⟨?_, ?_⟩
        · simp only [o', hc]
          exact key.2
        · simp only [mainParsed, o', hc]
          have := mainTry_same (n := []) (handleSwitches o.env r.2.1 p).color (handleSwitches o.env r.2.1 p).debug o.text key.1
          refine ⟨trivial, this.1, ?_⟩
          rw [List.filter_append, List.filter_append]
          exact congrArg (fun x => lines.filter Line.notErr ++ x) this.2


/-- **C142** The same through the API: the contexts and the loaded sources made for a config are those made without the plugins it disables. -/
theorem C142_same_contexts (env : StartEnv) {c : Config} {w w' : Surroundings σ} (h : Uninstalled c w w') :
    contextFor env w' c = contextFor env w c ∧ osFor env w' c = osFor env w c ∧ specsFor w' c = specsFor w c ∧ loadedFor w' c = loadedFor w c := by
  obtain ⟨uni, e1, e2, e3, g1, g2, g3, g4, g5, g6, g7, g8, g9⟩ := w'
  have hr := h.rest
  injection hr with r1 _ _ _ r2 r3 r4 r5 r6 r7 r8 r9 r10
  subst r1 r2 r3 r4 r5 r6 r7 r8 r9 r10
  exact ⟨off_context h, off_os h, off_specs h, off_loaded h⟩

/-- An entry point that cannot be loaded ends the loading, whatever is disabled. -/
theorem load_broken (uni : Char → Bool) (disabled : List PVal) {e : Exc} {eps : List (EntryPoint α)} (h : (.error e : EntryPoint α) ∈ eps) :
    ∃ e', loadPlugins uni disabled eps = .error e' := by
  unfold loadPlugins
  generalize (⟨[], []⟩ : LoadState α) = s
  induction eps generalizing s with
  | nil => cases h
  | cons ep t ih =>
    rw [List.foldlM_cons]
    cases hs : loadStep uni disabled s ep with
    | error e' => exact ⟨e', rfl⟩
    | ok s' =>
      rcases List.mem_cons.1 h with rfl | h
      · cases hs
      · exact ih h s'

/-- **C142** Disabling does not help against a plugin that cannot be imported: its definition is needed to know its name. Whatever the config says, there
is no installer context if the module of an os or installer plugin raises when it is imported, and no sources if the one of a spec does. -/
theorem C142_broken_module (env : StartEnv) (w : Surroundings σ) (c : Config) (e : Exc) :
    (.error e ∈ w.osEntries ∨ .error e ∈ w.installerEntries → ∃ e', contextFor env w c = .error e') ∧
    (.error e ∈ w.specEntries → ∃ e', specsFor w c = .error e') := by
  refine ⟨fun h => ?_, fun h => ?_⟩
  · unfold contextFor installerContext
    cases hs : effectiveSettings c with
    | error e' => exact ⟨e', rfl⟩
    | ok s =>
      simp only [bind, Except.bind]
      rcases h with h | h
      · obtain ⟨e', he⟩ := load_broken w.uni s.disabledOs h
        rw [he]
        exact ⟨e', rfl⟩
      · obtain ⟨e', he⟩ := load_broken w.uni s.disabledInstallers h
        rw [he]
        cases loadPlugins w.uni s.disabledOs w.osEntries with
        | error e1 => exact ⟨e1, rfl⟩
        | ok l =>
          simp only
          cases setupOs env.expand (l.loaded.map Prod.snd) s.override s.osOptions with
          | error e2 => exact ⟨e2, rfl⟩
          | ok os => exact ⟨e', rfl⟩
  · unfold specsFor
    cases hd : (readOpt c "disabled_plugins/spec" >>= listValue) with
    | error e' => exact ⟨e', rfl⟩
    | ok disabled =>
      obtain ⟨e', he⟩ := load_broken w.uni disabled h
      simp only [bind, Except.bind, he]
      exact ⟨e', rfl⟩

/-! ## An example: a plugin that cannot even be instantiated -/

/-- The installer plugin pip, which raises when it is made. -/
def exRaising : EntryPoint (InstallerPlugin (List String)) :=
  .ok { pluginName := .ok (.str "pip"), description := .ok (.str "pip"), cls := .ok (.derived (.error .osError)) }

/-- The machine of `Props/ProgramExamples` with that plugin. -/
def exRaisingMachine : Surroundings (List String) := { exMachine with installerEntries := exRaising :: exMachine.installerEntries }

/-- YAML knows what `[pip]` is. -/
def exStartPip : StartEnv := { exStart with loadYaml := fun s => if s = "[pip]" then .ok (.list [.str "pip"]) else .ok (.str s) }

def exWordsOff : List String := ["install", "boost", "--disable-installer-plugins=[pip]"]

/-- The config the command is called with. -/
def exConfigOff : Except Exc Config :=
  match parseArgv true sharedOptions (commandNames.map xylemCommand) exWordsOff with
  | .error e => .error e
  | .ok r => (handleConfigArguments exStartPip xylemDescription (handleSwitches exStartPip r.2.1 exProcess) r.2.1).res

/-- The list with these texts. -/
def isTextList (l : List String) (x : Except Exc PVal) : Bool :=
  match x with
  | .ok (.list []) => l == []
  | .ok (.list [.str s]) => l == [s]
  | _ => false

theorem isTextList_nil {x : Except Exc PVal} (h : isTextList [] x = true) : x = .ok (.list []) := by
  unfold isTextList at h
  split at h
  · rfl
  · simp at h
  · simp at h

theorem isTextList_one {s : String} {x : Except Exc PVal} (h : isTextList [s] x = true) : x = .ok (.list [.str s]) := by
  unfold isTextList at h
  split at h
  · simp at h
  · simp at h; rw [h]
  · simp at h

theorem without_refl (disabled : List PVal) (l : List (EntryPoint α)) : Without disabled l l := by
  induction l with
  | nil => exact .nil
  | cons x t ih => exact .keep x ih

theorem exConfigOff_lists : (match exConfigOff with
    | .ok c => isTextList [] (readOpt c "disabled_plugins/os") && isTextList ["pip"] (readOpt c "disabled_plugins/installer") &&
        isTextList [] (readOpt c "disabled_plugins/spec")
    | .error _ => false) = true := by decide +kernel

/-- `xylem install boost --disable-installer-plugins=[pip]` gets to the command, and does with the plugin, which raises, what it does without. -/
example (o : Outside (List String)) (s : List String) (he : o.env = exStartPip) (hw : o.world = exRaisingMachine) :
    exConfigOff.isOk = true ∧
    xylemDone { o with world := exMachine } xylemDescription true exProcess exWordsOff s = xylemDone o xylemDescription true exProcess exWordsOff s := by
  refine ⟨?_, (C142_as_if_uninstalled o exMachine xylemDescription true exProcess exWordsOff s ?_).1⟩
  · have := exConfigOff_lists
    cases h : exConfigOff with
    | ok c => rfl
    | error e => rw [h] at this; simp at this
  · intro r c h1 h2
    rw [parseXylem_eq] at h1
    have hc : exConfigOff = .ok c := by
      unfold exConfigOff
      rw [h1]
      rw [he] at h2
      exact h2
    have hl := exConfigOff_lists
    rw [hc] at hl
    simp only [Bool.and_eq_true] at hl
    rw [hw]
    refine ⟨⟨_, isTextList_nil hl.1.1, without_refl _ _⟩, ⟨_, isTextList_one hl.1.2, .drop ?_ (without_refl _ _)⟩, ⟨_, isTextList_nil hl.2, without_refl _ _⟩, rfl⟩
    exact ⟨_, "pip", "pip", _, rfl, rfl, rfl, rfl, by simp⟩

/-- Were it not disabled, nothing could be installed. -/
example (env : StartEnv) (c : Config) : (contextFor env exRaisingMachine c).isOk = true → ∃ s, effectiveSettings c = .ok s ∧ PVal.str "pip" ∈ s.disabledInstallers := by
  intro h
  cases hs : effectiveSettings c with
  | error e => unfold contextFor at h; rw [hs] at h; cases h
  | ok s =>
    refine ⟨s, rfl, Classical.byContradiction fun hn => ?_⟩
    have hany : s.disabledInstallers.any (pyEq (.str "pip")) = false := by
      cases hh : s.disabledInstallers.any (pyEq (.str "pip")) with
      | false => rfl
      | true => exact absurd ((any_pyEq_str _ _).1 hh) hn
    have hload : loadPlugins exRaisingMachine.uni s.disabledInstallers exRaisingMachine.installerEntries = .error .osError := by
      unfold loadPlugins
      show (List.foldlM _ _ (exRaising :: exMachine.installerEntries)) = _
      rw [List.foldlM_cons]
      have : loadStep exRaisingMachine.uni s.disabledInstallers ⟨[], []⟩ exRaising = .error .osError := by
        simp only [loadStep, exRaising, bind, Except.bind, verifyDefinition, checkDefinition, verifyIsText, verifyPluginClass, useDefinition, hany,
          Bool.false_eq_true, if_false, instantiate]
      rw [this]
      rfl
    unfold contextFor installerContext at h
    rw [hs] at h
    simp only [bind, Except.bind] at h
    split at h
    · cases h
    · split at h
      · cases h
      · rw [hload] at h; cases h

end Verif
