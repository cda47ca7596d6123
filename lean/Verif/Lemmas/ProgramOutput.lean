import Verif.Model.ProgramOutput
import Verif.Props.OpenReport
/-! # Lemmas on the commands with everything they print -/
namespace Verif
variable {σ : Type}

/-- Not a line on stderr. -/
def Line.notErr : Line → Bool
  | .err _ => false
  | _ => true

/-- Two programs that end alike and print the same but for stderr. -/
def AlikeBut {α : Type} (r r' : Run α) : Prop := r.res = r'.res ∧ r.lines.filter Line.notErr = r'.lines.filter Line.notErr

theorem AlikeBut.refl {α : Type} (r : Run α) : AlikeBut r r := ⟨rfl, rfl⟩

theorem AlikeBut.trans {α : Type} {a b c : Run α} (h : AlikeBut a b) (h' : AlikeBut b c) : AlikeBut a c := ⟨h.1.trans h'.1, h.2.trans h'.2⟩

theorem AlikeBut.bind {α β : Type} {r r' : Run α} {f f' : α → Run β} (h : AlikeBut r r') (hf : ∀ a, r'.res = .ok a → AlikeBut (f a) (f' a)) :
    AlikeBut (r >>= f) (r' >>= f') := by
  cases hr : r'.res with
  | error e => rw [run_bind_error hr, run_bind_error (h.1.trans hr)]; exact ⟨rfl, h.2⟩
  | ok a =>
    rw [run_bind_ok hr, run_bind_ok (h.1.trans hr)]
    refine ⟨(hf a hr).1, ?_⟩
    simp only [List.filter_append, h.2, (hf a hr).2]

/-- A message on stderr. -/
theorem AlikeBut.skip {α : Type} {r : Run Unit} {f : Unit → Run α} {r' : Run α} (h : AlikeBut r (pure ())) (hf : AlikeBut (f ()) r') :
    AlikeBut (r >>= f) r' := by
  have := h.bind (f' := fun _ => r') (fun a _ => hf)
  have e : ((pure () : Run Unit) >>= fun _ => r') = r' := run_pure_bind (fun _ => r')
  rw [e] at this
  exact this

theorem lift_bind {α β : Type} (x : Except Exc α) (f : α → Except Exc β) : (Run.lift x >>= fun a => Run.lift (f a)) = Run.lift (x >>= f) := by
  cases x <;> rfl

theorem alikeBut_stdout {α : Type} {r r' : Run α} (h : AlikeBut r r') : r.lines.filterMap onStdout = r'.lines.filterMap onStdout := by
  have : ∀ l : List Line, l.filterMap onStdout = (l.filter Line.notErr).filterMap onStdout := by
    intro l
    induction l with
    | nil => rfl
    | cons a t ih =>
      cases a with
      | err t => exact ih
      | out t => show _ :: _ = _ :: _; rw [ih]
      | raw t => exact ih
  rw [this, h.2, ← this]

theorem infoV_same (c : Console) (m : List Char) : AlikeBut (infoV c m) (pure ()) := by
  unfold infoV
  cases c.verbose <;> exact ⟨rfl, rfl⟩

theorem error_same (on : Bool) (m : List Char) : AlikeBut (error on m) (pure ()) := ⟨rfl, rfl⟩
theorem warning_same (on : Bool) (m : List Char) : AlikeBut (warning on m) (pure ()) := ⟨rfl, rfl⟩

theorem warnings_same (c : Console) (l : List (List Char)) : AlikeBut (warnings c l) (pure ()) := by
  induction l with
  | nil => exact .refl _
  | cons m t ih => exact .skip (warning_same _ _) ih

theorem sayLoad_same (c : Console) (kind group : String) (n : Nat) (r : LoadReport) : AlikeBut (sayLoad c kind group n r) (pure ()) := by
  cases r <;> first | exact error_same _ _ | exact infoV_same _ _ | exact warning_same _ _

theorem sayLoads_same (c : Console) (kind group : String) (n : Nat) (l : List LoadReport) : AlikeBut (sayLoads c kind group n l) (pure ()) := by
  induction l generalizing n with
  | nil => exact .refl _
  | cons r t ih => exact .skip (sayLoad_same _ _ _ _ _) (ih _)

variable {α : Type}

theorem loadLoop_same (c : Console) (kind group : String) (uni : Char → Bool) (disabled : List PVal) (s : LoadState α) (eps : List (EntryPoint α)) :
    AlikeBut (loadLoopSaying c kind group uni disabled s eps) (Run.lift (eps.foldlM (loadStep uni disabled) s)) := by
  induction eps generalizing s with
  | nil => exact .refl _
  | cons ep t ih =>
    rw [List.foldlM_cons, ← lift_bind]
    exact .bind (.refl _) fun s' _ => .skip (sayLoads_same _ _ _ _ _) (ih s')

theorem load_same (c : Console) (kind group : String) (uni : Char → Bool) (disabled : List PVal) (eps : List (EntryPoint α)) :
    AlikeBut (loadSaying c kind group uni disabled eps) (Run.lift (loadPlugins uni disabled eps)) := loadLoop_same _ _ _ _ _ _ _

/-! ## The installer context -/

theorem chosen_tuple {plugins : List OsPlugin} {override : OverrideVal} {os : CurrentOs} (h : chooseOs plugins override = .ok os) :
    (override = .none ∨ ∃ n, override = .pair n none) → ∃ t, os.getTuple = .ok t := by
  intro ho
  unfold chooseOs at h
  rcases ho with rfl | ⟨n, rfl⟩
  · simp only at h
    split at h
    · cases h
    · rename_i s _
      cases hc : (currentOs s).2 with
      | error e => rw [hc] at h; cases h
      | ok c' =>
        rw [hc] at h
        change (c'.getTuple >>= fun _ => pure c') = .ok os at h
        cases ht : c'.getTuple with
        | error e => rw [ht] at h; cases h
        | ok t =>
          rw [ht] at h
          cases h
          exact ⟨t, ht⟩
  · simp only [overrideOs] at h
    cases hl : lookupOs plugins n with
    | none => rw [hl] at h; cases h
    | some p =>
      rw [hl] at h
      simp only [mkOverride] at h
      cases hv : p.getVersion with
      | error e => rw [hv] at h; cases h
      | ok v =>
        rw [hv] at h
        cases h
        exact ⟨(p.name, v), rfl⟩

theorem chooseOs_same (c : Console) (plugins : List OsPlugin) (override : OverrideVal) :
    AlikeBut (chooseOsSaying c plugins override) (Run.lift (chooseOs plugins override)) := by
  cases override with
  | none =>
    unfold chooseOsSaying
    cases h : chooseOs plugins .none with
    | error e => exact .refl _
    | ok os =>
      obtain ⟨t, ht⟩ := chosen_tuple h (.inl rfl)
      rw [run_lift_ok, ht, run_lift_ok]
      exact .skip (infoV_same _ _) (.refl _)
  | text s => exact .refl _
  | pair n v =>
    unfold chooseOsSaying
    refine .skip (infoV_same _ _) ?_
    cases h : chooseOs plugins (.pair n v) with
    | error e => exact .refl _
    | ok os =>
      rw [run_lift_ok]
      cases v with
      | some v => exact .skip (.refl _) (.refl _)
      | none =>
        obtain ⟨t, ht⟩ := chosen_tuple h (.inr ⟨n, rfl⟩)
        unfold sayVersion
        simp only
        rw [ht, run_lift_ok]
        exact .skip (infoV_same _ _) (.refl _)

theorem warnOptions_same (c : Console) (what name : String) (u : List PKey) (o : Config) : AlikeBut (warnOptions c what name u o) (pure ()) := by
  unfold warnOptions
  split
  · exact .refl _
  · exact warning_same _ _

theorem setOptions_same (c : Console) (what name : String) (expand : String → String) (desc : Desc) (v : PVal) :
    AlikeBut (setOptionsSaying c what name expand desc v) (Run.lift (setOptions expand desc v)) := by
  unfold setOptionsSaying
  cases setOptions expand desc v with
  | error e => exact .refl _
  | ok o => rw [run_lift_ok]; exact .skip (warnOptions_same _ _ _ _ _) (.refl _)

theorem parseRule_same (c : Console) (name : String) (expand : String → String) (desc : Desc) (rule : Rule) :
    AlikeBut (parseRuleSaying c name expand desc rule) (Run.lift (parseInstallerRule expand desc rule)) := by
  unfold parseRuleSaying
  cases parseInstallerRule expand desc rule with
  | error e => exact .refl _
  | ok o =>
    rw [run_lift_ok]
    refine .skip ?_ (.refl _)
    unfold warnRule
    split
    · exact .refl _
    · exact warning_same _ _

theorem setupOs_same (c : Console) (expand : String → String) (plugins : List OsPlugin) (override : OverrideVal) (v : PVal) :
    AlikeBut (setupOsSaying c expand plugins override v) (Run.lift (setupOs expand plugins override v)) := by
  unfold setupOsSaying setupOs
  have : ∀ (os : CurrentOs), (Run.lift (setOptions expand os.plugin.optionsDesc v >>= fun o => pure (⟨os, o⟩ : OsSetup))) =
      (Run.lift (setOptions expand os.plugin.optionsDesc v) >>= fun o => (pure ⟨os, o⟩ : Run OsSetup)) := fun os => by
    cases setOptions expand os.plugin.optionsDesc v <;> rfl
  rw [← lift_bind]
  refine .bind (chooseOs_same _ _ _) fun os _ => ?_
  rw [this]
  exact .bind (setOptions_same _ _ _ _ _ _) fun o _ => .refl _

theorem configure_same (c : Console) (opts : Dict PKey PVal) (l : List (InstallerPlugin σ)) :
    AlikeBut (configureSaying c opts l) (Run.lift (l.mapM (configureOne opts))) := by
  induction l with
  | nil => exact .refl _
  | cons p t ih =>
    rw [List.mapM_cons, ← lift_bind]
    refine .bind (.refl _) fun i _ => .skip (warnings_same _ _) ?_
    have : (Run.lift (t.mapM (configureOne opts) >>= fun l => pure (i :: l))) =
        (Run.lift (t.mapM (configureOne opts)) >>= fun l => (pure (i :: l) : Run (List (Installer σ)))) := by
      cases t.mapM (configureOne opts) <;> rfl
    rw [this]
    exact .bind ih fun l _ => .refl _

theorem sayNotFound_same (c : Console) (l : List String) : AlikeBut (sayNotFound c l) (pure ()) := by
  induction l with
  | nil => exact .refl _
  | cons n t ih => exact .skip (error_same _ _) ih

theorem setupInstallers_same (c : Console) (s : Settings) (os : OsSetup) (l : List (InstallerPlugin σ)) :
    AlikeBut (setupInstallersSaying c s os l) (Run.lift (setupInstallers s os l)) := by
  unfold setupInstallersSaying setupInstallers
  rw [← lift_bind]
  refine .bind (.refl _) fun tuple _ => ?_
  rw [← lift_bind]
  refine .bind (configure_same _ _ _) fun insts _ => ?_
  rw [← lift_bind]
  refine .bind (.refl _) fun names _ => ?_
  refine .skip (infoV_same _ _) (.skip (sayNotFound_same _ _) ?_)
  show AlikeBut _ (Run.lift (additionalInstallers s.useAdditional ((names.foldl (coreStep insts) ([], [])).1.map Prod.snd) tuple insts >>= fun additional =>
    pure (⟨insts, (names.foldl (coreStep insts) ([], [])).1, additional, (names.foldl (coreStep insts) ([], [])).2, tuple⟩ : InstallerSetup σ)))
  cases additionalInstallers s.useAdditional ((names.foldl (coreStep insts) ([], [])).1.map Prod.snd) tuple insts with
  | error e => exact .refl _
  | ok a => rw [run_lift_ok]; exact .skip (infoV_same _ _) (.refl _)

/-- The installer context and its os. -/
def contextAndOs (env : StartEnv) (w : Surroundings σ) (cfg : Config) : Except Exc (InstallerSetup σ × OsSetup) := do
  let r ← contextFor env w cfg
  let os ← osFor env w cfg
  pure (r, os)

theorem context_same (c : Console) (env : StartEnv) (w : Surroundings σ) (cfg : Config) :
    AlikeBut (contextSaying c env w cfg) (Run.lift (contextAndOs env w cfg)) := by
  have e : contextAndOs env w cfg = (do
      let s ← effectiveSettings cfg
      let oss ← loadPlugins w.uni s.disabledOs w.osEntries
      let os ← setupOs env.expand (oss.loaded.map Prod.snd) s.override s.osOptions
      let insts ← loadPlugins w.uni s.disabledInstallers w.installerEntries
      let r ← setupInstallers s os (insts.loaded.map Prod.snd)
      pure (r, os)) := by
    unfold contextAndOs contextFor osFor installerContext
    cases effectiveSettings cfg with
    | error e => rfl
    | ok s =>
      show (loadPlugins w.uni s.disabledOs w.osEntries >>= _) >>= _ = _
      cases h1 : loadPlugins w.uni s.disabledOs w.osEntries with
      | error e => simp only [bind, Except.bind, h1]
      | ok oss =>
        cases h2 : setupOs env.expand (oss.loaded.map Prod.snd) s.override s.osOptions with
        | error e => simp only [bind, Except.bind, h1, h2]
        | ok os =>
          cases h3 : loadPlugins w.uni s.disabledInstallers w.installerEntries with
          | error e => simp only [bind, Except.bind, h1, h2, h3]
          | ok insts =>
            cases h4 : setupInstallers s os (insts.loaded.map Prod.snd) with
            | error e => simp only [bind, Except.bind, h1, h2, h3, h4]
            | ok r => simp only [bind, Except.bind, h1, h2, h3, h4]
  rw [e]
  unfold contextSaying
  rw [← lift_bind]
  refine .bind (.refl _) fun s _ => ?_
  rw [← lift_bind]
  refine .bind (load_same _ _ _ _ _ _) fun oss _ => ?_
  rw [← lift_bind]
  refine .bind (setupOs_same _ _ _ _ _) fun os _ => ?_
  rw [← lift_bind]
  refine .bind (load_same _ _ _ _ _ _) fun insts _ => ?_
  rw [← lift_bind]
  exact .bind (setupInstallers_same _ _ _ _) fun r _ => .refl _

/-! ## `resolve` -/

theorem sayTwice_same (c : Console) (inst : String) (m : Dict String String) (k : String) : AlikeBut (sayTwice c inst m k) (pure ()) := by
  unfold sayTwice
  split
  · exact error_same _ _
  · exact .refl _

theorem installFromKeys_same (c : Console) (inst : String) (m : Dict String String) (ks : List String) :
    AlikeBut (installFromKeysSaying c inst m ks) (pure (ks.foldl (installFromKey inst) m)) := by
  induction ks generalizing m with
  | nil => exact .refl _
  | cons k t ih => exact .skip (sayTwice_same _ _ _ _) (ih _)

theorem installFrom_same (c : Console) (m : Dict String String) (d : Dict String (List String)) :
    AlikeBut (installFromSaying c m d) (pure (d.foldl installFromStep m)) := by
  induction d generalizing m with
  | nil => exact .refl _
  | cons ik t ih =>
    have := (installFromKeys_same c ik.1 m ik.2).bind (f := fun m' => installFromSaying c m' t)
      (f' := fun m' => pure (t.foldl installFromStep m')) (fun m' _ => ih m')
    refine this.trans ?_
    exact ⟨rfl, rfl⟩

theorem sayFound_same (c : Console) (key : String) (how : List Char) (inst : String) : AlikeBut (sayFound c key how inst) (pure ()) := infoV_same _ _

theorem sayAdditional_same (c : Console) (key : String) (d : InstDict) (l : List (Installer σ)) : AlikeBut (sayAdditional c key d l) (pure ()) := by
  induction l with
  | nil => exact .refl _
  | cons i t ih =>
    unfold sayAdditional
    refine .skip ?_ ih
    unfold sayIfFound
    split
    · exact sayFound_same _ _ _ _
    · exact .refl _

theorem sayChoice_same (c : Console) (ic : InstallerCtx σ) (ifm : Dict String String) (key : String) (d : InstDict) :
    AlikeBut (sayChoice c ic ifm key d) (pure ()) := by
  unfold sayChoice
  split
  · split
    · exact .refl _
    · split
      · exact sayFound_same _ _ _ _
      · exact .refl _
  · split
    · exact sayFound_same _ _ _ _
    · exact sayAdditional_same _ _ _ _

theorem resolveKey_same (c : Console) (ic : InstallerCtx σ) (lookup : String → Except Exc InstDict) (ifm : Dict String String) (key : String) :
    AlikeBut (resolveKeySaying c ic lookup ifm key) (Run.lift (resolveKey ic lookup ifm key)) := by
  unfold resolveKeySaying
  split
  · rename_i x d h
    have e : resolveKey ic lookup ifm key = (match chooseInstaller ic ifm key (x :: d) with
      | .error err => .ok (.error err)
      | .ok r => resolveWith r.1 r.2) := by
      unfold resolveKey; rw [h]
      show (match chooseInstaller ic ifm key (x :: d) with
        | Except.error err => Except.ok (Except.error err)
        | Except.ok (inst, rule) => resolveWith inst rule) = _
      cases chooseInstaller ic ifm key (x :: d) <;> rfl
    rw [e]
    unfold resolveFoundSaying
    refine .skip (sayChoice_same _ _ _ _ _) ?_
    cases chooseInstaller ic ifm key (x :: d) with
    | error err => exact .refl _
    | ok r => exact .skip (warnings_same _ _) (.refl _)
  · exact .refl _

theorem resolveLoop_same (c : Console) (ic : InstallerCtx σ) (lookup : String → Except Exc InstDict) (ifm : Dict String String) (acc : Resolved)
    (ks : List String) : AlikeBut (resolveLoopSaying c ic lookup ifm acc ks) (Run.lift (resolveLoop ic lookup ifm acc ks)) := by
  induction ks generalizing acc with
  | nil => exact .refl _
  | cons k t ih =>
    have e : resolveLoop ic lookup ifm acc (k :: t) = (resolveKey ic lookup ifm k >>= fun o => resolveLoop ic lookup ifm (acc.add k o) t) := by
      rw [resolveLoop]
      cases resolveKey ic lookup ifm k with
      | error e => rfl
      | ok o => cases o <;> rfl
    rw [e, ← lift_bind]
    exact .bind (resolveKey_same _ _ _ _ _) fun o _ => ih _

theorem resolve_same (c : Console) (ic : InstallerCtx σ) (db : Database) (f : Dict String (List String)) (ks : List String) (all : Bool) :
    AlikeBut (resolveSaying c ic db f ks all) (Run.lift (resolve ic db f ks all)) := by
  unfold resolveSaying resolve
  rw [← lift_bind]
  refine .bind (.refl _) fun l _ => ?_
  have := (installFrom_same c [] f).bind (f := fun ifm => resolveLoopSaying c ic db.lookup ifm ⟨[], []⟩ l)
    (f' := fun ifm => Run.lift (resolveLoop ic db.lookup ifm ⟨[], []⟩ l)) (fun m _ => resolveLoop_same _ _ _ _ _ _)
  refine this.trans ?_
  exact ⟨rfl, rfl⟩

/-! ## The database -/

theorem specs_same (c : Console) (w : Surroundings σ) (cfg : Config) : AlikeBut (specsSaying c w cfg) (Run.lift (specsFor w cfg)) := by
  unfold specsSaying specsFor
  rw [← lift_bind (readOpt cfg "disabled_plugins/spec" >>= listValue)]
  refine .bind (.refl _) fun d _ => ?_
  rw [← lift_bind]
  exact .bind (load_same _ _ _ _ _ _) fun l _ => .refl _

/-- The line on stdout about the place sources are read from, if verbose. -/
def placeNote (c : Console) (w : SourcesWorld) (dir : String) : List Line :=
  if c.verbose then [.out ((if w.dirExists then "Loading source urls from '".toList ++ dir.toList ++ "'".toList else "Loading default source urls".toList)
    ++ ansi c.on "reset")] else []

theorem choose_same (c : Console) (ds dc : String) (p : SourcesPaths) (w : SourcesWorld) :
    AlikeBut (chooseSaying c.on c.verbose ds dc p w) ⟨placeNote c w p.sourcesDir, .ok ()⟩ := by
  unfold chooseSaying placeNote infoIf
  cases w.dirExists with
  | true => cases c.verbose <;> exact ⟨rfl, rfl⟩
  | false =>
    simp only [Bool.false_eq_true, if_false]
    have h : AlikeBut (warnDefault c.on ds dc p) (pure ()) := by
      unfold warnDefault
      split
      · exact .refl _
      · exact warning_same _ _
    refine .skip h ?_
    cases c.verbose <;> exact ⟨rfl, rfl⟩

theorem init_same (on : Bool) (ytext : String → List Char) (plugins : List Spec) (files : List (String × Except Exc PVal)) :
    AlikeBut (initSaying on ytext plugins files) (Run.lift (initFromFiles plugins files)) := by
  refine ⟨init_res _ _ _ _, ?_⟩
  show _ = []
  induction files with
  | nil => rfl
  | cons f t ih =>
    obtain ⟨file, parsed⟩ := f
    unfold initSaying
    have hp : (parseSaying on ytext file parsed).lines.filter Line.notErr = [] := by
      unfold parseSaying
      cases parsed with
      | ok v => rfl
      | error e => by_cases he : e = .yamlError <;> simp only [he, if_true, if_false] <;> rfl
    cases h1 : (parseSaying on ytext file parsed).res with
    | error e => rw [run_bind_error h1]; exact hp
    | ok v =>
      rw [run_bind_ok h1]
      simp only [List.filter_append, hp, List.nil_append]
      cases h2 : iterVal v with
      | error e => rfl
      | ok ds =>
        rw [run_lift_ok]
        cases h3 : ds.mapM (mkSourceOfDescr plugins file) with
        | error e => rfl
        | ok l =>
          rw [run_lift_ok]
          cases h4 : (initSaying on ytext plugins t).res with
          | error e => rw [run_bind_error h4]; exact ih
          | ok r => rw [run_bind_ok h4]; simp only [List.filter_append, ih]; rfl

theorem open_same (c : Console) (ds dc : String) (env : CacheEnv) (plugins : List Spec) (w : SourcesWorld) (p : SourcesPaths) :
    AlikeBut (openSaying c.on c.verbose c.yaml ds dc env plugins w p) ⟨placeNote c w p.sourcesDir, openDatabase env plugins w p.sourcesDir⟩ := by
  refine ⟨C120_same_database _ _ _ _ _ _ _ _ _, ?_⟩
  unfold openSaying
  rw [run_bind_ok (choose_res _ _ _ _ _ _)]
  simp only [List.filter_append, (choose_same c ds dc p w).2]
  have : (initSaying c.on c.yaml plugins (sourceFiles w p.sourcesDir) >>= fun sources => Run.lift (verifyUniqueIds env sources) >>= fun _ => pure sources).lines.filter
      Line.notErr = [] := by
    have h := init_same c.on c.yaml plugins (sourceFiles w p.sourcesDir)
    cases hr : (initSaying c.on c.yaml plugins (sourceFiles w p.sourcesDir)).res with
    | error e => rw [run_bind_error hr]; exact h.2
    | ok ss =>
      rw [run_bind_ok hr]
      simp only [List.filter_append, h.2]
      cases verifyUniqueIds env ss <;> rfl
  rw [this, List.append_nil]

/-- Loading the sources, with the line about the place. -/
def loadedNoting (c : Console) (w : Surroundings σ) (cfg : Config) : Run (List Source) := do
  let p ← Run.lift (pathsFor w cfg)
  let _ ← Run.lift (specsFor w cfg)
  let _ ← (⟨placeNote c (w.sourcesIn p.sourcesDir) p.sourcesDir, .ok ()⟩ : Run Unit)
  Run.lift (loadedFor w cfg)

theorem loaded_same (c : Console) (w : Surroundings σ) (cfg : Config) : AlikeBut (loadedSaying c w cfg) (loadedNoting c w cfg) := by
  unfold loadedSaying loadedNoting
  refine .bind (.refl _) fun p hp => .bind (specs_same _ _ _) fun specs hs => ?_
  have hp : pathsFor w cfg = .ok p := hp
  have hs : specsFor w cfg = .ok specs := hs
  have ho := open_same c w.defaultSources w.defaultCache (cacheEnvFor w p) specs (w.sourcesIn p.sourcesDir) p
  refine (ho.bind (f' := fun sources => Run.lift (loadedSaying.loadAll w p sources)) (fun a _ => .refl _)).trans ?_
  have e : loadedFor w cfg = (openDatabase (cacheEnvFor w p) specs (w.sourcesIn p.sourcesDir) p.sourcesDir >>= loadedSaying.loadAll w p) := by
    unfold loadedFor sourcesFor
    rw [hp, hs]
    rfl
  rw [e]
  cases openDatabase (cacheEnvFor w p) specs (w.sourcesIn p.sourcesDir) p.sourcesDir with
  | error e => exact ⟨rfl, by simp [bind, Run.bind, Run.lift, Except.bind]⟩
  | ok ss => exact ⟨rfl, rfl⟩

theorem loadedNoting_quiet {c : Console} (hv : c.verbose = false) (w : Surroundings σ) (cfg : Config) :
    loadedNoting c w cfg = Run.lift (loadedFor w cfg) := by
  unfold loadedNoting placeNote
  cases hp : pathsFor w cfg with
  | error e => unfold loadedFor; rw [hp]; rfl
  | ok p =>
    rw [run_lift_ok]
    cases hs : specsFor w cfg with
    | error e => unfold loadedFor sourcesFor; rw [hp, hs]; rfl
    | ok s =>
      rw [run_lift_ok, hv]
      rfl

end Verif
