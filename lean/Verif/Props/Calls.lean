import Verif.Model.Calls
import Verif.Model.LookupProgram
import Verif.Lemmas.Expand
import Verif.Props.ProgramExamples
/-!
# C128, C129: the optional arguments of the API

C128: contexts and databases that are passed are used as they are; passing what would have been made changes nothing; wrong ones are refused.
C129: a plain dict as config.
-/
namespace Verif
variable {σ : Type}

/-! ## Passing the contexts -/

/-- **C128** Passing the contexts and the database that would have been made from the config changes nothing — for each of the functions and each subset
of the arguments. -/
theorem C128_same_as_made (env : StartEnv) (w : Surroundings σ) (desc : Desc) (g : Config) (cfg : ConfigArg) (c : Config)
    (hc : ensureConfig env.expand desc g cfg = .ok c) (ic : FullCtx σ) (hi : newInstallerContext env w c = .ok ic)
    (sc : SourcesCtx) (hs : newSourcesContext w c = .ok sc) (l : List Source) (hl : loadDatabase w sc = .ok l)
    (db' : Passed (List Source)) (hdb : db' = .missing ∨ db' = .object l) (sc' : Passed SourcesCtx) (hsc : sc' = .missing ∨ sc' = .object sc)
    (ic' : Passed (FullCtx σ)) (hic : ic' = .missing ∨ ic' = .object ic) (keys : List String) (all : Bool) (o : InstallOpts) :
    resolveCall env w desc g cfg db' sc' ic' keys all = resolveCall env w desc g cfg .missing .missing .missing keys all ∧
    installCall env w desc g cfg db' sc' ic' o keys all = installCall env w desc g cfg .missing .missing .missing o keys all := by
  have h1 : ensureContext (newInstallerContext env w c) ic' = .ok ic := by rcases hic with rfl | rfl <;> simp [ensureContext, hi]
  have h2 : ensureContext (newSourcesContext w c) sc' = .ok sc := by rcases hsc with rfl | rfl <;> simp [ensureContext, hs]
  have h3 : callDatabase w c db' sc' ic.lookup = callDatabase w c .missing .missing ic.lookup := by
    rcases hdb with rfl | rfl
    · simp only [callDatabase, h2]; simp [ensureContext, hs]
    · simp [callDatabase, ensureContext, hs, hl, bind, Except.bind, pure, Except.pure]
  have h4 : ensureContext (newInstallerContext env w c) .missing = .ok ic := hi
  constructor
  · unfold resolveCall
    simp only [hc, h1, h4, bind, Except.bind, h3]
  · have : installCallInputs env w desc g cfg db' sc' ic' = installCallInputs env w desc g cfg .missing .missing .missing := by
      unfold installCallInputs
      simp only [hc, h1, h4, bind, Except.bind, h3]
    unfold installCall
    rw [this]

/-- **C128** The same for `lookup` and `update` (without a config: for the global one). -/
theorem C128_lookup_and_update (env : StartEnv) (w : Surroundings σ) (g : Config) (cfg : ConfigArg) (c : Config)
    (hc : cfg = .configDict c ∨ (cfg = .none ∧ g = c)) (ic : FullCtx σ) (hi : newInstallerContext env w c = .ok ic)
    (sc : SourcesCtx) (hs : newSourcesContext w c = .ok sc) (sc' : Passed SourcesCtx) (hsc : sc' = .missing ∨ sc' = .object sc)
    (ic' : Passed (FullCtx σ)) (hic : ic' = .missing ∨ ic' = .object ic) (key : String) (compact dryRun : Bool) :
    lookupCall env w g cfg sc' ic' key compact = lookupCall env w g cfg .missing .missing key compact ∧
    updateCall w g cfg sc' dryRun = updateCall w g cfg .missing dryRun := by
  have hr : rawConfig g cfg = .ok c := by rcases hc with rfl | ⟨rfl, rfl⟩ <;> rfl
  have h1 : ∀ x, x = Passed.missing ∨ x = .object ic → orContext (rawConfig g cfg >>= newInstallerContext env w) x = .ok (some ic) := by
    rintro x (rfl | rfl)
    · rw [hr]; show (newInstallerContext env w c).map some = _; rw [hi]; rfl
    · rfl
  have h2 : ∀ x, x = Passed.missing ∨ x = .object sc → orContext (rawConfig g cfg >>= newSourcesContext w) x = .ok (some sc) := by
    rintro x (rfl | rfl)
    · rw [hr]; show (newSourcesContext w c).map some = _; rw [hs]; rfl
    · rfl
  constructor
  · unfold lookupCall
    rw [h1 _ hic, h2 _ hsc, h1 _ (.inl rfl), h2 _ (.inl rfl)]
  · unfold updateCall updateContext
    rw [h2 _ hsc, h2 _ (.inl rfl)]

/-- An installer context can be asked for the os. -/
theorem context_has_lookup {env : StartEnv} {w : Surroundings σ} {cfg : Config} {r : InstallerSetup σ} (h : contextFor env w cfg = .ok r) :
    ∃ k, lookupCtxFor env w cfg = .ok k := by
  unfold contextFor installerContext at h
  obtain ⟨s, h1, h⟩ := Except_bind_ok.1 h
  obtain ⟨oss, h2, h⟩ := Except_bind_ok.1 h
  obtain ⟨os, h3, h⟩ := Except_bind_ok.1 h
  obtain ⟨insts, h4, h⟩ := Except_bind_ok.1 h
  unfold setupInstallers at h
  obtain ⟨t, h5, h⟩ := Except_bind_ok.1 h
  refine ⟨⟨t.1, t.2, os.os.plugin.defaultInstaller⟩, ?_⟩
  unfold lookupCtxFor osFor
  refine Except_bind_ok.2 ⟨os, ?_, Except_bind_ok.2 ⟨t, h5, rfl⟩⟩
  exact Except_bind_ok.2 ⟨s, h1, Except_bind_ok.2 ⟨oss, h2, h3⟩⟩

theorem loadedFor_calls (w : Surroundings σ) (c : Config) : loadedFor w c = newSourcesContext w c >>= loadDatabase w := by
  unfold loadedFor sourcesFor newSourcesContext loadDatabase
  cases h1 : pathsFor w c with
  | error e => rfl
  | ok p' =>
    cases h2 : specsFor w c with
    | error e => rfl
    | ok s =>
      simp only [bind, Except.bind, pure, Except.pure]
      cases openDatabase (cacheEnvFor w p') s (w.sourcesIn p'.sourcesDir) p'.sourcesDir with
      | error e => rfl
      | ok l =>
        simp only
        cases (dbLoadFromCache (cacheEnvFor w p') w.files true l).raised <;> rfl

/-- **C128** What the programs do is what the API does with the effective config and no other argument. -/
theorem C128_commands_call_the_api (env : StartEnv) (w : Surroundings σ) (desc : Desc) (g : Config) (keys : List String) (p : Process) (ns : ArgSpace) :
    installRun env w keys p ns =
      installCall env w desc g (.configDict p.config) .missing .missing .missing (installArgsOf ns keys).opts keys (installArgsOf ns keys).all ∧
    updateRun w p ns = updateCall w g (.configDict p.config) .missing (switchOn ns "dry_run") ∧
    (∀ ic, newInstallerContext env w p.config = .ok ic → ∀ key,
      lookupFor env w p.config key = lookupCall env w g (.configDict p.config) .missing (.object ic) key true) := by
  refine ⟨?_, ?_, ?_⟩
  · funext s
    unfold installRun installCall
    have : installCallInputs env w desc g (.configDict p.config) .missing .missing .missing = installInputs env w p.config := by
      unfold installCallInputs installInputs databaseFor
      rw [loadedFor_calls]
      simp only [ensureConfig, ensureContext, newInstallerContext, callDatabase, bind, Except.bind, pure, Except.pure]
      cases hc : contextFor env w p.config with
      | error e => rfl
      | ok ic =>
        obtain ⟨k, hk⟩ := context_has_lookup hc
        simp only [hk]
        cases newSourcesContext w p.config with
        | error e => rfl
        | ok sc =>
          simp only
    rw [this]
    cases installInputs env w p.config <;> rfl
  · unfold updateRun updateCall updateContext
    simp only [orContext, rawConfig, bind, Except.bind, newSourcesContext, pure, Except.pure]
    cases h1 : pathsFor w p.config with
    | error e => rfl
    | ok p' =>
      cases h2 : specsFor w p.config with
      | error e => rfl
      | ok s => rfl
  · intro ic hi key
    unfold newInstallerContext at hi
    obtain ⟨st, h1, hi⟩ := Except_bind_ok.1 hi
    obtain ⟨k, h2, hi⟩ := Except_bind_ok.1 hi
    have hi := pure_ok.1 hi
    subst hi
    unfold lookupFor lookupCall
    rw [loadedFor_calls]
    simp only [orContext, rawConfig, bind, Except.bind, h2]
    cases newSourcesContext w p.config with
    | error e => rfl
    | ok sc =>
      simp only [Except.map, usable]
      cases loadDatabase w sc with
      | error e => rfl
      | ok l => rfl

theorem ensure_wrong {α : Type} (new : Except Exc α) : ensureContext new .wrong = .error .valueError := rfl

/-- **C128** A context of a wrong class is refused by `resolve` and `install` before anything is done; a sources context is not even looked at if a database is
passed. -/
theorem C128_wrong_context (env : StartEnv) (w : Surroundings σ) (desc : Desc) (g : Config) (cfg : ConfigArg) (c : Config)
    (hc : ensureConfig env.expand desc g cfg = .ok c) (db : Passed (List Source)) (sc : Passed SourcesCtx) (ic : Passed (FullCtx σ)) (keys : List String)
    (all : Bool) (o : InstallOpts) (s : σ) :
    (resolveCall env w desc g cfg db sc .wrong keys all = .error .valueError ∧
      installCall env w desc g cfg db sc .wrong o keys all s = ⟨.error .valueError, s, []⟩) ∧
    (∀ i, ensureContext (newInstallerContext env w c) ic = .ok i →
      resolveCall env w desc g cfg .missing .wrong ic keys all = .error .valueError ∧
      installCall env w desc g cfg .missing .wrong ic o keys all s = ⟨.error .valueError, s, []⟩) ∧
    (∀ l sc', resolveCall env w desc g cfg (.object l) sc ic keys all = resolveCall env w desc g cfg (.object l) sc' ic keys all ∧
      installCall env w desc g cfg (.object l) sc ic o keys all = installCall env w desc g cfg (.object l) sc' ic o keys all) := by
  refine ⟨⟨?_, ?_⟩, fun i hi => ⟨?_, ?_⟩, fun l sc' => ⟨rfl, rfl⟩⟩
  · simp only [resolveCall, hc, bind, Except.bind, ensureContext]
  · have : installCallInputs env w desc g cfg db sc .wrong = .error .valueError := by
      simp only [installCallInputs, hc, bind, Except.bind, ensureContext]
    simp only [installCall, this]
  · simp only [resolveCall, hc, hi, bind, Except.bind, callDatabase, ensure_wrong]
  · have : installCallInputs env w desc g cfg .missing .wrong ic = .error .valueError := by
      simp only [installCallInputs, hc, hi, bind, Except.bind, callDatabase, ensure_wrong]
    simp only [installCall, this]

/-- **C128** With an installer context and a database passed, the only thing that counts of the config is `install_from`. -/
theorem C128_only_install_from (env : StartEnv) (w : Surroundings σ) (desc : Desc) (g g' : Config) (cfg cfg' : ConfigArg) (c c' : Config)
    (hc : ensureConfig env.expand desc g cfg = .ok c) (hc' : ensureConfig env.expand desc g' cfg' = .ok c')
    (h : installFromOf c = installFromOf c') (l : List Source) (sc sc' : Passed SourcesCtx) (ic : FullCtx σ) (keys : List String) (all : Bool)
    (o : InstallOpts) :
    resolveCall env w desc g cfg (.object l) sc (.object ic) keys all = resolveCall env w desc g' cfg' (.object l) sc' (.object ic) keys all ∧
    installCall env w desc g cfg (.object l) sc (.object ic) o keys all = installCall env w desc g' cfg' (.object l) sc' (.object ic) o keys all := by
  constructor
  · simp only [resolveCall, hc, hc', bind, Except.bind, callDatabase, ensureContext, h]
  · have : installCallInputs env w desc g cfg (.object l) sc (.object ic) = installCallInputs env w desc g' cfg' (.object l) sc' (.object ic) := by
      simp only [installCallInputs, hc, hc', bind, Except.bind, callDatabase, ensureContext, h]
    unfold installCall
    rw [this]

/-- **C128** (refuted: the error names the class of the context) The message about a context of a wrong class names the type of the config instead: it is the
same whatever was passed. -/
theorem C128_message_refuted (what : String) (configType : List Char) : ∃ text, ∀ contextType, wrongContextText what contextType configType = text :=
  ⟨_, fun _ => rfl⟩

/-! ## Plain dicts -/

/-- **C129** (partial: `lookup` and `update` are refuted below) `resolve` and `install` accept a plain dict as config: they do what they do for the config made from
it (all other options having their defaults). -/
theorem C129_plain_dict_partial (env : StartEnv) (w : Surroundings σ) (desc : Desc) (g : Config) (d : Dict PKey PVal) (c : Config)
    (hc : configFromParsedYaml env.expand d desc true = .ok c) (db : Passed (List Source)) (sc : Passed SourcesCtx) (ic : Passed (FullCtx σ))
    (keys : List String) (all : Bool) (o : InstallOpts) :
    resolveCall env w desc g (.dict d) db sc ic keys all = resolveCall env w desc g (.configDict c) db sc ic keys all ∧
    installCall env w desc g (.dict d) db sc ic o keys all = installCall env w desc g (.configDict c) db sc ic o keys all := by
  have h : ensureConfig env.expand desc g (.dict d) = ensureConfig env.expand desc g (.configDict c) := by
    show configFromParsedYaml env.expand d desc true = _
    rw [hc]; rfl
  constructor
  · unfold resolveCall; rw [h]
  · unfold installCall installCallInputs; rw [h]

/-- **C129** (refuted: a dict is accepted as config) `update` — whose documentation asks for a dict — fails with AttributeError for every plain dict, and does
nothing, unless it is passed a sources context; so does `lookup` unless it is passed both contexts. -/
theorem C129_plain_dict_refuted (env : StartEnv) (w : Surroundings σ) (g : Config) (d : Dict PKey PVal) (sc : Passed SourcesCtx) (ic : Passed (FullCtx σ))
    (key : String) (compact dryRun : Bool) :
    updateCall w g (.dict d) .missing dryRun = ⟨[], some .attributeError⟩ ∧
    lookupCall env w g (.dict d) .missing ic key compact = .error .attributeError ∧
    lookupCall env w g (.dict d) sc .missing key compact = .error .attributeError := by
  refine ⟨rfl, rfl, ?_⟩
  cases sc <;> rfl

/-! ## Non-vacuity -/

/-- The config made from an empty dict. -/
def exFromEmpty : Config :=
  match configFromParsedYaml id [] xylemDescription true with
  | .ok c => c
  | .error _ => []

/-- The contexts can be made from that config on the example machine. -/
example : ∃ ic sc l, newInstallerContext exStart exMachine exFromEmpty = .ok ic ∧ newSourcesContext exMachine exFromEmpty = .ok sc ∧
    loadDatabase exMachine sc = .ok l := by
  have h1 : (match newInstallerContext exStart exMachine exFromEmpty with | .ok _ => true | .error _ => false) = true := by decide +kernel
  have h2 : (match newSourcesContext exMachine exFromEmpty with
    | .ok sc => (match loadDatabase exMachine sc with | .ok _ => true | .error _ => false)
    | .error _ => false) = true := by decide +kernel
  cases h3 : newInstallerContext exStart exMachine exFromEmpty with
  | error e => rw [h3] at h1; simp at h1
  | ok ic =>
    cases h4 : newSourcesContext exMachine exFromEmpty with
    | error e => rw [h4] at h2; simp at h2
    | ok sc =>
      rw [h4] at h2
      cases h5 : loadDatabase exMachine sc with
      | error e => simp [h5] at h2
      | ok l => exact ⟨ic, sc, l, rfl, rfl, h5⟩

example : ∃ c, configFromParsedYaml id [(.str "install_from", .dict [(.str "pip", .list [.str "numpy"])])] xylemDescription true = .ok c := ⟨_, rfl⟩

end Verif
