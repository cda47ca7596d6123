import Verif.Spec.ProgramOutput
import Verif.Props.ProgramOutput
import Verif.Props.SetupBuiltin
/-! # C124: the messages of setting up; C125: the message that a rule was found -/
namespace Verif
variable {σ : Type}

/-! ## Lemmas -/

theorem shown_append (v : Bool) (a b : List Note) : shownNotes v (a ++ b) = shownNotes v a ++ shownNotes v b := by
  induction a with
  | nil => rfl
  | cons x t ih =>
    cases x with
    | problem m => simp only [List.cons_append, shownNotes, ih]
    | chat m => cases v <;> simp [shownNotes, ih]

/-- A program that says exactly these messages and returns. -/
def Says {α : Type} (v : Bool) (r : Run α) (notes : List Note) (a : α) : Prop := r.res = .ok a ∧ r.lines = shownNotes v notes

theorem Says.bind {α β : Type} {v : Bool} {r : Run α} {f : α → Run β} {m n : List Note} {a : α} {b : β} (h : Says v r m a) (hf : Says v (f a) n b) :
    Says v (r >>= f) (m ++ n) b := by
  rw [Says, run_bind_ok h.1]
  exact ⟨hf.1, by simp only [h.2, hf.2, shown_append]⟩

theorem Says.pure {α : Type} {v : Bool} {a : α} : Says v (Pure.pure a : Run α) [] a := ⟨rfl, rfl⟩

theorem Says.lift {α : Type} {v : Bool} {x : Except Exc α} {a : α} (h : x = .ok a) : Says v (Run.lift x) [] a := ⟨h, rfl⟩

theorem Says.congr {α : Type} {v : Bool} {r : Run α} {m n : List Note} {a : α} (h : Says v r m a) (e : m = n) : Says v r n a := e ▸ h

theorem says_infoV {c : Console} (ho : c.on = false) (m : List Char) : Says c.verbose (infoV c m) [.chat m] () := by
  unfold infoV
  rw [ho, ansi_off (by simp)]
  cases c.verbose
  · exact ⟨rfl, rfl⟩
  · exact ⟨rfl, by simp [shownNotes]⟩

theorem says_error {v : Bool} (m : List Char) : Says v (error false m) [.problem m] () := by
  unfold error
  rw [ansi_off (by simp), ansi_off (by simp), ansi_off (by simp)]
  exact ⟨rfl, by simp [shownNotes]⟩

theorem says_warning {v : Bool} (m : List Char) : Says v (warning false m) [.problem m] () := by
  unfold warning
  rw [ansi_off (by simp), ansi_off (by simp)]
  exact ⟨rfl, by simp [shownNotes]⟩

theorem says_warnings {c : Console} (ho : c.on = false) (l : List (List Char)) : Says c.verbose (warnings c l) (l.map .problem) () := by
  induction l with
  | nil => exact .pure
  | cons m t ih =>
    unfold warnings
    rw [ho]
    exact (says_warning m).bind ih

theorem says_load {c : Console} (ho : c.on = false) (kind group : String) (n : Nat) (r : LoadReport) :
    Says c.verbose (sayLoad c kind group n r) [pluginNote c.toTexts kind group n r] () := by
  cases r <;> unfold sayLoad pluginNote <;> simp only [ho]
  · exact (says_error _).congr (by simp [words, quoted])
  · exact (says_infoV ho _).congr (by simp [words, quoted])
  · exact (says_error _).congr (by simp [words, quoted])
  · exact (says_warning _).congr (by simp [words, quoted])
  · exact (says_infoV ho _).congr (by simp [words, quoted])

theorem says_loads {c : Console} (ho : c.on = false) (kind group : String) (n : Nat) (l : List LoadReport) :
    Says c.verbose (sayLoads c kind group n l) ((l.zipIdx n).map fun r => pluginNote c.toTexts kind group r.2 r.1) () := by
  induction l generalizing n with
  | nil => exact .pure
  | cons r t ih => exact (says_load ho _ _ _ _).bind (ih _)

variable {α : Type}

theorem loadStep_reports {uni : Char → Bool} {disabled : List PVal} {s s' : LoadState α} {ep : EntryPoint α} (h : loadStep uni disabled s ep = .ok s') :
    ∃ r, s'.reports = s.reports ++ [r] := by
  by_cases hh : Harmless disabled ep
  · obtain ⟨r, -, h' | h'⟩ := loadStep_harmless (uni := uni) s hh
    · obtain ⟨pn, n, a, -, -, e⟩ := h'
      rw [e] at h; cases h
      exact ⟨r, rfl⟩
    · rw [h'.2] at h; cases h
      exact ⟨r, rfl⟩
  · obtain ⟨e, he⟩ := loadStep_harmful (uni := uni) hh
    rw [he] at h; cases h

theorem says_loadLoop {c : Console} (ho : c.on = false) (kind group : String) (uni : Char → Bool) (disabled : List PVal) (eps : List (EntryPoint α))
    (s s' : LoadState α) (h : eps.foldlM (loadStep uni disabled) s = .ok s') :
    ∃ l, s'.reports = s.reports ++ l ∧
      Says c.verbose (loadLoopSaying c kind group uni disabled s eps)
        ((l.zipIdx s.reports.length).map fun r => pluginNote c.toTexts kind group r.2 r.1) s' := by
  induction eps generalizing s with
  | nil => cases h; exact ⟨[], by simp, .pure⟩
  | cons ep t ih =>
    rw [List.foldlM_cons] at h
    obtain ⟨s1, h1, h2⟩ := Except_bind_ok.1 h
    obtain ⟨r, hr⟩ := loadStep_reports h1
    obtain ⟨l, hl, hs⟩ := ih s1 h2
    refine ⟨r :: l, by rw [hl, hr]; simp, ?_⟩
    unfold loadLoopSaying
    have hd : s1.reports.drop s.reports.length = [r] := by rw [hr]; simp
    have hn : s1.reports.length = s.reports.length + 1 := by rw [hr]; simp
    rw [hn] at hs
    have := (Says.lift (v := c.verbose) h1).bind (f := fun s' => do
        sayLoads c kind group s.reports.length (s'.reports.drop s.reports.length)
        loadLoopSaying c kind group uni disabled s' t)
      (((says_loads ho kind group s.reports.length (s1.reports.drop s.reports.length))).bind hs)
    refine this.congr ?_
    rw [hd]
    rfl

theorem says_loaded {c : Console} (ho : c.on = false) (kind group : String) (uni : Char → Bool) (disabled : List PVal) (eps : List (EntryPoint α))
    (s : LoadState α) (h : loadPlugins uni disabled eps = .ok s) :
    Says c.verbose (loadSaying c kind group uni disabled eps) (pluginNotes c.toTexts kind group s.reports) s := by
  obtain ⟨l, hl, hs⟩ := says_loadLoop ho kind group uni disabled eps _ _ h
  rw [List.nil_append] at hl
  subst hl
  exact hs

theorem unknown_eq (v : PVal) (o : Config) : unknownKeys (dictOf v) o = unknownOf v o := by
  have key : ∀ d : Dict PKey PVal, unknownKeys d o = (d.map Prod.fst).filter fun k => decide (k ∉ o.map fun o => PKey.str o.1) := by
    intro d
    unfold unknownKeys
    refine List.filter_congr fun k _ => ?_
    rw [Bool.eq_iff_iff]
    simp only [Bool.not_eq_true', List.any_eq_false, beq_iff_eq, decide_eq_true_eq, List.mem_map, not_exists, not_and]
    exact ⟨fun h x hx e => h x hx e.symm, fun h x hx e => h x hx e.symm⟩
  cases v with
  | dict d => exact key d
  | _ => rfl

theorem says_options {c : Console} (ho : c.on = false) (what name : String) (expand : String → String) (desc : Desc) (v : PVal) (o : Config)
    (h : setOptions expand desc v = .ok o) :
    Says c.verbose (setOptionsSaying c what name expand desc v) (optionNotes c.toTexts what name v o) o := by
  unfold setOptionsSaying
  rw [h, run_lift_ok, unknown_eq]
  unfold warnOptions optionNotes
  cases unknownOf v o with
  | nil => exact Says.pure.bind .pure
  | cons k l =>
    rw [if_neg (by simp), ho]
    refine Says.congr (Says.bind (n := []) (says_warning _) .pure) ?_
    simp [words, quoted]

theorem says_os {c : Console} (ho : c.on = false) (plugins : List OsPlugin) (override : OverrideVal) (os : CurrentOs) (t : OsTuple)
    (h : chooseOs plugins override = .ok os) (ht : os.getTuple = .ok t) : Says c.verbose (chooseOsSaying c plugins override) (osNotes override t) os := by
  cases override with
  | none =>
    unfold chooseOsSaying
    rw [h, run_lift_ok, ht, run_lift_ok]
    exact Says.congr (Says.bind (n := []) (says_infoV ho _) .pure) (by simp [osNotes, words, osText])
  | text s => exact .lift h
  | pair n v =>
    unfold chooseOsSaying
    cases v with
    | some v =>
      refine Says.congr (Says.bind (says_infoV ho _) (Says.bind (n := []) (Says.lift h) (Says.bind (m := []) (n := []) .pure .pure))) ?_
      simp [osNotes, words, versionText]
    | none =>
      refine Says.congr (Says.bind (says_infoV ho _) (Says.bind (Says.lift h) (Says.bind (n := [])
        (show Says _ (sayVersion c none os) _ _ from Says.bind (Says.lift ht) (says_infoV ho _)) .pure))) ?_
      simp only [osNotes, words, versionText, osText, List.append_assoc, List.nil_append, List.append_nil, List.flatten_cons, List.flatten_nil,
        List.cons_append]
      rfl

theorem says_setupOs {c : Console} (ho : c.on = false) (expand : String → String) (plugins : List OsPlugin) (override : OverrideVal) (v : PVal)
    (r : OsSetup) (t : OsTuple) (h : setupOs expand plugins override v = .ok r) (ht : r.os.getTuple = .ok t) :
    Says c.verbose (setupOsSaying c expand plugins override v)
      (osNotes override t ++ optionNotes c.toTexts "os plugin" r.os.plugin.name v r.options) r := by
  unfold setupOs at h
  obtain ⟨os, h1, h2⟩ := Except_bind_ok.1 h
  obtain ⟨o, h3, h4⟩ := Except_bind_ok.1 h2
  cases h4
  unfold setupOsSaying
  exact Says.congr (Says.bind (says_os ho plugins override os t h1 ht) (Says.bind (n := []) (says_options ho "os plugin" os.plugin.name expand _ v o h3) .pure)) (by simp)

/-- The warnings printed when the options of these installers are set. -/
def installerOptionNotes (c : Texts) (opts : Dict PKey PVal) (l : List (InstallerPlugin σ)) : List Note :=
  l.flatMap fun p => (c.installerWarnings p.name (optionsFor opts p.name)).map .problem

theorem says_configure {c : Console} (ho : c.on = false) (opts : Dict PKey PVal) (l : List (InstallerPlugin σ)) (insts : List (Installer σ))
    (h : l.mapM (configureOne opts) = .ok insts) : Says c.verbose (configureSaying c opts l) (installerOptionNotes c.toTexts opts l) insts := by
  induction l generalizing insts with
  | nil => cases h; exact .pure
  | cons p t ih =>
    rw [List.mapM_cons] at h
    obtain ⟨i, h1, h2⟩ := Except_bind_ok.1 h
    obtain ⟨l, h3, h4⟩ := Except_bind_ok.1 h2
    cases h4
    unfold configureSaying
    exact Says.congr (Says.bind (Says.lift h1) (Says.bind (says_warnings ho _) (Says.bind (n := []) (ih l h3) .pure))) (by simp [installerOptionNotes])

theorem says_notFound {c : Console} (ho : c.on = false) (l : List String) : Says c.verbose (sayNotFound c l)
    (l.map (fun n => .problem (words ["ignoring core installer ".toList, quoted n.toList, "; according plugin was not found".toList]))) () := by
  induction l with
  | nil => exact .pure
  | cons n t ih =>
    unfold sayNotFound
    rw [ho]
    exact Says.congr (Says.bind (says_error _) ih) (by simp [words, quoted])

theorem says_installers {c : Console} (ho : c.on = false) (s : Settings) (os : OsSetup) (l : List (InstallerPlugin σ)) (r : InstallerSetup σ)
    (h : setupInstallers s os l = .ok r) :
    ∃ names, coreInstallerNames s os r.osTuple.2 = .ok names ∧
      Says c.verbose (setupInstallersSaying c s os l)
        (installerOptionNotes c.toTexts s.installerOptions l ++
          installerNotes s.coreInstallers.isSome names r.notFound (r.additional.map fun i => i.1.name)) r := by
  unfold setupInstallers at h
  obtain ⟨tuple, h1, h2⟩ := Except_bind_ok.1 h
  obtain ⟨insts, h3, h4⟩ := Except_bind_ok.1 h2
  obtain ⟨names, h5, h6⟩ := Except_bind_ok.1 h4
  replace h6 : (additionalInstallers s.useAdditional ((names.foldl (coreStep insts) ([], [])).1.map Prod.snd) tuple insts >>= fun additional =>
    pure (⟨insts, (names.foldl (coreStep insts) ([], [])).1, additional, (names.foldl (coreStep insts) ([], [])).2, tuple⟩ : InstallerSetup σ)) = .ok r := h6
  obtain ⟨additional, h7, h8⟩ := Except_bind_ok.1 h6
  cases h8
  refine ⟨names, h5, ?_⟩
  unfold setupInstallersSaying
  refine Says.congr (Says.bind (Says.lift h1) (Says.bind (says_configure ho _ l insts h3) (Says.bind (Says.lift h5) (Says.bind (says_infoV ho _)
    (Says.bind (says_notFound ho _) (Says.bind (Says.lift h7) (Says.bind (n := []) (says_infoV ho _) .pure))))))) ?_
  simp only [installerNotes, words, quoted, coreOrigin, List.append_assoc, List.nil_append, List.append_nil, List.flatten_cons, List.flatten_nil,
    List.cons_append, List.map_map]
  rfl

/-! ## C124 -/

/-- **C124** What is said while plugins are loaded: one message per entry point, in order; plugins that are loaded or disabled are mentioned only if verbose,
everything else is always said. All messages go to stderr. What the reports mean is said by `C43_loaded`. -/
theorem C124_plugin_messages {c : Console} (hoff : c.on = false) (kind group : String) (uni : Char → Bool) (disabled : List PVal)
    (eps : List (EntryPoint α)) (s : LoadState α) (h : loadPlugins uni disabled eps = .ok s) :
    s.reports.length = eps.length ∧ (∀ i r, s.reports[i]? = some r → ReportedAt uni disabled eps i r) ∧
    (loadSaying c kind group uni disabled eps).res = .ok s ∧
    (loadSaying c kind group uni disabled eps).lines = shownNotes c.verbose (pluginNotes c.toTexts kind group s.reports) :=
  ⟨(C43_loaded uni disabled eps s h).2.2.2.1, (C43_loaded uni disabled eps s h).2.2.2.2, says_loaded hoff kind group uni disabled eps s h⟩

/-- **C124** What is said while the installer context is made, in this order: about os plugins, about the os, about unknown options of its plugin, about
installer plugins, about unknown options of these, about core installers and additional installers. -/
theorem C124_context_messages {c : Console} (hoff : c.on = false) (env : StartEnv) (w : Surroundings σ) (cfg : Config) (r : InstallerSetup σ)
    (h : contextFor env w cfg = .ok r) :
    ∃ s oss os insts names, effectiveSettings cfg = .ok s ∧ loadPlugins w.uni s.disabledOs w.osEntries = .ok oss ∧ osFor env w cfg = .ok os ∧
      loadPlugins w.uni s.disabledInstallers w.installerEntries = .ok insts ∧ coreInstallerNames s os r.osTuple.2 = .ok names ∧
      (contextSaying c env w cfg).res = .ok (r, os) ∧
      (contextSaying c env w cfg).lines = shownNotes c.verbose
        (pluginNotes c.toTexts "os" "xylem.os" oss.reports ++
         (osNotes s.override r.osTuple ++ optionNotes c.toTexts "os plugin" os.os.plugin.name s.osOptions os.options) ++
         pluginNotes c.toTexts "installer" "xylem.installers" insts.reports ++
         (installerOptionNotes c.toTexts s.installerOptions (insts.loaded.map Prod.snd) ++
          installerNotes s.coreInstallers.isSome names r.notFound (r.additional.map fun i => i.1.name))) := by
  have hc := h
  unfold contextFor installerContext at h
  obtain ⟨s, h1, h⟩ := Except_bind_ok.1 h
  obtain ⟨oss, h2, h⟩ := Except_bind_ok.1 h
  obtain ⟨os, h3, h⟩ := Except_bind_ok.1 h
  obtain ⟨insts, h4, h⟩ := Except_bind_ok.1 h
  have ht : os.os.getTuple = .ok r.osTuple := by
    unfold setupInstallers at h
    obtain ⟨tuple, g1, g⟩ := Except_bind_ok.1 h
    obtain ⟨_, _, g⟩ := Except_bind_ok.1 g
    obtain ⟨names, _, g⟩ := Except_bind_ok.1 g
    replace g : (_ >>= fun additional => (pure (⟨_, _, additional, _, tuple⟩ : InstallerSetup σ) : Except Exc _)) = .ok r := g
    obtain ⟨_, _, g⟩ := Except_bind_ok.1 g
    cases g
    exact g1
  obtain ⟨names, h5, h6⟩ := says_installers hoff s os (insts.loaded.map Prod.snd) r h
  have ho : osFor env w cfg = .ok os := by
    unfold osFor
    rw [h1]
    show (loadPlugins w.uni s.disabledOs w.osEntries >>= _) = _
    rw [h2]
    exact h3
  refine ⟨s, oss, os, insts, names, h1, h2, ho, h4, h5, ?_⟩
  have : Says c.verbose (contextSaying c env w cfg) _ (r, os) :=
    Says.bind (Says.lift h1) (Says.bind (says_loaded hoff "os" "xylem.os" w.uni s.disabledOs w.osEntries oss h2)
      (Says.bind (says_setupOs hoff env.expand _ s.override s.osOptions os r.osTuple h3 ht)
        (Says.bind (says_loaded hoff "installer" "xylem.installers" w.uni s.disabledInstallers w.installerEntries insts h4)
          (Says.bind (n := []) h6 .pure))))
  exact this.congr (by simp)

/-- **C124** Unknown options of an installer or os plugin are ignored with a warning naming them and the known ones; nothing is said if all are known.
(The hypothesis holds for all values that are accepted, see `C49` and `C50`.) -/
theorem C124_unknown_options {c : Console} (hoff : c.on = false) (what name : String) (expand : String → String) (desc : Desc) (d : Dict PKey PVal)
    (o : Config) (h : setOptions expand desc (.dict d) = .ok o) :
    (setOptionsSaying c what name expand desc (.dict d)).res = .ok o ∧
    ((∀ k ∈ d.map Prod.fst, ∃ x ∈ o, k = .str x.1) → (setOptionsSaying c what name expand desc (.dict d)).lines = []) ∧
    ((∃ k ∈ d.map Prod.fst, ∀ x ∈ o, k ≠ .str x.1) → ∃ unknown : List PKey, unknown ≠ [] ∧
      (∀ k, k ∈ unknown ↔ k ∈ d.map Prod.fst ∧ ∀ x ∈ o, k ≠ .str x.1) ∧
      (setOptionsSaying c what name expand desc (.dict d)).lines =
        [.err (words ["ignoring the following unknown options for ".toList, what.toList, " ".toList, quoted name.toList, ": ".toList, c.keys unknown,
          " -- known options are: ".toList, c.keys (o.map fun o => .str o.1)])]) := by
  have hs := says_options hoff what name expand desc (.dict d) o h
  have hu : ∀ k, k ∈ unknownOf (.dict d) o ↔ k ∈ d.map Prod.fst ∧ ∀ x ∈ o, k ≠ .str x.1 := by
    intro k
    unfold unknownOf
    simp only [List.mem_filter, decide_eq_true_eq]
    refine and_congr_right fun _ => ?_
    simp only [List.mem_map, not_exists, not_and]
    exact ⟨fun h x hx e => h x hx e.symm, fun h x hx e => h x hx e.symm⟩
  refine ⟨hs.1, fun hall => ?_, fun ⟨k, hk, hn⟩ => ?_⟩
  · have : unknownOf (.dict d) o = [] := by
      rw [List.eq_nil_iff_forall_not_mem]
      intro k hk
      obtain ⟨h1, h2⟩ := (hu k).1 hk
      obtain ⟨x, hx, e⟩ := hall k h1
      exact h2 x hx e
    rw [hs.2]
    unfold optionNotes
    rw [this]
    rfl
  · refine ⟨unknownOf (.dict d) o, fun e => ?_, hu, ?_⟩
    · have := (hu k).2 ⟨hk, hn⟩
      rw [e] at this
      cases this
    · rw [hs.2]
      unfold optionNotes
      cases he : unknownOf (.dict d) o with
      | nil =>
        have := (hu k).2 ⟨hk, hn⟩
        rw [he] at this
        cases this
      | cons a l => rfl

/-- **C124** The same for keys of a rule its installer does not know; the packages of the rule are named. -/
theorem C124_unknown_rule_keys {c : Console} (hoff : c.on = false) (name : String) (expand : String → String) (desc : Desc) (rule : Rule) (o : Config)
    (h : parseInstallerRule expand desc rule = .ok o) :
    (parseRuleSaying c name expand desc rule).res = .ok o ∧
    ((∀ k ∈ rule.data.map Prod.fst, ∃ x ∈ o, k = .str x.1) → (parseRuleSaying c name expand desc rule).lines = []) ∧
    ((∃ k ∈ rule.data.map Prod.fst, ∀ x ∈ o, k ≠ .str x.1) → ∃ (unknown : List PKey) (packages : PVal), unknown ≠ [] ∧
      (∀ k, k ∈ unknown ↔ k ∈ rule.data.map Prod.fst ∧ ∀ x ∈ o, k ≠ .str x.1) ∧ packages = ((dget o.items (.str "packages")).getD .none) ∧
      (parseRuleSaying c name expand desc rule).lines =
        [.err (words ["ignoring the following unknown installer rule keys for installer ".toList, quoted name.toList,
          " while parsing installer rule with packages ".toList, c.str packages, ": ".toList, c.keys unknown])]) := by
  have hu : ∀ k, k ∈ unknownKeys rule.data o ↔ k ∈ rule.data.map Prod.fst ∧ ∀ x ∈ o, k ≠ .str x.1 := by
    intro k
    unfold unknownKeys
    simp only [List.mem_filter, Bool.not_eq_true', List.any_eq_false, beq_iff_eq]
  unfold parseRuleSaying warnRule
  rw [h, run_lift_ok]
  by_cases hn : unknownKeys rule.data o = []
  · rw [if_pos hn]
    refine ⟨rfl, fun _ => rfl, fun ⟨k, hk, hx⟩ => ?_⟩
    have := (hu k).2 ⟨hk, hx⟩
    rw [hn] at this
    cases this
  · rw [if_neg hn, hoff]
    refine ⟨rfl, fun hall => ?_, fun _ => ⟨_, _, hn, hu, rfl, ?_⟩⟩
    · refine absurd ?_ hn
      rw [List.eq_nil_iff_forall_not_mem]
      intro k hk
      obtain ⟨h1, h2⟩ := (hu k).1 hk
      obtain ⟨x, hx, e⟩ := hall k h1
      exact h2 x hx e
    · have := ((says_warning (v := c.verbose) ("ignoring the following unknown installer rule keys for installer '".toList ++ name.toList ++
        "' while parsing installer rule with packages ".toList ++ c.str ((dget o.items (.str "packages")).getD .none) ++ ": ".toList ++
        c.keys (unknownKeys rule.data o))).bind (f := fun _ => (Pure.pure o : Run Config)) (n := []) .pure).2
      refine this.trans ?_
      simp [shownNotes, words, quoted]

end Verif
