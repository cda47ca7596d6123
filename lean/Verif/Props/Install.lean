import Verif.Lemmas.Install2
import Verif.Props.Resolve
import Verif.Props.Text
/-! # Properties C31–C38: installations -/
namespace Verif
variable {σ : Type}

/-! ## C31 -/

/-- **C31** Grouping: the list of resolved keys is cut into non-empty blocks of consecutive entries with the same installer; each block
becomes one group with the resolutions of its entries in order; neighbouring groups have different installers. -/
theorem C31_grouping (l : List (String × List Resolution)) :
    ∃ blocks, l = blocks.flatten ∧ GroupsOf blocks (squashResolutions l) ∧ NeighboursDiffer (squashResolutions l) := squash_spec l

/-- **C31** This determines the groups. -/
theorem C31_grouping_unique (l groups : List (String × List Resolution)) (blocks : List (List (String × List Resolution)))
    (h1 : l = blocks.flatten) (h2 : GroupsOf blocks groups) (h3 : NeighboursDiffer groups) : groups = squashResolutions l := by
  obtain ⟨bs, g1, g2, g3⟩ := squash_spec l
  exact GroupsOf_unique h1 g1 h2 g2 h3 g3

/-- **C31** Nothing is lost, added or reordered: every resolution, with its installer, in key order. -/
theorem C31_order_kept (l : List (String × List Resolution)) :
    (squashResolutions l).flatMap (fun g => g.2.map fun r => (g.1, r)) = l.flatMap fun p => p.2.map fun r => (p.1, r) := by
  obtain ⟨bs, h1, h2, h3⟩ := squash_spec l
  clear h3
  generalize squashResolutions l = gs at h2
  subst h1
  induction bs generalizing gs with
  | nil => cases gs with
    | nil => rfl
    | cons g gs => simp [GroupsOf] at h2
  | cons b bs ih => cases gs with
    | nil => simp [GroupsOf] at h2
    | cons g gs =>
      rw [List.flatMap_cons, List.flatten_cons, List.flatMap_append, ih gs h2.2]
      congr 1
      obtain ⟨hne, hb, hg⟩ := h2.1
      rw [hg]
      clear hg h2 ih hne
      induction b with
      | nil => rfl
      | cons p b ihb =>
        have : p.1 = g.1 := hb p (by simp)
        simp only [List.map_cons, List.flatten_cons, List.map_append, List.flatMap_cons, this]
        rw [ihb (fun q hq => hb q (List.mem_cons_of_mem _ hq))]

example : squashResolutions [("apt", [[("package", .str "a")]]), ("apt", [[("package", .str "b")]]), ("pip", []), ("apt", [[]])] =
    [("apt", [[("package", .str "a")], [("package", .str "b")]]), ("pip", []), ("apt", [[]])] := rfl

/-! ## The course of an installation -/

theorem not_filter_none {x : Event} (h : x.isFilter = false) : keptOf x = none ∧ filterInput x = none := by
  cases x <;> first | exact ⟨rfl, rfl⟩ | simp [Event.isFilter] at h

/-- The possible courses of an installation. -/
inductive InstallRun (m : Machine σ) (ic : InstallerCtx σ) (db : Database) (f : Dict String (List String)) (o : InstallOpts) (keys : List String)
    (all : Bool) (out : Out σ InstallReport) : Prop
  | resolveRaised (e : Exc) (h : resolve ic db f keys all = .error e) (hres : out.res = .error e) (hev : out.ev = [])
  | resolveErrors (r : Resolved) (h : resolve ic db f keys all = .ok r) (hne : r.errors ≠ []) (hc : o.continueOnError = false)
      (hres : out.res = .ok ⟨r.errors, []⟩) (hev : out.ev = [])
  | stopped (r : Resolved) (h : resolve ic db f keys all = .ok r) (hgo : r.errors = [] ∨ o.continueOnError = true) (e : Exc)
      (hres : out.res = .error e) (hev : ∀ x ∈ out.ev, x.isCheck = true ∨ x.isFilter = true)
  | filterErrors (r : Resolved) (h : resolve ic db f keys all = .ok r) (hgo : r.errors = [] ∨ o.continueOnError = true)
      (hre : o.reinstall = false) (g : List Event) (F : Out σ (List (String × List Resolution) × List InstErr))
      (hg : ∀ x ∈ g, ∃ n r, x = .general n o.fixPrerequisites r)
      (hF : RanFilter (squashResolutions (r.results.map Prod.snd)) [] [] F) (u : List (String × List Resolution)) (errs : List InstErr)
      (hFr : F.res = .ok (u, errs)) (hne : errs ≠ []) (hc : o.continueOnError = false)
      (hres : out.res = .ok ⟨r.errors, []⟩) (hev : out.ev = g ++ F.ev)
  | ran (r : Resolved) (h : resolve ic db f keys all = .ok r) (hgo : r.errors = [] ∨ o.continueOnError = true)
      (hre : o.reinstall = false) (g p : List Event) (F : Out σ (List (String × List Resolution) × List InstErr))
      (L : Out σ (List InstErr)) (hg : ∀ x ∈ g, ∃ n r, x = .general n o.fixPrerequisites r)
      (hF : RanFilter (squashResolutions (r.results.map Prod.snd)) [] [] F) (u : List (String × List Resolution)) (errs : List InstErr)
      (hFr : F.res = .ok (u, errs)) (hok : errs = [] ∨ o.continueOnError = true)
      (hp : ∀ x ∈ p, ∃ n rs r, x = .prereq n rs o.fixPrerequisites r) (hL : RanLoop o (squashResolutions u) [] L)
      (hres : out.res = L.res.map fun errs => ⟨r.errors, errs⟩) (hev : out.ev = g ++ F.ev ++ p ++ L.ev)
      (hg' : g = (installerNames (squashResolutions (r.results.map Prod.snd))).map fun n => .general n o.fixPrerequisites (.ok ()))
      (hp' : p = (m.dictOrder (mapResolutions u)).map fun q => .prereq q.1 q.2 o.fixPrerequisites (.ok ()))

theorem install_run (m : Machine σ) (ic : InstallerCtx σ) (db : Database) (f : Dict String (List String)) (o : InstallOpts)
    (keys : List String) (all : Bool) (s : σ)   : InstallRun m ic db f o keys all (install m ic db f o keys all s) := by
  unfold install
  cases hr : resolve ic db f keys all with
  | error e => simp only [lift_error_run]; exact .resolveRaised e hr rfl rfl
  | ok r =>
    simp only [lift_ok_run]
    by_cases h1 : r.errors.length ≠ 0 ∧ o.continueOnError = false
    · rw [if_pos h1]
      exact .resolveErrors r hr (by intro h; simp [h] at h1) h1.2 rfl rfl
    · rw [if_neg h1]
      have hgo : r.errors = [] ∨ o.continueOnError = true := by
        by_cases h2 : r.errors = []
        · exact Or.inl h2
        · right
          cases hc : o.continueOnError with
          | true => rfl
          | false => exact absurd ⟨by simpa using h2, hc⟩ h1
      unfold installAfterResolve
      have hg := checkGeneral_events ic o.fixPrerequisites o.interactive (installerNames (squashResolutions (r.results.map Prod.snd))) s
      have hg' := checkGeneral_ok ic o.fixPrerequisites o.interactive (installerNames (squashResolutions (r.results.map Prod.snd))) s
      rw [bind_run]
      generalize checkGeneralPrerequisites ic (installerNames (squashResolutions (r.results.map Prod.snd))) o.fixPrerequisites
        o.interactive s = G at hg hg'
      have hgc : ∀ x ∈ G.ev, x.isCheck = true ∨ x.isFilter = true := by
        intro x hx; obtain ⟨n, r, rfl⟩ := hg x hx; exact Or.inl rfl
      cases hG : G.res with
      | error e => exact .stopped r hr hgo e rfl hgc
      | ok u =>
        simp only
        cases hre : o.reinstall with
        | true =>
          simp only [if_true, raise_run]
          exact .stopped r hr hgo .unboundLocalError rfl (by simpa [Out.prepend] using hgc)
        | false =>
          simp only [Bool.false_eq_true, if_false]
          have hF := filterLoop_ran ic (squashResolutions (r.results.map Prod.snd)) [] [] G.st
          rw [bind_run]
          unfold filterUninstalled
          generalize filterLoop ic [] [] (squashResolutions (r.results.map Prod.snd)) G.st = F at hF
          cases hFr : F.res with
          | error e =>
            refine .stopped r hr hgo e rfl ?_
            intro x hx
            simp only [Out.prepend_ev, List.mem_append] at hx
            rcases hx with hx | hx
            · exact hgc x hx
            · exact Or.inr (hF.events x hx)
          | ok ue =>
            obtain ⟨un, errs⟩ := ue
            simp only
            by_cases h2 : errs.length ≠ 0 ∧ o.continueOnError = false
            · rw [if_pos h2]
              exact .filterErrors r hr hgo hre G.ev F hg hF un errs hFr (by intro h; simp [h] at h2) h2.2 rfl (by simp [Out.prepend])
            · rw [if_neg h2]
              have hok : errs = [] ∨ o.continueOnError = true := by
                by_cases h3 : errs = []
                · exact Or.inl h3
                · right
                  cases hc : o.continueOnError with
                  | true => rfl
                  | false => exact absurd ⟨by simpa using h3, hc⟩ h2
              unfold installPlanned
              have hP := checkInstall_events ic o.fixPrerequisites o.interactive (m.dictOrder (mapResolutions un)) F.st
              have hP' := checkInstall_ok ic o.fixPrerequisites o.interactive (m.dictOrder (mapResolutions un)) F.st
              rw [bind_run]
              generalize checkInstallPrerequisites ic (m.dictOrder (mapResolutions un)) o.fixPrerequisites o.interactive F.st = P at hP hP'
              cases hPr : P.res with
              | error e =>
                refine .stopped r hr hgo e rfl ?_
                intro x hx
                simp only [Out.prepend_ev, List.mem_append] at hx
                rcases hx with hx | hx | hx
                · exact hgc x hx
                · exact Or.inr (hF.events x hx)
                · obtain ⟨n, rs, r, rfl⟩ := hP x hx; exact Or.inl rfl
              | ok v =>
                simp only
                have hL := installLoop_ran m ic o (squashResolutions un) [] (fun _ => rfl) P.st
                rw [bind_run]
                unfold installResolved
                generalize installLoop m ic o [] (squashResolutions un) P.st = L at hL
                cases hLr : L.res with
                | error e =>
                  exact .ran r hr hgo hre G.ev P.ev F L hg hF un errs hFr hok hP hL (by rw [hLr]; rfl) (by simp [Out.prepend]) (hg' hG) (hP' hPr)
                | ok le =>
                  exact .ran r hr hgo hre G.ev P.ev F L hg hF un errs hFr hok hP hL (by rw [hLr]; rfl) (by simp [Out.prepend]) (hg' hG) (hP' hPr)

/-- Events that are checks or filter calls have nothing to do with commands. -/
theorem checks_neutral {l : List Event} (h : ∀ x ∈ l, x.isCheck = true ∨ x.isFilter = true) :
    executedOf l = [] ∧ plannedOf l = [] ∧ plannedItems l = [] ∧ l.filterMap failureOf = [] ∧ (∀ i c r, .exec i c r ∉ l) := by
  induction l with
  | nil => simp [executedOf, plannedOf, plannedItems]
  | cons x t ih =>
    obtain ⟨h1, h2, h3, h4, h5⟩ := ih (fun y hy => h y (List.mem_cons_of_mem _ hy))
    have hx := h x (by simp)
    refine ⟨?_, ?_, ?_, ?_, ?_⟩
    · rw [← List.singleton_append, executedOf_append, h1]; cases x <;> simp_all [executedOf, Event.isCheck, Event.isFilter]
    · rw [← List.singleton_append, plannedOf_append, h2]; cases x <;> simp_all [plannedOf, Event.isCheck, Event.isFilter]
    · rw [← List.singleton_append, plannedItems_append, h3]; cases x <;> simp_all [plannedItems, Event.isCheck, Event.isFilter]
    · rw [List.filterMap_cons, h4]; cases x <;> simp_all [failureOf, Event.isCheck, Event.isFilter]
    · intro i c r hm
      rcases List.mem_cons.1 hm with hm | hm
      · subst hm; simp [Event.isCheck, Event.isFilter] at hx
      · exact h5 i c r hm

/-- The events before the loop over the groups. -/
theorem ran_prefix {o : InstallOpts} {g p : List Event} {groups : List (String × List Resolution)}
    {F : Out σ (List (String × List Resolution) × List InstErr)} (hg : ∀ x ∈ g, ∃ n r, x = .general n o.fixPrerequisites r)
    (hF : RanFilter groups [] [] F) (hp : ∀ x ∈ p, ∃ n rs r, x = .prereq n rs o.fixPrerequisites r) :
    ∀ x ∈ g ++ F.ev ++ p, x.isCheck = true ∨ x.isFilter = true := by
  intro x hx
  simp only [List.mem_append] at hx
  rcases hx with (hx | hx) | hx
  · obtain ⟨n, r, rfl⟩ := hg x hx; exact Or.inl rfl
  · exact Or.inr (hF.events x hx)
  · obtain ⟨n, rs, r, rfl⟩ := hp x hx; exact Or.inl rfl

/-! ## C32 -/

/-- **C32** With simulate no command is executed, whatever the other options, installers, machine and keys. -/
theorem C32_simulate_executes_nothing (m : Machine σ) (ic : InstallerCtx σ) (db : Database) (f : Dict String (List String))
    (o : InstallOpts) (keys : List String) (all : Bool) (s : σ) (hs : o.simulate = true) :
    executedOf (install m ic db f o keys all s).ev = [] := by
  have h := install_run m ic db f o keys all s
  generalize install m ic db f o keys all s = out at h
  cases h with
  | resolveRaised e h hres hev => rw [hev]; rfl
  | resolveErrors r h hne hc hres hev => rw [hev]; rfl
  | stopped r h hgo e hres hev => exact (checks_neutral hev).1
  | filterErrors r h hgo hre g F hg hF u errs hFr hne hc hres hev =>
    rw [hev]
    have := ran_prefix (p := []) hg hF (by simp)
    rw [List.append_nil] at this
    exact (checks_neutral this).1
  | ran r h hgo hre g p F L hg hF u errs hFr hok hp hL hres hev =>
    rw [hev, executedOf_append, (checks_neutral (ran_prefix hg hF hp)).1, hL.simulated hs]; rfl

/-- The plugin's queries do not change the machine, and neither do its prerequisite checks when they are not asked to fix anything. -/
structure ReadOnlyInstaller (i : Installer σ) : Prop where
  filter : ∀ rs s, (i.filterUninstalled rs s).2 = s
  installed : ∀ r s, (i.isInstalled r s).2 = s
  commands : ∀ rs a b s, (i.getInstallCommands rs a b s).2 = s
  general : ∀ os inter s, (i.checkGeneral os false inter s).2 = s
  prereq : ∀ rs os inter s, (i.checkInstall rs os false inter s).2 = s

theorem requireInstaller_mem {ic : InstallerCtx σ} {name : String} {i : Installer σ} (h : requireInstaller ic name = .ok i) : i ∈ ic.plugins := by
  unfold requireInstaller at h
  split at h
  · rename_i j hj; simp only [Except.ok.injEq] at h; subst h; exact List.mem_of_find?_eq_some hj
  · simp at h

theorem Keeps.require {ic : InstallerCtx σ} {name : String} {β : Type} {f : Installer σ → Prog σ β}
    (h : ∀ i ∈ ic.plugins, Keeps (f i)) : Keeps (Prog.lift (requireInstaller ic name) >>= f) := by
  cases hr : requireInstaller ic name with
  | error e => exact fun _ => rfl
  | ok i => exact fun s => h i (requireInstaller_mem hr) s

/-- **C32** With simulate and without prerequisite fixing, installing leaves the machine exactly as it was, if the plugins' queries
do not change it themselves. -/
theorem C32_simulate_changes_nothing (m : Machine σ) (ic : InstallerCtx σ) (db : Database) (f : Dict String (List String))
    (o : InstallOpts) (keys : List String) (all : Bool) (s : σ) (hs : o.simulate = true) (hfix : o.fixPrerequisites = false)
    (hro : ∀ i ∈ ic.plugins, ReadOnlyInstaller i) : (install m ic db f o keys all s).st = s := by
  have k1 : ∀ os names, Keeps (checkGeneralLoop ic os false o.interactive names) := by
    intro os names
    induction names with
    | nil => exact Keeps.ret ()
    | cons n t ih =>
      rw [checkGeneralLoop]
      exact Keeps.require fun i hi => Keeps.bind (Keeps.attempt ((hro i hi).general os _) _) fun r => Keeps.bind (Keeps.lift r) fun _ => ih
  have k2 : ∀ os l, Keeps (checkInstallLoop ic os false o.interactive l) := by
    intro os l
    induction l with
    | nil => exact Keeps.ret ()
    | cons p t ih =>
      obtain ⟨n, rs⟩ := p
      rw [checkInstallLoop]
      exact Keeps.require fun i hi => Keeps.bind (Keeps.attempt ((hro i hi).prereq rs os _) _) fun r => Keeps.bind (Keeps.lift r) fun _ => ih
  have k3 : ∀ l u errs, Keeps (filterLoop ic u errs l) := by
    intro l
    induction l with
    | nil => intro u errs; exact Keeps.ret _
    | cons p t ih =>
      intro u errs
      obtain ⟨n, rs⟩ := p
      rw [filterLoop]
      refine Keeps.require fun i hi => Keeps.bind (Keeps.attempt ((hro i hi).filter rs) _) fun r => ?_
      cases r with
      | ok rs' => exact ih _ _
      | error e => simp only; split; exact ih _ _; exact Keeps.raise _
  have k4 : ∀ l errs, Keeps (installLoop m ic o errs l) := by
    intro l
    induction l with
    | nil => intro errs; exact Keeps.ret _
    | cons p t ih =>
      intro errs
      obtain ⟨n, rs⟩ := p
      rw [installLoop]
      refine Keeps.bind ?_ fun es => ?_
      · unfold installResolutions
        refine Keeps.require fun i hi => Keeps.bind (Keeps.attempt ((hro i hi).commands rs _ _) _) fun c => ?_
        cases c with
        | error e => exact Keeps.raise _
        | ok cs =>
          simp only [hs, if_true]
          split
          · exact Keeps.ret _
          · refine Keeps.bind (fun _ => rfl) fun _ => Keeps.bind ?_ fun _ => Keeps.ret _
            intro s
            obtain ⟨l, -, -, h, -⟩ := showCommands_run n cs s
            exact h
      · split
        · exact Keeps.ret _
        · exact ih _
  have : Keeps (install m ic db f o keys all) := by
    unfold install
    refine Keeps.bind (Keeps.lift _) fun r => ?_
    split
    · exact Keeps.ret _
    · unfold installAfterResolve checkGeneralPrerequisites
      rw [hfix]
      refine Keeps.bind (Keeps.bind (Keeps.lift _) fun os => k1 os _) fun _ => ?_
      split
      · exact Keeps.raise _
      · refine Keeps.bind (k3 _ _ _) fun u => ?_
        split
        · exact Keeps.ret _
        · unfold installPlanned checkInstallPrerequisites
          rw [hfix]
          exact Keeps.bind (Keeps.bind (Keeps.lift _) fun os => k2 os _) fun _ => Keeps.bind (k4 _ _) fun _ => Keeps.ret _
  exact this s

/-! ## C33 -/

/-- **C33** Without continue_on_error the commands executed are, in order, an initial part of those planned; and once a command did
not end with exit code 0 nothing at all happens any more: no command, no question to an installer. -/
theorem C33_stop_at_first_failure (m : Machine σ) (ic : InstallerCtx σ) (db : Database) (f : Dict String (List String))
    (o : InstallOpts) (keys : List String) (all : Bool) (s : σ) (hc : o.continueOnError = false) :
    let out := install m ic db f o keys all s
    executedOf out.ev <+: plannedOf out.ev ∧
    ∀ pre i c r post, out.ev = pre ++ .exec i c r :: post → r ≠ .ok 0 → post = [] := by
  intro out
  have h : InstallRun m ic db f o keys all out := install_run m ic db f o keys all s
  have none : (∀ x ∈ out.ev, x.isCheck = true ∨ x.isFilter = true) →
      executedOf out.ev <+: plannedOf out.ev ∧ ∀ pre i c r post, out.ev = pre ++ .exec i c r :: post → r ≠ .ok 0 → post = [] := by
    intro hev
    obtain ⟨h1, h2, _, _, h5⟩ := checks_neutral hev
    refine ⟨by rw [h1, h2]; exact List.prefix_rfl, fun pre i c r post he _ => absurd (by rw [he]; simp) (h5 i c r)⟩
  cases h with
  | resolveRaised e h hres hev => exact none (by simp [hev])
  | resolveErrors r h hne hc hres hev => exact none (by simp [hev])
  | stopped r h hgo e hres hev => exact none hev
  | filterErrors r h hgo hre g F hg hF u errs hFr hne hc hres hev =>
    have := ran_prefix (p := []) hg hF (by simp)
    rw [List.append_nil] at this
    exact none (by rw [hev]; exact this)
  | ran r h hgo hre g p F L hg hF u errs hFr hok hp hL hres hev =>
    obtain ⟨h1, h2, _, _, h5⟩ := checks_neutral (ran_prefix hg hF hp)
    rw [hev]
    refine ⟨?_, ?_⟩
    · rw [executedOf_append, plannedOf_append, h1, h2]; exact hL.executed
    · intro pre i c r post he hbad
      rcases split_append he with ⟨post', h6, _⟩ | ⟨pre', h6, _⟩
      · exact absurd (by rw [h6]; simp) (h5 i c r)
      · exact hL.nothingAfter pre' i c r post h6 (Or.inr ⟨hc, hbad⟩)

/-! ## C34 -/

/-- What an installation that returns reports, and what it did. -/
theorem install_returns (m : Machine σ) (ic : InstallerCtx σ) (db : Database) (f : Dict String (List String)) (o : InstallOpts)
    (keys : List String) (all : Bool) (s : σ) (rep : InstallReport) (h : (install m ic db f o keys all s).res = .ok rep) :
    rep.installErrors = (install m ic db f o keys all s).ev.filterMap failureOf ∧
    (∀ i c e, .exec i c (.error e) ∉ (install m ic db f o keys all s).ev) ∧
    (∃ r, resolve ic db f keys all = .ok r ∧ rep.resolveErrors = r.errors) := by
  have hr := install_run m ic db f o keys all s
  generalize install m ic db f o keys all s = out at h hr
  cases hr with
  | resolveRaised e h' hres hev => rw [hres] at h; simp at h
  | resolveErrors r h' hne hc hres hev =>
    rw [hres] at h; simp only [Except.ok.injEq] at h; subst h
    exact ⟨by rw [hev]; rfl, by rw [hev]; simp, r, h', rfl⟩
  | stopped r h' hgo e hres hev => rw [hres] at h; simp at h
  | filterErrors r h' hgo hre g F hg hF u errs hFr hne hc hres hev =>
    rw [hres] at h; simp only [Except.ok.injEq] at h; subst h
    have := ran_prefix (p := []) hg hF (by simp)
    rw [List.append_nil, ← hev] at this
    obtain ⟨_, _, _, h4, h5⟩ := checks_neutral this
    exact ⟨h4.symm, fun i c e => h5 i c _, r, h', rfl⟩
  | ran r h' hgo hre g p F L hg hF u errs hFr hok hp hL hres hev =>
    rw [hres] at h
    cases hLr : L.res with
    | error e => rw [hLr] at h; simp [Except.map] at h
    | ok le =>
      rw [hLr] at h; simp only [Except.map, Except.ok.injEq] at h; subst h
      obtain ⟨_, _, _, h4, h5⟩ := checks_neutral (ran_prefix hg hF hp)
      obtain ⟨h6, h7⟩ := hL.errors le hLr
      refine ⟨?_, ?_, r, h', rfl⟩
      · rw [hev, List.filterMap_append, h4]; exact h6
      · intro i c e hm
        rw [hev, List.mem_append] at hm
        rcases hm with hm | hm
        · exact h5 _ _ _ hm
        · exact h7 _ _ _ hm

/-- **C34 (partial)** With continue_on_error, an installation that returns has executed every planned command exactly once and in order,
and reports exactly the failures, in order: the commands with nonzero exit code, and the items not found (or not checkable) afterwards.
Missing for the full claim: it does not always return (refuted below). -/
theorem C34_continue_runs_everything_partial (m : Machine σ) (ic : InstallerCtx σ) (db : Database) (f : Dict String (List String))
    (o : InstallOpts) (keys : List String) (all : Bool) (s : σ) (hc : o.continueOnError = true) (hs : o.simulate = false)
    (rep : InstallReport) (h : (install m ic db f o keys all s).res = .ok rep) :
    executedOf (install m ic db f o keys all s).ev = plannedOf (install m ic db f o keys all s).ev ∧
    rep.installErrors = (install m ic db f o keys all s).ev.filterMap failureOf := by
  refine ⟨?_, (install_returns m ic db f o keys all s rep h).1⟩
  have hr := install_run m ic db f o keys all s
  generalize install m ic db f o keys all s = out at h hr
  cases hr with
  | resolveRaised e h' hres hev => rw [hev]; rfl
  | resolveErrors r h' hne hc hres hev => rw [hev]; rfl
  | stopped r h' hgo e hres hev => rw [(checks_neutral hev).1, (checks_neutral hev).2.1]
  | filterErrors r h' hgo hre g F hg hF u errs hFr hne hc' hres hev => rw [hc] at hc'; simp at hc'
  | ran r h' hgo hre g p F L hg hF u errs hFr hok hp hL hres hev =>
    rw [hres] at h
    cases hLr : L.res with
    | error e => rw [hLr] at h; simp [Except.map] at h
    | ok le =>
      obtain ⟨h1, h2, _, _, _⟩ := checks_neutral (ran_prefix hg hF hp)
      rw [hev, executedOf_append, plannedOf_append, h1, h2, hL.complete hs le hLr (Or.inr hc)]

/-- **C33/C34** A nonzero exit code is always reported by an installation that returns. -/
theorem C34_failures_reported (m : Machine σ) (ic : InstallerCtx σ) (db : Database) (f : Dict String (List String))
    (o : InstallOpts) (keys : List String) (all : Bool) (s : σ)
    (rep : InstallReport) (h : (install m ic db f o keys all s).res = .ok rep) (i : String) (c : Cmd) (code : Int) (h0 : code ≠ 0)
    (he : .exec i c (.ok code) ∈ (install m ic db f o keys all s).ev) : .commandFailed i c code ∈ rep.installErrors := by
  rw [(install_returns m ic db f o keys all s rep h).1]
  exact List.mem_filterMap.2 ⟨_, he, by simp [failureOf, h0]⟩

/-! ## C35 -/

/-- **C35** If an installation that was not simulated reports no error at all, then after some checks it went through groups of items, and in
each (unless its installer had no commands for it) ran all planned commands successfully and then found every item installed. -/
theorem C35_no_errors_means_installed (m : Machine σ) (ic : InstallerCtx σ) (db : Database) (f : Dict String (List String))
    (o : InstallOpts) (keys : List String) (all : Bool) (s : σ) (hs : o.simulate = false)
    (h : (install m ic db f o keys all s).res = .ok ⟨[], []⟩) :
    (∃ checks groups cmds, (∀ x ∈ checks, x.isCheck = true ∨ x.isFilter = true) ∧ cmds.length = groups.length ∧
      (install m ic db f o keys all s).ev = checks ++ cleanGroups groups cmds ∧
      ((∀ i items e, .filter i items (.error e) ∉ (install m ic db f o keys all s).ev) →
        groups = squashResolutions ((install m ic db f o keys all s).ev.filterMap keptOf))) ∧
    (∀ i items c cmds, .plan i items (.ok (c :: cmds)) ∈ (install m ic db f o keys all s).ev →
      ∀ x ∈ items, .probe i x (.ok true) ∈ (install m ic db f o keys all s).ev) := by
  have main : ∃ checks groups cmds, (∀ x ∈ checks, x.isCheck = true ∨ x.isFilter = true) ∧ cmds.length = groups.length ∧
      (install m ic db f o keys all s).ev = checks ++ cleanGroups groups cmds ∧
      ((∀ i items e, .filter i items (.error e) ∉ (install m ic db f o keys all s).ev) →
        groups = squashResolutions ((install m ic db f o keys all s).ev.filterMap keptOf)) := by
    have hrep := install_returns m ic db f o keys all s _ h
    have hr := install_run m ic db f o keys all s
    generalize install m ic db f o keys all s = out at h hr hrep
    cases hr with
    | resolveRaised e h' hres hev => rw [hres] at h; simp at h
    | resolveErrors r h' hne hc hres hev => rw [hres] at h; simp only [Except.ok.injEq, InstallReport.mk.injEq] at h; exact absurd h.1 hne
    | stopped r h' hgo e hres hev => rw [hres] at h; simp at h
    | filterErrors r h' hgo hre g F hg hF u errs hFr hne hc hres hev =>
      have := ran_prefix (p := []) hg hF (by simp)
      rw [List.append_nil, ← hev] at this
      refine ⟨out.ev, [], [], this, rfl, by simp [cleanGroups], fun hno => ?_⟩
      exfalso
      obtain ⟨_, _, h3, _⟩ := hF.result u errs hFr
      apply hne
      rw [h3, List.nil_append, List.filterMap_eq_nil_iff]
      intro x hx
      cases x with
      | filter i items r =>
        cases r with
        | ok rs => rfl
        | error e => exact absurd (by rw [hev]; exact List.mem_append_right _ hx) (hno i items e)
      | _ => rfl
    | ran r h' hgo hre g p F L hg hF u errs hFr hok hp hL hres hev =>
      rw [hres] at h
      cases hLr : L.res with
      | error e => rw [hLr] at h; simp [Except.map] at h
      | ok le =>
        rw [hLr] at h; simp only [Except.map, Except.ok.injEq, InstallReport.mk.injEq] at h
        obtain ⟨h6, _⟩ := hL.errors le hLr
        obtain ⟨cmds, h7, h8⟩ := hL.clean hs le hLr (by rw [← List.nil_append (List.filterMap _ _), ← h6]; exact h.2)
        refine ⟨g ++ F.ev ++ p, squashResolutions u, cmds, ran_prefix hg hF hp, h7, by rw [hev, h8], fun _ => ?_⟩
        obtain ⟨_, h2, _, _⟩ := hF.result u errs hFr
        have e1 : g.filterMap keptOf = [] := by
          rw [List.filterMap_eq_nil_iff]; intro x hx; obtain ⟨n, r, rfl⟩ := hg x hx; rfl
        have e2 : p.filterMap keptOf = [] := by
          rw [List.filterMap_eq_nil_iff]; intro x hx; obtain ⟨n, rs, r, rfl⟩ := hp x hx; rfl
        have e3 : L.ev.filterMap keptOf = [] := by
          rw [List.filterMap_eq_nil_iff]; intro x hx
          have := (hL.onlyInstall x hx).2
          exact (not_filter_none this).1
        rw [hev, List.filterMap_append, List.filterMap_append, List.filterMap_append, e1, e2, e3, h2]
        simp
  refine ⟨main, ?_⟩
  obtain ⟨checks, groups, cmds, hch, hlen, hev, hkept⟩ := main
  clear hlen hkept
  intro i items c cs hm x hx
  rw [hev, List.mem_append] at hm ⊢
  rcases hm with hm | hm
  · have := hch _ hm; simp [Event.isCheck, Event.isFilter] at this
  · right
    clear hev hch
    induction groups generalizing cmds with
    | nil => simp [cleanGroups] at hm
    | cons g t ih =>
      obtain ⟨n, rs⟩ := g
      cases cmds with
      | nil => simp [cleanGroups] at hm
      | cons d ds =>
        simp only [cleanGroups, List.mem_append] at hm ⊢
        rcases hm with hm | hm
        · left
          unfold cleanGroup at hm ⊢
          split at hm
          · simp at hm
          · rename_i hd
            rw [if_neg hd]
            simp only [List.cons_append, List.mem_cons, Event.plan.injEq, Except.ok.injEq, List.mem_append, List.mem_map, reduceCtorEq,
              and_false, exists_false, or_false] at hm
            obtain ⟨rfl, rfl, rfl⟩ := hm
            simp only [List.cons_append, List.mem_cons, List.mem_append, List.mem_map]
            exact Or.inr (Or.inr ⟨x, hx, rfl⟩)
        · right; exact ih ds hm

/-! ## C36 -/

/-- **C36** Installers are asked which items are uninstalled group by group (the groups of the resolved keys), and commands are only planned
for (in order, an initial part of) the items they name as uninstalled, or all items of a group whose check failed with an InstallerError. -/
theorem C36_only_uninstalled_planned (m : Machine σ) (ic : InstallerCtx σ) (db : Database) (f : Dict String (List String))
    (o : InstallOpts) (keys : List String) (all : Bool) (s : σ) (r : Resolved) (hr : resolve ic db f keys all = .ok r) :
    (plannedItems (install m ic db f o keys all s).ev <+: squashResolutions ((install m ic db f o keys all s).ev.filterMap keptOf)) ∧
    (plannedItems (install m ic db f o keys all s).ev ≠ [] →
      (install m ic db f o keys all s).ev.filterMap filterInput = squashResolutions (r.results.map Prod.snd) ∧
      (∀ i items e, .filter i items (.error e) ∈ (install m ic db f o keys all s).ev → e.isInstallerError = true)) ∧
    (∀ rep, (install m ic db f o keys all s).res = .ok rep → (r.errors = [] ∨ o.continueOnError = true) →
      ((∀ i items e, .filter i items (.error e) ∉ (install m ic db f o keys all s).ev) ∨ o.continueOnError = true) →
      (rep.installErrors = [] ∨ o.continueOnError = true) →
      plannedItems (install m ic db f o keys all s).ev = squashResolutions ((install m ic db f o keys all s).ev.filterMap keptOf)) := by
  have hrun := install_run m ic db f o keys all s
  have hret := install_returns m ic db f o keys all s
  generalize install m ic db f o keys all s = out at hrun hret
  have none : (∀ x ∈ out.ev, x.isCheck = true ∨ x.isFilter = true) →
      (plannedItems out.ev <+: squashResolutions (out.ev.filterMap keptOf)) ∧
      (plannedItems out.ev ≠ [] → out.ev.filterMap filterInput = squashResolutions (r.results.map Prod.snd) ∧
        (∀ i items e, .filter i items (.error e) ∈ out.ev → e.isInstallerError = true)) := by
    intro hev
    rw [(checks_neutral hev).2.2.1]
    exact ⟨by simp, by simp⟩
  cases hrun with
  | resolveRaised e h' hres hev => rw [hr] at h'; simp at h'
  | resolveErrors r' h' hne hc hres hev =>
    rw [hr] at h'; simp only [Except.ok.injEq] at h'; subst h'
    refine ⟨(none (by simp [hev])).1, (none (by simp [hev])).2, fun rep _ hor => ?_⟩
    rcases hor with h | h
    · exact absurd h hne
    · rw [hc] at h; simp at h
  | stopped r' h' hgo e hres hev => exact ⟨(none hev).1, (none hev).2, fun rep hrep => by rw [hres] at hrep; simp at hrep⟩
  | filterErrors r' h' hgo hre g F hg hF u errs hFr hne hc hres hev =>
    have hpre := ran_prefix (p := []) hg hF (by simp)
    rw [List.append_nil, ← hev] at hpre
    refine ⟨(none hpre).1, (none hpre).2, fun rep _ _ hor => ?_⟩
    exfalso
    rcases hor with hno | h
    · obtain ⟨_, _, h3, _⟩ := hF.result u errs hFr
      apply hne
      rw [h3, List.nil_append, List.filterMap_eq_nil_iff]
      intro x hx
      cases x with
      | filter i items r =>
        cases r with
        | ok rs => rfl
        | error e => exact absurd (by rw [hev]; exact List.mem_append_right _ hx) (hno i items e)
      | _ => rfl
    · rw [hc] at h; simp at h
  | ran r' h' hgo hre g p F L hg hF u errs hFr hok hp hL hres hev =>
    rw [hr] at h'; simp only [Except.ok.injEq] at h'; subst h'
    obtain ⟨hin, h2, _, hie⟩ := hF.result u errs hFr
    have e1 : g.filterMap keptOf = [] ∧ g.filterMap filterInput = [] := by
      constructor <;> (rw [List.filterMap_eq_nil_iff]; intro x hx; obtain ⟨n, r, rfl⟩ := hg x hx; rfl)
    have e2 : p.filterMap keptOf = [] ∧ p.filterMap filterInput = [] := by
      constructor <;> (rw [List.filterMap_eq_nil_iff]; intro x hx; obtain ⟨n, rs, r, rfl⟩ := hp x hx; rfl)
    have e3 : L.ev.filterMap keptOf = [] ∧ L.ev.filterMap filterInput = [] := by
      constructor
      · rw [List.filterMap_eq_nil_iff]; intro x hx; exact (not_filter_none (hL.onlyInstall x hx).2).1
      · rw [List.filterMap_eq_nil_iff]; intro x hx; exact (not_filter_none (hL.onlyInstall x hx).2).2
    have e4 : out.ev.filterMap keptOf = u := by
      rw [hev, List.filterMap_append, List.filterMap_append, List.filterMap_append, e1.1, e2.1, e3.1, h2]; simp
    have e5 : plannedItems out.ev = plannedItems L.ev := by
      rw [hev, plannedItems_append, (checks_neutral (ran_prefix hg hF hp)).2.2.1]; rfl
    refine ⟨by rw [e4, e5]; exact hL.itemsPlanned, fun _ => ⟨?_, ?_⟩, fun rep hrep _ _ hor => ?_⟩
    · rw [hev, List.filterMap_append, List.filterMap_append, List.filterMap_append, e1.2, e2.2, e3.2, hin]; simp
    · intro i items e hm
      rw [hev] at hm
      simp only [List.mem_append] at hm
      rcases hm with ((hm | hm) | hm) | hm
      · obtain ⟨n, r, hx⟩ := hg _ hm; simp at hx
      · exact hie _ _ _ hm
      · obtain ⟨n, rs, r, hx⟩ := hp _ hm; simp at hx
      · have := (hL.onlyInstall _ hm).2; simp [Event.isFilter] at this
    · rw [e4, e5]
      rw [hres] at hrep
      cases hLr : L.res with
      | error e => rw [hLr] at hrep; simp [Except.map] at hrep
      | ok le =>
        rw [hLr] at hrep; simp only [Except.map, Except.ok.injEq] at hrep; subst hrep
        obtain ⟨h6, _⟩ := hL.errors le hLr
        exact hL.allItems le hLr (by
          rcases hor with h | h
          · left; simp only at h; rw [h] at h6; exact h6.symm
          · exact Or.inr h)

/-! ## C37 -/

/-- **C37 (partial)** Resolve errors are always in the report; command failures and failed verifications as well (C34). Missing for the full
claim: failed installed-checks (refuted below). -/
theorem C37_resolve_errors_reported_partial (m : Machine σ) (ic : InstallerCtx σ) (db : Database) (f : Dict String (List String))
    (o : InstallOpts) (keys : List String) (all : Bool) (s : σ) (r : Resolved) (hr : resolve ic db f keys all = .ok r)
    (rep : InstallReport) (h : (install m ic db f o keys all s).res = .ok rep) : rep.resolveErrors = r.errors := by
  obtain ⟨_, _, r', h1, h2⟩ := install_returns m ic db f o keys all s rep h
  rw [hr] at h1; simp only [Except.ok.injEq] at h1; rw [h2, h1]

/-- **C37 refuted**, in general: whenever an installer's installed-check fails (and continue_on_error is off), an installation that
returns reports success — no errors of any kind — although it did not plan or execute any command. -/
theorem C37_failed_check_is_silent_success (m : Machine σ) (ic : InstallerCtx σ) (db : Database) (f : Dict String (List String))
    (o : InstallOpts) (keys : List String) (all : Bool) (s : σ) (hc : o.continueOnError = false)
    (rep : InstallReport) (h : (install m ic db f o keys all s).res = .ok rep) (i : String) (items : List Resolution) (e : Exc)
    (hf : .filter i items (.error e) ∈ (install m ic db f o keys all s).ev) :
    rep = ⟨[], []⟩ ∧ plannedItems (install m ic db f o keys all s).ev = [] ∧ executedOf (install m ic db f o keys all s).ev = [] := by
  have hr := install_run m ic db f o keys all s
  generalize install m ic db f o keys all s = out at h hr hf
  cases hr with
  | resolveRaised e h' hres hev => rw [hres] at h; simp at h
  | resolveErrors r h' hne hc hres hev => rw [hev] at hf; simp at hf
  | stopped r h' hgo e hres hev => rw [hres] at h; simp at h
  | filterErrors r h' hgo hre g F hg hF u errs hFr hne hc' hres hev =>
    rw [hres] at h; simp only [Except.ok.injEq] at h; subst h
    have := ran_prefix (p := []) hg hF (by simp)
    rw [List.append_nil, ← hev] at this
    refine ⟨?_, (checks_neutral this).2.2.1, (checks_neutral this).1⟩
    rcases hgo with hgo | hgo
    · rw [hgo]
    · rw [hc] at hgo; simp at hgo
  | ran r h' hgo hre g p F L hg hF u errs hFr hok hp hL hres hev =>
    exfalso
    obtain ⟨_, _, h3, _⟩ := hF.result u errs hFr
    have herr : errs = [] := by
      rcases hok with h | h
      · exact h
      · rw [hc] at h; simp at h
    rw [herr, List.nil_append] at h3
    have hmem : .filter i items (.error e) ∈ F.ev := by
      rw [hev] at hf
      simp only [List.mem_append] at hf
      rcases hf with ((hf | hf) | hf) | hf
      · obtain ⟨n, r, hx⟩ := hg _ hf; simp at hx
      · exact hf
      · obtain ⟨n, rs, r, hx⟩ := hp _ hf; simp at hx
      · have := (hL.onlyInstall _ hf).2; simp [Event.isFilter] at this
    have := List.filterMap_eq_nil_iff.1 h3.symm _ hmem
    simp [filterFailureOf] at this

/-- **C37 refuted**, with or without continue_on_error: a failed installed-check never makes it into the report. Whatever installed-checks
failed, an installation that returns after a resolve without errors reports success as long as every command it ran exited with 0 and every
item it verified afterwards was there. -/
theorem C37_check_failures_left_out (m : Machine σ) (ic : InstallerCtx σ) (db : Database) (f : Dict String (List String))
    (o : InstallOpts) (keys : List String) (all : Bool) (s : σ) (r : Resolved) (hr : resolve ic db f keys all = .ok r) (hre : r.errors = [])
    (rep : InstallReport) (h : (install m ic db f o keys all s).res = .ok rep)
    (hx : ∀ i c code, .exec i c (.ok code) ∈ (install m ic db f o keys all s).ev → code = 0)
    (hv : ∀ i item v, .probe i item v ∈ (install m ic db f o keys all s).ev → v = .ok true) : rep = ⟨[], []⟩ := by
  have h1 := (install_returns m ic db f o keys all s rep h).1
  have h2 := C37_resolve_errors_reported_partial m ic db f o keys all s r hr rep h
  have h3 : rep.installErrors = [] := by
    rw [h1, List.filterMap_eq_nil_iff]
    intro x hxm
    cases x with
    | exec i c v =>
      cases v with
      | error e => rfl
      | ok code => simp [failureOf, hx i c code hxm]
    | probe i item v => rw [hv i item v hxm]; rfl
    | _ => rfl
  obtain ⟨a, b⟩ := rep
  simp only at h2 h3
  rw [h2, h3, hre]

/-! ## C38 -/

/-- **C38 refuted**, for every context, database, request, machine and combination of other options: with reinstall an installation never
gets to execute or even plan a command; it either ends with the resolve errors or raises — UnboundLocalError if the general prerequisite
checks pass. -/
theorem C38_reinstall_never_works (m : Machine σ) (ic : InstallerCtx σ) (db : Database) (f : Dict String (List String))
    (o : InstallOpts) (keys : List String) (all : Bool) (s : σ) (hre : o.reinstall = true) :
    plannedItems (install m ic db f o keys all s).ev = [] ∧ executedOf (install m ic db f o keys all s).ev = [] ∧
    (∀ r, resolve ic db f keys all = .ok r → (r.errors = [] ∨ o.continueOnError = true) →
      (∃ e, (install m ic db f o keys all s).res = .error e) ∧
      ((checkGeneralPrerequisites ic (installerNames (squashResolutions (r.results.map Prod.snd))) o.fixPrerequisites o.interactive s).res = .ok () →
        (install m ic db f o keys all s).res = .error .unboundLocalError)) := by
  have hr := install_run m ic db f o keys all s
  refine ⟨?_, ?_, ?_⟩
  · cases hr with
    | resolveRaised e h' hres hev => rw [hev]; rfl
    | resolveErrors r h' hne hc hres hev => rw [hev]; rfl
    | stopped r h' hgo e hres hev => exact (checks_neutral hev).2.2.1
    | filterErrors r h' hgo hre' g F hg hF u errs hFr hne hc' hres hev => rw [hre] at hre'; simp at hre'
    | ran r h' hgo hre' g p F L hg hF u errs hFr hok hp hL hres hev => rw [hre] at hre'; simp at hre'
  · cases hr with
    | resolveRaised e h' hres hev => rw [hev]; rfl
    | resolveErrors r h' hne hc hres hev => rw [hev]; rfl
    | stopped r h' hgo e hres hev => exact (checks_neutral hev).1
    | filterErrors r h' hgo hre' g F hg hF u errs hFr hne hc' hres hev => rw [hre] at hre'; simp at hre'
    | ran r h' hgo hre' g p F L hg hF u errs hFr hok hp hL hres hev => rw [hre] at hre'; simp at hre'
  · intro r h' hgo
    have hcond : ¬ (r.errors.length ≠ 0 ∧ o.continueOnError = false) := by
      rintro ⟨h1, h2⟩
      rcases hgo with h | h
      · simp [h] at h1
      · rw [h2] at h; simp at h
    have e1 : install m ic db f o keys all s = installAfterResolve m ic o r s := by
      unfold install; rw [h']; simp only [lift_ok_run]; rw [if_neg hcond]
    rw [e1]
    unfold installAfterResolve
    simp only [hre, if_true]
    rw [bind_run]
    cases hG : (checkGeneralPrerequisites ic (installerNames (squashResolutions (r.results.map Prod.snd))) o.fixPrerequisites o.interactive s).res with
    | error e => exact ⟨⟨e, rfl⟩, by simp⟩
    | ok u => exact ⟨⟨_, rfl⟩, fun _ => rfl⟩

end Verif
