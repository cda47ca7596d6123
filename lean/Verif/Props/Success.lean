import Verif.Props.InstallTrace
/-! # C102: an installation without errors means that what was asked for is installed -/
namespace Verif
variable {σ : Type}

/-- What is expected of the plugins and the machine: the filter leaves out only what is installed; there are commands for what is to be installed;
and nothing that happens makes an installed item uninstalled. -/
structure Honest (m : Machine σ) (ic : InstallerCtx σ) (o : InstallOpts) : Prop where
  filter : ∀ i ∈ ic.plugins, ∀ rs s u s', i.filterUninstalled rs s = (.ok u, s') → ∀ x ∈ rs, x ∉ u → (i.isInstalled x s').1 = .ok true
  commands : ∀ i ∈ ic.plugins, ∀ rs a b s s', i.getInstallCommands rs a b s = (.ok [], s') → rs = []
  stays : ∀ n x e s1 s2, Does m ic o s1 e s2 → SaysInstalled ic n x s1 → SaysInstalled ic n x s2

/-- The filter of no plugin gives up with an InstallerError. -/
def FiltersWork (ic : InstallerCtx σ) : Prop := ∀ i ∈ ic.plugins, ∀ rs s e s', i.filterUninstalled rs s = (.error e, s') → e.isInstallerError = false

theorem squash_mem {l : List (String × List Resolution)} {n : String} {rs : List Resolution} (h : (n, rs) ∈ l) {x : Resolution} (hx : x ∈ rs) :
    ∃ rs', (n, rs') ∈ squashResolutions l ∧ x ∈ rs' := by
  have : (n, x) ∈ (squashResolutions l).flatMap (fun g => g.2.map fun r => (g.1, r)) := by
    rw [C31_order_kept]
    exact List.mem_flatMap.2 ⟨_, h, List.mem_map.2 ⟨x, hx, rfl⟩⟩
  obtain ⟨⟨n', rs'⟩, h1, h2⟩ := List.mem_flatMap.1 this
  obtain ⟨x', h3, h4⟩ := List.mem_map.1 h2
  injection h4 with e1 e2
  subst e1 e2
  exact ⟨rs', h1, h3⟩

theorem lookup_mem {ic : InstallerCtx σ} {n : String} {i : Installer σ} (h : lookupInstaller ic n = some i) : i ∈ ic.plugins :=
  List.mem_of_find?_eq_some h

theorem Replays.stays {m : Machine σ} {ic : InstallerCtx σ} {o : InstallOpts} {n : String} {x : Resolution}
    (h : ∀ e s1 s2, Does m ic o s1 e s2 → SaysInstalled ic n x s1 → SaysInstalled ic n x s2) {a b : σ} {l : List Event}
    (hr : Replays m ic o a l b) (ha : SaysInstalled ic n x a) : SaysInstalled ic n x b := by
  induction hr with
  | nil => exact ha
  | cons hd _ ih => exact ih (h _ _ _ hd ha)

theorem clean_plan {groups : List (String × List Resolution)} {cmds : List (List Cmd)} (hl : cmds.length = groups.length) {n : String}
    {rs : List Resolution} (h : (n, rs) ∈ groups) : ∃ cs, .plan n rs (.ok cs) ∈ cleanGroups groups cmds := by
  induction groups generalizing cmds with
  | nil => simp at h
  | cons g t ih =>
    cases cmds with
    | nil => simp at hl
    | cons c cs =>
      obtain ⟨n', rs'⟩ := g
      simp only [List.length_cons, Nat.add_right_cancel_iff] at hl
      rcases List.mem_cons.1 h with e | h
      · injection e with e1 e2
        subst e1 e2
        refine ⟨c, ?_⟩
        simp only [cleanGroups, List.mem_append]
        left
        unfold cleanGroup
        split
        · rename_i hc; simp [hc]
        · simp
      · obtain ⟨d, hd⟩ := ih hl h
        exact ⟨d, by simp only [cleanGroups, List.mem_append]; exact .inr hd⟩

/-- **C102** If an installation that is not simulated returns without an error of either kind, then every requested key was resolved, and in the
final state of the machine every resolution of every one of them is installed, according to the installer that serves it. The plugins are expected
to be honest, and their installed-checks not to fail (unless continue_on_error is set): otherwise the claim is false, see C37. -/
theorem C102_no_errors_means_installed_partial (m : Machine σ) (ic : InstallerCtx σ) (db : Database) (f : Dict String (List String))
    (o : InstallOpts) (keys : List String) (all : Bool) (s : σ) (hs : o.simulate = false) (hh : Honest m ic o)
    (hf : o.continueOnError = true ∨ FiltersWork ic) (h : (install m ic db f o keys all s).res = .ok ⟨[], []⟩) :
    ∃ r, resolve ic db f keys all = .ok r ∧ r.errors = [] ∧ (∀ k ∈ keys, k ∈ r.results.map Prod.fst) ∧
      (all = true → ∀ ks, db.keys = .ok ks → ∀ k ∈ ks, k ∈ r.results.map Prod.fst) ∧
      ∀ k n items, (k, n, items) ∈ r.results → ∀ x ∈ items, SaysInstalled ic n x (install m ic db f o keys all s).st := by
  have hend := C35_installed_at_the_end m ic db f o keys all s hs h hh.stays
  have hrep := C75_events_account_for_everything m ic db f o keys all s
  have hr := install_run m ic db f o keys all s
  obtain ⟨_, _, r0, hr0, hre0⟩ := install_returns m ic db f o keys all s _ h
  simp only at hre0
  obtain ⟨req, hq, _, _, hpart⟩ := C27_partition ic db f keys all r0 hr0
  have hreq : ∀ k ∈ req, k ∈ r0.results.map Prod.fst := by
    intro k hk
    rcases hpart k hk with ⟨h1, _⟩ | ⟨_, h1⟩
    · exact h1
    · rw [← hre0] at h1; simp at h1
  refine ⟨r0, hr0, hre0.symm, ?_, ?_, ?_⟩
  · intro k hk
    apply hreq
    unfold RequestedKeys at hq
    split at hq
    · obtain ⟨ks, sorted, _, _, _, rfl⟩ := hq
      exact List.mem_append_left _ hk
    · rw [hq]; exact hk
  · intro ha ks hks k hk
    apply hreq
    unfold RequestedKeys at hq
    rw [if_pos ha] at hq
    obtain ⟨ks', sorted, h1, h2, _, rfl⟩ := hq
    rw [hks] at h1; injection h1 with h1; subst h1
    exact List.mem_append_right _ (h2.mem_iff.2 hk)
  · intro k n items hm x hx
    generalize install m ic db f o keys all s = out at h hr hend hrep
    -- which filter call had the item
    obtain ⟨grp, hgrp, hxg⟩ := squash_mem (l := r0.results.map Prod.snd) (n := n) (rs := items) (List.mem_map.2 ⟨_, hm, rfl⟩) hx
    cases hr with
    | resolveRaised e h' hres hev => rw [hres] at h; simp at h
    | resolveErrors r h' hne hc hres hev => rw [hres] at h; simp only [Except.ok.injEq, InstallReport.mk.injEq] at h; exact absurd h.1 hne
    | stopped r h' hgo e hres hev => rw [hres] at h; simp at h
    | filterErrors r h' hgo hre g F hg hF u errs hFr hne hc hres hev =>
      exfalso
      rw [hc] at hf
      simp only [Bool.false_eq_true, false_or] at hf
      obtain ⟨_, _, h3, h4⟩ := hF.result u errs hFr
      apply hne
      rw [h3, List.nil_append, List.filterMap_eq_nil_iff]
      intro y hy
      cases y with
      | filter i its r =>
        cases r with
        | ok rs => rfl
        | error e =>
          have hin : .filter i its (.error e) ∈ out.ev := by rw [hev]; exact List.mem_append_right _ hy
          obtain ⟨s1, s2, hd⟩ := hrep.mem hin
          cases hd with
          | filter hl hc' =>
            have := hf _ (lookup_mem hl) _ _ _ _ hc'
            rw [h4 i its e hy] at this
            simp at this
      | _ => rfl
    | ran r h' hgo hre g p F L hg hF u errs hFr hok hp hL hres hev hg' hp' =>
      rw [hr0] at h'; injection h' with h'; subst h'
      rw [hres] at h
      cases hLr : L.res with
      | error e => rw [hLr] at h; simp [Except.map] at h
      | ok le =>
        rw [hLr] at h; simp only [Except.map, Except.ok.injEq, InstallReport.mk.injEq] at h
        obtain ⟨h6, _⟩ := hL.errors le hLr
        obtain ⟨cmds, h7, h8⟩ := hL.clean hs le hLr (by rw [← List.nil_append (List.filterMap _ _), ← h6]; exact h.2)
        obtain ⟨hin, hkept, herrs, hie⟩ := hF.result u errs hFr
        rw [List.nil_append] at hkept herrs
        -- an item that was kept is planned and verified
        have kept : ∀ its, (n, its) ∈ u → x ∈ its → SaysInstalled ic n x out.st := by
          intro its hu hxi
          obtain ⟨its', hsq, hxi'⟩ := squash_mem hu hxi
          obtain ⟨cs, hcs⟩ := clean_plan h7 hsq
          have hpl : .plan n its' (.ok cs) ∈ out.ev := by rw [hev, h8]; exact List.mem_append_right _ hcs
          cases cs with
          | cons c cs => exact hend n its' c cs hpl x hxi'
          | nil =>
            exfalso
            obtain ⟨s1, s2, hd⟩ := hrep.mem hpl
            cases hd with
            | plan hl hc =>
              have := hh.commands _ (lookup_mem hl) _ _ _ _ _ hc
              rw [this] at hxi'; simp at hxi'
        have hmem : (n, grp) ∈ F.ev.filterMap filterInput := by rw [hin]; exact hgrp
        obtain ⟨ev, hev1, hev2⟩ := List.mem_filterMap.1 hmem
        cases ev with
        | filter i its res =>
          simp only [filterInput, Option.some.injEq, Prod.mk.injEq] at hev2
          obtain ⟨rfl, rfl⟩ := hev2
          have hall : .filter i its res ∈ out.ev := by
            rw [hev]; exact List.mem_append_left _ (List.mem_append_left _ (List.mem_append_right _ hev1))
          cases res with
          | error e =>
            refine kept its ?_ hxg
            rw [hkept]
            refine List.mem_filterMap.2 ⟨_, hev1, ?_⟩
            simp only [keptOf]
            rw [if_neg]
            intro e0; rw [e0] at hxg; simp at hxg
          | ok v =>
            by_cases hxv : x ∈ v
            · refine kept v ?_ hxv
              rw [hkept]
              refine List.mem_filterMap.2 ⟨_, hev1, ?_⟩
              simp only [keptOf]
              rw [if_neg]
              intro e0; rw [e0] at hxv; simp at hxv
            · obtain ⟨pre, post, hsplit⟩ := List.append_of_mem hall
              rw [hsplit] at hrep
              obtain ⟨s1, _, h5⟩ := hrep.split
              cases h5 with
              | cons hd hrest =>
                refine hrest.stays (fun e s1 s2 => hh.stays i x e s1 s2) ?_
                cases hd with
                | filter hl hc => exact ⟨_, hl, hh.filter _ (lookup_mem hl) _ _ _ _ hc x hxg hxv⟩
        | _ => simp [filterInput] at hev2

/-! ### Non-vacuity -/

/-- The example installer without the package it cannot check. -/
def surely : Installer (List String) := { toy with filterUninstalled := fun rs s => (.ok (rs.filter fun r => !s.contains (toyPkg r)), s) }

/-- The example context with it. -/
def surelyIc : InstallerCtx (List String) := { toyIc with plugins := [surely], core := [surely] }

/-- An installer that differs from it only in its name and in how it resolves rules. -/
def Surely (i : Installer (List String)) : Prop := ∃ n f, i = { surely with name := n, resolve := f }

theorem surely_honest {ic : InstallerCtx (List String)} (h : ∀ i ∈ ic.plugins, Surely i) (o : InstallOpts) : Honest toyMachine ic o where
  filter i hi rs s u s' hf x hx hxu := by
    obtain ⟨n, f, rfl⟩ := h i hi
    simp only [surely, Prod.mk.injEq, Except.ok.injEq] at hf
    obtain ⟨rfl, rfl⟩ := hf
    simp only [List.mem_filter, Bool.not_eq_true', not_and, Bool.not_eq_false] at hxu
    show Except.ok (s.contains (toyPkg x)) = _
    rw [hxu hx]
  commands i hi rs a b s s' hf := by
    obtain ⟨n, f, rfl⟩ := h i hi
    simp only [surely, toy, Prod.mk.injEq] at hf
    obtain ⟨hf, _⟩ := hf
    split at hf
    · simp at hf
    · simpa using hf
  stays n x e s1 s2 hd hi := by
    have hsub : ∀ a ∈ s1, a ∈ s2 := by
      intro a ha
      cases hd with
      | plan hl hc => obtain ⟨n, f, rfl⟩ := h _ (lookup_mem hl); cases hc; exact ha
      | exec hc =>
        simp only [toyMachine, toyCall] at hc
        split at hc <;> cases hc <;> first | exact ha | exact List.mem_append_left _ ha
      | probe hl hc => obtain ⟨n, f, rfl⟩ := h _ (lookup_mem hl); cases hc; exact ha
      | filter hl hc => obtain ⟨n, f, rfl⟩ := h _ (lookup_mem hl); cases hc; exact ha
      | general hl _ hc =>
        obtain ⟨n, f, rfl⟩ := h _ (lookup_mem hl)
        cases hc
        show a ∈ (if o.fixPrerequisites = true then s1 ++ ["manager"] else s1)
        split
        · exact List.mem_append_left _ ha
        · exact ha
      | prereq hl _ hc => obtain ⟨n, f, rfl⟩ := h _ (lookup_mem hl); cases hc; exact ha
      | heading => exact ha
      | shown => exact ha
    obtain ⟨i, hl, hs⟩ := hi
    refine ⟨i, hl, ?_⟩
    obtain ⟨n, f, rfl⟩ := h _ (lookup_mem hl)
    simp only [surely, toy, Except.ok.injEq, List.contains_iff_mem] at hs ⊢
    exact hsub _ hs

theorem surely_filters {ic : InstallerCtx (List String)} (h : ∀ i ∈ ic.plugins, Surely i) : FiltersWork ic := by
  intro i hi rs s e s' hf
  obtain ⟨n, f, rfl⟩ := h i hi
  simp [surely] at hf

theorem surely_plugins : ∀ i ∈ surelyIc.plugins, Surely i := by
  intro i hi
  simp only [surelyIc, List.mem_singleton] at hi
  subst hi
  exact ⟨_, _, rfl⟩

/-- Two packages to install, one already there. -/
example : Honest toyMachine surelyIc {} ∧ FiltersWork surelyIc ∧
    (install toyMachine surelyIc toyDb [] {} ["a", "b", "c"] false ["b"]).res = .ok ⟨[], []⟩ ∧
    (install toyMachine surelyIc toyDb [] {} ["a", "b", "c"] false ["b"]).st = ["b", "a", "c"] :=
  ⟨surely_honest surely_plugins {}, surely_filters surely_plugins, rfl, rfl⟩

/-- **C102 refuted** without the expectation on installed-checks: when a check fails, the installation returns without any error, yet a requested
key, resolved without errors, is not installed afterwards. -/
theorem C102_failed_check_refuted : (install toyMachine toyIc toyDb [] {} ["a", "weird"] false []).res = .ok ⟨[], []⟩ ∧
    (∃ r, resolve toyIc toyDb [] ["a", "weird"] false = .ok r ∧ r.errors = [] ∧ ("a", "toy", [toyRes "a"]) ∈ r.results) ∧
    ¬ SaysInstalled toyIc "toy" (toyRes "a") (install toyMachine toyIc toyDb [] {} ["a", "weird"] false []).st := by
  refine ⟨rfl, ⟨_, rfl, rfl, List.Mem.head _⟩, ?_⟩
  rintro ⟨i, hl, hi⟩
  have : i = toy := (Option.some.inj hl).symm
  subst this
  exact absurd hi (by decide +kernel)

/-- The example installer, but it has no commands for anything. -/
def lazy : Installer (List String) := { surely with getInstallCommands := fun _ _ _ s => (.ok [], s) }
/-- The example context with it. -/
def lazyIc : InstallerCtx (List String) := { toyIc with plugins := [lazy], core := [lazy] }

/-- **C102 refuted** without the expectation on commands: an installer that has no command for what is to be installed makes the installation succeed
without doing anything. -/
theorem C102_no_commands_refuted : (install toyMachine lazyIc toyDb [] {} ["a"] false []).res = .ok ⟨[], []⟩ ∧
    (∃ r, resolve lazyIc toyDb [] ["a"] false = .ok r ∧ r.errors = [] ∧ ("a", "toy", [toyRes "a"]) ∈ r.results) ∧
    ¬ SaysInstalled lazyIc "toy" (toyRes "a") (install toyMachine lazyIc toyDb [] {} ["a"] false []).st := by
  refine ⟨rfl, ⟨_, rfl, rfl, List.Mem.head _⟩, ?_⟩
  rintro ⟨i, hl, hi⟩
  have : i = lazy := (Option.some.inj hl).symm
  subst this
  exact absurd hi (by decide +kernel)

end Verif
