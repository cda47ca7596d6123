import Verif.Props.SuccessShipped
/-! # C121: installing what is installed does nothing -/
namespace Verif
variable {σ : Type}

/-- The filter of every plugin leaves out what is installed: what it returns are items it was given that are not installed. -/
def FiltersExact (ic : InstallerCtx σ) : Prop :=
  ∀ i ∈ ic.plugins, ∀ rs s u s', i.filterUninstalled rs s = (.ok u, s') → ∀ x ∈ u, x ∈ rs ∧ (i.isInstalled x s).1 ≠ .ok true

/-- Nothing that happens during an installation with options `o` makes an installed item uninstalled. -/
def Lasts (m : Machine σ) (ic : InstallerCtx σ) (o : InstallOpts) : Prop :=
  ∀ n x e s1 s2, Does m ic o s1 e s2 → SaysInstalled ic n x s1 → SaysInstalled ic n x s2

/-- An installation that had nothing to do: it asked the installers for their general prerequisites and which items are not installed, and nothing
else. It returned without errors, unless one of these questions ended in an exception. -/
structure NothingDone (fix : Bool) (out : Out σ InstallReport) : Prop where
  onlyAsked : ∀ e ∈ out.ev, (∃ n a, e = .general n fix a) ∨ ∃ n items a, e = .filter n items a
  allInstalled : ∀ n items u, .filter n items (.ok u) ∈ out.ev → u = []
  ending : out.res = .ok ⟨[], []⟩ ∨ ∃ e, (∃ n, .general n fix (.error e) ∈ out.ev ∧ out.res = .error e) ∨
    ∃ n items, .filter n items (.error e) ∈ out.ev ∧ out.res = .error (if e.isException then .xylemInternalError else e)

theorem general_loop_error {ic : InstallerCtx σ} {os : OsTuple} {fix inter : Bool} {names : List String}
    (hl : ∀ n ∈ names, ∃ i, lookupInstaller ic n = some i) {s : σ} {e : Exc} (h : (checkGeneralLoop ic os fix inter names s).res = .error e) :
    ∃ n, .general n fix (.error e) ∈ (checkGeneralLoop ic os fix inter names s).ev := by
  induction names generalizing s with
  | nil => cases h
  | cons n t ih =>
    obtain ⟨i, hi⟩ := hl n (by simp)
    have hreq : requireInstaller ic n = .ok i := by unfold requireInstaller; rw [hi]
    have step : ∀ s, checkGeneralLoop ic os fix inter (n :: t) s =
        ((Prog.lift (i.checkGeneral os fix inter s).1 >>= fun _ => checkGeneralLoop ic os fix inter t) (i.checkGeneral os fix inter s).2).prepend
          [.general n fix (i.checkGeneral os fix inter s).1] := by
      intro s
      rw [checkGeneralLoop, hreq, lift_ok_run, attempt_run]
    rw [step] at h ⊢
    cases hc : (i.checkGeneral os fix inter s).1 with
    | error e' =>
      rw [hc] at h
      cases h
      exact ⟨n, List.mem_cons_self ..⟩
    | ok _ =>
      rw [hc] at h
      simp only [lift_ok_run, Out.prepend_res] at h
      obtain ⟨n', hm⟩ := ih (fun n hn => hl n (List.mem_cons_of_mem _ hn)) h
      exact ⟨n', List.mem_cons_of_mem _ hm⟩

/-- Filtering when everything is installed. -/
theorem filter_all_installed {m : Machine σ} {ic : InstallerCtx σ} {o : InstallOpts} (hst : Lasts m ic o) (hx : FiltersExact ic)
    (hw : FiltersWork ic) {l : List (String × List Resolution)} (hl : ∀ g ∈ l, ∃ i, lookupInstaller ic g.1 = some i) {s : σ}
    (hi : ∀ g ∈ l, ∀ x ∈ g.2, SaysInstalled ic g.1 x s) :
    (∀ n items u, .filter n items (.ok u) ∈ (filterLoop ic [] [] l s).ev → u = []) ∧
    ((filterLoop ic [] [] l s).res = .ok ([], []) ∨ ∃ e n items, .filter n items (.error e) ∈ (filterLoop ic [] [] l s).ev ∧
      (filterLoop ic [] [] l s).res = .error (if e.isException then .xylemInternalError else e)) := by
  induction l generalizing s with
  | nil => exact ⟨fun n items u h => (List.not_mem_nil h).elim, .inl rfl⟩
  | cons g t ih =>
    obtain ⟨n, rs⟩ := g
    obtain ⟨i, hli⟩ := hl (n, rs) (by simp)
    simp only at hli
    have hreq : requireInstaller ic n = .ok i := by unfold requireInstaller; rw [hli]
    have him := lookup_mem hli
    rcases hc : i.filterUninstalled rs s with ⟨out, s'⟩
    have hdoes : Does m ic o s (.filter n rs out) s' := .filter hli hc
    have hit : ∀ g ∈ t, ∀ x ∈ g.2, SaysInstalled ic g.1 x s' := fun g hg x hxg =>
      hst _ _ _ _ _ hdoes (hi g (List.mem_cons_of_mem _ hg) x hxg)
    have hlt : ∀ g ∈ t, ∃ i, lookupInstaller ic g.1 = some i := fun g hg => hl g (List.mem_cons_of_mem _ hg)
    obtain ⟨ih1, ih2⟩ := ih hlt hit
    cases out with
    | ok u =>
      have hu : u = [] := by
        cases u with
        | nil => rfl
        | cons x u =>
          obtain ⟨h1, h2⟩ := hx i him rs s _ s' hc x (by simp)
          obtain ⟨j, hj, hj'⟩ := hi (n, rs) (by simp) x h1
          have e := hli.symm.trans hj
          injection e with e
          subst e
          exact absurd hj' h2
      subst hu
      have step : filterLoop ic [] [] ((n, rs) :: t) s = (filterLoop ic [] [] t s').prepend [.filter n rs (.ok [])] := by
        rw [filterLoop, hreq, lift_ok_run, attempt_run, hc]
        rfl
      rw [step]
      refine ⟨?_, ?_⟩
      · intro n' items u hm
        rcases List.mem_cons.1 (show _ ∈ _ :: _ from hm) with h | h
        · injection h with _ _ h; injection h
        · exact ih1 _ _ _ h
      · rcases ih2 with h | ⟨e, n', items, h1, h2⟩
        · exact .inl h
        · exact .inr ⟨e, n', items, List.mem_cons_of_mem _ h1, h2⟩
    | error e =>
      have hne := hw i him rs s e s' hc
      have step : filterLoop ic [] [] ((n, rs) :: t) s = ⟨.error (unexpected e), s', [.filter n rs (.error e)]⟩ := by
        rw [filterLoop, hreq, lift_ok_run, attempt_run, hc]
        simp only [hne, Bool.false_eq_true, if_false]
        rfl
      rw [step]
      refine ⟨?_, .inr ⟨e, n, rs, by simp, rfl⟩⟩
      intro n' items u hm
      simp at hm

/-- **C121** If every key resolves and every resolution is installed, according to the installer that serves it, then an installation (with any options
except `reinstall`) plans nothing, executes nothing, shows nothing and verifies nothing: it only asks for general prerequisites and for what is not
installed, and ends without errors unless a plugin raises on being asked. -/
theorem C121_nothing_to_install (m : Machine σ) (ic : InstallerCtx σ) (db : Database) (f : Dict String (List String)) (o : InstallOpts)
    (keys : List String) (all : Bool) (s : σ) (hre : o.reinstall = false) (horder : ∀ d, (m.dictOrder d).Perm d) (hst : Lasts m ic o)
    (hx : FiltersExact ic) (hw : FiltersWork ic) {os : OsTuple} (hos : ic.osTuple = .ok os) {r : Resolved}
    (hr : resolve ic db f keys all = .ok r) (hno : r.errors = [])
    (hl : ∀ k n items, (k, n, items) ∈ r.results → ∃ i, lookupInstaller ic n = some i)
    (hi : ∀ k n items, (k, n, items) ∈ r.results → ∀ x ∈ items, SaysInstalled ic n x s) :
    NothingDone o.fixPrerequisites (install m ic db f o keys all s) := by
  have hgrp : ∀ g ∈ squashResolutions (r.results.map Prod.snd), (∃ i, lookupInstaller ic g.1 = some i) ∧ ∀ x ∈ g.2, SaysInstalled ic g.1 x s := by
    intro g hg
    obtain ⟨bs, h1, h2, _⟩ := C31_grouping (r.results.map Prod.snd)
    have hall : ∀ p ∈ bs.flatten, (∃ i, lookupInstaller ic p.1 = some i) ∧ ∀ x ∈ p.2, SaysInstalled ic p.1 x s := by
      intro p hp
      rw [← h1] at hp
      obtain ⟨⟨k, n, items⟩, hk, rfl⟩ := List.mem_map.1 hp
      exact ⟨hl k n items hk, hi k n items hk⟩
    clear h1 hi hl
    generalize squashResolutions (r.results.map Prod.snd) = gs at hg h2
    induction bs generalizing gs with
    | nil => cases gs with
      | nil => cases hg
      | cons _ _ => exact h2.elim
    | cons b bs ih => cases gs with
      | nil => cases hg
      | cons g' gs =>
        rcases List.mem_cons.1 hg with rfl | hg
        · obtain ⟨hne, hb, hg2⟩ := h2.1
          obtain ⟨p, t, rfl⟩ := List.exists_cons_of_ne_nil hne
          refine ⟨?_, ?_⟩
          · rw [← hb p (by simp)]
            exact (hall p (by simp)).1
          · intro x hxg
            rw [hg2] at hxg
            obtain ⟨l, hl1, hl2⟩ := List.mem_flatten.1 hxg
            obtain ⟨q, hq, rfl⟩ := List.mem_map.1 hl1
            rw [← hb q hq]
            exact (hall q (List.mem_flatten.2 ⟨_, List.mem_cons_self .., hq⟩)).2 x hl2
        · exact ih (fun p hp => hall p (by simp only [List.flatten_cons, List.mem_append]; exact .inr hp)) gs hg h2.2
  unfold install
  rw [hr, lift_ok_run, if_neg (by simp [hno])]
  unfold installAfterResolve
  generalize squashResolutions (r.results.map Prod.snd) = groups at hgrp
  have hnames : ∀ n ∈ installerNames groups, ∃ i, lookupInstaller ic n = some i := by
    intro n hn
    have : n ∈ groups.map Prod.fst := by
      have := (C41_remove_duplicates (groups.map Prod.fst)).1 n
      exact this.1 hn
    obtain ⟨g, hg, rfl⟩ := List.mem_map.1 this
    exact (hgrp g hg).1
  have hG0 : checkGeneralPrerequisites ic (installerNames groups) o.fixPrerequisites o.interactive s =
      checkGeneralLoop ic os o.fixPrerequisites o.interactive (installerNames groups) s := by
    unfold checkGeneralPrerequisites
    rw [hos, lift_ok_run]
  have hge := checkGeneral_events ic o.fixPrerequisites o.interactive (installerNames groups) s
  have hrep := faithful_checkGeneralLoop (m := m) (o := o) hos (installerNames groups) s
  have herr := @general_loop_error σ ic os o.fixPrerequisites o.interactive (installerNames groups) hnames s
  have hgev : ∀ (e : Prop) n items u, .filter n items (.ok u) ∈ (checkGeneralLoop ic os o.fixPrerequisites o.interactive (installerNames groups) s).ev → e := by
    intro e n items u hm
    rw [← hG0] at hm
    obtain ⟨_, _, h⟩ := hge _ hm
    cases h
  rw [bind_run, hG0]
  rw [hG0] at hge
  generalize checkGeneralLoop ic os o.fixPrerequisites o.interactive (installerNames groups) s = G at hge hrep herr hgev
  cases hGr : G.res with
  | error e =>
    obtain ⟨n, hn⟩ := herr hGr
    exact ⟨fun x hx => .inl (hge x hx), fun n items u h => hgev _ n items u h, .inr ⟨e, .inl ⟨n, hn, rfl⟩⟩⟩
  | ok _ =>
    simp only [hre, Bool.false_eq_true, if_false]
    have hgs : ∀ g ∈ groups, ∀ x ∈ g.2, SaysInstalled ic g.1 x G.st := fun g hg x hxg =>
      Replays.stays (fun e s1 s2 hd => hst _ _ e s1 s2 hd) hrep ((hgrp g hg).2 x hxg)
    obtain ⟨f1, f2⟩ := filter_all_installed hst hx hw (fun g hg => (hgrp g hg).1) hgs
    have hfe := (filterLoop_ran ic groups [] [] G.st).events
    rw [bind_run]
    unfold filterUninstalled
    generalize filterLoop ic [] [] groups G.st = F at f1 f2 hfe
    have hfev : ∀ x ∈ F.ev, ∃ n items a, x = .filter n items a := by
      intro x hx
      have := hfe x hx
      cases x <;> first | exact ⟨_, _, _, rfl⟩ | cases this
    have hevs : ∀ x ∈ G.ev ++ F.ev, (∃ n a, x = .general n o.fixPrerequisites a) ∨ ∃ n items a, x = .filter n items a := by
      intro x hx
      rcases List.mem_append.1 hx with hx | hx
      · exact .inl (hge x hx)
      · exact .inr (hfev x hx)
    have hall : ∀ n items u, .filter n items (.ok u) ∈ G.ev ++ F.ev → u = [] := by
      intro n items u hx
      rcases List.mem_append.1 hx with hx | hx
      · exact hgev _ n items u hx
      · exact f1 n items u hx
    rcases f2 with h | ⟨e, n, items, h1, h2⟩
    · simp only [h, List.length_nil, ne_eq, not_true_eq_false, false_and, if_false]
      have hord : m.dictOrder (mapResolutions []) = [] := (horder []).eq_nil
      have hp : installPlanned m ic o r.errors [] F.st = ⟨.ok ⟨[], []⟩, F.st, []⟩ := by
        unfold installPlanned
        rw [hord, hno]
        unfold checkInstallPrerequisites
        rw [bind_run, hos, lift_ok_run]
        rfl
      rw [hp]
      simp only [Out.prepend, List.append_nil]
      exact ⟨hevs, hall, .inl rfl⟩
    · simp only [h2, Out.prepend]
      exact ⟨hevs, hall, .inr ⟨e, .inr ⟨n, items, List.mem_append_right _ h1, rfl⟩⟩⟩

theorem squash_name {l : List (String × List Resolution)} {n : String} {rs : List Resolution} (h : (n, rs) ∈ l) :
    n ∈ installerNames (squashResolutions l) := by
  refine ((C41_remove_duplicates ((squashResolutions l).map Prod.fst)).1 n).2 ?_
  obtain ⟨bs, h1, h2, _⟩ := C31_grouping l
  rw [h1] at h
  generalize squashResolutions l = gs at h2
  clear h1
  induction bs generalizing gs with
  | nil => cases h
  | cons b bs ih => cases gs with
    | nil => exact h2.elim
    | cons g gs =>
      rcases List.mem_append.1 (show (n, rs) ∈ b ++ bs.flatten by simpa using h) with h | h
      · exact List.mem_cons.2 (.inl (h2.1.2.1 _ h))
      · exact List.mem_cons_of_mem _ (ih h gs h2.2)

/-- An installation that returned had an operating system, and all installers. -/
theorem install_ok_context {m : Machine σ} {ic : InstallerCtx σ} {db : Database} {f : Dict String (List String)} {o : InstallOpts}
    {keys : List String} {all : Bool} {s : σ} {r : Resolved} (hr : resolve ic db f keys all = .ok r) (hno : r.errors = []) {rep : InstallReport}
    (h : (install m ic db f o keys all s).res = .ok rep) :
    (∃ os, ic.osTuple = .ok os) ∧ ∀ k n items, (k, n, items) ∈ r.results → ∃ i, lookupInstaller ic n = some i := by
  have hos : ∃ os, ic.osTuple = .ok os := by
    unfold install at h
    rw [hr, lift_ok_run, if_neg (by simp [hno])] at h
    unfold installAfterResolve checkGeneralPrerequisites at h
    cases ho : ic.osTuple with
    | ok os => exact ⟨os, rfl⟩
    | error e =>
      rw [bind_run, ho, lift_error_run] at h
      cases h
  refine ⟨hos, fun k n items hm => ?_⟩
  obtain ⟨os, hos⟩ := hos
  have hn := squash_name (l := r.results.map Prod.snd) (List.mem_map.2 ⟨_, hm, rfl⟩)
  unfold install at h
  rw [hr, lift_ok_run, if_neg (by simp [hno])] at h
  unfold installAfterResolve checkGeneralPrerequisites at h
  generalize squashResolutions (r.results.map Prod.snd) = groups at h hn
  rw [bind_run, hos, lift_ok_run] at h
  have key : ∀ (names : List String) (s : σ), n ∈ names → (checkGeneralLoop ic os o.fixPrerequisites o.interactive names s).res = .ok () →
      ∃ i, lookupInstaller ic n = some i := by
    intro names
    induction names with
    | nil => intro _ h; cases h
    | cons n' t ih =>
      intro s hm hres
      rw [checkGeneralLoop] at hres
      cases hq : requireInstaller ic n' with
      | error e => rw [hq, lift_error_run] at hres; cases hres
      | ok i =>
        rw [hq, lift_ok_run, attempt_run] at hres
        rcases List.mem_cons.1 hm with rfl | hm
        · exact ⟨i, require_ok hq⟩
        · cases hc : (i.checkGeneral os o.fixPrerequisites o.interactive s).1 with
          | error e => rw [hc] at hres; cases hres
          | ok _ => rw [hc] at hres; exact ih _ hm hres
  cases hG : (checkGeneralLoop ic os o.fixPrerequisites o.interactive (installerNames groups) s).res with
  | error e => rw [hG] at h; cases h
  | ok _ => exact key _ _ hn hG

/-- **C121** Installing again: an installation (not a simulation) returned without errors. Doing the same installation again, with any options except
`reinstall`, has nothing to do. Expected of the world as in C102, for both runs: honest plugins whose installed-checks work and are exact, and installed
things stay installed. -/
theorem C121_install_again (m : Machine σ) (ic : InstallerCtx σ) (db : Database) (f : Dict String (List String)) (o o' : InstallOpts)
    (keys : List String) (all : Bool) (s : σ) (hsim : o.simulate = false) (hh : Honest m ic o) (hw : FiltersWork ic) (hx : FiltersExact ic)
    (horder : ∀ d, (m.dictOrder d).Perm d) (hst : Lasts m ic o') (hre : o'.reinstall = false)
    (h : (install m ic db f o keys all s).res = .ok ⟨[], []⟩) :
    NothingDone o'.fixPrerequisites (install m ic db f o' keys all (install m ic db f o keys all s).st) := by
  obtain ⟨r, a, b, _, _, d⟩ := C102_no_errors_means_installed_partial m ic db f o keys all s hsim hh (.inr hw) h
  obtain ⟨⟨os, hos⟩, hl⟩ := install_ok_context a b h
  exact C121_nothing_to_install m ic db f o' keys all _ hre horder hst hx hw hos a b hl d

theorem filterE_in {α : Type} {cond : α → Except Exc Bool} {l u : List α} (h : filterE cond l = .ok u) {x : α} (hx : x ∈ u) :
    x ∈ l ∧ cond x = .ok true := by
  induction l generalizing u with
  | nil => cases h; cases hx
  | cons a t ih =>
    rw [filterE] at h
    obtain ⟨b, hb, h⟩ := Except_bind_ok.1 h
    obtain ⟨r, hr, h⟩ := Except_bind_ok.1 h
    have h := pure_ok.1 h
    subst h
    cases b with
    | false => exact ⟨List.mem_cons_of_mem _ (ih hr hx).1, (ih hr hx).2⟩
    | true =>
      rcases List.mem_cons.1 hx with rfl | hx
      · exact ⟨by simp, hb⟩
      · exact ⟨List.mem_cons_of_mem _ (ih hr hx).1, (ih hr hx).2⟩

theorem filterE_single_true {α : Type} {cond : α → Except Exc Bool} {x : α} (h : cond x = .ok true) : filterE cond [x] = .ok [x] := by
  simp only [filterE, h, bind, Except.bind, pure, Except.pure]
  rfl

/-- **C121** The installed-checks of the plugins xylem ships are exact. -/
theorem C121_shipped_exact {ic : InstallerCtx σ} {h : Host σ} (hs : ∀ i ∈ ic.plugins, Shipped h i) : FiltersExact ic := by
  intro i hi rs s u s' hf x hx
  obtain ⟨options, h1 | h1 | h1 | h1 | h1⟩ := hs i hi <;> subst h1
  · cases hf; exact ⟨hx, by intro hc; cases hc⟩
  · cases hf; exact ⟨hx, by intro hc; cases hc⟩
  · cases hf; exact ⟨hx, by intro hc; cases hc⟩
  · change pipFilter h rs s = _ at hf
    unfold pipFilter at hf
    rcases hq : h.popen ["pip", "freeze"] s with ⟨e | out, s1⟩
    · rw [hq] at hf; cases hf
    · rw [hq] at hf
      simp only [Prod.mk.injEq] at hf
      obtain ⟨hm, hc⟩ := filterE_in hf.1 hx
      refine ⟨hm, ?_⟩
      show (baseIsInstalled (pipFilter h) x s).1 ≠ _
      unfold baseIsInstalled pipFilter
      rw [hq]
      simp only [filterE_single_true hc]
      intro hc; cases hc
  · simp only [PackageManager.installer, fakePlugin, Prod.mk.injEq] at hf
    obtain ⟨hm, hc⟩ := filterE_in hf.1 hx
    refine ⟨hm, ?_⟩
    show (baseIsInstalled _ x s).1 ≠ _
    unfold baseIsInstalled
    simp only [fakePlugin, filterE_single_true hc]
    intro hc; cases hc

/-- **C121** With the plugins xylem ships, and a machine on which installed things stay installed and `pip freeze` is repeatable, an installation done
again has nothing to do. -/
theorem C121_shipped {m : Machine σ} {ic : InstallerCtx σ} {h : Host σ} (hs : ∀ i ∈ ic.plugins, Shipped h i) (hr : FreezeRepeatable h)
    (hp : ∀ s e s', h.popen ["pip", "freeze"] s = (.error e, s') → e.isInstallerError = false) (db : Database) (f : Dict String (List String))
    (o o' : InstallOpts) (keys : List String) (all : Bool) (s : σ) (hsim : o.simulate = false) (hst : Lasts m ic o) (hst' : Lasts m ic o')
    (horder : ∀ d, (m.dictOrder d).Perm d) (hre : o'.reinstall = false) (hres : (install m ic db f o keys all s).res = .ok ⟨[], []⟩) :
    NothingDone o'.fixPrerequisites (install m ic db f o' keys all (install m ic db f o keys all s).st) := by
  obtain ⟨h1, h2⟩ := C102_shipped_plugins_partial hs hr hp o hst
  exact C121_install_again m ic db f o o' keys all s hsim h1 h2 (C121_shipped_exact hs) horder hst' hre hres

/-! ### Non-vacuity: the fake installer -/

/-- Installed things stay installed on the example machine. -/
theorem fake_lasts (o : InstallOpts) : Lasts listMachine fakeIc o := by
  intro n x e s1 s2 hd ⟨i, hl, hi⟩
  refine ⟨i, hl, ?_⟩
  have hi' : i = (fakePlugin listHost fakeOpts).installer listHost fakeOpts := by
    have := lookup_mem hl
    simpa [fakeIc, fakeEx] using this
  subst hi'
  have hsub := fake_files_stay hd
  simp only [PackageManager.installer, baseIsInstalled, fakePlugin] at hi ⊢
  cases hf : fakeFile (textOption fakeOpts "install_dir") x with
  | error e => simp [filterE, fakeMissing, hf, bind, Except.bind] at hi
  | ok p =>
    simp only [filterE, fakeMissing, hf, bind, Except.bind, pure, Except.pure, listHost] at hi ⊢
    by_cases h1 : p ∈ s1
    · simp [hsub p h1]
    · simp [h1] at hi

/-- Keys `a` and `b` are installed (a file is created), and then once more, with `--fix-prerequisites`-like options: nothing is planned. -/
example : (∀ i ∈ fakeIc.plugins, Shipped listHost i) ∧ FreezeRepeatable listHost ∧
    (∀ s e s', listHost.popen ["pip", "freeze"] s = (.error e, s') → e.isInstallerError = false) ∧
    Lasts listMachine fakeIc {} ∧ Lasts listMachine fakeIc { fixPrerequisites := true } ∧ (∀ d, (listMachine.dictOrder d).Perm d) ∧
    (install listMachine fakeIc fakeDb [] {} ["a", "b"] false ["/d/b"]).res = .ok ⟨[], []⟩ ∧
    (install listMachine fakeIc fakeDb [] {} ["a", "b"] false ["/d/b"]).st ≠ ["/d/b"] := by
  refine ⟨?_, ?_, ?_, fake_lasts _, fake_lasts _, fun d => List.Perm.refl _, by rfl, by decide +kernel⟩
  · intro i hi
    refine ⟨fakeOpts, .inr (.inr (.inr (.inr ?_)))⟩
    simpa [fakeIc, fakeEx] using hi
  · intro s out s' h
    cases h
    rfl
  · intro s e s' h
    cases h

end Verif
