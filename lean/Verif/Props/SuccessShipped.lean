import Verif.Props.Success
import Verif.Props.Fake
/-! # C102 for the plugins xylem ships -/
namespace Verif
variable {σ : Type}

/-- One of the installers xylem ships, with any options. -/
def Shipped (h : Host σ) (i : Installer σ) : Prop :=
  ∃ options, i = (aptPlugin h).installer h options ∨ i = (homebrewPlugin h).installer h options ∨ i = (macportsPlugin h).installer h options ∨
    i = (pipPlugin h).installer h options ∨ i = (fakePlugin h options).installer h options

/-- Asking `pip freeze` again, at once, gives the same answer. -/
def FreezeRepeatable (h : Host σ) : Prop :=
  ∀ s out s', h.popen ["pip", "freeze"] s = (.ok out, s') → (h.popen ["pip", "freeze"] s').1 = .ok out

theorem filterE_out {α : Type} {cond : α → Except Exc Bool} {l u : List α} (h : filterE cond l = .ok u) {x : α} (hx : x ∈ l) (hu : x ∉ u) :
    cond x = .ok false := by
  induction l generalizing u with
  | nil => cases hx
  | cons a t ih =>
    rw [filterE] at h
    obtain ⟨b, hb, h⟩ := Except_bind_ok.1 h
    obtain ⟨r, hr, h⟩ := Except_bind_ok.1 h
    have h := pure_ok.1 h
    subst h
    rcases List.mem_cons.1 hx with rfl | hx
    · cases b with
      | true => simp at hu
      | false => exact hb
    · refine ih hr hx fun hm => hu ?_
      split
      · exact List.mem_cons_of_mem _ hm
      · exact hm

theorem filterE_error {α : Type} {cond : α → Except Exc Bool} {l : List α} {e : Exc} (h : filterE cond l = .error e) : ∃ x ∈ l, cond x = .error e := by
  induction l with
  | nil => cases h
  | cons a t ih =>
    rw [filterE] at h
    rcases Except_bind_err.1 h with h | ⟨b, _, h⟩
    · exact ⟨a, by simp, h⟩
    · rcases Except_bind_err.1 h with h | ⟨r, _, h⟩
      · obtain ⟨x, hx, hc⟩ := ih h
        exact ⟨x, List.mem_cons_of_mem _ hx, hc⟩
      · cases h

theorem filterE_single {α : Type} {cond : α → Except Exc Bool} {x : α} (h : cond x = .ok false) : filterE cond [x] = .ok [] := by
  simp only [filterE, h, bind, Except.bind, pure, Except.pure]
  rfl

theorem mapM_nil_of {α β : Type} {f : α → Except Exc β} {l : List α} (h : l.mapM f = .ok []) : l = [] := by
  have := (mapM_ok_iff.1 h).length_eq
  simpa using this

theorem commands_nil {isRoot : Bool} {options : Config} {cmds : Except Exc (List Cmd)} (h : baseInstallCommands isRoot options cmds = .ok []) :
    cmds = .ok [] := by
  unfold baseInstallCommands at h
  obtain ⟨l, h1, h⟩ := Except_bind_ok.1 h
  obtain ⟨_, _, h⟩ := Except_bind_ok.1 h
  split at h
  · rw [h1, mapM_nil_of h]
  · rw [h1, pure_ok.1 h]

theorem fakeFile_error {dir : String} {r : Resolution} {e : Exc} (h : fakeFile dir r = .error e) : e.isInstallerError = false := by
  unfold fakeFile at h
  rcases Except_bind_err.1 h with h | ⟨_, _, h⟩
  · unfold packageOf at h
    split at h <;> cases h <;> rfl
  · split at h <;> cases h; rfl

/-- **C102** The plugins xylem ships meet what `C102_no_errors_means_installed_partial` expects of plugins: if `pip freeze` is repeatable and running it
raises no InstallerError (it cannot), only the expectation on the machine is left, that installed things stay installed. -/
theorem C102_shipped_plugins_partial {m : Machine σ} {ic : InstallerCtx σ} {h : Host σ} (hs : ∀ i ∈ ic.plugins, Shipped h i) (hr : FreezeRepeatable h)
    (hp : ∀ s e s', h.popen ["pip", "freeze"] s = (.error e, s') → e.isInstallerError = false) (o : InstallOpts)
    (stays : ∀ n x e s1 s2, Does m ic o s1 e s2 → SaysInstalled ic n x s1 → SaysInstalled ic n x s2) : Honest m ic o ∧ FiltersWork ic := by
  refine ⟨⟨fun i hi rs s u s' hf x hx hxu => ?_, fun i hi rs a b s s' hc => ?_, stays⟩, fun i hi rs s e s' hf => ?_⟩
  · obtain ⟨options, h1 | h1 | h1 | h1 | h1⟩ := hs i hi <;> subst h1
    · cases hf; exact absurd hx hxu
    · cases hf; exact absurd hx hxu
    · cases hf; exact absurd hx hxu
    · change pipFilter h rs s = _ at hf
      unfold pipFilter at hf
      rcases hq : h.popen ["pip", "freeze"] s with ⟨e | out, s1⟩
      · rw [hq] at hf; cases hf
      · rw [hq] at hf
        simp only [Prod.mk.injEq] at hf
        obtain ⟨hf, rfl⟩ := hf
        have hc := filterE_single (filterE_out hf hx hxu)
        have hag := hr s out s1 hq
        show (baseIsInstalled (pipFilter h) x s1).1 = _
        unfold baseIsInstalled pipFilter
        rcases hq2 : h.popen ["pip", "freeze"] s1 with ⟨r, s2⟩
        rw [hq2] at hag
        simp only at hag
        subst hag
        simp only [hc]
        rfl
    · simp only [PackageManager.installer, fakePlugin, Prod.mk.injEq] at hf
      obtain ⟨hf, rfl⟩ := hf
      have hc := filterE_single (filterE_out hf hx hxu)
      show (baseIsInstalled _ x s).1 = _
      unfold baseIsInstalled
      simp only [fakePlugin, hc]
      rfl
  · obtain ⟨options, h1 | h1 | h1 | h1 | h1⟩ := hs i hi <;> subst h1 <;>
      simp only [PackageManager.installer, Prod.mk.injEq] at hc <;> exact mapM_nil_of (commands_nil hc.1)
  · obtain ⟨options, h1 | h1 | h1 | h1 | h1⟩ := hs i hi <;> subst h1
    · cases hf
    · cases hf
    · cases hf
    · change pipFilter h rs s = _ at hf
      unfold pipFilter at hf
      rcases hq : h.popen ["pip", "freeze"] s with ⟨e' | out, s1⟩
      · rw [hq] at hf; cases hf
        exact hp _ _ _ hq
      · rw [hq] at hf
        simp only [Prod.mk.injEq] at hf
        obtain ⟨x, _, hx⟩ := filterE_error hf.1
        unfold notFrozen at hx
        split at hx <;> cases hx
        rfl
    · simp only [PackageManager.installer, fakePlugin, Prod.mk.injEq] at hf
      obtain ⟨x, _, hx⟩ := filterE_error hf.1
      unfold fakeMissing at hx
      rcases Except_bind_err.1 hx with hx | ⟨_, _, hx⟩
      · exact fakeFile_error hx
      · cases hx

/-- **C102** Without errors an installation with the plugins xylem ships leaves everything that was asked for installed. -/
theorem C102_shipped_installed_partial {m : Machine σ} {ic : InstallerCtx σ} {h : Host σ} (hs : ∀ i ∈ ic.plugins, Shipped h i) (hr : FreezeRepeatable h)
    (hp : ∀ s e s', h.popen ["pip", "freeze"] s = (.error e, s') → e.isInstallerError = false) (db : Database) (f : Dict String (List String))
    (o : InstallOpts) (keys : List String) (all : Bool) (s : σ) (hsim : o.simulate = false)
    (stays : ∀ n x e s1 s2, Does m ic o s1 e s2 → SaysInstalled ic n x s1 → SaysInstalled ic n x s2)
    (hres : (install m ic db f o keys all s).res = .ok ⟨[], []⟩) :
    ∃ r, resolve ic db f keys all = .ok r ∧ r.errors = [] ∧ (∀ k ∈ keys, k ∈ r.results.map Prod.fst) ∧
      ∀ k n items, (k, n, items) ∈ r.results → ∀ x ∈ items, SaysInstalled ic n x (install m ic db f o keys all s).st := by
  obtain ⟨h1, h2⟩ := C102_shipped_plugins_partial hs hr hp o stays
  obtain ⟨r, a, b, c, _, d⟩ := C102_no_errors_means_installed_partial m ic db f o keys all s hsim h1 (.inr h2) hres
  exact ⟨r, a, b, c, d⟩

/-! ### Non-vacuity: the fake installer -/

/-- Nothing removes files in the example machine. -/
theorem fake_files_stay {o : InstallOpts} {e : Event} {s1 s2 : List String} (hd : Does listMachine fakeIc o s1 e s2) : ∀ a ∈ s1, a ∈ s2 := by
  have hi : ∀ {n i}, lookupInstaller fakeIc n = some i → i = (fakePlugin listHost fakeOpts).installer listHost fakeOpts := by
    intro n i h
    have := lookup_mem h
    simpa [fakeIc, fakeEx] using this
  intro a ha
  cases hd with
  | plan hl hc => rw [hi hl] at hc; cases hc; exact ha
  | exec hc =>
    simp only [listMachine] at hc
    split at hc <;> cases hc <;> simp [ha]
  | probe hl hc =>
    rw [hi hl] at hc
    simp only [PackageManager.installer, baseIsInstalled, fakePlugin] at hc
    split at hc <;> cases hc <;> simp_all
  | filter hl hc => rw [hi hl] at hc; cases hc; exact ha
  | general hl _ hc =>
    rw [hi hl] at hc
    simp only [PackageManager.installer, checkGeneralPm, checkPmInstalled, fakePlugin, listHost] at hc
    cases hc; exact ha
  | prereq hl _ hc => rw [hi hl] at hc; cases hc; exact ha
  | heading => exact ha
  | shown => exact ha

example : (∀ i ∈ fakeIc.plugins, Shipped listHost i) ∧ FreezeRepeatable listHost ∧
    (∀ s e s', listHost.popen ["pip", "freeze"] s = (.error e, s') → e.isInstallerError = false) ∧
    (∀ n x e s1 s2, Does listMachine fakeIc {} s1 e s2 → SaysInstalled fakeIc n x s1 → SaysInstalled fakeIc n x s2) ∧
    (install listMachine fakeIc fakeDb [] {} ["a", "b"] false ["/d/b"]).res = .ok ⟨[], []⟩ := by
  refine ⟨?_, ?_, ?_, ?_, by rfl⟩
  · intro i hi
    refine ⟨fakeOpts, .inr (.inr (.inr (.inr ?_)))⟩
    simpa [fakeIc, fakeEx] using hi
  · intro s out s' h
    cases h
    rfl
  · intro s e s' h
    cases h
  · intro n x e s1 s2 hd ⟨i, hl, hi⟩
    refine ⟨i, hl, ?_⟩
    have hi' : i = (fakePlugin listHost fakeOpts).installer listHost fakeOpts := by
      have := lookup_mem hl
      simpa [fakeIc, fakeEx] using this
    subst hi'
    have hsub := fake_files_stay hd
    simp only [PackageManager.installer, baseIsInstalled, fakePlugin] at hi ⊢
    cases hf : fakeFile (textOption fakeOpts "install_dir") x with
    | error e => simp [filterE, fakeMissing, hf, bind, Except.bind] at hi
    | ok p =>
      simp only [filterE, fakeMissing, hf, bind, Except.bind, pure, Except.pure, listHost] at hi ⊢
      by_cases h1 : p ∈ s1
      · simp [hsub p h1]
      · simp [h1] at hi

end Verif
