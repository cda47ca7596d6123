import Verif.Lemmas.Replay
import Verif.Props.InstallExamples
import Verif.Props.Plugins
/-! # The events are what really happened: C35, C40, C75 -/
namespace Verif
variable {σ : Type}

/-! ## C75 -/

/-- **C75** The events of an installation, replayed one after the other on the loaded plugins and the machine, with the recorded outcomes, lead
from the initial to the final state: an installation changes the machine only by those calls. -/
theorem C75_events_account_for_everything (m : Machine σ) (ic : InstallerCtx σ) (db : Database) (f : Dict String (List String))
    (o : InstallOpts) (keys : List String) (all : Bool) (s : σ) :
    Replays m ic o s (install m ic db f o keys all s).ev (install m ic db f o keys all s).st := faithful_install db f keys all s

/-! ## C35 -/

/-- The plugin of that name says the item is installed. -/
def SaysInstalled (ic : InstallerCtx σ) (n : String) (x : Resolution) (s : σ) : Prop :=
  ∃ i, lookupInstaller ic n = some i ∧ (i.isInstalled x s).1 = .ok true

/-- **C35** If an installation that was not simulated reports no error, then for each planned item (for whose group there were commands) the
loaded plugin was asked, in the state reached by then, and said it is installed. -/
theorem C35_plugin_said_installed (m : Machine σ) (ic : InstallerCtx σ) (db : Database) (f : Dict String (List String))
    (o : InstallOpts) (keys : List String) (all : Bool) (s : σ) (hs : o.simulate = false)
    (h : (install m ic db f o keys all s).res = .ok ⟨[], []⟩) (n : String) (items : List Resolution) (c : Cmd) (cmds : List Cmd)
    (hp : .plan n items (.ok (c :: cmds)) ∈ (install m ic db f o keys all s).ev) (x : Resolution) (hx : x ∈ items) :
    ∃ pre post s1, (install m ic db f o keys all s).ev = pre ++ .probe n x (.ok true) :: post ∧ Replays m ic o s pre s1 ∧
      SaysInstalled ic n x s1 := by
  have h1 := (C35_no_errors_means_installed m ic db f o keys all s hs h).2 n items c cmds hp x hx
  obtain ⟨pre, post, h2⟩ := List.append_of_mem h1
  have hr := C75_events_account_for_everything m ic db f o keys all s
  rw [h2] at hr
  obtain ⟨s1, h3, h4⟩ := hr.split
  refine ⟨pre, post, s1, h2, h3, ?_⟩
  cases h4 with
  | cons hd _ =>
    cases hd with
    | probe hl hi => exact ⟨_, hl, by rw [hi]⟩

/-- **C35** ... and if nothing that happens makes an installed item uninstalled, then in the final state every planned item is installed. -/
theorem C35_installed_at_the_end (m : Machine σ) (ic : InstallerCtx σ) (db : Database) (f : Dict String (List String))
    (o : InstallOpts) (keys : List String) (all : Bool) (s : σ) (hs : o.simulate = false)
    (h : (install m ic db f o keys all s).res = .ok ⟨[], []⟩)
    (stays : ∀ n x e s1 s2, Does m ic o s1 e s2 → SaysInstalled ic n x s1 → SaysInstalled ic n x s2)
    (n : String) (items : List Resolution) (c : Cmd) (cmds : List Cmd)
    (hp : .plan n items (.ok (c :: cmds)) ∈ (install m ic db f o keys all s).ev) (x : Resolution) (hx : x ∈ items) :
    SaysInstalled ic n x (install m ic db f o keys all s).st := by
  obtain ⟨pre, post, s1, h1, h2, h3⟩ := C35_plugin_said_installed m ic db f o keys all s hs h n items c cmds hp x hx
  have hr := C75_events_account_for_everything m ic db f o keys all s
  have hr2 := hr
  rw [h1] at hr2
  -- the state before the probe is the same in any replay, but it is enough to follow this one
  have key : ∀ {l : List Event} {a b : σ}, Replays m ic o a l b → SaysInstalled ic n x a → SaysInstalled ic n x b := by
    intro l a b hab
    induction hab with
    | nil => exact id
    | cons hd _ ih => exact fun hh => ih (stays n x _ _ _ hd hh)
  obtain ⟨s1', h4, h5⟩ := hr2.split
  cases h5 with
  | cons hd h6 =>
    have : SaysInstalled ic n x s1' := by
      cases hd with
      | probe hl hi => exact ⟨_, hl, by rw [hi]⟩
    exact key h6 (stays n x _ _ _ hd this)

/-- On the machine of the examples nothing is ever uninstalled, so `C35_installed_at_the_end` applies to `toy_run_good`. -/
example (n : String) (x : Resolution) (e : Event) (s1 s2 : List String) (hd : Does toyMachine toyIc {} s1 e s2) (hi : SaysInstalled toyIc n x s1) :
    SaysInstalled toyIc n x s2 := by
  have lk : ∀ {n i}, lookupInstaller toyIc n = some i → i = toy := by
    intro n i h
    unfold lookupInstaller at h
    have := List.mem_of_find?_eq_some h
    simpa [toyIc] using this
  have hsub : ∀ a ∈ s1, a ∈ s2 := by
    intro a ha
    cases hd with
    | plan hl h => cases lk hl; cases h; exact ha
    | exec h =>
      simp only [toyMachine, toyCall] at h
      split at h <;> cases h <;> first | exact ha | exact List.mem_append_left _ ha
    | probe hl h => cases lk hl; cases h; exact ha
    | filter hl h => cases lk hl; cases h; exact ha
    | general hl _ h => cases lk hl; cases h; exact ha
    | prereq hl _ h => cases lk hl; cases h; exact ha
    | heading => exact ha
    | shown => exact ha
  obtain ⟨i, hl, hs⟩ := hi
  refine ⟨i, hl, ?_⟩
  cases lk hl
  simp only [toy, Except.ok.injEq, List.contains_iff_mem] at hs ⊢
  exact hsub _ hs

/-! ## C40 -/

/-- The installer's installed-check always says no. -/
def NeverInstalled (i : Installer σ) : Prop := ∀ r s, i.isInstalled r s = (.ok false, s)

theorem neverInstalled_plugins (h : Host σ) (options : Config) :
    NeverInstalled ((aptPlugin h).installer h options) ∧ NeverInstalled ((homebrewPlugin h).installer h options) ∧
    NeverInstalled ((macportsPlugin h).installer h options) := ⟨fun _ _ => rfl, fun _ _ => rfl, fun _ _ => rfl⟩

/-- **C40 refuted**: whenever an installation via apt, homebrew or macports that is not simulated runs commands for at least one package and
returns, it reports an error — whatever the commands did, even if all of them succeeded. -/
theorem C40_always_reports_an_error (m : Machine σ) (ic : InstallerCtx σ) (db : Database) (f : Dict String (List String))
    (o : InstallOpts) (keys : List String) (all : Bool) (s : σ) (hs : o.simulate = false) (h : Host σ) (options : Config)
    (pm : PackageManager σ) (hpm : pm ∈ [aptPlugin h, homebrewPlugin h, macportsPlugin h])
    (hl : lookupInstaller ic pm.name = some (pm.installer h options)) (items : List Resolution) (c : Cmd) (cmds : List Cmd) (hne : items ≠ [])
    (hp : .plan pm.name items (.ok (c :: cmds)) ∈ (install m ic db f o keys all s).ev) (rep : InstallReport)
    (hr : (install m ic db f o keys all s).res = .ok rep) : rep.resolveErrors ≠ [] ∨ rep.installErrors ≠ [] := by
  by_contra hc
  simp only [not_or, not_not] at hc
  obtain ⟨re, ie⟩ := rep
  obtain ⟨rfl, rfl⟩ : re = [] ∧ ie = [] := hc
  obtain ⟨x, t, rfl⟩ := List.exists_cons_of_ne_nil hne
  obtain ⟨_, _, s1, _, _, i, hi, hb⟩ := C35_plugin_said_installed m ic db f o keys all s hs hr pm.name _ c cmds hp x (by simp)
  rw [hl] at hi
  injection hi with hi
  subst hi
  obtain ⟨n1, n2, n3⟩ := neverInstalled_plugins h options
  simp only [List.mem_cons, List.not_mem_nil, or_false] at hpm
  rcases hpm with rfl | rfl | rfl
  · rw [n1] at hb; simp at hb
  · rw [n2] at hb; simp at hb
  · rw [n3] at hb; simp at hb

/-- **C40 (partial)** What is true: such an installation reports no failed command if every command it ran succeeded. -/
theorem C40_no_command_error_partial (m : Machine σ) (ic : InstallerCtx σ) (db : Database) (f : Dict String (List String))
    (o : InstallOpts) (keys : List String) (all : Bool) (s : σ) (rep : InstallReport) (hr : (install m ic db f o keys all s).res = .ok rep)
    (hok : ∀ n c r, .exec n c r ∈ (install m ic db f o keys all s).ev → r = .ok 0) (n : String) (c : Cmd) (code : Int) :
    .commandFailed n c code ∉ rep.installErrors := by
  rw [(install_returns m ic db f o keys all s rep hr).1]
  intro hm
  obtain ⟨e, he, hf⟩ := List.mem_filterMap.1 hm
  cases e with
  | exec n' c' r =>
    have := hok n' c' r he
    subst this
    simp [failureOf] at hf
  | probe n' x r =>
    cases r with
    | ok b => cases b <;> simp [failureOf] at hf
    | error e => simp [failureOf] at hf
  | _ => simp [failureOf] at hf

/-- A machine where every command succeeds, as root. -/
def goodHost : Host Unit := { pipHost with isRoot := true, popen := fun _ s => (.ok "", s) }

/-- **C40 refuted**, concretely: `apt-get install vim` succeeds, and is reported as failed. -/
theorem C40_witness : install ⟨fun _ s => (.ok 0, s), ansiOff, id⟩
      ⟨[(aptPlugin goodHost).installer goodHost [("as_root", .val (.bool true))]], [(aptPlugin goodHost).installer goodHost [("as_root", .val (.bool true))]], [],
        .ok ("ubuntu", "trusty")⟩
      ⟨fun _ => .ok [("apt", [("packages", .list [.str "vim"])])], .ok []⟩ [] {} ["vim"] false () =
    ⟨.ok ⟨[], [.notDetected "apt" (packageResolution [] (.str "vim"))]⟩, (),
      [.general "apt" false (.ok ()), .filter "apt" [packageResolution [] (.str "vim")] (.ok [packageResolution [] (.str "vim")]),
       .prereq "apt" [packageResolution [] (.str "vim")] false (.ok ()),
       .plan "apt" [packageResolution [] (.str "vim")] (.ok [["apt-get", "install", "vim"]]),
       .exec "apt" ["apt-get", "install", "vim"] (.ok 0), .probe "apt" (packageResolution [] (.str "vim")) (.ok false)]⟩ := by rfl

end Verif
