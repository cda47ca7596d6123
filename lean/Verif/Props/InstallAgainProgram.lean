import Verif.Props.InstallAgain
import Verif.Props.ResolveInstall
import Verif.Props.LookupExamples
import Verif.Props.SessionExamples
/-! # C121 for the program `xylem install` -/
namespace Verif
variable {σ : Type}

/-- A run of `xylem install` whose installation returned without errors. -/
theorem install_run_ok {env : StartEnv} {w : Surroundings σ} {text : Bool → Exc → List Char} {etext : String × ResErr → List Char}
    {itext : InstErr → List Char} {fresh : Bool} {top sub : List OptSpec} {p q : Process} {before after : List Given} {keys : List String} {ns : ArgSpace}
    {s : σ} (h : reached env xylemDescription fresh top sub (requireKeys keys) p before after = .ok (q, ns))
    (hr : (installRun env w keys q ns s).res = .ok ⟨[], []⟩) :
    (xylemInstall env w xylemDescription text etext itext fresh top sub p before after keys s).2 =
      ⟨(installRun env w keys q ns s).ev.flatMap (eventLines q.color w.machine.ansi) ++ [.raw (ansi q.color "reset")], .exit 0⟩ := by
  unfold xylemInstall
  rw [mainWith_reached h]
  unfold installFunc
  have e : (do
      let r ← Run.said q.color w.machine.ansi (installRun env w keys q ns s)
      printReport q.color etext itext r) = (⟨(installRun env w keys q ns s).ev.flatMap (eventLines q.color w.machine.ansi), .ok ()⟩ : Run Unit) := by
    rw [said_ok hr]
    simp [printReport_nil]
    rfl
  rw [e]
  simp [interruptible, Run.returnsNone, Run.bind, mainTry]

/-- **C121** `xylem install keys` (not only asked for information, not a dry run) ended with exit status 0. Running `xylem install keys` again, with the same
common options, `--all` given in both runs or in none, and any other flags except `--reinstall`, has nothing to do: if the program gets to the installation,
it only asks the installers for their general prerequisites and which items are not installed. Unless a plugin raises on being asked, the program prints
nothing and ends with exit status 0. Expected of the world: what C102 expects, and that installed-checks are exact. -/
theorem C121_run_again {top sub : List OptSpec} (hp : ParsersFor "install" top sub) (env : StartEnv) (w : Surroundings σ)
    (text : Bool → Exc → List Char) (etext : String × ResErr → List Char) (itext : InstErr → List Char) (fresh : Bool) (p q : Process)
    (before after after' : List Given) (keys : List String) (ns : ArgSpace) (s : σ)
    (hx1 : ∀ ns, parseCommandLine fresh top sub before after = .ok ns → NoSystemExit (effectiveConfig env xylemDescription ns))
    (hx2 : ∀ p' ns, reached env xylemDescription fresh top sub (requireKeys keys) p before after = .ok (p', ns) →
      NoSystemExit (installRun env w keys p' ns s).res)
    (hinfo : ¬ InformationOnly top sub before after) (hdry : ¬ IsGiven sub "--dry-run" after)
    (h : (xylemInstall env w xylemDescription text etext itext fresh top sub p before after keys s).2.ending.status = 0)
    (h' : reached env xylemDescription fresh top sub (requireKeys keys) p before after' = .ok (q, ns))
    (hf : InFull sub after) (hf' : InFull sub after') (hc : commonOptions top after = commonOptions top after')
    (hall : IsGiven sub "--all" after ↔ IsGiven sub "--all" after') (hre : ¬ IsGiven sub "--reinstall" after')
    (hhon : ∀ ic o, contextFor env w q.config = .ok ic → Honest w.machine ic.context o)
    (hfil : ∀ ic, contextFor env w q.config = .ok ic → FiltersWork ic.context ∧ FiltersExact ic.context)
    (horder : ∀ d, (w.machine.dictOrder d).Perm d) :
    let s' := (installEffect env w xylemDescription fresh top sub p before after keys s).st
    let ev := (installEffect env w xylemDescription fresh top sub p before after' keys s').ev
    (∀ e ∈ ev, (∃ n fix a, e = .general n fix a) ∨ ∃ n items a, e = .filter n items a) ∧
    (∀ n items u, .filter n items (.ok u) ∈ ev → u = []) ∧
    ((∀ n fix e, .general n fix (.error e) ∉ ev) → (∀ n items e, .filter n items (.error e) ∉ ev) →
      let out := (xylemInstall env w xylemDescription text etext itext fresh top sub p before after' keys s').2
      out.ending.status = 0 ∧ out.lines.filterMap onStdout = [] ∧ out.lines.filterMap onStderr = []) := by
  intro s' ev
  obtain ⟨p', ns0, i, k1, k2, k3, k4⟩ := C102_status_zero hp env w text etext itext fresh p before after keys s hx1 hx2 hinfo h
  have e := C106_same_config hp hp env k1 h' hf hf' hc
  subst e
  obtain ⟨n1, _⟩ := reached_ok.1 k1
  obtain ⟨n2, _⟩ := reached_ok.1 h'
  have hi : ∃ ic, contextFor env w p'.config = .ok ic ∧ i.ctx = ic.context := by
    unfold installInputs at k3
    obtain ⟨ic, i1, h3⟩ := Except_bind_ok.1 k3
    obtain ⟨db, i2, h3⟩ := Except_bind_ok.1 h3
    obtain ⟨f, i3, h3⟩ := Except_bind_ok.1 h3
    have h3 := pure_ok.1 h3
    subst h3
    exact ⟨ic, i1, rfl⟩
  obtain ⟨ic, hic, hctx⟩ := hi
  have hrun : ∀ ns s, installRun env w keys p' ns s =
      install w.machine i.ctx i.db i.installFrom (installArgsOf ns keys).opts keys (installArgsOf ns keys).all s := by
    intro ns s
    unfold installRun
    simp only [k3]
  have hs' : s' = (install w.machine i.ctx i.db i.installFrom (installArgsOf ns0 keys).opts keys (installArgsOf ns0 keys).all s).st := by
    show (installEffect ..).st = _
    unfold installEffect
    rw [k1]
    simp only [hrun]
  rw [installActs_eq] at k4
  have hsim : (installArgsOf ns0 keys).opts.simulate = false := by
    show switchOn ns0 "dry_run" = false
    rw [← Bool.not_eq_true, install_switch hp n1 (flag := "--dry-run") (by simp [commandOptions])]
    exact hdry
  have hre' : (installArgsOf ns keys).opts.reinstall = false := by
    show switchOn ns "reinstall" = false
    rw [← Bool.not_eq_true, install_switch hp n2 (flag := "--reinstall") (by simp [commandOptions])]
    exact hre
  have hall' : (installArgsOf ns keys).all = (installArgsOf ns0 keys).all := by
    show switchOn ns "all" = switchOn ns0 "all"
    rw [Bool.eq_iff_iff, install_switch hp n1 (flag := "--all") (by simp [commandOptions]),
      install_switch hp n2 (flag := "--all") (by simp [commandOptions])]
    exact hall.symm
  have hev : ev = (installRun env w keys p' ns s').ev := by
    show (installEffect ..).ev = _
    unfold installEffect
    rw [h']
  have hnd : NothingDone (installArgsOf ns keys).opts.fixPrerequisites (installRun env w keys p' ns s') := by
    rw [hrun, hs', hall']
    rw [hctx] at k4 ⊢
    exact C121_install_again w.machine ic.context i.db i.installFrom _ _ keys _ s hsim (hhon _ _ hic) (hfil _ hic).1 (hfil _ hic).2 horder
      (hhon _ _ hic).stays hre' k4
  rw [hev]
  refine ⟨fun e he => ?_, hnd.allInstalled, ?_⟩
  · rcases hnd.onlyAsked e he with ⟨n, a, h⟩ | ⟨n, items, a, h⟩
    · exact .inl ⟨n, _, a, h⟩
    · exact .inr ⟨n, items, a, h⟩
  · intro hg hfl out
    have hres : (installRun env w keys p' ns s').res = .ok ⟨[], []⟩ := by
      rcases hnd.ending with h | ⟨e, ⟨n, h1, _⟩ | ⟨n, items, h1, _⟩⟩
      · exact h
      · exact absurd h1 (hg n _ e)
      · exact absurd h1 (hfl n items e)
    have hout : out = _ := install_run_ok (text := text) (etext := etext) (itext := itext) h' hres
    have hlines : (installRun env w keys p' ns s').ev.flatMap (eventLines p'.color w.machine.ansi) = [] := by
      rw [List.flatMap_eq_nil_iff]
      intro e he
      rcases hnd.onlyAsked e he with ⟨n, a, rfl⟩ | ⟨n, items, a, rfl⟩ <;> rfl
    rw [hout, hlines]
    exact ⟨rfl, rfl, rfl⟩

/-! ### Non-vacuity -/

theorem surely_exact {ic : InstallerCtx (List String)} (h : ∀ i ∈ ic.plugins, Surely i) : FiltersExact ic := by
  intro i hi rs s u s' hf x hx
  obtain ⟨n, f, rfl⟩ := h i hi
  simp only [surely, Prod.mk.injEq, Except.ok.injEq] at hf
  obtain ⟨rfl, rfl⟩ := hf
  obtain ⟨h1, h2⟩ := List.mem_filter.1 hx
  refine ⟨h1, ?_⟩
  show Except.ok (s.contains (toyPkg x)) ≠ _
  simp only [Bool.not_eq_true'] at h2
  rw [h2]
  intro hc
  cases hc

/-- The second run gets to the installation, as computed. -/
def exGetsThere (after : List Given) (keys : List String) : Bool :=
  match reached exStart xylemDescription true (exParser "") (exParser "install") (requireKeys keys) exProcess [] after with
  | .ok _ => true
  | .error _ => false

/-- The answer of this event is not an exception. -/
def eventOk : Event → Bool
  | .general _ _ (.error _) => false
  | .filter _ _ (.error _) => false
  | _ => true

theorem notGiven {flag : String} {l : List Given} (h : l.all (fun g => !finds (exParser "install") g.flag flag) = true) :
    ¬ IsGiven (exParser "install") flag l := by
  rintro ⟨g, hg, hm⟩
  have := List.all_eq_true.1 h g hg
  rw [means_finds exParsers hm] at this
  cases this

/-- C121 for the example machine. -/
theorem exTwice (after' : List Given) (keys s : List String) (hx : exNoExit [] keys s = true) (h0 : (exRunOf [] keys s).2.ending.status = 0)
    (hg : exGetsThere after' keys = true) (hf : after'.all (fun g => decide (g.flag ∈ allFlags (exParser "install"))) = true)
    (hc : after'.all (fun g => !decide (g.flag ∈ allFlags (exParser ""))) = true)
    (ha : after'.all (fun g => !finds (exParser "install") g.flag "--all") = true)
    (hr : after'.all (fun g => !finds (exParser "install") g.flag "--reinstall") = true)
    (hev : (exEffectOf after' keys (exEffectOf [] keys s).st).ev.all eventOk = true) :
    (exRunOf after' keys (exEffectOf [] keys s).st).2.ending.status = 0 ∧
      (exRunOf after' keys (exEffectOf [] keys s).st).2.lines.filterMap onStdout = [] := by
  obtain ⟨k1, k2⟩ := exNoExit_spec hx
  unfold exGetsThere at hg
  cases hre : reached exStart xylemDescription true (exParser "") (exParser "install") (requireKeys keys) exProcess [] after' with
  | error e => rw [hre] at hg; cases hg
  | ok r =>
    have hcommon : commonOptions (exParser "") [] = commonOptions (exParser "") after' := by
      refine Eq.symm (List.filter_eq_nil_iff.2 fun g hg => ?_)
      have := List.all_eq_true.1 hc g hg
      rw [Bool.not_eq_true'] at this
      rw [this]
      exact Bool.false_ne_true
    obtain ⟨h1, _, h3⟩ := C121_run_again exParsers exStart exMachine (fun _ _ => []) (fun _ => []) (fun _ => []) true exProcess r.1 [] [] after'
      keys r.2 s k1 k2 (by rintro ⟨flag, _, h | h⟩ <;> exact not_given_nil h) not_given_nil h0 hre (fun g hg => (List.not_mem_nil hg).elim) (inFull_of hf)
      hcommon ⟨fun h => (not_given_nil h).elim, fun h => (notGiven ha h).elim⟩ (notGiven hr)
      (fun ic o h => surely_honest (exMachine_surely h) o) (fun ic h => ⟨surely_filters (exMachine_surely h), surely_exact (exMachine_surely h)⟩)
      (fun d => List.Perm.refl _)
    have hev := List.all_eq_true.1 hev
    obtain ⟨a, b, _⟩ := h3 (fun n fix e h => Bool.false_ne_true (hev _ h)) (fun n items e h => Bool.false_ne_true (hev _ h))
    exact ⟨a, b⟩

/-- The options of the second run. -/
def exFixing : List Given := [⟨"--fix-prerequisites", none⟩]

theorem exFixing_events : (exEffectOf exFixing ["boost", "eigen"] (exEffectOf [] ["boost", "eigen"] ["libboost"]).st).ev.all eventOk = true := by
  decide +kernel

/-- `xylem install boost eigen` on a machine where boost is installed, then `xylem install --fix-prerequisites boost eigen`: what C121 expects holds. -/
example :
    (exEffectOf [] ["boost", "eigen"] ["libboost"]).st = ["libboost", "libeigen"] ∧
    exNoExit [] ["boost", "eigen"] ["libboost"] = true ∧ (exRunOf [] ["boost", "eigen"] ["libboost"]).2.ending.status = 0 ∧ exGetsThere exFixing ["boost", "eigen"] = true :=
  ⟨by decide +kernel, by decide +kernel, by decide +kernel, by decide +kernel⟩

example : exFixing.all (fun g => decide (g.flag ∈ allFlags (exParser "install"))) = true ∧
    exFixing.all (fun g => !decide (g.flag ∈ allFlags (exParser ""))) = true ∧
    exFixing.all (fun g => !finds (exParser "install") g.flag "--all") = true ∧
    exFixing.all (fun g => !finds (exParser "install") g.flag "--reinstall") = true ∧
    (exEffectOf exFixing ["boost", "eigen"] (exEffectOf [] ["boost", "eigen"] ["libboost"]).st).ev.all eventOk = true :=
  ⟨by decide +kernel, by decide +kernel, by decide +kernel, by decide +kernel, exFixing_events⟩

end Verif
