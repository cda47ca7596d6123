import Verif.Props.ResolveInstall
/-! # C116: after a successful `xylem install`, everything `xylem resolve` shows is installed -/
namespace Verif
variable {σ : Type}

/-- **C116** `xylem resolve keys` and `xylem install keys` run with the same common options (written in full), the same environment, files and plugins,
and both or none with `--all`. If install (not a dry run, not only asked for information) ends with exit status 0, then resolve exits with status 0,
prints nothing on stderr, prints one line for each key (with its resolutions), and every resolution on these lines is installed on the machine after the
install. Expected of the world as in C102: honest plugins, installed-checks that work (or `--continue-on-error`), and nobody calls `sys.exit`. -/
theorem C116_shown_is_installed {top sub sub' : List OptSpec} (hp : ParsersFor "resolve" top sub) (hp' : ParsersFor "install" top sub')
    {env : StartEnv} {w : Surroundings σ} (text : Bool → Exc → List Char) (etext : String × ResErr → List Char) (itext : InstErr → List Char)
    {fresh : Bool} {p q : Process} {before after after' : List Given} {keys : List String} {ns : ArgSpace} (s : σ)
    (h : reached env xylemDescription fresh top sub (requireKeys keys) p before after = .ok (q, ns)) (hcol : q.color = false)
    (hfu : InFull sub after) (hfu' : InFull sub' after') (hc : commonOptions top after = commonOptions top after')
    (hall : IsGiven sub "--all" after ↔ IsGiven sub' "--all" after')
    (hx1 : ∀ ns', parseCommandLine fresh top sub' before after' = .ok ns' → NoSystemExit (effectiveConfig env xylemDescription ns'))
    (hx2 : ∀ p' ns', reached env xylemDescription fresh top sub' (requireKeys keys) p before after' = .ok (p', ns') →
      NoSystemExit (installRun env w keys p' ns' s).res)
    (hhon : ∀ ic o, contextFor env w q.config = .ok ic → Honest w.machine ic.context o)
    (hfil : IsGiven sub' "--continue-on-error" after' ∨ ∀ ic, contextFor env w q.config = .ok ic → FiltersWork ic.context)
    (hinfo : ¬ InformationOnly top sub' before after') (hdry : ¬ IsGiven sub' "--dry-run" after')
    {sd : Bool} (hsd : sd = true ↔ IsGiven sub "--show-default-installer" after)
    {os : OsSetup} (hos : osFor env w q.config = .ok os)
    (hstat : (xylemInstall env w xylemDescription text etext itext fresh top sub' p before after' keys s).2.ending.status = 0) :
    let out := (xylemResolve env w xylemDescription text etext fresh top sub p before after keys).2
    let machine := (installEffect env w xylemDescription fresh top sub' p before after' keys s).st
    ∃ (ic : InstallerSetup σ) (results : List (String × String × List Resolution)),
      contextFor env w q.config = .ok ic ∧
      (∀ k ∈ keys, ∃ n items, (k, n, items) ∈ results) ∧
      (∀ k n items, (k, n, items) ∈ results → ∀ x ∈ items, SaysInstalled ic.context n x machine) ∧
      ∀ texts, Rendered results texts →
        out.lines.filterMap onStdout = List.zipWith (fun r ts => plainLine r.1
          (if sd = false ∧ os.os.plugin.defaultInstaller = some r.2.1 then none else some r.2.1) ts) results texts ∧
        out.lines.filterMap onStderr = [] ∧ out.ending.status = 0 := by
  intro out machine
  obtain ⟨p', ns', i, k1, k2, _, _⟩ := C102_status_zero hp' env w text etext itext fresh p before after' keys s hx1 hx2 hinfo hstat
  have e := C106_same_config hp hp' env h k1 hfu hfu' hc
  subst e
  have hcf := k2
  obtain ⟨ic, db, f, r, i1, i2, i3, ⟨all, a1, a2⟩, r2, r3, r4⟩ := C102_exit_status_zero_means_installed_partial hp' env w text etext itext fresh p
    before after' keys s hx1 hx2 q.config k2 hhon hfil hinfo hdry hstat
  refine ⟨ic, r.results, i1, ?_, r4, ?_⟩
  · intro k hk
    obtain ⟨⟨k', n, items⟩, m1, m2⟩ := List.mem_map.1 (r3 k hk)
    cases m2
    exact ⟨n, items, m1⟩
  · intro texts ht
    obtain ⟨c1, c2, c3⟩ := C107_resolve_run hp text etext h hcol ⟨i1, hos, i2, i3⟩ (a1.trans hall.symm) hsd a2 ht
    exact ⟨c1, by rw [c2, if_pos r2], c3.2 r2⟩

end Verif
