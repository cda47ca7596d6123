import Verif.Lemmas.InstallOutput
import Verif.Props.ResolveMessages
import Verif.Props.Announce
/-! # C131: saying things does not change an installation; C132: what is said about an installation is true -/
namespace Verif
variable {σ α β : Type}

/-! ## C131 -/

/-- What an installer's checks print goes to stderr. -/
def Voice.OnStderr (v : Voice σ) : Prop :=
  (∀ n os fix inter s, ∀ l ∈ v.general n os fix inter s, ∃ t, l = .err t) ∧
  ∀ n rs os fix inter s, ∀ l ∈ v.prereq n rs os fix inter s, ∃ t, l = .err t

/-- An installer's checks print nothing. -/
def Voice.Silent (v : Voice σ) : Prop :=
  (∀ n os fix inter s, v.general n os fix inter s = []) ∧ ∀ n rs os fix inter s, v.prereq n rs os fix inter s = []

/-- **C131** With everything it says, an installation returns the same, leaves the machine in the same state and does the same things in the same order. -/
theorem C131_same_installation (c : Console) (v : Voice σ) (m : Machine σ) (ic : InstallerCtx σ) (db : Database) (f : Dict String (List String))
    (o : InstallOpts) (keys : List String) (all : Bool) (s : σ) :
    let told := installTelling c v m ic db f o keys all s
    let silent := install m ic db f o keys all s
    told.res = silent.res ∧ told.st = silent.st ∧ told.log.filterMap LogItem.done = silent.ev :=
  follows_install c v m ic db f o keys all s

theorem log_lines_done (on : Bool) (table : AnsiTable) (log : List LogItem) (h : ∀ r, LogItem.said r ∈ log → ∀ l ∈ r.lines on, ∃ t, l = .err t) :
    (log.flatMap (LogItem.lines on table)).filter Line.notErr =
      ((log.filterMap LogItem.done).flatMap (eventLines on table)).filter Line.notErr := by
  induction log with
  | nil => rfl
  | cons x l ih =>
    have ih := ih fun r hr => h r (List.mem_cons_of_mem _ hr)
    cases x with
    | did e =>
      simp only [List.flatMap_cons, List.filterMap_cons, done_did, List.filter_append, ih]
      rfl
    | said r =>
      have : (r.lines on).filter Line.notErr = [] := by
        rw [List.filter_eq_nil_iff]
        intro l hl
        obtain ⟨t, rfl⟩ := h r (by simp) l hl
        simp [Line.notErr]
      simp only [List.flatMap_cons, List.filterMap_cons, done_said, List.filter_append, ih]
      show List.filter Line.notErr (r.lines on) ++ _ = _
      rw [this, List.nil_append]

theorem own_on_stderr (on : Bool) (r : Remark) (h : r.own) : ∀ l ∈ r.lines on, ∃ t, l = .err t := by
  cases r <;> simp only [Remark.own] at h <;> (intro l hl; simp only [Remark.lines, List.mem_singleton] at hl; exact ⟨_, hl⟩)

/-- **C131** What an installation says goes to stderr, if what its installers say does: the rest of its output is that of the silent one. -/
theorem C131_stderr_only (on : Bool) (c : Console) (v : Voice σ) (hv : v.OnStderr) (m : Machine σ) (ic : InstallerCtx σ) (db : Database)
    (f : Dict String (List String)) (o : InstallOpts) (keys : List String) (all : Bool) (s : σ) :
    ((installTelling c v m ic db f o keys all s).log.flatMap (LogItem.lines on m.ansi)).filter Line.notErr =
      ((install m ic db f o keys all s).ev.flatMap (eventLines on m.ansi)).filter Line.notErr := by
  rw [← (follows_install c v m ic db f o keys all s).2.2]
  refine log_lines_done on m.ansi _ fun r hr => ?_
  have key := tells_install (P := fun r => ∀ l ∈ r.lines on, ∃ t, l = .err t) c (fun _ r h => own_on_stderr on r h) v
    (fun n os fix inter s l hl l' hl' => by
      simp only [Remark.lines, List.mem_singleton] at hl'; subst hl'; exact hv.1 n os fix inter s _ hl)
    (fun n rs os fix inter s l hl l' hl' => by
      simp only [Remark.lines, List.mem_singleton] at hl'; subst hl'; exact hv.2 n rs os fix inter s _ hl) m ic db f o keys all
  exact key s r hr

/-- **C131** If it is not verbose, and the installers' checks say nothing, an installation prints exactly what the silent one prints. -/
theorem C131_quiet (on : Bool) (c : Console) (hc : c.verbose = false) (v : Voice σ) (hv : v.Silent) (m : Machine σ) (ic : InstallerCtx σ) (db : Database)
    (f : Dict String (List String)) (o : InstallOpts) (keys : List String) (all : Bool) (s : σ) :
    (installTelling c v m ic db f o keys all s).log = (install m ic db f o keys all s).ev.map .did ∧
    (installTelling c v m ic db f o keys all s).log.flatMap (LogItem.lines on m.ansi) =
      (install m ic db f o keys all s).ev.flatMap (eventLines on m.ansi) := by
  have key := tells_install (P := fun _ => False) c (fun h => by rw [hc] at h; cases h) v
    (fun n os fix inter s l hl => by rw [hv.1] at hl; cases hl) (fun n rs os fix inter s l hl => by rw [hv.2] at hl; cases hl) m ic db f o keys all s
  have e : ∀ log : List LogItem, (∀ r, LogItem.said r ∉ log) → log = (log.filterMap LogItem.done).map .did := by
    intro log h
    induction log with
    | nil => rfl
    | cons x l ih =>
      have ih := ih fun r hr => h r (List.mem_cons_of_mem _ hr)
      cases x with
      | did e =>
        rw [List.filterMap_cons, done_did]
        show LogItem.did e :: l = LogItem.did e :: _
        rw [← ih]
      | said r => exact absurd (by simp) (h r)
  have h1 := e _ key
  rw [(follows_install c v m ic db f o keys all s).2.2] at h1
  refine ⟨h1, ?_⟩
  rw [h1, List.flatMap_map]
  rfl

/-- **C131** The whole program `xylem install` with everything it says: its exit and its variables are those of the program without messages; unless it
is verbose, everything it prints that is not on stderr is the result. -/
theorem C131_program (t : Texts) (v : Console → Voice σ) (hv : ∀ c, (v c).OnStderr) (env : StartEnv) (w : Surroundings σ) (desc : Desc)
    (text : Bool → Exc → List Char) (etext : String × ResErr → List Char) (itext : InstErr → List Char) (fresh : Bool) (top sub : List OptSpec)
    (p : Process) (before after : List Given) (keys : List String) (s : σ) :
    let full := xylemInstallTelling t v env w desc text etext itext fresh top sub p before after keys s
    let results := xylemInstall env w desc text etext itext fresh top sub p before after keys s
    full.1 = results.1 ∧ full.2.ending = results.2.ending ∧
    (results.1.verbose = false → full.2.lines.filter Line.notErr = results.2.lines.filter Line.notErr) ∧
    full.2.lines.filter Line.notErr =
      (xylemInstallSaying t env w desc text etext itext fresh top sub p before after keys s).2.lines.filter Line.notErr := by
  have same : ∀ p ns, AlikeBut (installFuncTelling t v env w etext itext keys s p ns) (installFuncSaying t env w etext itext keys s p ns) := by
    intro p ns
    unfold installFuncTelling installFuncSaying
    refine .none (.interruptible ?_)
    refine .bind (.refl _) fun x _ => .bind (.refl _) fun i _ => .bind (.refl _) fun _ _ => .bind ?_ fun r _ => .refl _
    exact ⟨(follows_install _ _ _ _ _ _ _ _ _ _).1, C131_stderr_only _ _ _ (hv _) _ _ _ _ _ _ _ _⟩
  have h1 := mainWith_same env desc text fresh top sub (requireKeys keys) (func := installFuncTelling t v env w etext itext keys s)
    (func' := installFuncSaying t env w etext itext keys s) (fun p ns => (same p ns).1) (Q := fun _ => True) (fun p ns _ => same p ns) p before after
  have h2 := C122_install_stdout t env w desc text etext itext fresh top sub p before after keys s
  exact ⟨h1.1.trans h2.1, h1.2.1.trans h2.2.1, fun hq => (h1.2.2 trivial).trans (h2.2.2 hq), h1.2.2 trivial⟩

/-- **C131** Everything `xylem install` prints, on both streams and in order, if the installation returns: what is said about setting up, opening the
database and resolving (see C124, C125), then what is done and said while installing, then the errors. -/
theorem C131_complete_output (t : Texts) (v : Console → Voice σ) {env : StartEnv} {w : Surroundings σ} {desc : Desc} (text : Bool → Exc → List Char)
    (etext : String × ResErr → List Char) (itext : InstErr → List Char) {fresh : Bool} {top sub : List OptSpec} {p p' : Process}
    {before after : List Given} {keys : List String} {ns : ArgSpace} (s : σ) {ic : InstallerSetup σ} {db : Database} {f : Dict String (List String)}
    {r : Resolved} {rep : InstallReport}
    (hr : reached env desc fresh top sub (requireKeys keys) p before after = .ok (p', ns))
    (h1 : contextFor env w p'.config = .ok ic) (h2 : databaseFor env w p'.config = .ok db) (h3 : installFromOf p'.config = .ok f)
    (h4 : resolve ic.context db f keys (installArgsOf ns keys).all = .ok r)
    (h5 : (install w.machine ic.context db f (installArgsOf ns keys).opts keys (installArgsOf ns keys).all s).res = .ok rep) :
    (xylemInstallTelling t v env w desc text etext itext fresh top sub p before after keys s).2.lines =
      (contextSaying (p'.console t) env w p'.config).lines ++ (loadedSaying (p'.console t) w p'.config).lines ++
      (resolveSaying (p'.console t) ic.context db f keys (installArgsOf ns keys).all).lines ++
      (installTelling (p'.console t) (v (p'.console t)) w.machine ic.context db f (installArgsOf ns keys).opts keys (installArgsOf ns keys).all s).log.flatMap
        (LogItem.lines p'.color w.machine.ansi) ++
      (mainTry p'.color p'.debug text (interruptible p'.color (printReport p'.color etext itext rep)).returnsNone).lines := by
  obtain ⟨os, hos⟩ := context_has_os h1
  have hm : ∀ (n : List Line) (g : Run (Option Int)), (mainTry p'.color p'.debug text (g.after n)).lines = n ++ (mainTry p'.color p'.debug text g).lines := by
    intro n g
    unfold mainTry Run.after
    cases g.res with
    | ok x => simp
    | error e =>
      simp only
      split
      · split <;> simp
      · split <;> simp
  unfold xylemInstallTelling
  rw [mainWith_reached hr]
  have e : installFuncTelling t v env w etext itext keys s p' ns = ((interruptible p'.color (printReport p'.color etext itext rep)).returnsNone).after
      ((contextSaying (p'.console t) env w p'.config).lines ++ (loadedSaying (p'.console t) w p'.config).lines ++
      (resolveSaying (p'.console t) ic.context db f keys (installArgsOf ns keys).all).lines ++
      (installTelling (p'.console t) (v (p'.console t)) w.machine ic.context db f (installArgsOf ns keys).opts keys (installArgsOf ns keys).all s).log.flatMap
        (LogItem.lines p'.color w.machine.ansi)) := by
    unfold installFuncTelling
    have := whole_lines (c := p'.console t) (g := fun x i _ => Told.run p'.color w.machine.ansi
        (installTelling (p'.console t) (v (p'.console t)) w.machine x.1.context i.1 i.2 (installArgsOf ns keys).opts keys (installArgsOf ns keys).all s) >>=
          printReport p'.color etext itext)
      h1 hos h2 h3 h4
    rw [this, after_interruptible, after_none]
    have h6 : (Told.run p'.color w.machine.ansi (installTelling (p'.console t) (v (p'.console t)) w.machine ic.context db f (installArgsOf ns keys).opts keys
        (installArgsOf ns keys).all s)).res = .ok rep := (follows_install _ _ _ _ _ _ _ _ _ _).1.trans h5
    simp only
    rw [run_bind_ok h6]
    show (interruptible p'.color ((printReport p'.color etext itext rep).after _)).returnsNone.after _ = _
    rw [after_interruptible, after_none]
    simp only [Run.after, List.append_assoc]
    rfl
  rw [e]
  exact hm _ _

/-! ## C132 -/

theorem split_log {l1 l2 pre post : List LogItem} {x : LogItem} (h : l1 ++ l2 = pre ++ x :: post) :
    (∃ q, l1 = pre ++ x :: q ∧ post = q ++ l2) ∨ ∃ q, pre = l1 ++ q ∧ l2 = q ++ x :: post := by
  rcases List.append_eq_append_iff.1 h with ⟨q, h1, h2⟩ | ⟨q, h1, h2⟩
  · exact .inr ⟨q, h1, h2⟩
  · cases q with
    | nil => exact .inr ⟨[], by simpa using h1.symm, by simpa using h2.symm⟩
    | cons y q =>
      simp only [List.cons_append, List.cons.injEq] at h2
      exact .inl ⟨q, by rw [h1, h2.1], h2.2⟩

/-- Where a log says that the installer `n` has successfully installed, the installer was asked for commands for some items; there were commands, all of
them were run and returned 0, and all items were then found installed; nothing else was done in between. -/
def SuccessTrue (log : List LogItem) : Prop :=
  ∀ pre post n, log = pre ++ LogItem.said (.success n) :: post →
    ∃ before rs cmds since, pre = before ++ LogItem.did (.plan n rs (.ok cmds)) :: since ∧ cmds ≠ [] ∧
      since.filterMap LogItem.done = cmds.map (fun c => .exec n c (.ok 0)) ++ rs.map (fun r => .probe n r (.ok true))

theorem SuccessTrue.append {l1 l2 : List LogItem} (h1 : SuccessTrue l1) (h2 : SuccessTrue l2) : SuccessTrue (l1 ++ l2) := by
  intro pre post n h
  rcases split_log h with ⟨q, e, -⟩ | ⟨q, rfl, e⟩
  · exact h1 pre q n e
  · obtain ⟨b, rs, cmds, since, e1, e2, e3⟩ := h2 q post n e
    exact ⟨l1 ++ b, rs, cmds, since, by rw [e1]; simp, e2, e3⟩

theorem SuccessTrue.none {l : List LogItem} (h : ∀ n, LogItem.said (.success n) ∉ l) : SuccessTrue l := by
  intro pre post n e
  exact absurd (by rw [e]; simp) (h n)

/-- Commands that all went well. -/
theorem runCommands_clean (c : Console) (m : Machine σ) (n : String) (cont : Bool) (errors : List InstErr) (cmds : List Cmd) (s : σ)
    (h : (runCommandsTelling c m n cont errors cmds s).res = .ok ([], false)) :
    errors = [] ∧ (runCommandsTelling c m n cont errors cmds s).log.filterMap LogItem.done = cmds.map fun c => .exec n c (.ok 0) := by
  obtain ⟨f1, -, f3⟩ := follows_runCommands c m n cont errors cmds s
  rw [f3]
  rw [f1] at h
  clear f1 f3
  induction cmds generalizing errors s with
  | nil => simp only [runCommands, ret_run, Except.ok.injEq, Prod.mk.injEq] at h; exact ⟨h.1, rfl⟩
  | cons cmd t ih =>
    unfold runCommands at h ⊢
    rw [bind_run] at h ⊢
    cases ha : announce m.ansi cmd with
    | error e => rw [ha] at h; simp [Prog.lift] at h
    | ok a =>
      rw [ha] at h
      simp only [Prog.lift, Out.prepend, attempt_run, List.nil_append] at h ⊢
      rw [bind_run] at h ⊢
      cases hc : (m.call cmd s).1 with
      | error e => rw [hc] at h; simp [Prog.lift] at h
      | ok code =>
        rw [hc] at h
        simp only [Prog.lift, Out.prepend, List.nil_append] at h ⊢
        rw [bind_run] at h ⊢
        cases hf : fmt m.ansi ("@!command return code: ".toList ++ codeText code ++ "@|".toList) with
        | error e => rw [hf] at h; simp [Prog.lift] at h
        | ok text =>
          rw [hf] at h
          simp only [Prog.lift, Out.prepend, List.nil_append] at h ⊢
          by_cases h0 : code = 0
          · subst h0
            simp only [ne_eq, not_true, if_false] at h ⊢
            obtain ⟨e1, e2⟩ := ih _ _ h
            exact ⟨e1, by rw [e2]; rfl⟩
          · simp only [ne_eq, h0, not_false_iff, if_true] at h
            cases cont with
            | false => simp [ret_run] at h
            | true =>
              obtain ⟨e1, -⟩ := ih _ _ h
              simp at e1

/-- Items that were all found. -/
theorem verify_clean (inst : Installer σ) (n : String) (errors : List InstErr) (rs : List Resolution) (s : σ)
    (h : (verifyItems inst n errors rs s).res = .ok []) :
    errors = [] ∧ (verifyItems inst n errors rs s).ev = rs.map fun r => .probe n r (.ok true) := by
  induction rs generalizing errors s with
  | nil => simp only [verifyItems, ret_run, Except.ok.injEq] at h; exact ⟨h, rfl⟩
  | cons r t ih =>
    unfold verifyItems at h ⊢
    simp only [attempt_run, Out.prepend] at h ⊢
    cases hp : (inst.isInstalled r s).1 with
    | error e =>
      rw [hp] at h
      simp only at h
      split at h
      · obtain ⟨e1, -⟩ := ih _ _ h; simp at e1
      · simp at h
    | ok b =>
      rw [hp] at h
      cases b with
      | true =>
        obtain ⟨e1, e2⟩ := ih _ _ h
        exact ⟨e1, by simp only; rw [e2]; rfl⟩
      | false => obtain ⟨e1, -⟩ := ih _ _ h; simp at e1

theorem noSuccess {t : Tale σ α} (h : Tells (fun r => ∀ n, r ≠ .success n) t) (s : σ) : SuccessTrue (t s).log :=
  .none fun n hn => h s _ hn n rfl

/-- The installation with one installer. -/
theorem successTrue_group (c : Console) (m : Machine σ) (ic : InstallerCtx σ) (o : InstallOpts) (name : String) (rs : List Resolution) (s : σ) :
    SuccessTrue (installResolutionsTelling c m ic o name rs s).log := by
  unfold installResolutionsTelling
  rw [tale_bind]
  cases hi : requireInstaller ic name with
  | error e => exact .none (by simp [Tale.quiet, Prog.lift])
  | ok inst =>
    simp only [Tale.quiet, Prog.lift, List.map_nil, List.nil_append]
    rw [tale_bind]
    simp only [Tale.quiet, Prog.attempt, List.map_cons, List.map_nil]
    cases hc : (inst.getInstallCommands rs o.interactive o.reinstall s).1 with
    | error e => exact .none (by simp [Tale.quiet, Prog.raise])
    | ok cmds =>
      simp only
      unfold performTelling
      split
      · -- nothing to do
        refine .append (.none (by simp)) (noSuccess (σ := σ) (.bind (tells_sayV c _ fun _ => by simp) fun _ => .ret _) _)
      · rename_i hne
        split
        · exact .append (.none (by simp)) (noSuccess (σ := σ) (.bind (.quiet _) fun _ => .bind (.quiet _) fun _ => .ret _) _)
        · generalize (inst.getInstallCommands rs o.interactive o.reinstall s).2 = s1
          have hq := tells_runCommands (P := fun r => ∀ n, r ≠ .success n) c (fun _ t => by simp) m name o.continueOnError [] cmds s1
          cases hr : (runCommandsTelling c m name o.continueOnError [] cmds s1).res with
          | error e =>
            rw [tale_bind_error hr]
            exact .append (.none (by simp)) (.none fun n hn => hq _ hn n rfl)
          | ok r =>
            rw [tale_bind_ok hr]
            simp only
            split
            · exact .append (.none (by simp)) (by simpa [Tale.ret] using (.none fun n hn => hq _ hn n rfl : SuccessTrue _))
            · rename_i hstop
              obtain ⟨errs, stop⟩ := r
              simp only [Bool.not_eq_true] at hstop
              subst hstop
              unfold verifyTelling
              simp only
              generalize hst : (runCommandsTelling c m name o.continueOnError [] cmds s1).st = s2
              cases hv : (verifyItems inst name errs rs s2).res with
              | error e =>
                rw [tale_bind_error (p := Tale.quiet (verifyItems inst name errs rs)) hv]
                refine .append (.none (by simp)) (.append (.none fun n hn => hq _ hn n rfl) (.none (by simp [Tale.quiet])))
              | ok es =>
                rw [tale_bind_ok (p := Tale.quiet (verifyItems inst name errs rs)) hv]
                simp only [Tale.quiet]
                cases hvb : c.verbose with
                | false =>
                  have : ∀ r, (Tale.sayV c r : Tale σ Unit) = Tale.ret () := fun r => by simp [Tale.sayV, hvb]
                  simp only [this]
                  refine .append (.none (by simp)) (.append (.none fun n hn => hq _ hn n rfl) (.append (.none (by simp)) (.none ?_)))
                  simp [tale_bind, Tale.ret]
                | true =>
                  have : ∀ r, (Tale.sayV c r : Tale σ Unit) = Tale.say r := fun r => by simp [Tale.sayV, hvb]
                  simp only [this, tale_bind, Tale.say, Tale.ret, List.append_nil]
                  by_cases hes : es = []
                  · subst hes
                    obtain ⟨rfl, hev⟩ := verify_clean inst name errs rs s2 hv
                    obtain ⟨-, hlog⟩ := runCommands_clean c m name o.continueOnError [] cmds s1 hr
                    intro pre post n hpre
                    have hsum : summary name [] = .success name := by simp [summary]
                    rw [hsum] at hpre
                    have hpre' : ([LogItem.did (.plan name rs (.ok cmds))] ++ ((runCommandsTelling c m name o.continueOnError [] cmds s1).log ++
                        (verifyItems inst name [] rs s2).ev.map .did)) ++ [LogItem.said (.success name)] = pre ++ LogItem.said (.success n) :: post := by
                      rw [← hpre]; simp
                    rcases split_log hpre' with ⟨q, e1, -⟩ | ⟨q, e1, e2⟩
                    · have hin : LogItem.said (.success n) ∈ [LogItem.did (.plan name rs (.ok cmds))] ++
                          ((runCommandsTelling c m name o.continueOnError [] cmds s1).log ++ (verifyItems inst name [] rs s2).ev.map .did) := by
                        rw [e1]; simp
                      simp only [List.mem_append, List.mem_singleton, reduceCtorEq, false_or, List.mem_map, and_false, exists_false, or_false] at hin
                      exact absurd rfl (hq _ hin n)
                    · have hn : name = n := by
                        cases q with
                        | nil => simp only [List.nil_append, List.cons.injEq, LogItem.said.injEq, Remark.success.injEq] at e2; exact e2.1
                        | cons y q => simp at e2
                      have hq0 : q = [] := by
                        cases q with
                        | nil => rfl
                        | cons y q => simp at e2
                      subst hn; subst hq0
                      refine ⟨[], rs, cmds, _, by rw [e1]; simp; rfl, hne, ?_⟩
                      rw [List.filterMap_append, hlog, done_map_did, hev]
                  · have hsum : summary name es = .failed name := by
                      unfold summary
                      rw [if_pos (by cases es <;> simp_all)]
                    rw [hsum]
                    refine .append (.none (by simp)) (.append (.none fun n hn => hq _ hn n rfl) (.append (.none (by simp)) (.none (by simp))))

/-- **C132** Where an installation says that an installer "successfully installed", this is true: there were commands to run, all were run and
returned 0, and all its items were then found installed. -/
theorem C132_success_is_true (c : Console) (m : Machine σ) (ic : InstallerCtx σ) (o : InstallOpts) (resolved : List (String × List Resolution)) (s : σ) :
    SuccessTrue (installResolvedTelling c m ic o resolved s).log := by
  unfold installResolvedTelling
  have key : ∀ (l : List (String × List Resolution)) all s, SuccessTrue (installLoopTelling c m ic o all l s).log := by
    intro l
    induction l with
    | nil => intro all s; exact .none (by simp [installLoopTelling, Tale.ret])
    | cons x t ih =>
      intro all s
      unfold installLoopTelling
      have hg := successTrue_group c m ic o x.1 x.2 s
      cases hr : (installResolutionsTelling c m ic o x.1 x.2 s).res with
      | error e => rw [tale_bind_error hr]; exact hg
      | ok e =>
        rw [tale_bind_ok hr]
        refine .append hg ?_
        split
        · exact .none (by simp [Tale.ret])
        · exact ih _ _
  exact key _ _ _

/-- Where a log tells of a command that returned, its return code is said next. -/
def CodesSaid (bold reset : List Char) (log : List LogItem) : Prop :=
  ∀ pre post n cmd code, log = pre ++ LogItem.did (.exec n cmd (.ok code)) :: post →
    ∃ rest, post = LogItem.said (.returned (bold ++ "command return code: ".toList ++ (toString code).toList ++ reset ++ reset)) :: rest

theorem CodesSaid.append {bold reset : List Char} {l1 l2 : List LogItem} (h1 : CodesSaid bold reset l1) (h2 : CodesSaid bold reset l2) :
    CodesSaid bold reset (l1 ++ l2) := by
  intro pre post n cmd code h
  rcases split_log h with ⟨q, e, rfl⟩ | ⟨q, rfl, e⟩
  · obtain ⟨rest, rfl⟩ := h1 pre q n cmd code e
    exact ⟨rest ++ l2, rfl⟩
  · exact h2 q post n cmd code e

theorem CodesSaid.none {bold reset : List Char} {l : List LogItem} (h : ∀ n cmd code, LogItem.did (.exec n cmd (.ok code)) ∉ l) : CodesSaid bold reset l := by
  intro pre post n cmd code e
  exact absurd (by rw [e]; simp) (h n cmd code)

theorem CodesSaid.bind {bold reset : List Char} {t : Tale σ α} {f : α → Tale σ β} (h : ∀ s, CodesSaid bold reset (t s).log)
    (hf : ∀ a s, CodesSaid bold reset (f a s).log) (s : σ) : CodesSaid bold reset ((t >>= f) s).log := by
  cases hr : (t s).res with
  | error e => rw [tale_bind_error hr]; exact h s
  | ok a => rw [tale_bind_ok hr]; exact (h s).append (hf a _)

theorem verify_no_exec (inst : Installer σ) (name : String) (errors : List InstErr) (rs : List Resolution) (s : σ) (n : String) (cmd : Cmd)
    (x : Except Exc Int) : Event.exec n cmd x ∉ (verifyItems inst name errors rs s).ev := by
  induction rs generalizing errors s with
  | nil => simp [verifyItems]
  | cons r t ih =>
    unfold verifyItems
    simp only [attempt_run, Out.prepend, List.mem_append, List.mem_singleton, reduceCtorEq, false_or]
    cases (inst.isInstalled r s).1 with
    | error e =>
      simp only
      split
      · exact ih _ _
      · simp
    | ok b => cases b <;> exact ih _ _

theorem shown_no_exec (name : String) (cmds : List Cmd) (s : σ) (n : String) (cmd : Cmd) (x : Except Exc Int) :
    Event.exec n cmd x ∉ (showCommands name cmds s).ev := by
  induction cmds generalizing s with
  | nil => simp [showCommands]
  | cons c t ih =>
    unfold showCommands
    rw [bind_run]
    cases hj : joinCmd c with
    | error e => simp [Prog.lift]
    | ok l =>
      simp only [Prog.lift, Out.prepend, List.nil_append]
      rw [bind_run]
      simp only [Prog.emit, Out.prepend, List.mem_append, List.mem_singleton, reduceCtorEq, false_or]
      exact ih _

theorem codesSaid_group {c : Console} (hv : c.verbose = true) {m : Machine σ} {bold reset : List Char} (hb : m.ansi "boldon".toList = some bold)
    (hr : m.ansi "reset".toList = some reset) (ic : InstallerCtx σ) (o : InstallOpts) (name : String) (rs : List Resolution) (s : σ) :
    CodesSaid bold reset (installResolutionsTelling c m ic o name rs s).log := by
  have hs : ∀ r, (Tale.sayV c r : Tale σ Unit) = Tale.say r := fun r => by simp [Tale.sayV, hv]
  have hrun : ∀ errors cmds s, CodesSaid bold reset (runCommandsTelling c m name o.continueOnError errors cmds s).log := by
    intro errors cmds
    induction cmds generalizing errors with
    | nil => intro s; exact .none (by simp [runCommandsTelling, Tale.ret])
    | cons cmd t ih =>
      intro s
      unfold runCommandsTelling
      rw [tale_bind]
      cases ha : announce m.ansi cmd with
      | error e => exact .none (by simp [Tale.quiet, Prog.lift])
      | ok a =>
        simp only [Tale.quiet, Prog.lift, List.map_nil, List.nil_append]
        rw [tale_bind]
        simp only [Tale.quiet, Prog.attempt, List.map_cons, List.map_nil]
        rw [tale_bind]
        cases hc : (m.call cmd s).1 with
        | error e => exact .none (by simp [Tale.quiet, Prog.lift])
        | ok code =>
          simp only [Tale.quiet, Prog.lift, List.map_nil, List.nil_append]
          rw [tale_bind]
          have hf : fmt m.ansi ("@!command return code: ".toList ++ codeText code ++ "@|".toList) =
              .ok (bold ++ ("command return code: ".toList ++ codeText code) ++ reset ++ reset) := by
            have hat : '@' ∉ "command return code: ".toList ++ codeText code := by
              rw [List.mem_append, not_or]; exact ⟨by decide, codeText_at code⟩
            rw [← C57_bold_text m.ansi bold reset _ hat hb hr]
            rfl
          rw [hf]
          simp only [hs, Tale.quiet, Prog.lift, List.map_nil, List.nil_append]
          rw [tale_bind]
          simp only [Tale.say]
          intro pre post n cmd' code' h
          have h' : [LogItem.did (.exec name cmd (.ok code)),
              LogItem.said (.returned (bold ++ ("command return code: ".toList ++ codeText code) ++ reset ++ reset))] ++
              ((if code ≠ 0 then
                  if o.continueOnError = true then runCommandsTelling c m name o.continueOnError (errors ++ [InstErr.commandFailed name cmd code]) t
                  else Tale.ret (errors ++ [InstErr.commandFailed name cmd code], true)
                else runCommandsTelling c m name o.continueOnError errors t) (m.call cmd s).2).log = pre ++ LogItem.did (.exec n cmd' (.ok code')) :: post := by
            rw [← h]; rfl
          have hrest : CodesSaid bold reset ((if code ≠ 0 then
                  if o.continueOnError = true then runCommandsTelling c m name o.continueOnError (errors ++ [InstErr.commandFailed name cmd code]) t
                  else Tale.ret (errors ++ [InstErr.commandFailed name cmd code], true)
                else runCommandsTelling c m name o.continueOnError errors t) (m.call cmd s).2).log := by
            split
            · split
              · exact ih _ _
              · exact .none (by simp [Tale.ret])
            · exact ih _ _
          have hfirst : CodesSaid bold reset [LogItem.did (.exec name cmd (.ok code)),
              LogItem.said (.returned (bold ++ ("command return code: ".toList ++ codeText code) ++ reset ++ reset))] := by
            intro pre post n cmd' code' h
            cases pre with
            | nil =>
              simp only [List.nil_append, List.cons.injEq, LogItem.did.injEq, Event.exec.injEq, Except.ok.injEq] at h
              obtain ⟨⟨-, -, rfl⟩, rfl⟩ := h
              exact ⟨[], by simp [codeText]⟩
            | cons x pre =>
              cases pre with
              | nil => simp at h
              | cons y pre => simp at h
          exact hfirst.append hrest pre post n cmd' code' h'
  unfold installResolutionsTelling
  refine CodesSaid.bind (fun s => .none (by simp [Tale.quiet, Prog.lift])) (fun inst s => CodesSaid.bind (fun s => .none (by simp [Tale.quiet, Prog.attempt]))
    (fun r s => ?_) s) s
  cases r with
  | error e => exact .none (by simp [Tale.quiet, Prog.raise])
  | ok cmds =>
    show CodesSaid bold reset (performTelling c m o inst name rs cmds s).log
    unfold performTelling
    split
    · exact CodesSaid.bind (fun s => .none (by simp [hs, Tale.say])) (fun _ s => .none (by simp [Tale.ret])) s
    · split
      · exact CodesSaid.bind (fun s => .none (by simp [Tale.quiet, Prog.emit])) (fun _ s => CodesSaid.bind (fun s => .none (by
          intro n cmd code h
          simp only [Tale.quiet, List.mem_map, LogItem.did.injEq] at h
          obtain ⟨e, he, rfl⟩ := h
          exact shown_no_exec _ _ _ _ _ _ he)) (fun _ s => .none (by simp [Tale.ret])) s) s
      · refine CodesSaid.bind (fun s => hrun _ _ s) (fun r s => ?_) s
        split
        · exact .none (by simp [Tale.ret])
        · unfold verifyTelling
          exact CodesSaid.bind (fun s => .none (by
            intro n cmd code h
            simp only [Tale.quiet, List.mem_map, LogItem.did.injEq] at h
            obtain ⟨e, he, rfl⟩ := h
            exact verify_no_exec _ _ _ _ _ _ _ _ he)) (fun e s => CodesSaid.bind (fun s => .none (by simp [hs, Tale.say])) (fun _ s => .none (by simp [Tale.ret])) s) s

/-- **C132** If verbose, the return code of every command that was run is said right after it, before anything else is done. -/
theorem C132_return_codes {c : Console} (hv : c.verbose = true) {m : Machine σ} {bold reset : List Char} (hb : m.ansi "boldon".toList = some bold)
    (hr : m.ansi "reset".toList = some reset) (ic : InstallerCtx σ) (o : InstallOpts) (resolved : List (String × List Resolution)) (s : σ) :
    CodesSaid bold reset (installResolvedTelling c m ic o resolved s).log := by
  unfold installResolvedTelling
  generalize squashResolutions resolved = l
  generalize ([] : List InstErr) = all
  induction l generalizing all s with
  | nil => exact .none (by simp [installLoopTelling, Tale.ret])
  | cons x t ih =>
    unfold installLoopTelling
    refine CodesSaid.bind (fun s => codesSaid_group hv hb hr ic o x.1 x.2 s) (fun e s => ?_) s
    split
    · exact .none (by simp [Tale.ret])
    · exact ih _ _

/-! ## Every installer gets its summary -/

/-- How the installation with an installer ended, as far as that was said. -/
def endings (log : List LogItem) : List Remark := (log.filterMap LogItem.remark).filter fun r =>
  match r with
  | .returned _ => false
  | _ => true

theorem endings_append (a b : List LogItem) : endings (a ++ b) = endings a ++ endings b := by simp [endings]

theorem endings_run (c : Console) (m : Machine σ) (name : String) (cont : Bool) (errors : List InstErr) (cmds : List Cmd) (s : σ) :
    endings (runCommandsTelling c m name cont errors cmds s).log = [] := by
  have := tells_runCommands (P := fun r => ∃ t, r = .returned t) c (fun _ t => ⟨t, rfl⟩) m name cont errors cmds s
  unfold endings
  rw [List.filter_eq_nil_iff]
  intro r hr
  obtain ⟨x, hx, he⟩ := List.mem_filterMap.1 hr
  cases x with
  | did e => simp at he
  | said r' =>
    simp only [remark_said, Option.some.injEq] at he
    subst he
    obtain ⟨t, rfl⟩ := this _ hx
    simp

theorem endings_did (l : List Event) : endings (l.map .did) = [] := by
  unfold endings
  rw [remark_map_did]
  rfl

theorem stopped_at_first (m : Machine σ) (name : String) (cont : Bool) (errors : List InstErr) (cmds : List Cmd) (s : σ) (es : List InstErr)
    (h : (runCommands m name cont errors cmds s).res = .ok (es, true)) :
    cont = false ∧ ∃ cmd ∈ cmds, ∃ code, code ≠ 0 ∧ es = errors ++ [.commandFailed name cmd code] := by
  induction cmds generalizing errors s with
  | nil => simp [runCommands] at h
  | cons cmd t ih =>
    unfold runCommands at h
    rw [bind_run] at h
    cases ha : announce m.ansi cmd with
    | error e => rw [ha] at h; simp [Prog.lift] at h
    | ok a =>
      rw [ha] at h
      simp only [Prog.lift, Out.prepend, attempt_run] at h
      rw [bind_run] at h
      cases hc : (m.call cmd s).1 with
      | error e => rw [hc] at h; simp [Prog.lift] at h
      | ok code =>
        rw [hc] at h
        simp only [Prog.lift, Out.prepend] at h
        rw [bind_run] at h
        cases hf : fmt m.ansi ("@!command return code: ".toList ++ codeText code ++ "@|".toList) with
        | error e => rw [hf] at h; simp [Prog.lift] at h
        | ok text =>
          rw [hf] at h
          simp only [Prog.lift, Out.prepend] at h
          by_cases h0 : code = 0
          · simp only [h0, ne_eq, not_true, if_false] at h
            obtain ⟨e1, c', hc', code', e2, e3⟩ := ih _ _ h
            exact ⟨e1, c', by simp [hc'], code', e2, e3⟩
          · simp only [ne_eq, h0, not_false_iff, if_true] at h
            cases hcont : cont with
            | false =>
              rw [hcont] at h
              simp only [Bool.false_eq_true, if_false, ret_run, Except.ok.injEq, Prod.mk.injEq, and_true] at h
              exact ⟨rfl, cmd, by simp, code, h0, h.symm⟩
            | true =>
              rw [hcont] at h ih
              obtain ⟨e1, -⟩ := ih _ _ h
              cases e1

/-- **C132** If verbose, an installation with an installer that returns ends with a summary: that there was nothing to do, that it was successful (no errors
are returned) or that there were errors. There is none in a simulation, and none if the installation stopped at a command that failed: then the returned
error is that of this command. -/
theorem C132_summary {c : Console} (hv : c.verbose = true) (m : Machine σ) (ic : InstallerCtx σ) (o : InstallOpts) (name : String) (rs : List Resolution)
    (s : σ) (inst : Installer σ) (cmds : List Cmd) (s1 : σ) (errs : List InstErr) (hi : lookupInstaller ic name = some inst)
    (hp : inst.getInstallCommands rs o.interactive o.reinstall s = (.ok cmds, s1))
    (hr : (installResolutionsTelling c m ic o name rs s).res = .ok errs) :
    (cmds = [] → endings (installResolutionsTelling c m ic o name rs s).log = [.nothing name]) ∧
    (cmds ≠ [] → o.simulate = true → endings (installResolutionsTelling c m ic o name rs s).log = []) ∧
    (cmds ≠ [] → o.simulate = false →
      (errs = [] → endings (installResolutionsTelling c m ic o name rs s).log = [.success name]) ∧
      (errs ≠ [] → endings (installResolutionsTelling c m ic o name rs s).log = [.failed name] ∨
        endings (installResolutionsTelling c m ic o name rs s).log = [] ∧ o.continueOnError = false ∧
          ∃ cmd ∈ cmds, ∃ code, code ≠ 0 ∧ errs = [.commandFailed name cmd code])) := by
  have hs : ∀ r, (Tale.sayV c r : Tale σ Unit) = Tale.say r := fun r => by simp [Tale.sayV, hv]
  have hreq : requireInstaller ic name = .ok inst := by simp [requireInstaller, hi]
  have e : ∀ P : Told σ (List InstErr) → Prop, P ⟨(performTelling c m o inst name rs cmds s1).res, (performTelling c m o inst name rs cmds s1).st,
      LogItem.did (.plan name rs (.ok cmds)) :: (performTelling c m o inst name rs cmds s1).log⟩ → P (installResolutionsTelling c m ic o name rs s) := by
    intro P h
    have e : installResolutionsTelling c m ic o name rs s = ⟨(performTelling c m o inst name rs cmds s1).res,
        (performTelling c m o inst name rs cmds s1).st, LogItem.did (.plan name rs (.ok cmds)) :: (performTelling c m o inst name rs cmds s1).log⟩ := by
      unfold installResolutionsTelling
      rw [tale_bind, hreq]
      simp only [Tale.quiet, Prog.lift, List.map_nil, List.nil_append]
      rw [tale_bind]
      simp only [Tale.quiet, Prog.attempt, hp, List.map_cons, List.map_nil, List.cons_append, List.nil_append]
    rw [e]; exact h
  have hcons : ∀ l, endings (LogItem.did (.plan name rs (.ok cmds)) :: l) = endings l := fun l => rfl
  revert hr
  refine e (fun x => x.res = .ok errs → _) ?_
  refine e (fun x => _ → (cmds = [] → endings x.log = _) ∧ (cmds ≠ [] → o.simulate = true → endings x.log = []) ∧
    (cmds ≠ [] → o.simulate = false → (errs = [] → endings x.log = _) ∧ (errs ≠ [] → endings x.log = _ ∨ endings x.log = [] ∧ _))) ?_
  simp only [hcons]
  intro hr
  unfold performTelling at hr ⊢
  refine ⟨fun h => ?_, fun h h' => ?_, fun h h' => ?_⟩
  · rw [if_pos h, hs]; rfl
  · rw [if_neg h, if_pos h'] at hr ⊢
    have : Tells (fun _ => False) (do
        Tale.quiet (Prog.emit (.heading name))
        Tale.quiet (showCommands name cmds)
        Tale.ret [] : Tale σ (List InstErr)) := .bind (.quiet _) fun _ => .bind (.quiet _) fun _ => .ret _
    unfold endings
    have hnone : ((do
        Tale.quiet (Prog.emit (.heading name))
        Tale.quiet (showCommands name cmds)
        Tale.ret [] : Tale σ (List InstErr)) s1).log.filterMap LogItem.remark = [] := by
      rw [List.filterMap_eq_nil_iff]
      intro x hx
      cases x with
      | did e => rfl
      | said r => exact (this _ _ hx).elim
    rw [hnone]
    rfl
  · rw [if_neg h, if_neg (by simp [h'])] at hr ⊢
    cases hrun : (runCommandsTelling c m name o.continueOnError [] cmds s1).res with
    | error e => rw [tale_bind_error hrun] at hr; simp at hr
    | ok r =>
      rw [tale_bind_ok hrun] at hr ⊢
      obtain ⟨es, stop⟩ := r
      simp only [endings_append, endings_run, List.nil_append] at hr ⊢
      cases stop with
      | true =>
        simp only [if_true, Tale.ret, Except.ok.injEq] at hr ⊢
        subst hr
        rw [(follows_runCommands c m name o.continueOnError [] cmds s1).1] at hrun
        obtain ⟨e1, cmd, hc, code, e2, e3⟩ := stopped_at_first m name o.continueOnError [] cmds s1 es hrun
        refine ⟨fun h => by rw [e3] at h; simp at h, fun _ => .inr ⟨rfl, e1, cmd, hc, code, e2, e3⟩⟩
      | false =>
        simp only [Bool.false_eq_true, if_false] at hr ⊢
        unfold verifyTelling at hr ⊢
        generalize (runCommandsTelling c m name o.continueOnError [] cmds s1).st = s2 at hr ⊢
        cases hver : (verifyItems inst name es rs s2).res with
        | error e => rw [tale_bind_error (p := Tale.quiet (verifyItems inst name es rs)) hver] at hr; simp at hr
        | ok es' =>
          rw [tale_bind_ok (p := Tale.quiet (verifyItems inst name es rs)) hver] at hr ⊢
          simp only [hs, tale_bind, Tale.say, Tale.ret, Except.ok.injEq, Tale.quiet, endings_append, endings_did, List.nil_append, List.append_nil] at hr ⊢
          subst hr
          refine ⟨fun h => ?_, fun h => .inl ?_⟩
          · subst h; rfl
          · have : summary name es' = .failed name := by
              unfold summary
              rw [if_pos]
              intro h0
              exact h (List.length_eq_zero_iff.1 h0)
            rw [this]; rfl

end Verif
