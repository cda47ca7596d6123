import Verif.Props.SuccessShipped
import Verif.Props.CommandOutput
/-! # C118: a simulation shows what the installation does -/
namespace Verif
variable {σ α β : Type}

/-! ## Specification -/

/-- The installer's commands do not depend on the state of the machine. -/
def PlansAhead (i : Installer σ) : Prop := ∀ rs a b, ∃ c, ∀ s, (i.getInstallCommands rs a b s).1 = c

/-- The same options, simulating. -/
def InstallOpts.dry (o : InstallOpts) : InstallOpts := { o with simulate := true }

/-- The plans made, in order: for each group the installer and the commands. -/
def plansOf (ev : List Event) : List (String × List Cmd) := ev.flatMap fun
  | .plan i _ (.ok cs) => [(i, cs)]
  | _ => []

/-- A command of texts as the user would type it. -/
def typed (c : Cmd) : List Char := pyJoin [' '] (c.map fun w => (w.getD "").toList)

/-- What is to be shown of a plan. -/
def planText (g : String × List Cmd) : List (List Char) :=
  if g.2 = [] then [] else ("# [".toList ++ g.1.toList ++ "] installation commands:".toList) :: g.2.map fun c => "  ".toList ++ typed c

/-! ## Proof -/

theorem shownOf_append (a b : List Event) : shownOf (a ++ b) = shownOf a ++ shownOf b := by simp [shownOf]
theorem plansOf_append (a b : List Event) : plansOf (a ++ b) = plansOf a ++ plansOf b := by simp [plansOf]

/-- A program that neither runs nor shows nor plans commands. -/
def NoCommands (p : Prog σ α) : Prop := ∀ s, executedOf (p s).ev = [] ∧ shownOf (p s).ev = [] ∧ plansOf (p s).ev = [] ∧
  ∀ on t, (p s).ev.flatMap (eventLines on t) = []

theorem NoCommands.bind {p : Prog σ α} {f : α → Prog σ β} (hp : NoCommands p) (hf : ∀ a, NoCommands (f a)) : NoCommands (p >>= f) := by
  intro s
  rw [bind_run]
  cases h : (p s).res with
  | error e => exact hp s
  | ok a =>
    obtain ⟨a1, a2, a3, a4⟩ := hp s
    obtain ⟨b1, b2, b3, b4⟩ := hf a (p s).st
    refine ⟨?_, ?_, ?_, fun on t => ?_⟩
    · simp only [Out.prepend, executedOf_append, a1, b1, List.append_nil]
    · simp only [Out.prepend, shownOf_append, a2, b2, List.append_nil]
    · simp only [Out.prepend, plansOf_append, a3, b3, List.append_nil]
    · simp only [Out.prepend, List.flatMap_append, a4, b4, List.append_nil]

theorem NoCommands.lift (x : Except Exc α) : NoCommands (Prog.lift x : Prog σ α) := fun _ => ⟨rfl, rfl, rfl, fun _ _ => rfl⟩
theorem NoCommands.ret (x : α) : NoCommands (Prog.ret x : Prog σ α) := fun _ => ⟨rfl, rfl, rfl, fun _ _ => rfl⟩
theorem NoCommands.raise (e : Exc) : NoCommands (Prog.raise e : Prog σ α) := fun _ => ⟨rfl, rfl, rfl, fun _ _ => rfl⟩

theorem noCommands_general (ic : InstallerCtx σ) (os : OsTuple) (fix inter : Bool) (names : List String) :
    NoCommands (checkGeneralLoop ic os fix inter names) := by
  induction names with
  | nil => exact .ret _
  | cons n t ih => exact .bind (.lift _) fun i => .bind (fun s => ⟨rfl, rfl, rfl, fun _ _ => rfl⟩) fun r => .bind (.lift _) fun _ => ih

theorem noCommands_prereq (ic : InstallerCtx σ) (os : OsTuple) (fix inter : Bool) (l : List (String × List Resolution)) :
    NoCommands (checkInstallLoop ic os fix inter l) := by
  induction l with
  | nil => exact .ret _
  | cons n t ih => exact .bind (.lift _) fun i => .bind (fun s => ⟨rfl, rfl, rfl, fun _ _ => rfl⟩) fun r => .bind (.lift _) fun _ => ih

theorem noCommands_filter (ic : InstallerCtx σ) (u : List (String × List Resolution)) (errs : List InstErr) (l : List (String × List Resolution)) :
    NoCommands (filterLoop ic u errs l) := by
  induction l generalizing u errs with
  | nil => exact .ret _
  | cons n t ih =>
    refine .bind (.lift _) fun i => .bind (fun s => ⟨rfl, rfl, rfl, fun _ _ => rfl⟩) fun r => ?_
    cases r with
    | ok rs => exact ih _ _
    | error e =>
      simp only
      split
      · exact ih _ _
      · exact .raise _

/-- The outcome of a simulation compared with that of the installation: what is executed is the beginning of what is shown, and all of it if the
installation ends well (`good`). -/
structure Foretold (good : α → Prop) (d r : Out σ α) : Prop where
  none : executedOf d.ev = []
  prefix_ : executedOf r.ev <+: shownOf d.ev
  all : ∀ a, r.res = .ok a → good a → executedOf r.ev = shownOf d.ev ∧ ∃ a', d.res = .ok a'

theorem Foretold.bind {p : Prog σ α} {fd fr : α → Prog σ β} {good : β → Prop} (hp : NoCommands p)
    (hf : ∀ a s, Foretold good (fd a s) (fr a s)) (s : σ) : Foretold good ((p >>= fd) s) ((p >>= fr) s) := by
  rw [bind_run, bind_run]
  obtain ⟨h1, h2, -⟩ := hp s
  cases h : (p s).res with
  | error e => exact ⟨h1, by rw [h1]; exact List.nil_prefix, by simp⟩
  | ok a =>
    obtain ⟨g0, g1, g2⟩ := hf a (p s).st
    refine ⟨?_, ?_, fun b hb hg => ?_⟩
    · simp only [Out.prepend, executedOf_append, h1, g0, List.append_nil]
    · simp only [Out.prepend, executedOf_append, shownOf_append, h1, h2, List.nil_append]; exact g1
    · simp only [Out.prepend, executedOf_append, shownOf_append, h1, h2, List.nil_append]; exact g2 b hb hg

theorem Foretold.same {p : Prog σ α} {good : α → Prop} (hp : NoCommands p) (s : σ) : Foretold good (p s) (p s) := by
  obtain ⟨h1, h2, -⟩ := hp s
  exact ⟨h1, by rw [h1]; exact List.nil_prefix, fun a ha _ => ⟨by rw [h1, h2], a, ha⟩⟩

theorem announced_text {m : Machine σ} {n : String} {cont : Bool} {errs : List InstErr} {cmds : List Cmd} {s : σ} {i : String} {c : Cmd}
    {r : Except Exc Int} (h : .exec i c r ∈ (runCommands m n cont errs cmds s).ev) : ∃ x, joinCmd c = .ok x := by
  induction cmds generalizing errs s with
  | nil => simp [runCommands] at h
  | cons cmd t ih =>
    rw [runCommands_cons] at h
    cases h1 : announce m.ansi cmd with
    | error e => rw [h1] at h; simp at h
    | ok x =>
      have hj : ∃ x, joinCmd cmd = .ok x := by
        unfold announce at h1
        obtain ⟨y, hy, -⟩ := Except_bind_ok.1 h1
        exact ⟨y, hy⟩
      rw [h1] at h
      cases h2 : (m.call cmd s).1 with
      | error e =>
        simp only [h2, List.mem_singleton] at h
        cases h; exact hj
      | ok code =>
        simp only [h2] at h
        cases h3 : fmt m.ansi ("@!command return code: ".toList ++ codeText code ++ "@|".toList) with
        | error e =>
          simp only [h3, List.mem_singleton] at h
          cases h; exact hj
        | ok y =>
          simp only [h3] at h
          have key : ∀ o : Out σ (List InstErr × Bool), Event.exec i c r ∈ (o.prepend [.exec n cmd (.ok code)]).ev →
              (Event.exec i c r = .exec n cmd (.ok code)) ∨ Event.exec i c r ∈ o.ev := by
            intro o ho; simpa [Out.prepend] using ho
          split at h
          · split at h
            · rcases key _ h with h | h
              · cases h; exact hj
              · exact ih h
            · simp only [List.mem_singleton] at h; cases h; exact hj
          · rcases key _ h with h | h
            · cases h; exact hj
            · exact ih h

theorem shownOf_map (n : String) (l : List Cmd) : shownOf (l.map fun c => .shown n c) = l.map fun c => (n, c) := by
  induction l with
  | nil => rfl
  | cons a t ih => simp only [shownOf, List.map_cons, List.flatMap_cons] at ih ⊢; rw [ih]; rfl

theorem executedOf_shown (n : String) (l : List Cmd) : executedOf (l.map fun c => .shown n c) = [] := by
  induction l with
  | nil => rfl
  | cons a t ih => simp only [executedOf, List.map_cons, List.flatMap_cons] at ih ⊢; rw [ih]; rfl

/-- One group: planning does not look at the machine, so both do the same until something goes wrong. -/
theorem group_foretold {m : Machine σ} {ic : InstallerCtx σ} {o : InstallOpts} (hp : ∀ i ∈ ic.plugins, PlansAhead i) (ho : o.simulate = false)
    (n : String) (rs : List Resolution) (s s' : σ) :
    Foretold (fun errs => errs = [] ∨ o.continueOnError = true) (installResolutions m ic o.dry n rs s) (installResolutions m ic o n rs s') ∧
    ∀ errs, (installResolutions m ic o.dry n rs s).res = .ok errs → errs = [] := by
  rw [installResolutions_run, installResolutions_run]
  cases hl : lookupInstaller ic n with
  | none => exact ⟨⟨rfl, List.nil_prefix, by simp⟩, by simp⟩
  | some i =>
    simp only
    obtain ⟨c, hc⟩ := hp i (lookup_mem hl) rs o.interactive o.reinstall
    have hd : (i.getInstallCommands rs o.dry.interactive o.dry.reinstall s).1 = c := hc s
    rw [hd, hc s']
    cases c with
    | error e => exact ⟨⟨rfl, List.nil_prefix, by simp⟩, by simp⟩
    | ok cmds =>
      simp only
      by_cases hn : cmds = []
      · rw [if_pos hn, if_pos hn]
        exact ⟨⟨rfl, List.nil_prefix, fun _ _ _ => ⟨rfl, _, rfl⟩⟩, fun errs h => by cases h; rfl⟩
      · rw [if_neg hn, if_neg hn, if_pos (show o.dry.simulate = true from rfl), if_neg (by rw [ho]; simp)]
        generalize (i.getInstallCommands rs o.dry.interactive o.dry.reinstall s).2 = s1
        generalize (i.getInstallCommands rs o.interactive o.reinstall s').2 = s1'
        obtain ⟨l, d1, d2, -, d4⟩ := simulate_run n cmds s1
        obtain ⟨ran, hr⟩ := runCommands_ran m n o.continueOnError [] cmds s1'
        have hexec : executedOf (runCommands m n o.continueOnError [] cmds s1').ev = ran.map fun p => (n, p.1) := by
          rw [hr.ev, executedOf_execs]
        have hshown : shownOf (Event.heading n :: l.map fun c => .shown n c) = l.map fun c => (n, c) := shownOf_map n l
        have hpre : ran.map Prod.fst <+: l := by
          rcases d4 with ⟨-, rfl⟩ | ⟨c, t, e, hcm, hj, -⟩
          · exact hr.prefix_
          · have hpl := hr.prefix_
            rw [hcm] at hpl
            rcases Nat.lt_or_ge l.length (ran.map Prod.fst).length with hlt | hle
            · exfalso
              have hmem : c ∈ ran.map Prod.fst := by
                obtain ⟨t', ht'⟩ := hpl
                have h1 : (ran.map Prod.fst ++ t')[l.length]? = some c := by rw [ht']; simp
                rw [List.getElem?_append_left hlt] at h1
                exact List.mem_of_getElem? h1
              obtain ⟨p, hp', rfl⟩ := List.mem_map.1 hmem
              obtain ⟨x, hx⟩ := announced_text (m := m) (n := n) (cont := o.continueOnError) (errs := []) (cmds := cmds) (s := s1') (i := n) (c := p.1)
                (r := p.2) (by rw [hr.ev]; exact List.mem_map.2 ⟨p, hp', rfl⟩)
              rw [hj] at hx; simp at hx
            · exact List.prefix_of_prefix_length_le hpl (List.prefix_append _ _) hle
        have hev : ∀ out : Out σ (List InstErr), executedOf (out.prepend [.plan n rs (.ok cmds)]).ev = executedOf out.ev ∧
            shownOf (out.prepend [.plan n rs (.ok cmds)]).ev = shownOf out.ev := fun out => ⟨rfl, rfl⟩
        have hreal : executedOf ((do
              let r ← runCommands m n o.continueOnError [] cmds
              if r.2 then Prog.ret r.1
              else verifyItems i n r.1 rs : Prog σ (List InstErr)) s1').ev = ran.map fun p => (n, p.1) := by
          rw [bind_run]
          cases hrr : (runCommands m n o.continueOnError [] cmds s1').res with
          | error e => exact hexec
          | ok r =>
            simp only [Out.prepend, executedOf_append, hexec]
            split
            · simp [executedOf, Prog.ret]
            · obtain ⟨vl, hv, -⟩ := verifyItems_spec i n r.1 rs (runCommands m n o.continueOnError [] cmds s1').st
              rw [hv, executedOf_probes, List.append_nil]
        refine ⟨⟨?_, ?_, fun errs he hg => ?_⟩, fun errs he => ?_⟩
        · rw [(hev _).1, d2]
          exact executedOf_shown n l
        · rw [(hev _).1, (hev _).2, hreal, d2, hshown]
          have := hpre.map fun c => (n, c)
          rw [List.map_map] at this
          exact this
        · rw [(hev _).1, (hev _).2, hreal, d2, hshown]
          have hall : ran.map Prod.fst = cmds := by
            have he' : ((do
              let r ← runCommands m n o.continueOnError [] cmds
              if r.2 then Prog.ret r.1
              else verifyItems i n r.1 rs : Prog σ (List InstErr)) s1').res = .ok errs := he
            rw [bind_run] at he'
            cases hrr : (runCommands m n o.continueOnError [] cmds s1').res with
            | error e => rw [hrr] at he'; simp at he'
            | ok r =>
              obtain ⟨es, b⟩ := r
              rw [hrr] at he'
              cases b with
              | false => exact (hr.done es hrr).1
              | true =>
                exfalso
                obtain ⟨g1, -, g3, -⟩ := hr.early es hrr
                simp [Out.prepend, Prog.ret] at he'
                rcases hg with hg | hg
                · rw [hg] at he'; exact g3 he'
                · rw [g1] at hg; cases hg
          have hl' : l = cmds := by
            have h1 : cmds.length ≤ l.length := by rw [← hall]; exact hpre.length_le
            exact d1.eq_of_length (Nat.le_antisymm d1.length_le h1)
          refine ⟨?_, ?_⟩
          · rw [hl', ← hall, List.map_map]; rfl
          · rcases d4 with ⟨h4, -⟩ | ⟨c, t, e, hcm, -, -⟩
            · exact ⟨[], h4⟩
            · rw [hl'] at hcm
              have := congrArg List.length hcm
              simp at this
        · rcases d4 with ⟨h4, -⟩ | ⟨c, t, e, -, -, h6⟩
          · have he' : Except.ok [] = Except.ok errs := h4.symm.trans he
            injection he' with he'; exact he'.symm
          · have he' : Except.error e = Except.ok errs := h6.symm.trans he
            cases he'

/-- All groups. -/
theorem loop_foretold {m : Machine σ} {ic : InstallerCtx σ} {o : InstallOpts} (hp : ∀ i ∈ ic.plugins, PlansAhead i) (ho : o.simulate = false)
    (l : List (String × List Resolution)) (all : List InstErr) (s s' : σ) :
    Foretold (fun errs => errs = [] ∨ o.continueOnError = true) (installLoop m ic o.dry [] l s) (installLoop m ic o all l s') := by
  induction l generalizing all s s' with
  | nil => exact ⟨rfl, List.nil_prefix, fun _ _ _ => ⟨rfl, _, rfl⟩⟩
  | cons g t ih =>
    obtain ⟨n, rs⟩ := g
    rw [installLoop, installLoop, bind_run, bind_run]
    obtain ⟨⟨h0, h1, h2⟩, h3⟩ := group_foretold (m := m) hp ho n rs s s'
    cases hd : (installResolutions m ic o.dry n rs s).res with
    | error e =>
      refine ⟨h0, ?_, ?_⟩
      · cases hr : (installResolutions m ic o n rs s').res with
        | error e' => exact h1
        | ok errs =>
          by_cases hstop : errs.length ≠ 0 ∧ o.continueOnError = false
          · simp only [if_pos hstop, Out.prepend, executedOf_append]
            rw [show executedOf (Prog.ret errs (installResolutions m ic o n rs s').st).ev = [] from rfl, List.append_nil]
            exact h1
          · obtain ⟨-, a', ha'⟩ := h2 errs hr (by
              by_cases he : errs = []
              · exact .inl he
              · right
                cases hc : o.continueOnError with
                | true => rfl
                | false => exact absurd ⟨by simpa using he, hc⟩ hstop)
            rw [hd] at ha'; simp at ha'
      · intro a ha hg
        cases hr : (installResolutions m ic o n rs s').res with
        | error e' => rw [hr] at ha; simp at ha
        | ok errs =>
          exfalso
          by_cases hstop : errs.length ≠ 0 ∧ o.continueOnError = false
          · rw [hr] at ha
            simp only [if_pos hstop, Out.prepend] at ha
            have : errs = a := by injection ha
            rcases hg with hg | hg
            · rw [this, hg] at hstop; simp at hstop
            · rw [hg] at hstop; simp at hstop
          · obtain ⟨-, a', ha'⟩ := h2 errs hr (by
              by_cases he : errs = []
              · exact .inl he
              · right
                cases hc : o.continueOnError with
                | true => rfl
                | false => exact absurd ⟨by simpa using he, hc⟩ hstop)
            rw [hd] at ha'; simp at ha'
    | ok ed =>
      have := h3 ed hd
      subst this
      simp only [List.length_nil, ne_eq, not_true_eq_false, false_and, if_false, List.append_nil]
      generalize hD : installLoop m ic o.dry [] t (installResolutions m ic o.dry n rs s).st = D
      have hD0 : executedOf D.ev = [] := by rw [← hD]; exact (ih all _ s').none
      refine ⟨?_, ?_, ?_⟩
      · simp only [Out.prepend, executedOf_append, h0, List.nil_append]; exact hD0
      · cases hr : (installResolutions m ic o n rs s').res with
        | error e' =>
          simp only [Out.prepend, shownOf_append]
          exact h1.trans (List.prefix_append _ _)
        | ok errs =>
          by_cases hstop : errs.length ≠ 0 ∧ o.continueOnError = false
          · simp only [if_pos hstop, Out.prepend, executedOf_append, shownOf_append]
            rw [show executedOf (Prog.ret errs (installResolutions m ic o n rs s').st).ev = [] from rfl, List.append_nil]
            exact h1.trans (List.prefix_append _ _)
          · obtain ⟨he, -⟩ := h2 errs hr (by
              by_cases he : errs = []
              · exact .inl he
              · right
                cases hc : o.continueOnError with
                | true => rfl
                | false => exact absurd ⟨by simpa using he, hc⟩ hstop)
            have hstop' : ¬ (¬ errs.length = 0 ∧ o.continueOnError = false) := hstop
            simp only [if_neg hstop', Out.prepend, executedOf_append, shownOf_append, he]
            rw [List.prefix_append_right_inj, ← hD]
            exact (ih _ _ _).prefix_
      · intro a ha hg
        cases hr : (installResolutions m ic o n rs s').res with
        | error e' => rw [hr] at ha; simp at ha
        | ok errs =>
          rw [hr] at ha
          by_cases hstop : errs.length ≠ 0 ∧ o.continueOnError = false
          · exfalso
            simp only [ne_eq] at hstop
            simp only [if_pos hstop, Out.prepend] at ha
            have : errs = a := by injection ha
            rcases hg with hg | hg
            · rw [this, hg] at hstop; simp at hstop
            · rw [hg] at hstop; simp at hstop
          · have hstop' : ¬ (¬ errs.length = 0 ∧ o.continueOnError = false) := hstop
            simp only [if_neg hstop', Out.prepend] at ha ⊢
            obtain ⟨he, -⟩ := h2 errs hr (by
              by_cases he : errs = []
              · exact .inl he
              · right
                cases hc : o.continueOnError with
                | true => rfl
                | false => exact absurd ⟨by simpa using he, hc⟩ hstop)
            obtain ⟨g1, g2⟩ := (ih (all ++ errs) (installResolutions m ic o.dry n rs s).st (installResolutions m ic o n rs s').st).all a ha hg
            rw [hD] at g1 g2
            refine ⟨?_, ?_⟩
            · simp only [executedOf_append, shownOf_append, he, g1]
            · exact g2

/-- **C118** A simulation tells the truth: if the installers' commands do not depend on the state of the machine then, started in the same state, an
installation executes nothing but the commands the simulation showed, in the same order, up to the point where it stops; and it executes exactly those if
it reports no installation errors or was told to continue, and the simulation then returned, too. The simulation itself executes nothing. -/
theorem C118_dry_run_foretells (m : Machine σ) (ic : InstallerCtx σ) (db : Database) (f : Dict String (List String)) (o : InstallOpts)
    (keys : List String) (all : Bool) (s : σ) (hp : ∀ i ∈ ic.plugins, PlansAhead i) (ho : o.simulate = false) :
    let real := install m ic db f o keys all s
    let dry := install m ic db f o.dry keys all s
    executedOf dry.ev = [] ∧ executedOf real.ev <+: shownOf dry.ev ∧
    ∀ rep, real.res = .ok rep → rep.installErrors = [] ∨ o.continueOnError = true →
      executedOf real.ev = shownOf dry.ev ∧ ∃ rep', dry.res = .ok rep' := by
  have key : Foretold (fun rep : InstallReport => rep.installErrors = [] ∨ o.continueOnError = true) (install m ic db f o.dry keys all s)
      (install m ic db f o keys all s) := by
    unfold install
    refine .bind (.lift _) (fun r s => ?_) s
    show Foretold _ ((if r.errors.length ≠ 0 ∧ o.continueOnError = false then Prog.ret ⟨r.errors, []⟩ else installAfterResolve m ic o.dry r) s) _
    split
    · exact .same (.ret _) s
    · unfold installAfterResolve
      refine .bind (.bind (.lift _) fun os => noCommands_general ic os _ _ _) (fun _ s => ?_) s
      show Foretold _ ((if o.reinstall then Prog.raise .unboundLocalError else do
        let f ← filterUninstalled ic (squashResolutions (r.results.map Prod.snd))
        if f.2.length ≠ 0 ∧ o.continueOnError = false then Prog.ret ⟨r.errors, []⟩
        else installPlanned m ic o.dry r.errors f.1) s) _
      split
      · exact .same (.raise _) s
      · refine .bind (noCommands_filter ic _ _ _) (fun fr s => ?_) s
        split
        · exact .same (.ret _) s
        · unfold installPlanned
          refine .bind (.bind (.lift _) fun os => noCommands_prereq ic os _ _ _) (fun _ s => ?_) s
          unfold installResolved
          obtain ⟨h0, h1, h2⟩ := loop_foretold (m := m) hp ho (squashResolutions fr.1) [] s s
          rw [bind_run, bind_run]
          have hret : ∀ (x : InstallReport) (s : σ), executedOf (Prog.ret x s).ev = [] ∧ shownOf (Prog.ret x s).ev = [] := fun _ _ => ⟨rfl, rfl⟩
          cases hd : (installLoop m ic o.dry [] (squashResolutions fr.1) s).res with
          | error e =>
            cases hr : (installLoop m ic o [] (squashResolutions fr.1) s).res with
            | error e' => exact ⟨h0, h1, by simp⟩
            | ok errs =>
              refine ⟨h0, ?_, fun rep hrep hg => ?_⟩
              · simp only [Out.prepend, executedOf_append, (hret _ _).1, List.append_nil]; exact h1
              · exfalso
                have : rep.installErrors = errs := by cases hrep; rfl
                rw [this] at hg
                obtain ⟨-, a, ha⟩ := h2 errs hr hg
                rw [hd] at ha; simp at ha
          | ok ed =>
            cases hr : (installLoop m ic o [] (squashResolutions fr.1) s).res with
            | error e' =>
              refine ⟨?_, ?_, by simp⟩
              · simp only [Out.prepend, executedOf_append, (hret _ _).1, List.append_nil]; exact h0
              · simp only [Out.prepend, shownOf_append, (hret _ _).2, List.append_nil]; exact h1
            | ok errs =>
              refine ⟨?_, ?_, fun rep hrep hg => ⟨?_, _, rfl⟩⟩
              · simp only [Out.prepend, executedOf_append, (hret _ _).1, List.append_nil]; exact h0
              · simp only [Out.prepend, executedOf_append, shownOf_append, (hret _ _).1, (hret _ _).2, List.append_nil]; exact h1
              · have : rep.installErrors = errs := by cases hrep; rfl
                rw [this] at hg
                simp only [Out.prepend, executedOf_append, shownOf_append, (hret _ _).1, (hret _ _).2, List.append_nil]
                exact (h2 errs hr hg).1
  exact ⟨key.none, key.prefix_, key.all⟩

/-- **C118** The installers xylem ships make plans that do not depend on the state of the machine, so for them simulations tell the truth. -/
theorem C118_shipped_plan_ahead (h : Host σ) (i : Installer σ) (hi : Shipped h i) : PlansAhead i := by
  obtain ⟨options, h1 | h1 | h1 | h1 | h1⟩ := hi <;> subst h1 <;> exact fun _ _ _ => ⟨_, fun _ => rfl⟩

/-! ## What is shown -/

theorem cmdWords_typed {c : Cmd} {ws : List (List Char)} (h : cmdWords c = .ok ws) : ws = c.map fun w => (w.getD "").toList := by
  induction c generalizing ws with
  | nil => simp [cmdWords] at h; exact h
  | cons w t ih =>
    cases w with
    | none => simp [cmdWords] at h
    | some w =>
      rw [cmdWords] at h
      obtain ⟨r, hr, h⟩ := Except_bind_ok.1 h
      rw [← pure_ok.1 h, ih hr]
      rfl

theorem joinCmd_typed {c : Cmd} {l : List Char} (h : joinCmd c = .ok l) : l = typed c := by
  unfold joinCmd at h
  obtain ⟨ws, hw, h⟩ := Except_bind_ok.1 h
  rw [← pure_ok.1 h, cmdWords_typed hw]
  rfl

/-- The commands shown are those planned, as far as the program got, and the lines are their texts. -/
structure PlanShown (out : Out σ α) : Prop where
  prefix_ : shownOf out.ev <+: plannedOf out.ev
  all : ∀ a, out.res = .ok a → shownOf out.ev = plannedOf out.ev ∧
    ∀ t, out.ev.flatMap (eventLines false t) = ((plansOf out.ev).flatMap planText).map .out

theorem PlanShown.bind {p : Prog σ α} {g : α → Prog σ β} {s : σ} (hp : PlanShown (p s)) (hg : ∀ a s, PlanShown (g a s)) : PlanShown ((p >>= g) s) := by
  rw [bind_run]
  cases h : (p s).res with
  | error e => exact ⟨hp.prefix_, by simp⟩
  | ok a =>
    obtain ⟨h1, h2⟩ := hp.all a h
    refine ⟨?_, fun b hb => ?_⟩
    · simp only [Out.prepend, shownOf_append, plannedOf_append, h1]
      rw [List.prefix_append_right_inj]
      exact (hg a _).prefix_
    · obtain ⟨g1, g2⟩ := (hg a _).all b hb
      refine ⟨?_, fun t => ?_⟩
      · simp only [Out.prepend, shownOf_append, plannedOf_append, h1, g1]
      · simp only [Out.prepend, List.flatMap_append, plansOf_append, List.map_append, h2, g2]

theorem plannedOf_of_plans {ev : List Event} (h : plansOf ev = []) : plannedOf ev = [] := by
  induction ev with
  | nil => rfl
  | cons e t ih =>
    cases e with
    | plan i rs r =>
      cases r with
      | ok cs => simp [plansOf] at h
      | error e => exact ih h
    | _ => exact ih h

theorem NoCommands.planShown {p : Prog σ α} (hp : NoCommands p) (s : σ) : PlanShown (p s) := by
  obtain ⟨-, h2, h3, h4⟩ := hp s
  have h5 := plannedOf_of_plans h3
  exact ⟨by rw [h2, h5]; exact List.nil_prefix, fun a _ => ⟨by rw [h2, h5], fun t => by rw [h4, h3]; rfl⟩⟩

theorem shownLines {n : String} {l : List Cmd} (h : ∀ c ∈ l, ∃ x, joinCmd c = .ok x) (t : AnsiTable) :
    (l.map fun c => Event.shown n c).flatMap (eventLines false t) = l.map fun c => .out ("  ".toList ++ typed c) := by
  induction l with
  | nil => rfl
  | cons c r ih =>
    obtain ⟨x, hx⟩ := h c (by simp)
    rw [List.map_cons, List.flatMap_cons, ih fun c hc => h c (List.mem_cons_of_mem _ hc)]
    simp only [eventLines, hx, info, joinCmd_typed hx]
    rw [ansi_off (by simp)]
    simp

theorem shownCommands_text (n : String) (cmds : List Cmd) (s : σ) (h : (showCommands n cmds s).res = .ok ()) : ∀ c ∈ cmds, ∃ x, joinCmd c = .ok x := by
  induction cmds with
  | nil => simp
  | cons c t ih =>
    rw [showCommands] at h
    cases hj : joinCmd c with
    | error e => rw [hj, lift_error_run] at h; simp at h
    | ok x =>
      rw [hj, lift_ok_run, emit_run] at h
      intro c' hc'
      rcases List.mem_cons.1 hc' with rfl | hc'
      · exact ⟨x, hj⟩
      · exact ih h c' hc'

theorem plannedOf_shown (n : String) (l : List Cmd) : plannedOf (l.map fun c => Event.shown n c) = [] ∧
    plansOf (l.map fun c => Event.shown n c) = [] := by
  induction l with
  | nil => exact ⟨rfl, rfl⟩
  | cons a t ih => exact ih

theorem group_planShown {m : Machine σ} {ic : InstallerCtx σ} {o : InstallOpts} (ho : o.simulate = true) (n : String) (rs : List Resolution) (s : σ) :
    PlanShown (installResolutions m ic o n rs s) := by
  rw [installResolutions_run]
  cases hl : lookupInstaller ic n with
  | none => exact ⟨List.nil_prefix, by simp⟩
  | some i =>
    simp only
    cases (i.getInstallCommands rs o.interactive o.reinstall s).1 with
    | error e => exact ⟨List.nil_prefix, by simp⟩
    | ok cmds =>
      simp only
      generalize (i.getInstallCommands rs o.interactive o.reinstall s).2 = s1
      by_cases hn : cmds = []
      · rw [if_pos hn, hn]
        exact ⟨List.nil_prefix, fun a _ => ⟨rfl, fun t => rfl⟩⟩
      · rw [if_neg hn, if_pos ho]
        obtain ⟨l, d1, d2, -, d4⟩ := showCommands_run n cmds s1
        have hpl : ∀ l : List Event, plannedOf (Event.plan n rs (.ok cmds) :: Event.heading n :: l) = (cmds.map fun c => (n, c)) ++ plannedOf l := fun l => rfl
        have hps : ∀ l : List Event, plansOf (Event.plan n rs (.ok cmds) :: Event.heading n :: l) = (n, cmds) :: plansOf l := fun l => rfl
        rw [emit_run, bind_run]
        rcases d4 with ⟨d4, rfl⟩ | ⟨c, t, e, -, -, d4⟩
        · rw [d4]
          have hev : (((((Prog.ret [] : Prog σ (List InstErr)) (showCommands n l s1).st).prepend (showCommands n l s1).ev).prepend [Event.heading n]).prepend
              [Event.plan n rs (.ok l)]).ev = Event.plan n rs (.ok l) :: Event.heading n :: l.map fun c => Event.shown n c := by
            simp [Out.prepend, Prog.ret, d2]
          refine ⟨?_, fun a _ => ⟨?_, fun t => ?_⟩⟩ <;> rw [hev]
          · rw [hpl, (plannedOf_shown n l).1, List.append_nil]
            exact (shownOf_map n l) ▸ List.prefix_refl _
          · rw [hpl, (plannedOf_shown n l).1, List.append_nil]
            exact shownOf_map n l
          · rw [hps, (plannedOf_shown n l).2]
            simp only [List.flatMap_cons, List.flatMap_nil, List.append_nil, planText, if_neg hn]
            rw [shownLines (shownCommands_text n l s1 d4)]
            simp [eventLines, List.map_map, Function.comp_def]
        · rw [d4]
          refine ⟨?_, fun a h => by simp [Out.prepend] at h⟩
          have hev : (((⟨.error e, (showCommands n cmds s1).st, (showCommands n cmds s1).ev⟩ : Out σ (List InstErr)).prepend [Event.heading n]).prepend
              [Event.plan n rs (.ok cmds)]).ev = Event.plan n rs (.ok cmds) :: Event.heading n :: l.map fun c => Event.shown n c := by
            simp [Out.prepend, d2]
          rw [hev, hpl, (plannedOf_shown n l).1, List.append_nil]
          exact (shownOf_map n l) ▸ d1.map _

theorem loop_planShown {m : Machine σ} {ic : InstallerCtx σ} {o : InstallOpts} (ho : o.simulate = true) (l : List (String × List Resolution))
    (all : List InstErr) (s : σ) : PlanShown (installLoop m ic o all l s) := by
  induction l generalizing all s with
  | nil => exact NoCommands.planShown (.ret _) s
  | cons g t ih =>
    obtain ⟨n, rs⟩ := g
    rw [installLoop]
    refine .bind (group_planShown ho n rs s) fun errs s => ?_
    split
    · exact NoCommands.planShown (.ret _) s
    · exact ih _ s

/-- **C118** What a simulation shows: if it returns, exactly the commands the installers planned, in order, each as it would be typed, under a heading for
each group of commands; if it is ended by an exception, the beginning of that. -/
theorem C118_shows_the_plan (m : Machine σ) (ic : InstallerCtx σ) (db : Database) (f : Dict String (List String)) (o : InstallOpts)
    (keys : List String) (all : Bool) (s : σ) (ho : o.simulate = true) :
    let dry := install m ic db f o keys all s
    shownOf dry.ev <+: plannedOf dry.ev ∧
    ∀ rep, dry.res = .ok rep → shownOf dry.ev = plannedOf dry.ev ∧
      ∀ t, dry.ev.flatMap (eventLines false t) = ((plansOf dry.ev).flatMap planText).map .out := by
  have key : PlanShown (install m ic db f o keys all s) := by
    unfold install
    refine .bind (NoCommands.planShown (.lift _) s) fun r s => ?_
    split
    · exact NoCommands.planShown (.ret _) s
    · unfold installAfterResolve
      refine .bind (NoCommands.planShown (.bind (.lift _) fun os => noCommands_general ic os _ _ _) s) fun _ s => ?_
      split
      · exact NoCommands.planShown (.raise _) s
      · refine .bind (NoCommands.planShown (noCommands_filter ic _ _ _) s) fun fr s => ?_
        split
        · exact NoCommands.planShown (.ret _) s
        · unfold installPlanned
          refine .bind (NoCommands.planShown (.bind (.lift _) fun os => noCommands_prereq ic os _ _ _) s) fun _ s => ?_
          exact .bind (loop_planShown ho _ _ s) fun _ s => NoCommands.planShown (.ret _) s
  exact ⟨key.prefix_, key.all⟩

/-- **C118** What `xylem install --dry-run` prints with colours off, if the simulation returns: on stdout the plans, on stderr the errors as always (C80). -/
theorem C118_dry_run_output (text : String × ResErr → List Char) (itext : InstErr → List Char) (m : Machine σ) (ic : InstallerCtx σ) (d : Database)
    (installFrom : Dict String (List String)) (a : InstallArgs) (s : σ) (ha : a.dryRun = true) (rep : InstallReport)
    (h : (install m ic d installFrom a.opts a.keys a.all s).res = .ok rep) :
    (installCommand false text itext m (.ok ic) (.ok d) installFrom a s).lines.filterMap onStdout =
      (plansOf (install m ic d installFrom a.opts a.keys a.all s).ev).flatMap planText := by
  rw [C80_install_output text itext m ic d installFrom a s rep h,
    ((C118_shows_the_plan m ic d installFrom a.opts a.keys a.all s ha).2 rep h).2, List.filterMap_append]
  have e1 : ∀ l : List (List Char), (l.map Line.out).filterMap onStdout = l := by
    intro l; induction l with
    | nil => rfl
    | cons x t ih => rw [List.map_cons, List.filterMap_cons]; simp [onStdout, ih]
  rw [e1]
  have e2 : ∀ (x y : Prop) [Decidable x] [Decidable y] (p q : List Char),
      ((if x then [] else [Line.err p]) ++ (if y then [] else [Line.err q])).filterMap onStdout = [] := by
    intro x y _ _ p q; by_cases x <;> by_cases y <;> simp [*, onStdout]
  rw [e2, List.append_nil]

/-! ## Nulls in package lists -/

theorem joinCmd_texts {c : Cmd} {l : List Char} (h : joinCmd c = .ok l) : ∀ w ∈ c, w ≠ none := by
  unfold joinCmd at h
  obtain ⟨ws, hw, -⟩ := Except_bind_ok.1 h
  clear h
  induction c generalizing ws with
  | nil => simp
  | cons w t ih =>
    cases w with
    | none => simp [cmdWords] at hw
    | some w =>
      rw [cmdWords] at hw
      obtain ⟨r, hr, -⟩ := Except_bind_ok.1 hw
      intro x hx
      rcases List.mem_cons.1 hx with rfl | hx
      · simp
      · exact ih r hr x hx

theorem fakeDry_plans : ∀ i ∈ fakeIc.plugins, PlansAhead i := by
  intro i hi
  refine C118_shipped_plan_ahead listHost i ⟨fakeOpts, .inr (.inr (.inr (.inr ?_)))⟩
  simpa [fakeIc, fakeEx] using hi

/-- Non-vacuity of the theorems above: the fake installer, with one of two packages present; what is shown is what is then executed. -/
example : shownOf (install listMachine fakeIc fakeDb [] (InstallOpts.dry {}) ["a", "b", "c"] false ["/d/b"]).ev =
      [("fake", [some "touch", some "/d/a"]), ("fake", [some "touch", some "/d/c"])] ∧
    executedOf (install listMachine fakeIc fakeDb [] {} ["a", "b", "c"] false ["/d/b"]).ev =
      [("fake", [some "touch", some "/d/a"]), ("fake", [some "touch", some "/d/c"])] ∧
    (plansOf (install listMachine fakeIc fakeDb [] (InstallOpts.dry {}) ["a", "b", "c"] false ["/d/b"]).ev).flatMap planText =
      ["# [fake] installation commands:".toList, "  touch /d/a".toList, "  touch /d/c".toList] := ⟨rfl, rfl, rfl⟩

/-- The apt installer on the example machine, run as root. -/
def aptDry : Installer (List String) := (aptPlugin listHost).installer { listHost with isRoot := true } [("as_root", .val (.bool true))]
/-- Context with it. -/
def aptDryIc : InstallerCtx (List String) := ⟨[aptDry], [aptDry], [], .ok ("ubuntu", "trusty")⟩
/-- A machine on which installing works; it records the packages. -/
def aptDryMachine : Machine (List String) where
  call c s := match c with
    | [some "apt-get", some "install", some p] => (.ok 0, s ++ [p])
    | _ => (.ok 127, s)
  ansi := ansiOff
/-- A rule whose list of packages has a null in it. -/
def nullDb : Database := ⟨fun _ => .ok [("apt", [("packages", .list [.str "libx", .none, .str "liby"])])], .ok []⟩

/-- **C118 (a null among the packages)** Such a rule is resolved without an error and the null ends up in a command; the simulation ends with a
TypeError after showing the commands before it; and the installation, too, ends with a TypeError, but only after having executed the commands before it:
the packages before the null are installed, those after it are not. -/
theorem C118_null_package_witness :
    (∃ r, resolve aptDryIc nullDb [] ["x"] false = .ok r ∧ r.errors = []) ∧
    (install aptDryMachine aptDryIc nullDb [] (InstallOpts.dry {}) ["x"] false []).res = .error .typeError ∧
    shownOf (install aptDryMachine aptDryIc nullDb [] (InstallOpts.dry {}) ["x"] false []).ev = [("apt", [some "apt-get", some "install", some "libx"])] ∧
    (install aptDryMachine aptDryIc nullDb [] {} ["x"] false []).res = .error .typeError ∧
    (install aptDryMachine aptDryIc nullDb [] {} ["x"] false []).st = ["libx"] := ⟨⟨_, rfl, rfl⟩, rfl, rfl, rfl, rfl⟩

/-- **C118** In general: if a simulation returns then no planned command has a null in it, so simulating first finds these rules before anything is
executed. -/
theorem C118_simulation_finds_nulls (m : Machine σ) (ic : InstallerCtx σ) (db : Database) (f : Dict String (List String)) (o : InstallOpts)
    (keys : List String) (all : Bool) (s : σ) (ho : o.simulate = true) (rep : InstallReport) (h : (install m ic db f o keys all s).res = .ok rep) :
    ∀ g ∈ plansOf (install m ic db f o keys all s).ev, ∀ c ∈ g.2, ∀ w ∈ c, w ≠ none := by
  have key : ∀ (l : List (String × List Resolution)) (errs : List InstErr) s r, (installLoop m ic o errs l s).res = .ok r →
      ∀ g ∈ plansOf (installLoop m ic o errs l s).ev, ∀ c ∈ g.2, ∀ w ∈ c, w ≠ none := by
    intro l
    induction l with
    | nil => intro errs s r _ g hg; simp [installLoop, plansOf] at hg
    | cons x t ih =>
      obtain ⟨n, rs⟩ := x
      intro errs s r hr g hg
      rw [installLoop, bind_run] at hr hg
      have hgroup : ∀ a, (installResolutions m ic o n rs s).res = .ok a → ∀ g ∈ plansOf (installResolutions m ic o n rs s).ev,
          ∀ c ∈ g.2, ∀ w ∈ c, w ≠ none := by
        rw [installResolutions_run]
        cases hl : lookupInstaller ic n with
        | none => intro a ha; simp at ha
        | some i =>
          simp only
          cases (i.getInstallCommands rs o.interactive o.reinstall s).1 with
          | error e => intro a ha; simp at ha
          | ok cmds =>
            simp only
            generalize (i.getInstallCommands rs o.interactive o.reinstall s).2 = s1
            by_cases hn : cmds = []
            · rw [if_pos hn, hn]
              intro a _ g hg
              have : g = (n, []) := by simpa [plansOf, Out.prepend, Prog.ret] using hg
              subst this; simp
            · rw [if_neg hn, if_pos ho, emit_run, bind_run]
              obtain ⟨l, -, d2, -, d4⟩ := showCommands_run n cmds s1
              cases hs : (showCommands n cmds s1).res with
              | error e => intro a ha; simp [Out.prepend] at ha
              | ok u =>
                intro a _ g hg
                have hg' : g ∈ plansOf (Event.plan n rs (.ok cmds) :: Event.heading n :: l.map fun c => Event.shown n c) := by
                  simpa [Out.prepend, Prog.ret, d2] using hg
                rw [show plansOf (Event.plan n rs (.ok cmds) :: Event.heading n :: l.map fun c => Event.shown n c) =
                  (n, cmds) :: plansOf (l.map fun c => Event.shown n c) from rfl, (plannedOf_shown n l).2, List.mem_singleton] at hg'
                subst hg'
                intro c hc
                obtain ⟨y, hy⟩ := shownCommands_text n cmds s1 hs c hc
                exact joinCmd_texts hy
      cases hx : (installResolutions m ic o n rs s).res with
      | error e => rw [hx] at hr; simp at hr
      | ok a =>
        rw [hx] at hr hg
        simp only [Out.prepend, plansOf_append, List.mem_append] at hg hr
        rcases hg with hg | hg
        · exact hgroup a hx g hg
        · split at hg
          · simp [plansOf, Prog.ret] at hg
          · rename_i hc
            rw [if_neg hc] at hr
            exact ih _ _ _ hr g hg
  have skip : ∀ {α β : Type} {p : Prog σ α} {q : α → Prog σ β} {s : σ} (P : (String × List Cmd) → Prop), NoCommands p →
      (∀ a s b, (q a s).res = .ok b → ∀ g ∈ plansOf (q a s).ev, P g) → ∀ b, ((p >>= q) s).res = .ok b → ∀ g ∈ plansOf ((p >>= q) s).ev, P g := by
    intro α β p q s P hp hq b hb g hg
    rw [bind_run] at hb hg
    cases hx : (p s).res with
    | error e => rw [hx] at hb; simp at hb
    | ok a =>
      rw [hx] at hb hg
      simp only [Out.prepend, plansOf_append, (hp s).2.2.1, List.nil_append] at hg hb
      exact hq a _ b hb g hg
  have quiet : ∀ {β : Type} {q : Prog σ β} (P : (String × List Cmd) → Prop), NoCommands q → ∀ s, ∀ g ∈ plansOf (q s).ev, P g := by
    intro β q P hq s g hg
    rw [(hq s).2.2.1] at hg; simp at hg
  revert h
  generalize hP : (fun g : String × List Cmd => ∀ c ∈ g.2, ∀ w ∈ c, w ≠ none) = P
  have goalP : ∀ g, P g ↔ ∀ c ∈ g.2, ∀ w ∈ c, w ≠ none := by intro g; rw [← hP]
  simp only [← goalP] at key ⊢
  unfold install
  refine skip P (.lift _) (fun r s => ?_) rep
  split
  · exact fun b _ => quiet P (.ret _) s
  · unfold installAfterResolve
    refine skip P (.bind (.lift _) fun os => noCommands_general ic os _ _ _) (fun _ s => ?_)
    split
    · exact fun b _ => quiet P (.raise _) s
    · refine skip P (noCommands_filter ic _ _ _) (fun fr s => ?_)
      split
      · exact fun b _ => quiet P (.ret _) s
      · unfold installPlanned
        refine skip P (.bind (.lift _) fun os => noCommands_prereq ic os _ _ _) (fun _ s b hb g hg => ?_)
        rw [bind_run] at hb hg
        cases hx : (installResolved m ic o fr.1 s).res with
        | error e => rw [hx] at hb; simp at hb
        | ok a =>
          rw [hx] at hg
          simp only [Out.prepend, plansOf_append, List.mem_append] at hg
          rcases hg with hg | hg
          · exact key _ _ _ a hx g hg
          · simp [plansOf, Prog.ret] at hg

end Verif
