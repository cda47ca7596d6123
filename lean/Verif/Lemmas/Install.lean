import Verif.Spec.Install
/-! # Lemmas about programs and the loops of `install.py` -/
namespace Verif
variable {σ α β : Type}

/-- More events before. -/
def Out.prepend (l : List Event) (o : Out σ α) : Out σ α := ⟨o.res, o.st, l ++ o.ev⟩

@[simp] theorem Out.prepend_res (l : List Event) (o : Out σ α) : (o.prepend l).res = o.res := rfl
@[simp] theorem Out.prepend_st (l : List Event) (o : Out σ α) : (o.prepend l).st = o.st := rfl
@[simp] theorem Out.prepend_ev (l : List Event) (o : Out σ α) : (o.prepend l).ev = l ++ o.ev := rfl

theorem bind_run (p : Prog σ α) (f : α → Prog σ β) (s : σ) :
    (p >>= f) s = match (p s).res with
      | .error e => ⟨.error e, (p s).st, (p s).ev⟩
      | .ok a => (f a (p s).st).prepend (p s).ev := rfl

theorem bind_ok {p : Prog σ α} {f : α → Prog σ β} {s : σ} {a : α} (h : (p s).res = .ok a) :
    (p >>= f) s = (f a (p s).st).prepend (p s).ev := by rw [bind_run, h]

theorem bind_error {p : Prog σ α} {f : α → Prog σ β} {s : σ} {e : Exc} (h : (p s).res = .error e) :
    (p >>= f) s = ⟨.error e, (p s).st, (p s).ev⟩ := by rw [bind_run, h]

@[simp] theorem lift_ok_run (a : α) (f : α → Prog σ β) (s : σ) : (Prog.lift (.ok a) >>= f) s = f a s := rfl
@[simp] theorem lift_error_run (e : Exc) (f : α → Prog σ β) (s : σ) : (Prog.lift (.error e) >>= f) s = ⟨.error e, s, []⟩ := rfl
@[simp] theorem attempt_run (c : σ → Except Exc α × σ) (mk : Except Exc α → Event) (f : Except Exc α → Prog σ β) (s : σ) :
    (Prog.attempt c mk >>= f) s = (f (c s).1 (c s).2).prepend [mk (c s).1] := rfl
@[simp] theorem ret_run (a : α) (s : σ) : Prog.ret a s = ⟨.ok a, s, []⟩ := rfl
@[simp] theorem raise_run (e : Exc) (s : σ) : (Prog.raise e : Prog σ α) s = ⟨.error e, s, []⟩ := rfl

theorem prepend_nil (o : Out σ α) : o.prepend [] = o := by cases o; rfl

/-! ## `runCommands` -/

theorem runCommands_cons (m : Machine σ) (inst : String) (cont : Bool) (errs : List InstErr) (cmd : Cmd) (t : List Cmd) (s : σ) :
    runCommands m inst cont errs (cmd :: t) s =
      match announce m.ansi cmd with
      | .error e => ⟨.error e, s, []⟩
      | .ok _ =>
        match (m.call cmd s).1 with
        | .error e => ⟨.error e, (m.call cmd s).2, [.exec inst cmd (.error e)]⟩
        | .ok code =>
          match fmt m.ansi ("@!command return code: ".toList ++ codeText code ++ "@|".toList) with
          | .error e => ⟨.error e, (m.call cmd s).2, [.exec inst cmd (.ok code)]⟩
          | .ok _ =>
            if code ≠ 0 then
              if cont then (runCommands m inst cont (errs ++ [.commandFailed inst cmd code]) t (m.call cmd s).2).prepend [.exec inst cmd (.ok code)]
              else ⟨.ok (errs ++ [.commandFailed inst cmd code], true), (m.call cmd s).2, [.exec inst cmd (.ok code)]⟩
            else (runCommands m inst cont errs t (m.call cmd s).2).prepend [.exec inst cmd (.ok code)] := by
  rw [runCommands]
  cases h1 : announce m.ansi cmd with
  | error e => simp only [lift_error_run]
  | ok x =>
    simp only [lift_ok_run, attempt_run]
    cases h2 : (m.call cmd s).1 with
    | error e => simp only [lift_error_run]; rfl
    | ok code =>
      simp only [lift_ok_run]
      cases h3 : fmt m.ansi ("@!command return code: ".toList ++ codeText code ++ "@|".toList) with
      | error e => simp only [lift_error_run]; rfl
      | ok y =>
        simp only [lift_ok_run]
        split
        · split <;> rfl
        · rfl

/-- What `runCommands` did: the outcomes of the commands run, in order. -/
structure RanCommands (inst : String) (cont : Bool) (errs : List InstErr) (cmds : List Cmd) (o : Out σ (List InstErr × Bool))
    (l : List (Cmd × Except Exc Int)) : Prop where
  ev : o.ev = l.map fun p => .exec inst p.1 p.2
  prefix_ : (l.map Prod.fst) <+: cmds
  /-- after a failed start, or a failed command without `cont`, nothing more is run -/
  stop : ∀ pre p post, l = pre ++ p :: post → ((∃ e, p.2 = .error e) ∨ (cont = false ∧ p.2 ≠ .ok 0)) → post = []
  /-- the function goes on: everything has been run -/
  done : ∀ errs', o.res = .ok (errs', false) → l.map Prod.fst = cmds ∧ errs' = errs ++ o.ev.filterMap failureOf ∧
    (∀ p ∈ l, ∃ code, p.2 = .ok code) ∧ (cont = false → ∀ p ∈ l, p.2 = .ok 0)
  /-- the function returns the errors here -/
  early : ∀ errs', o.res = .ok (errs', true) → cont = false ∧ errs' = errs ++ o.ev.filterMap failureOf ∧ errs' ≠ [] ∧
    (∀ p ∈ l, ∃ code, p.2 = .ok code)

theorem runCommands_ran (m : Machine σ) (inst : String) (cont : Bool) (errs : List InstErr) (cmds : List Cmd) (s : σ) :
    ∃ l, RanCommands inst cont errs cmds (runCommands m inst cont errs cmds s) l := by
  induction cmds generalizing errs s with
  | nil => exact ⟨[], by constructor <;> simp [runCommands]⟩
  | cons cmd t ih =>
    rw [runCommands_cons]
    cases h1 : announce m.ansi cmd with
    | error e => exact ⟨[], by constructor <;> simp⟩
    | ok x =>
      cases h2 : (m.call cmd s).1 with
      | error e =>
        refine ⟨[(cmd, .error e)], ?_⟩
        constructor
        · simp
        · simp
        · rintro pre p post hl _
          cases pre with
          | nil => simp at hl; exact hl.2
          | cons y pre => simp at hl
        · simp
        · simp
      | ok code =>
        simp only
        cases h3 : fmt m.ansi ("@!command return code: ".toList ++ codeText code ++ "@|".toList) with
        | error e =>
          refine ⟨[(cmd, .ok code)], ?_⟩
          constructor
          · simp
          · simp
          · rintro pre p post hl _
            cases pre with
            | nil => simp at hl; exact hl.2
            | cons y pre => simp at hl
          · simp
          · simp
        | ok y =>
          simp only
          -- prepending an executed command that does not stop the loop
          have step : ∀ errs1 l, (cont = true ∨ code = 0) →
              errs1 = errs ++ [Event.exec inst cmd (.ok code)].filterMap failureOf →
              RanCommands inst cont errs1 t (runCommands m inst cont errs1 t (m.call cmd s).2) l →
              RanCommands inst cont errs (cmd :: t)
                ((runCommands m inst cont errs1 t (m.call cmd s).2).prepend [.exec inst cmd (.ok code)]) ((cmd, .ok code) :: l) := by
            intro errs1 l hg he hl
            constructor
            · simp [hl.ev]
            · simpa using hl.prefix_
            · rintro pre p post hp hs
              cases pre with
              | nil =>
                simp only [List.nil_append, List.cons.injEq] at hp
                rw [← hp.1] at hs
                rcases hs with ⟨e, hs⟩ | ⟨hs1, hs2⟩
                · simp at hs
                · rcases hg with hg | hg
                  · rw [hg] at hs1; simp at hs1
                  · simp [hg] at hs2
              | cons y pre =>
                simp only [List.cons_append, List.cons.injEq] at hp
                exact hl.stop pre p post hp.2 hs
            · intro errs' hr
              obtain ⟨h1, h2, h3, h4⟩ := hl.done errs' hr
              refine ⟨by simp [h1], ?_, ?_, ?_⟩
              · rw [h2, he, Out.prepend_ev, List.filterMap_append, List.append_assoc]
              · intro p hp
                rcases List.mem_cons.1 hp with rfl | hp
                · exact ⟨code, rfl⟩
                · exact h3 p hp
              · intro hc p hp
                rcases List.mem_cons.1 hp with rfl | hp
                · rcases hg with hg | hg
                  · rw [hg] at hc; simp at hc
                  · rw [hg]
                · exact h4 hc p hp
            · intro errs' hr
              obtain ⟨h1, h2, h3, h4⟩ := hl.early errs' hr
              refine ⟨h1, ?_, h3, ?_⟩
              · rw [h2, he, Out.prepend_ev, List.filterMap_append, List.append_assoc]
              · intro p hp
                rcases List.mem_cons.1 hp with rfl | hp
                · exact ⟨code, rfl⟩
                · exact h4 p hp
          by_cases hc : code = 0
          · rw [if_neg (by simpa using hc)]
            obtain ⟨l, hl⟩ := ih errs (m.call cmd s).2
            exact ⟨_, step errs l (Or.inr hc) (by simp [failureOf, hc]) hl⟩
          · rw [if_pos hc]
            cases cont with
            | true =>
              simp only [if_true]
              obtain ⟨l, hl⟩ := ih (errs ++ [.commandFailed inst cmd code]) (m.call cmd s).2
              exact ⟨_, step _ l (Or.inl rfl) (by simp [failureOf, hc]) hl⟩
            | false =>
              simp only [Bool.false_eq_true, if_false]
              refine ⟨[(cmd, .ok code)], ?_⟩
              constructor
              · simp
              · simp
              · rintro pre p post hl _
                cases pre with
                | nil => simp at hl; exact hl.2
                | cons y pre => simp at hl
              · simp
              · simp [failureOf, hc]

/-! ## `verifyItems` -/

theorem verifyItems_cons (inst : Installer σ) (name : String) (errs : List InstErr) (item : Resolution) (t : List Resolution) (s : σ) :
    verifyItems inst name errs (item :: t) s =
      match (inst.isInstalled item s).1 with
      | .ok true => (verifyItems inst name errs t (inst.isInstalled item s).2).prepend [.probe name item (.ok true)]
      | .ok false => (verifyItems inst name (errs ++ [.notDetected name item]) t (inst.isInstalled item s).2).prepend [.probe name item (.ok false)]
      | .error e =>
        if e.isInstallerError then
          (verifyItems inst name (errs ++ [.checkFailed name item e]) t (inst.isInstalled item s).2).prepend [.probe name item (.error e)]
        else ⟨.error (unexpected e), (inst.isInstalled item s).2, [.probe name item (.error e)]⟩ := by
  rw [verifyItems, attempt_run]
  cases h : (inst.isInstalled item s).1 with
  | ok b => cases b <;> rfl
  | error e => simp only; split <;> rfl

theorem verifyItems_spec (inst : Installer σ) (name : String) (errs : List InstErr) (items : List Resolution) (s : σ) :
    ∃ l : List (Resolution × Except Exc Bool), (verifyItems inst name errs items s).ev = l.map (fun p => .probe name p.1 p.2) ∧
      (l.map Prod.fst) <+: items ∧
      (∀ errs', (verifyItems inst name errs items s).res = .ok errs' →
        l.map Prod.fst = items ∧ errs' = errs ++ (verifyItems inst name errs items s).ev.filterMap failureOf) := by
  induction items generalizing errs s with
  | nil => exact ⟨[], by simp [verifyItems]⟩
  | cons item t ih =>
    rw [verifyItems_cons]
    cases h : (inst.isInstalled item s).1 with
    | ok b =>
      cases b with
      | true =>
        obtain ⟨l, h1, h2, h3⟩ := ih errs (inst.isInstalled item s).2
        refine ⟨(item, .ok true) :: l, by simp [h1], by simpa using h2, fun errs' hr => ?_⟩
        obtain ⟨h4, h5⟩ := h3 errs' hr
        exact ⟨by simp [h4], by rw [h5]; simp [failureOf, List.filterMap_cons]⟩
      | false =>
        obtain ⟨l, h1, h2, h3⟩ := ih (errs ++ [.notDetected name item]) (inst.isInstalled item s).2
        refine ⟨(item, .ok false) :: l, by simp [h1], by simpa using h2, fun errs' hr => ?_⟩
        obtain ⟨h4, h5⟩ := h3 errs' hr
        exact ⟨by simp [h4], by rw [h5]; simp [failureOf, List.filterMap_cons]⟩
    | error e =>
      simp only
      split
      · obtain ⟨l, h1, h2, h3⟩ := ih (errs ++ [.checkFailed name item e]) (inst.isInstalled item s).2
        refine ⟨(item, .error e) :: l, by simp [h1], by simpa using h2, fun errs' hr => ?_⟩
        obtain ⟨h4, h5⟩ := h3 errs' hr
        exact ⟨by simp [h4], by rw [h5]; simp [failureOf, List.filterMap_cons]⟩
      · exact ⟨[(item, .error e)], by simp, by simp, by simp⟩

/-! ## `installResolutions` -/

/-- What installing one group did. -/
structure RanGroup (o : InstallOpts) (name : String) (items : List Resolution) (out : Out σ (List InstErr)) : Prop where
  executed : executedOf out.ev <+: plannedOf out.ev
  nothingAfter : ∀ pre i c r post, out.ev = pre ++ .exec i c r :: post →
    ((∃ e, r = .error e) ∨ (o.continueOnError = false ∧ r ≠ .ok 0)) → post = []
  itemsPlanned : plannedItems out.ev = [(name, items)] ∨ (out.ev = [] ∧ out.res = .error .xylemInternalError)
  simulated : o.simulate = true → executedOf out.ev = []
  errors : ∀ errs, out.res = .ok errs → errs = out.ev.filterMap failureOf ∧ (∀ i c e, .exec i c (.error e) ∉ out.ev)
  complete : o.simulate = false → ∀ errs, out.res = .ok errs → (errs = [] ∨ o.continueOnError = true) → executedOf out.ev = plannedOf out.ev
  clean : o.simulate = false → out.res = .ok [] → ∃ cmds, out.ev = cleanGroup name items cmds
  onlyInstall : ∀ e ∈ out.ev, e.isCheck = false ∧ e.isFilter = false

theorem executedOf_execs (inst : String) (l : List (Cmd × Except Exc Int)) :
    executedOf (l.map fun p => .exec inst p.1 p.2) = l.map fun p => (inst, p.1) := by
  induction l with
  | nil => rfl
  | cons p t ih => simp [executedOf] at ih ⊢; exact ih

theorem plannedOf_execs (inst : String) (l : List (Cmd × Except Exc Int)) :
    plannedOf (l.map fun p => .exec inst p.1 p.2) = [] := by
  induction l with
  | nil => rfl
  | cons p t ih => simp [plannedOf] at ih ⊢; exact ih

theorem executedOf_probes (inst : String) (l : List (Resolution × Except Exc Bool)) :
    executedOf (l.map fun p => .probe inst p.1 p.2) = [] := by
  induction l with
  | nil => rfl
  | cons p t ih => simp [executedOf] at ih ⊢; exact ih

theorem plannedOf_probes (inst : String) (l : List (Resolution × Except Exc Bool)) :
    plannedOf (l.map fun p => .probe inst p.1 p.2) = [] := by
  induction l with
  | nil => rfl
  | cons p t ih => simp [plannedOf] at ih ⊢; exact ih

theorem plannedItems_execs (inst : String) (l : List (Cmd × Except Exc Int)) :
    plannedItems (l.map fun p => .exec inst p.1 p.2) = [] := by
  induction l with
  | nil => rfl
  | cons p t ih => simp [plannedItems] at ih ⊢; exact ih

theorem plannedItems_probes (inst : String) (l : List (Resolution × Except Exc Bool)) :
    plannedItems (l.map fun p => .probe inst p.1 p.2) = [] := by
  induction l with
  | nil => rfl
  | cons p t ih => simp [plannedItems] at ih ⊢; exact ih

theorem executedOf_append (a b : List Event) : executedOf (a ++ b) = executedOf a ++ executedOf b := by simp [executedOf]
theorem plannedOf_append (a b : List Event) : plannedOf (a ++ b) = plannedOf a ++ plannedOf b := by simp [plannedOf]
theorem plannedItems_append (a b : List Event) : plannedItems (a ++ b) = plannedItems a ++ plannedItems b := by simp [plannedItems]

theorem installResolutions_run (m : Machine σ) (ic : InstallerCtx σ) (o : InstallOpts) (name : String) (items : List Resolution) (s : σ) :
    installResolutions m ic o name items s =
      match lookupInstaller ic name with
      | none => ⟨.error .xylemInternalError, s, []⟩
      | some inst =>
        match (inst.getInstallCommands items o.interactive o.reinstall s).1 with
        | .error e => ⟨.error (if e.isInstallerError then .unboundLocalError else unexpected e),
            (inst.getInstallCommands items o.interactive o.reinstall s).2, [.plan name items (.error e)]⟩
        | .ok commands =>
          (if commands = [] then Prog.ret []
            else if o.simulate then do
              Prog.emit (.heading name)
              showCommands name commands
              Prog.ret []
            else do
              let r ← runCommands m name o.continueOnError [] commands
              if r.2 then Prog.ret r.1
              else verifyItems inst name r.1 items : Prog σ (List InstErr))
            (inst.getInstallCommands items o.interactive o.reinstall s).2 |>.prepend [.plan name items (.ok commands)] := by
  unfold installResolutions requireInstaller
  cases h : lookupInstaller ic name with
  | none => simp only [lift_error_run]
  | some inst =>
    simp only [lift_ok_run, attempt_run]
    cases h2 : (inst.getInstallCommands items o.interactive o.reinstall s).1 with
    | error e => rfl
    | ok commands => rfl

theorem split_execs {pre post : List Event} {i : String} {c : Cmd} {r : Except Exc Int} {inst : String}
    {l : List (Cmd × Except Exc Int)} {probes : List (Resolution × Except Exc Bool)}
    (h : (l.map fun p => Event.exec inst p.1 p.2) ++ (probes.map fun p => Event.probe inst p.1 p.2) = pre ++ .exec i c r :: post) :
    ∃ l1 l2, l = l1 ++ (c, r) :: l2 ∧ i = inst ∧
      post = (l2.map fun p => Event.exec inst p.1 p.2) ++ (probes.map fun p => Event.probe inst p.1 p.2) := by
  induction l generalizing pre with
  | nil =>
    exfalso
    have : Event.exec i c r ∈ probes.map fun p => Event.probe inst p.1 p.2 := by
      simp only [List.map_nil, List.nil_append] at h; rw [h]; simp
    simp at this
  | cons p l ih =>
    cases pre with
    | nil =>
      simp only [List.map_cons, List.cons_append, List.nil_append, List.cons.injEq, Event.exec.injEq] at h
      obtain ⟨⟨rfl, rfl, rfl⟩, rfl⟩ := h
      exact ⟨[], l, rfl, rfl, rfl⟩
    | cons y pre =>
      simp only [List.map_cons, List.cons_append, List.cons.injEq] at h
      obtain ⟨l1, l2, rfl, h2, h3⟩ := ih h.2
      exact ⟨p :: l1, l2, rfl, h2, h3⟩

@[simp] theorem emit_run (e : Event) (f : Unit → Prog σ β) (s : σ) : (Prog.emit e >>= f) s = (f () s).prepend [e] := rfl

/-- What showing commands does: it stops at the first one with a word that is not text. -/
theorem showCommands_run (n : String) (cmds : List Cmd) (s : σ) : ∃ l : List Cmd, l <+: cmds ∧
    (showCommands n cmds s).ev = l.map (fun c => .shown n c) ∧ (showCommands n cmds s).st = s ∧
    (((showCommands n cmds s).res = .ok () ∧ l = cmds) ∨
      ∃ c t e, cmds = l ++ c :: t ∧ joinCmd c = .error e ∧ (showCommands n cmds s).res = .error e) := by
  induction cmds with
  | nil => exact ⟨[], List.prefix_refl _, rfl, rfl, .inl ⟨rfl, rfl⟩⟩
  | cons c t ih =>
    rw [showCommands]
    cases hj : joinCmd c with
    | error e => rw [lift_error_run]; exact ⟨[], List.nil_prefix, rfl, rfl, .inr ⟨c, t, e, rfl, hj, rfl⟩⟩
    | ok x =>
      rw [lift_ok_run, emit_run]
      obtain ⟨l, h1, h2, h3, h4⟩ := ih
      refine ⟨c :: l, by simpa using h1, by simp [h2], h3, ?_⟩
      rcases h4 with ⟨h4, rfl⟩ | ⟨c', t', e, rfl, h5, h6⟩
      · exact .inl ⟨h4, rfl⟩
      · exact .inr ⟨c', t', e, rfl, h5, h6⟩

/-- The simulation of a group. -/
theorem simulate_run (n : String) (cmds : List Cmd) (s : σ) : ∃ l : List Cmd, l <+: cmds ∧
    ((do Prog.emit (.heading n); showCommands n cmds; Prog.ret [] : Prog σ (List InstErr)) s).ev = .heading n :: l.map (fun c => .shown n c) ∧
    ((do Prog.emit (.heading n); showCommands n cmds; Prog.ret [] : Prog σ (List InstErr)) s).st = s ∧
    ((((do Prog.emit (.heading n); showCommands n cmds; Prog.ret [] : Prog σ (List InstErr)) s).res = .ok [] ∧ l = cmds) ∨
      ∃ c t e, cmds = l ++ c :: t ∧ joinCmd c = .error e ∧
        ((do Prog.emit (.heading n); showCommands n cmds; Prog.ret [] : Prog σ (List InstErr)) s).res = .error e) := by
  obtain ⟨l, h1, h2, h3, h4⟩ := showCommands_run n cmds s
  rw [emit_run, bind_run]
  rcases h4 with ⟨h4, rfl⟩ | ⟨c, t, e, rfl, h5, h6⟩
  · rw [h4]; exact ⟨l, h1, by simp [h2], by simp [h3], .inl ⟨rfl, rfl⟩⟩
  · rw [h6]; exact ⟨l, h1, by simp [h2], by simp [h3], .inr ⟨c, t, e, rfl, h5, rfl⟩⟩

theorem installResolutions_ran (m : Machine σ) (ic : InstallerCtx σ) (o : InstallOpts) (name : String) (items : List Resolution) (s : σ) :
    RanGroup o name items (installResolutions m ic o name items s) := by
  rw [installResolutions_run]
  cases h : lookupInstaller ic name with
  | none =>
    constructor <;> simp [executedOf, plannedOf, plannedItems]
  | some inst =>
    simp only
    generalize hs' : (inst.getInstallCommands items o.interactive o.reinstall s).2 = s'
    cases h2 : (inst.getInstallCommands items o.interactive o.reinstall s).1 with
    | error e =>
      simp only
      constructor
      · simp [executedOf]
      · rintro pre i c r post he _
        cases pre with
        | nil => simp at he
        | cons y pre => simp at he
      · simp [plannedItems]
      · simp [executedOf]
      · simp
      · simp
      · simp
      · simp [Event.isCheck, Event.isFilter]
    | ok commands =>
      simp only
      -- the two cases in which nothing is run
      have hnothing : (commands = [] ∨ o.simulate = true) → RanGroup o name items
          (((Prog.ret [] : Prog σ (List InstErr)) s').prepend [.plan name items (.ok commands)]) := by
        intro hc
        constructor
        · simp [executedOf]
        · rintro pre i c r post he _
          cases pre with
          | nil => simp at he
          | cons y pre => simp at he
        · simp [plannedItems]
        · simp [executedOf]
        · simp [failureOf]
        · intro hs errs _ _
          rcases hc with hc | hc
          · simp [executedOf, plannedOf, hc]
          · rw [hc] at hs; simp at hs
        · intro hs _
          rcases hc with hc | hc
          · exact ⟨[], by simp [cleanGroup, hc]⟩
          · rw [hc] at hs; simp at hs
        · simp [Event.isCheck, Event.isFilter]
      split
      · rename_i hc; exact hnothing (Or.inl hc)
      · rename_i hc
        split
        · rename_i hs
          obtain ⟨l, -, h2, -, h4⟩ := simulate_run (σ := σ) name commands s'
          generalize ((do Prog.emit (.heading name); showCommands name commands; Prog.ret [] : Prog σ (List InstErr)) s') = R at h2 h4
          have hex : executedOf (R.prepend [.plan name items (.ok commands)]).ev = [] := by
            rw [Out.prepend_ev, h2]; simp [executedOf]
          have hno : ∀ i c r, .exec i c r ∉ (R.prepend [.plan name items (.ok commands)]).ev := by
            intro i c r; rw [Out.prepend_ev, h2]; simp
          constructor
          · rw [hex]; exact List.nil_prefix
          · rintro pre i c r post he _
            exact absurd (by rw [he]; simp) (hno i c r)
          · left; rw [Out.prepend_ev, h2]; simp [plannedItems]
          · intro _; exact hex
          · intro errs hr
            refine ⟨?_, fun i c e => hno i c _⟩
            rcases h4 with ⟨h4, -⟩ | ⟨c, t, e, -, -, h4⟩
            · rw [Out.prepend_res, h4] at hr
              simp only [Except.ok.injEq] at hr
              subst hr
              rw [Out.prepend_ev, h2]
              simp [failureOf, List.filterMap_cons, List.filterMap_map]
            · rw [Out.prepend_res, h4] at hr; simp at hr
          · intro h; rw [hs] at h; simp at h
          · intro h; rw [hs] at h; simp at h
          · intro e he
            rw [Out.prepend_ev, h2] at he
            simp only [List.cons_append, List.nil_append, List.mem_cons, List.mem_map] at he
            rcases he with rfl | rfl | ⟨c, -, rfl⟩ <;> exact ⟨rfl, rfl⟩
        · rename_i hs
          have hs : o.simulate = false := by simpa using hs
          obtain ⟨l, hl⟩ := runCommands_ran m name o.continueOnError [] commands s'
          generalize hR : runCommands m name o.continueOnError [] commands s' = R at hl
          have hpl : ∀ ev : List Event, plannedOf (Event.plan name items (.ok commands) :: ev) =
              commands.map (fun c => (name, c)) ++ plannedOf ev := by intro ev; simp [plannedOf]
          have hex : ∀ ev : List Event, executedOf (Event.plan name items (.ok commands) :: ev) = executedOf ev := by
            intro ev; simp [executedOf]
          have hpre : (l.map fun p => (name, p.1)) <+: commands.map fun c => (name, c) := by
            have := hl.prefix_.map (fun c => (name, c))
            simpa [List.map_map, Function.comp_def] using this
          -- facts common to all cases: the events are the plan, the commands, and probes
          have common : ∀ (res : Except Exc (List InstErr)) (st : σ) (probes : List (Resolution × Except Exc Bool)),
              (probes ≠ [] → ∃ errs', R.res = .ok (errs', false)) →
              (∀ errs, res = .ok errs → (∃ b errs', R.res = .ok (errs', b)) ∧
                errs = (R.ev ++ probes.map fun p => Event.probe name p.1 p.2).filterMap failureOf ∧
                (errs = [] ∨ o.continueOnError = true → ∃ errs', R.res = .ok (errs', false)) ∧
                (errs = [] → probes.map Prod.fst = items)) →
              RanGroup o name items
                ⟨res, st, Event.plan name items (.ok commands) :: (R.ev ++ probes.map fun p => Event.probe name p.1 p.2)⟩ := by
            intro res st probes hprobes hres
            have hexec : executedOf (Event.plan name items (.ok commands) :: (R.ev ++ probes.map fun p => Event.probe name p.1 p.2)) =
                l.map fun p => (name, p.1) := by
              rw [hex, executedOf_append, hl.ev, executedOf_execs, executedOf_probes, List.append_nil]
            have hplan : plannedOf (Event.plan name items (.ok commands) :: (R.ev ++ probes.map fun p => Event.probe name p.1 p.2)) =
                commands.map fun c => (name, c) := by
              rw [hpl, plannedOf_append, hl.ev, plannedOf_execs, plannedOf_probes, List.append_nil, List.append_nil]
            constructor
            · simp only; rw [hexec, hplan]; exact hpre
            · rintro pre i c r post he hbad
              cases pre with
              | nil => simp at he
              | cons y pre =>
                simp only [List.cons_append, List.cons.injEq] at he
                obtain ⟨_, he⟩ := he
                rw [hl.ev] at he
                obtain ⟨l1, l2, hl12, _, rfl⟩ := split_execs he
                have h20 := hl.stop l1 (c, r) l2 hl12 hbad
                subst h20
                have hp0 : probes = [] := by
                  refine Classical.byContradiction fun hne => ?_
                  obtain ⟨errs', hr⟩ := hprobes hne
                  obtain ⟨_, _, h3, h4⟩ := hl.done errs' hr
                  have hm : (c, r) ∈ l := by rw [hl12]; simp
                  rcases hbad with ⟨e, hbad⟩ | ⟨hb1, hb2⟩
                  · obtain ⟨code, hcode⟩ := h3 _ hm
                    simp only at hcode; rw [hcode] at hbad; simp at hbad
                  · exact hb2 (h4 hb1 _ hm)
                simp [hp0]
            · left
              show plannedItems ([Event.plan name items (.ok commands)] ++ (R.ev ++ probes.map fun p => Event.probe name p.1 p.2)) = _
              rw [plannedItems_append, plannedItems_append, hl.ev, plannedItems_execs, plannedItems_probes]
              simp [plannedItems]
            · intro h; rw [h] at hs; simp at hs
            · intro errs hr
              obtain ⟨⟨b, errs', hb⟩, h2, h3, h4⟩ := hres errs hr
              refine ⟨?_, ?_⟩
              · rw [List.filterMap_cons]
                exact h2
              · have hcode : ∀ p ∈ l, ∃ code, p.2 = .ok code := by
                  cases b with
                  | true => exact (hl.early errs' hb).2.2.2
                  | false => exact (hl.done errs' hb).2.2.1
                intro i c e hm
                simp only [List.mem_cons, List.mem_append, reduceCtorEq, false_or] at hm
                rcases hm with hm | hm
                · rw [hl.ev] at hm
                  obtain ⟨p, hp, hpe⟩ := List.mem_map.1 hm
                  obtain ⟨code, hc⟩ := hcode p hp
                  rw [hc] at hpe; simp at hpe
                · simp at hm
            · intro _ errs hr hor
              obtain ⟨_, _, h3, _⟩ := hres errs hr
              obtain ⟨errs', hd⟩ := h3 hor
              obtain ⟨h5, _⟩ := hl.done errs' hd
              rw [hexec, hplan, ← h5, List.map_map]
              rfl
            · intro _ hr
              obtain ⟨_, h2, h3, h4⟩ := hres [] hr
              obtain ⟨errs', hd⟩ := h3 (Or.inl rfl)
              obtain ⟨h5, h6, h7, _⟩ := hl.done errs' hd
              refine ⟨commands, ?_⟩
              rw [cleanGroup, if_neg hc]
              have hnf := List.filterMap_eq_nil_iff.1 h2.symm
              have a1 : R.ev = commands.map fun c => Event.exec name c (.ok 0) := by
                rw [hl.ev, ← h5, List.map_map]
                refine List.map_congr_left fun p hp => ?_
                obtain ⟨code, hcode⟩ := h7 p hp
                have := hnf (.exec name p.1 p.2) (List.mem_append_left _ (by rw [hl.ev]; exact List.mem_map.2 ⟨p, hp, rfl⟩))
                simp only [hcode, failureOf] at this
                split at this
                · rename_i h0; simp [hcode, h0]
                · simp at this
              have a2 : (probes.map fun p => Event.probe name p.1 p.2) = items.map fun x => Event.probe name x (.ok true) := by
                rw [← h4 rfl, List.map_map]
                refine List.map_congr_left fun p hp => ?_
                have := hnf (.probe name p.1 p.2) (List.mem_append_right _ (List.mem_map.2 ⟨p, hp, rfl⟩))
                obtain ⟨x, b⟩ := p
                cases b with
                | error e => simp [failureOf] at this
                | ok b => cases b with
                  | true => rfl
                  | false => simp [failureOf] at this
              rw [a1, a2]; rfl
            · intro e he
              simp only [List.mem_cons, List.mem_append] at he
              rcases he with rfl | he | he
              · simp [Event.isCheck, Event.isFilter]
              · rw [hl.ev] at he; obtain ⟨p, _, rfl⟩ := List.mem_map.1 he; simp [Event.isCheck, Event.isFilter]
              · obtain ⟨p, _, rfl⟩ := List.mem_map.1 he; simp [Event.isCheck, Event.isFilter]
          cases hr : R.res with
          | error e =>
            rw [bind_error (by rw [hR]; exact hr), hR]
            simpa [Out.prepend] using common (.error e) R.st [] (by simp) (by simp)
          | ok p =>
            obtain ⟨errs', b⟩ := p
            rw [bind_ok (by rw [hR]; exact hr), hR]
            cases b with
            | true =>
              simp only [if_true]
              obtain ⟨h3, h4, h5, _⟩ := hl.early errs' hr
              have := common (.ok errs') R.st [] (by simp) (by
                intro errs he
                simp only [Except.ok.injEq] at he; subst he
                refine ⟨⟨true, errs', hr⟩, by simpa using h4, ?_, ?_⟩
                · rintro (h | h)
                  · exact absurd h h5
                  · rw [h] at h3; simp at h3
                · intro h; exact absurd h h5)
              simpa [Out.prepend] using this
            | false =>
              simp only [Bool.false_eq_true, if_false]
              obtain ⟨_, h4, _, _⟩ := hl.done errs' hr
              obtain ⟨pr, v1, v2, v3⟩ := verifyItems_spec inst name errs' items R.st
              have := common (verifyItems inst name errs' items R.st).res (verifyItems inst name errs' items R.st).st pr
                (fun _ => ⟨errs', hr⟩) (by
                intro errs he
                obtain ⟨v4, v5⟩ := v3 errs he
                refine ⟨⟨false, errs', hr⟩, ?_, fun _ => ⟨errs', hr⟩, fun _ => v4⟩
                rw [v5, v1, h4, List.filterMap_append]; rfl)
              simpa [Out.prepend, v1] using this

end Verif
