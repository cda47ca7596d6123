import Verif.Props.InstallTrace
/-! # C78: which exceptions leave an installation -/
namespace Verif
variable {σ α β : Type}

/-- The exception an installation raises because of an event: a failed prerequisite check or a command that cannot be started surface as they
are; an installer's unexpected failure (no `InstallerError`) while filtering, planning or verifying surfaces as XylemInternalError, unless it
is no ordinary `Exception`; an `InstallerError` while planning surfaces as UnboundLocalError. -/
def raisedBy : Event → Option Exc
  | .general _ _ (.error e) => some e
  | .prereq _ _ _ (.error e) => some e
  | .exec _ _ (.error e) => some e
  | .filter _ _ (.error e) => if e.isInstallerError then none else some (if e.isException then .xylemInternalError else e)
  | .probe _ _ (.error e) => if e.isInstallerError then none else some (if e.isException then .xylemInternalError else e)
  | .plan _ _ (.error e) =>
    if e.isInstallerError then some .unboundLocalError else some (if e.isException then .xylemInternalError else e)
  | _ => none

/-- How a run ended is explained by its events: if it returned, no event was a reason to raise; if it raised, then because of its last event
and no earlier one, or for another cause. -/
def Explained (E : List Event → Exc → Prop) (o : Out σ α) : Prop :=
  match o.res with
  | .ok _ => ∀ ev ∈ o.ev, raisedBy ev = none
  | .error e => (∃ pre ev, o.ev = pre ++ [ev] ∧ raisedBy ev = some e ∧ ∀ x ∈ pre, raisedBy x = none) ∨
      (E o.ev e ∧ ∀ ev ∈ o.ev, raisedBy ev = none)

theorem Explained.prepend {E E' : List Event → Exc → Prop} {o : Out σ α} {l : List Event} (hE : ∀ ev e, E ev e → E' (l ++ ev) e)
    (h : Explained E o) (hl : ∀ ev ∈ l, raisedBy ev = none) : Explained E' (o.prepend l) := by
  unfold Explained at h ⊢
  rw [Out.prepend_res]
  cases hr : o.res with
  | ok a =>
    rw [hr] at h
    simp only at h ⊢
    intro ev hev
    rcases List.mem_append.1 hev with hev | hev
    · exact hl ev hev
    · exact h ev hev
  | error e =>
    rw [hr] at h
    simp only at h ⊢
    rcases h with ⟨pre, ev, h1, h2, h3⟩ | ⟨h1, h2⟩
    · refine .inl ⟨l ++ pre, ev, by rw [Out.prepend_ev, h1, List.append_assoc], h2, ?_⟩
      intro x hx
      rcases List.mem_append.1 hx with hx | hx
      · exact hl x hx
      · exact h3 x hx
    · refine .inr ⟨hE _ _ h1, fun ev hev => ?_⟩
      rcases List.mem_append.1 hev with hev | hev
      · exact hl ev hev
      · exact h2 ev hev

/-- A cause that remains one if more happened before. -/
class Lasting (E : List Event → Exc → Prop) : Prop where
  more : ∀ l ev e, E ev e → E (l ++ ev) e

instance (P : Exc → Prop) : Lasting fun _ e => P e := ⟨fun _ _ _ h => h⟩

/-- A program whose runs are all explained. -/
def Explains (E : List Event → Exc → Prop) (p : Prog σ α) : Prop := ∀ s, Explained E (p s)

theorem Explains.ret {E : List Event → Exc → Prop} (a : α) : Explains E (Prog.ret a : Prog σ α) := fun s => by simp [Explained]
theorem Explains.raise {E : List Event → Exc → Prop} {e : Exc} (h : E [] e) : Explains E (Prog.raise e : Prog σ α) := fun s => by simp [Explained, h]
theorem Explains.lift {E : List Event → Exc → Prop} {x : Except Exc α} (h : ∀ e, x = .error e → E [] e) : Explains E (Prog.lift x : Prog σ α) := fun s => by
  cases x with
  | ok a => simp [Explained, Prog.lift]
  | error e => simp [Explained, Prog.lift, h]
theorem Explains.bind {E : List Event → Exc → Prop} [Lasting E] {p : Prog σ α} {f : α → Prog σ β} (hp : Explains E p) (hf : ∀ a, Explains E (f a)) :
    Explains E (p >>= f) := fun s => by
  rw [bind_run]
  have := hp s
  unfold Explained at this
  cases hr : (p s).res with
  | error e => rw [hr] at this; exact this
  | ok a => rw [hr] at this; exact (hf a _).prepend (Lasting.more _) this
theorem Explains.attempt {E : List Event → Exc → Prop} [Lasting E] {c : σ → Except Exc α × σ} {mk : Except Exc α → Event} {f : Except Exc α → Prog σ β}
    (h1 : ∀ out, raisedBy (mk out) = none → Explains E (f out)) (h2 : ∀ out e, raisedBy (mk out) = some e → ∀ s, f out s = ⟨.error e, s, []⟩) :
    Explains E (Prog.attempt c mk >>= f) := fun s => by
  rw [attempt_run]
  cases hr : raisedBy (mk (c s).1) with
  | none => exact (h1 _ hr _).prepend (Lasting.more _) (by simpa using hr)
  | some e =>
    rw [h2 _ e hr]
    unfold Explained
    exact .inl ⟨[], _, rfl, hr, by simp⟩

variable {m : Machine σ} {ic : InstallerCtx σ} {o : InstallOpts}

/-- Why a command cannot be shown or announced: a word is not text, or (announced) it contains colour codes that do not exist. -/
def CommandCause (m : Machine σ) (c : Cmd) (e : Exc) : Prop :=
  (none ∈ c ∧ e = .typeError) ∨ ∃ l, joinCmd c = .ok l ∧ fmt m.ansi ("@!executing command: ".toList ++ l ++ "@|".toList) = .error e

theorem join_error {c : Cmd} {e : Exc} : joinCmd c = .error e ↔ none ∈ c ∧ e = .typeError := by
  have : ∀ e, cmdWords c = .error e ↔ none ∈ c ∧ e = .typeError := by
    induction c with
    | nil => simp [cmdWords]
    | cons w c ih =>
      intro e
      cases w with
      | none => simp [cmdWords, eq_comm]
      | some w =>
        simp only [cmdWords, List.mem_cons, reduceCtorEq, false_or]
        rw [← ih e]
        cases cmdWords c <;> simp [bind, Except.bind, pure, Except.pure]
  unfold joinCmd
  rw [← this e]
  cases cmdWords c <;> simp [bind, Except.bind, pure, Except.pure]

theorem announce_error {m : Machine σ} {c : Cmd} {e : Exc} (h : announce m.ansi c = .error e) : CommandCause m c e := by
  unfold announce at h
  cases hj : joinCmd c with
  | error x =>
    simp only [hj, bind, Except.bind, Except.error.injEq] at h
    subst h
    exact .inl (join_error.1 hj)
  | ok l => simp only [hj, bind, Except.bind] at h; exact .inr ⟨l, hj, h⟩

/-- The causes of exceptions that are not the outcome of a recorded call: resolving, no os, `reinstall`, an installer that is not loaded, a
command asked for by an installer that cannot be shown, and colour codes missing for exit codes. -/
def OtherCause (m : Machine σ) (ic : InstallerCtx σ) (db : Database) (f : Dict String (List String)) (o : InstallOpts) (keys : List String)
    (all : Bool) (ev : List Event) (e : Exc) : Prop :=
  resolve ic db f keys all = .error e ∨ ic.osTuple = .error e ∨ (o.reinstall = true ∧ e = .unboundLocalError) ∨
  (e = .xylemInternalError ∧ ∃ name, lookupInstaller ic name = none) ∨
  (∃ i c, (i, c) ∈ plannedOf ev ∧ CommandCause m c e) ∨
  (∃ code : Int, fmt m.ansi ("@!command return code: ".toList ++ codeText code ++ "@|".toList) = .error e)

instance (m : Machine σ) (ic : InstallerCtx σ) (db : Database) (f : Dict String (List String)) (o : InstallOpts) (keys : List String)
    (all : Bool) : Lasting (OtherCause m ic db f o keys all) := ⟨fun l ev e h => by
  rcases h with h | h | h | h | ⟨i, c, h1, h2⟩ | h
  · exact .inl h
  · exact .inr (.inl h)
  · exact .inr (.inr (.inl h))
  · exact .inr (.inr (.inr (.inl h)))
  · exact .inr (.inr (.inr (.inr (.inl ⟨i, c, by rw [plannedOf_append]; exact List.mem_append_right _ h1, h2⟩))))
  · exact .inr (.inr (.inr (.inr (.inr h))))⟩

section
variable {E : List Event → Exc → Prop} [Lasting E] (hreq : ∀ n e, requireInstaller ic n = .error e → E [] e)
include hreq

theorem explains_checkGeneral (os : OsTuple) (fix inter : Bool) (names : List String) :
    Explains E (checkGeneralLoop ic os fix inter names) := by
  induction names with
  | nil => exact .ret _
  | cons n t ih =>
    refine .bind (.lift fun e => hreq n e) fun i => .attempt ?_ ?_
    · intro out h
      cases out with
      | ok u => exact .bind (.lift (by simp)) fun _ => ih
      | error e => simp [raisedBy] at h
    · intro out e h s
      cases out with
      | ok u => simp [raisedBy] at h
      | error x => simp only [raisedBy, Option.some.injEq] at h; subst h; rfl

theorem explains_checkInstall (os : OsTuple) (fix inter : Bool) (l : List (String × List Resolution)) :
    Explains E (checkInstallLoop ic os fix inter l) := by
  induction l with
  | nil => exact .ret _
  | cons n t ih =>
    obtain ⟨n, rs⟩ := n
    refine .bind (.lift fun e => hreq n e) fun i => .attempt ?_ ?_
    · intro out h
      cases out with
      | ok u => exact .bind (.lift (by simp)) fun _ => ih
      | error e => simp [raisedBy] at h
    · intro out e h s
      cases out with
      | ok u => simp [raisedBy] at h
      | error x => simp only [raisedBy, Option.some.injEq] at h; subst h; rfl

theorem explains_filterLoop (u : List (String × List Resolution)) (errs : List InstErr) (l : List (String × List Resolution)) :
    Explains E (filterLoop ic u errs l) := by
  induction l generalizing u errs with
  | nil => exact .ret _
  | cons n t ih =>
    obtain ⟨n, rs⟩ := n
    rw [filterLoop]
    refine .bind (.lift fun e => hreq n e) fun i => .attempt ?_ ?_
    · intro out h
      cases out with
      | ok u => exact ih _ _
      | error e =>
        simp only
        split
        · exact ih _ _
        · next hh => simp [raisedBy, hh] at h
    · intro out e h s
      cases out with
      | ok u => simp [raisedBy] at h
      | error x =>
        by_cases hx : x.isInstallerError = true
        · simp [raisedBy, hx] at h
        · simp only [raisedBy, hx] at h
          simp only [hx]
          simp only [Bool.false_eq_true, if_false, Option.some.injEq] at h
          subst h; rfl

omit hreq [Lasting E] in
theorem explains_runCommands (P : Exc → Prop)
    (h2 : ∀ (code : Int) e, fmt m.ansi ("@!command return code: ".toList ++ codeText code ++ "@|".toList) = .error e → P e)
    (n : String) (cont : Bool) (errs : List InstErr) (cmds : List Cmd) (h1 : ∀ cmd ∈ cmds, ∀ e, CommandCause m cmd e → P e) :
    Explains (fun _ e => P e) (runCommands m n cont errs cmds) := by
  induction cmds generalizing errs with
  | nil => exact .ret _
  | cons c t ih =>
    have ih := fun errs => ih errs fun c hc => h1 c (List.mem_cons_of_mem _ hc)
    rw [runCommands]
    refine .bind (.lift fun e h => h1 c (by simp) e (announce_error h)) fun _ => .attempt ?_ ?_
    · intro out h
      cases out with
      | error e => simp [raisedBy] at h
      | ok code =>
        refine .bind (.lift (by simp)) fun code => .bind (.lift (h2 code)) fun _ => ?_
        split
        · split
          · exact ih _
          · exact .ret _
        · exact ih _
    · intro out e h s
      cases out with
      | ok u => simp [raisedBy] at h
      | error x => simp only [raisedBy, Option.some.injEq] at h; subst h; rfl

omit hreq [Lasting E] in
theorem explains_showCommands (P : Exc → Prop) (n : String) (cmds : List Cmd) (h1 : ∀ cmd ∈ cmds, ∀ e, CommandCause m cmd e → P e) :
    Explains (fun _ e => P e) (showCommands n cmds : Prog σ Unit) := by
  induction cmds with
  | nil => exact .ret _
  | cons c t ih =>
    rw [showCommands]
    refine .bind (.lift fun e h => h1 c (by simp) e (.inl (join_error.1 h))) fun _ => .bind (fun s => ?_) fun _ =>
      ih fun c hc => h1 c (List.mem_cons_of_mem _ hc)
    simp [Explained, Prog.emit, raisedBy]

omit hreq in
theorem explains_verifyItems (n : String) (i : Installer σ) (errs : List InstErr) (rs : List Resolution) :
    Explains E (verifyItems i n errs rs) := by
  induction rs generalizing errs with
  | nil => exact .ret _
  | cons r t ih =>
    rw [verifyItems]
    refine .attempt ?_ ?_
    · intro out h
      cases out with
      | ok b => cases b <;> exact ih _
      | error e =>
        simp only
        split
        · exact ih _
        · next hh => simp [raisedBy, hh] at h
    · intro out e h s
      cases out with
      | ok u => simp [raisedBy] at h
      | error x =>
        by_cases hx : x.isInstallerError = true
        · simp [raisedBy, hx] at h
        · simp only [raisedBy, hx] at h
          simp only [hx]
          simp only [Bool.false_eq_true, if_false, Option.some.injEq] at h
          subst h; rfl

theorem explains_installResolutions (h1 : ∀ ev i c e, (i, c) ∈ plannedOf ev → CommandCause m c e → E ev e)
    (h2 : ∀ ev (code : Int) e, fmt m.ansi ("@!command return code: ".toList ++ codeText code ++ "@|".toList) = .error e → E ev e)
    (n : String) (rs : List Resolution) : Explains E (installResolutions m ic o n rs) := by
  unfold installResolutions
  refine .bind (.lift fun e => hreq n e) fun i s => ?_
  rw [attempt_run]
  generalize (i.getInstallCommands rs o.interactive o.reinstall s).2 = s1
  cases (i.getInstallCommands rs o.interactive o.reinstall s).1 with
  | error x =>
    refine .inl ⟨[], _, rfl, ?_, by simp⟩
    by_cases hx : x.isInstallerError = true
    · simp [raisedBy, hx]
    · simp [raisedBy, hx, unexpected]
  | ok cmds =>
    -- why something can go wrong with the commands
    let P : Exc → Prop := fun e => (∃ c ∈ cmds, CommandCause m c e) ∨
      ∃ code : Int, fmt m.ansi ("@!command return code: ".toList ++ codeText code ++ "@|".toList) = .error e
    have hP : ∀ c ∈ cmds, ∀ e, CommandCause m c e → P e := fun c hc e h => .inl ⟨c, hc, h⟩
    have main : Explains (fun ev e => P e ∨ E ev e) (if cmds = [] then Prog.ret []
        else if o.simulate then do
          Prog.emit (.heading n)
          showCommands n cmds
          Prog.ret []
        else do
          let r ← runCommands m n o.continueOnError [] cmds
          if r.2 then Prog.ret r.1
          else verifyItems i n r.1 rs : Prog σ (List InstErr)) := by
      have inst : Lasting fun ev e => P e ∨ E ev e := ⟨fun l ev e h => h.imp id (Lasting.more l ev e)⟩
      split
      · exact .ret _
      · split
        · refine .bind (fun s => by simp [Explained, Prog.emit, raisedBy]) fun _ => .bind (fun s => ?_) fun _ => .ret _
          rw [← prepend_nil (showCommands n cmds s)]
          exact (explains_showCommands P n cmds hP s).prepend (fun _ _ h => .inl h) (by simp)
        · refine .bind (fun s => ?_) fun r => ?_
          · rw [← prepend_nil (runCommands m n o.continueOnError [] cmds s)]
            exact (explains_runCommands P (fun code e h => .inr ⟨code, h⟩) n _ [] cmds hP s).prepend (fun _ _ h => .inl h) (by simp)
          · split
            · exact .ret _
            · exact explains_verifyItems _ _ _ _
    refine (main s1).prepend (fun ev e h => ?_) (by simp [raisedBy])
    rcases h with (⟨c, hc, h⟩ | ⟨code, h⟩) | h
    · exact h1 _ n c e (by simp [plannedOf]; exact .inl hc) h
    · exact h2 _ code e h
    · exact Lasting.more _ _ _ h

theorem explains_installLoop (h1 : ∀ ev i c e, (i, c) ∈ plannedOf ev → CommandCause m c e → E ev e)
    (h2 : ∀ ev (code : Int) e, fmt m.ansi ("@!command return code: ".toList ++ codeText code ++ "@|".toList) = .error e → E ev e)
    (all : List InstErr) (l : List (String × List Resolution)) : Explains E (installLoop m ic o all l) := by
  induction l generalizing all with
  | nil => exact .ret _
  | cons g t ih =>
    obtain ⟨n, rs⟩ := g
    rw [installLoop]
    refine .bind (explains_installResolutions hreq h1 h2 _ _) fun errs => ?_
    split
    · exact .ret _
    · exact ih _
end

/-- **C78** Every installation: if it returns, no recorded call was a reason to raise. If it raises, then either because of the last call (and
nothing happened after it): a failed prerequisite check or a command that cannot be started surface as they are, an unexpected failure of an
installer surfaces as XylemInternalError — or for one of the causes of `OtherCause`. Deviation: an `InstallerError` while planning surfaces as
UnboundLocalError instead of being reported. -/
theorem C78_raises_for_a_reason (m : Machine σ) (ic : InstallerCtx σ) (db : Database) (f : Dict String (List String)) (o : InstallOpts)
    (keys : List String) (all : Bool) (s : σ) :
    (∀ rep, (install m ic db f o keys all s).res = .ok rep → ∀ ev ∈ (install m ic db f o keys all s).ev, raisedBy ev = none) ∧
    (∀ e, (install m ic db f o keys all s).res = .error e →
      (∃ pre ev, (install m ic db f o keys all s).ev = pre ++ [ev] ∧ raisedBy ev = some e ∧ ∀ x ∈ pre, raisedBy x = none) ∨
      (OtherCause m ic db f o keys all (install m ic db f o keys all s).ev e ∧ ∀ ev ∈ (install m ic db f o keys all s).ev, raisedBy ev = none)) := by
  have hreq : ∀ n e, requireInstaller ic n = .error e → OtherCause m ic db f o keys all [] e := by
    intro n e h
    unfold requireInstaller at h
    split at h
    · simp at h
    · next hn => simp only [Except.error.injEq] at h; exact .inr (.inr (.inr (.inl ⟨h.symm, n, hn⟩)))
  have h1 : ∀ ev i c e, (i, c) ∈ plannedOf ev → CommandCause m c e → OtherCause m ic db f o keys all ev e :=
    fun ev i c e h h' => .inr (.inr (.inr (.inr (.inl ⟨i, c, h, h'⟩))))
  have h2 : ∀ ev (code : Int) e, fmt m.ansi ("@!command return code: ".toList ++ codeText code ++ "@|".toList) = .error e →
      OtherCause m ic db f o keys all ev e := fun ev code e h => .inr (.inr (.inr (.inr (.inr ⟨code, h⟩))))
  have hos : ∀ e, ic.osTuple = .error e → OtherCause m ic db f o keys all [] e := fun e h => .inr (.inl h)
  have main : Explained (OtherCause m ic db f o keys all) (install m ic db f o keys all s) := by
    have : Explains (OtherCause m ic db f o keys all) (install m ic db f o keys all) := by
      unfold install
      refine .bind (.lift fun e h => .inl h) fun r => ?_
      split
      · exact .ret _
      · unfold installAfterResolve
        refine .bind (.bind (.lift hos) fun os => explains_checkGeneral hreq _ _ _ _) fun _ => ?_
        split
        · next hre => exact .raise (.inr (.inr (.inl ⟨hre, rfl⟩)))
        · refine .bind (explains_filterLoop hreq _ _ _) fun u => ?_
          split
          · exact .ret _
          · exact .bind (.bind (.lift hos) fun os => explains_checkInstall hreq _ _ _ _) fun _ =>
              .bind (explains_installLoop hreq h1 h2 _ _) fun _ => .ret _
    exact this s
  unfold Explained at main
  constructor
  · intro rep hr; rw [hr] at main; exact main
  · intro e hr; rw [hr] at main; exact main

/-- **C78** A recorded call that is a reason to raise is the last one, and its exception is what the installation raises: nothing is done after
an unexpected failure, and it is never swallowed. -/
theorem C78_never_swallowed (m : Machine σ) (ic : InstallerCtx σ) (db : Database) (f : Dict String (List String)) (o : InstallOpts)
    (keys : List String) (all : Bool) (s : σ) (ev : Event) (hev : ev ∈ (install m ic db f o keys all s).ev) (e : Exc) (he : raisedBy ev = some e) :
    (install m ic db f o keys all s).res = .error e ∧ ∃ pre, (install m ic db f o keys all s).ev = pre ++ [ev] := by
  obtain ⟨h1, h2⟩ := C78_raises_for_a_reason m ic db f o keys all s
  cases hr : (install m ic db f o keys all s).res with
  | ok rep => rw [h1 rep hr ev hev] at he; simp at he
  | error x =>
    rcases h2 x hr with ⟨pre, ev', h3, h4, h5⟩ | ⟨-, h3⟩
    · rw [h3] at hev
      rcases List.mem_append.1 hev with hev | hev
      · rw [h5 ev hev] at he; simp at he
      · simp only [List.mem_singleton] at hev
        subst hev
        rw [h4] at he
        simp only [Option.some.injEq] at he
        subst he
        exact ⟨rfl, pre, h3⟩
    · rw [h3 ev hev] at he; simp at he

/-- A run in which the plugin fails unexpectedly while verifying the first of two packages: the second is not asked for. -/
def crashingToy : Installer (List String) := { toy with isInstalled := fun _ s => (.error .keyError, s) }

example : ∃ pre, install toyMachine ⟨[crashingToy], [crashingToy], [], .ok ("xylemOS", "1")⟩ toyDb [] {} ["a", "b"] false [] =
    ⟨.error .xylemInternalError, ["a", "b"], pre ++ [.probe "toy" (toyRes "a") (.error .keyError)]⟩ := ⟨[_, _, _, _, _, _], rfl⟩

/-- **C78 deviation** An `InstallerError` while composing the commands is not reported but surfaces as UnboundLocalError. -/
theorem C78_planning_error_witness : (install toyMachine toyIc toyDb [] {} ["broken"] false []).res = .error .unboundLocalError ∧
    ∃ pre, (install toyMachine toyIc toyDb [] {} ["broken"] false []).ev = pre ++ [.plan "toy" [toyRes "broken"] (.error .installerError)] :=
  ⟨rfl, [_, _, _], rfl⟩

/-! ## C31 for a whole installation -/

theorem NeighboursDiffer.of_prefix {a b : List (String × List Resolution)} (h : NeighboursDiffer b) (hp : a <+: b) : NeighboursDiffer a := by
  obtain ⟨t, rfl⟩ := hp
  induction a with
  | nil => simp [NeighboursDiffer]
  | cons x a ih =>
    cases a with
    | nil => simp [NeighboursDiffer]
    | cons y a =>
      simp only [List.cons_append, NeighboursDiffer] at h ⊢
      exact ⟨h.1, ih h.2⟩

/-- **C31** In every installation, the installers are asked for commands group by group; consecutive groups have different installers, and the
items of the groups, with their installers, are the first ones of those left by the installed-check, in the same order. -/
theorem C31_planned_groups (m : Machine σ) (ic : InstallerCtx σ) (db : Database) (f : Dict String (List String)) (o : InstallOpts)
    (keys : List String) (all : Bool) (s : σ) :
    NeighboursDiffer (plannedItems (install m ic db f o keys all s).ev) ∧
    ((plannedItems (install m ic db f o keys all s).ev).flatMap (fun g => g.2.map fun r => (g.1, r)) <+:
      ((install m ic db f o keys all s).ev.filterMap keptOf).flatMap fun g => g.2.map fun r => (g.1, r)) := by
  cases hr : resolve ic db f keys all with
  | error e =>
    have : (install m ic db f o keys all s).ev = [] := by unfold install; rw [hr, lift_error_run]
    rw [this]
    simp [plannedItems, NeighboursDiffer]
  | ok r =>
    have h := (C36_only_uninstalled_planned m ic db f o keys all s r hr).1
    obtain ⟨_, _, _, hd⟩ := squash_spec ((install m ic db f o keys all s).ev.filterMap keptOf)
    refine ⟨hd.of_prefix h, ?_⟩
    rw [← C31_order_kept ((install m ic db f o keys all s).ev.filterMap keptOf)]
    obtain ⟨t, ht⟩ := h
    rw [← ht, List.flatMap_append]
    exact List.prefix_append _ _

end Verif
