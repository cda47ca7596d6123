import Verif.Model.InstallOutput
import Verif.Lemmas.Install
/-! # Lemmas about programs that say things -/
namespace Verif
variable {σ α β : Type}

/-- What was done. -/
def LogItem.done : LogItem → Option Event
  | .did e => some e
  | .said _ => none

/-- What was said. -/
def LogItem.remark : LogItem → Option Remark
  | .did _ => none
  | .said r => some r

@[simp] theorem done_did (e : Event) : (LogItem.did e).done = some e := rfl
@[simp] theorem done_said (r : Remark) : (LogItem.said r).done = none := rfl
@[simp] theorem remark_did (e : Event) : (LogItem.did e).remark = none := rfl
@[simp] theorem remark_said (r : Remark) : (LogItem.said r).remark = some r := rfl

@[simp] theorem done_map_did (l : List Event) : (l.map LogItem.did).filterMap LogItem.done = l := by
  induction l with
  | nil => rfl
  | cons e l ih => simp [ih]

@[simp] theorem done_map_said (l : List Line) : (l.map fun x => LogItem.said (.line x)).filterMap LogItem.done = [] := by
  induction l with
  | nil => rfl
  | cons e l ih => simp [ih]

@[simp] theorem remark_map_did (l : List Event) : (l.map LogItem.did).filterMap LogItem.remark = [] := by
  induction l with
  | nil => rfl
  | cons e l ih => simp [ih]

/-! ## Running -/

theorem tale_bind (p : Tale σ α) (f : α → Tale σ β) (s : σ) :
    (p >>= f) s = match (p s).res with
      | .error e => ⟨.error e, (p s).st, (p s).log⟩
      | .ok a => ⟨(f a (p s).st).res, (f a (p s).st).st, (p s).log ++ (f a (p s).st).log⟩ := by
  show Tale.andThen p f s = _
  unfold Tale.andThen
  rcases p s with ⟨r, st, log⟩
  cases r <;> rfl

theorem tale_bind_ok {p : Tale σ α} {f : α → Tale σ β} {s : σ} {a : α} (h : (p s).res = .ok a) :
    (p >>= f) s = ⟨(f a (p s).st).res, (f a (p s).st).st, (p s).log ++ (f a (p s).st).log⟩ := by rw [tale_bind, h]

theorem tale_bind_error {p : Tale σ α} {f : α → Tale σ β} {s : σ} {e : Exc} (h : (p s).res = .error e) :
    (p >>= f) s = ⟨.error e, (p s).st, (p s).log⟩ := by rw [tale_bind, h]

/-! ## The same is done -/

/-- The program `t` does what `p` does, and may say things. -/
def Follows (t : Tale σ α) (p : Prog σ α) : Prop :=
  ∀ s, (t s).res = (p s).res ∧ (t s).st = (p s).st ∧ (t s).log.filterMap LogItem.done = (p s).ev

theorem Follows.quiet (p : Prog σ α) : Follows (Tale.quiet p) p := fun s => ⟨rfl, rfl, done_map_did _⟩

theorem Follows.ret (a : α) : Follows (Tale.ret a : Tale σ α) (Prog.ret a) := fun _ => ⟨rfl, rfl, rfl⟩

theorem Follows.bind {t : Tale σ α} {p : Prog σ α} {f : α → Tale σ β} {g : α → Prog σ β} (h : Follows t p) (hf : ∀ a, Follows (f a) (g a)) :
    Follows (t >>= f) (p >>= g) := by
  intro s
  obtain ⟨h1, h2, h3⟩ := h s
  cases hp : (p s).res with
  | error e =>
    rw [tale_bind_error (h1.trans hp), bind_run, hp]
    exact ⟨rfl, h2, h3⟩
  | ok a =>
    rw [tale_bind_ok (h1.trans hp), bind_run, hp]
    obtain ⟨k1, k2, k3⟩ := hf a (t s).st
    rw [h2] at k1 k2 k3
    simp only [h2, k1, k2, Out.prepend, List.filterMap_append, h3, k3]
    trivial

/-- Saying something before. -/
theorem Follows.after {t : Tale σ Unit} {f : Unit → Tale σ β} {g : Prog σ β} (ht : Follows t (Prog.ret ())) (hf : Follows (f ()) g) :
    Follows (t >>= f) g := by
  intro s
  obtain ⟨h1, h2, h3⟩ := ht s
  rw [tale_bind_ok (a := ()) h1]
  obtain ⟨k1, k2, k3⟩ := hf (t s).st
  have h2 : (t s).st = s := h2
  have h3 : (t s).log.filterMap LogItem.done = [] := h3
  rw [h2] at k1 k2 k3
  simp only [h2, k1, k2, List.filterMap_append, h3, k3, List.nil_append]
  trivial

theorem follows_sayV (c : Console) (r : Remark) : Follows (Tale.sayV c r : Tale σ Unit) (Prog.ret ()) := by
  unfold Tale.sayV
  split
  · exact fun s => ⟨rfl, rfl, rfl⟩
  · exact .ret ()

theorem Follows.ite {P : Prop} [Decidable P] {t t' : Tale σ α} {p p' : Prog σ α} (h : Follows t p) (h' : Follows t' p') :
    Follows (if P then t else t') (if P then p else p') := by
  split
  · exact h
  · exact h'

theorem follows_runCommands (c : Console) (m : Machine σ) (inst : String) (cont : Bool) (errors : List InstErr) (cmds : List Cmd) :
    Follows (runCommandsTelling c m inst cont errors cmds) (runCommands m inst cont errors cmds) := by
  induction cmds generalizing errors with
  | nil => exact .ret _
  | cons cmd t ih =>
    unfold runCommandsTelling runCommands
    refine .bind (.quiet _) fun _ => .bind (.quiet _) fun r => .bind (.quiet _) fun code => .bind (.quiet _) fun text => ?_
    exact .after (follows_sayV c _) (.ite (.ite (ih _) (.ret _)) (ih _))

theorem prog_bind_ret (p : Prog σ α) : (p >>= fun a => Prog.ret a) = p := by
  funext s
  rw [bind_run]
  cases h : (p s).res with
  | error e => simp only; rw [← h]
  | ok a => simp only [ret_run, Out.prepend, List.append_nil]; rw [← h]

theorem follows_verify (c : Console) (inst : Installer σ) (name : String) (errors : List InstErr) (rs : List Resolution) :
    Follows (verifyTelling c inst name errors rs) (verifyItems inst name errors rs) := by
  unfold verifyTelling
  have h : Follows (Tale.quiet (verifyItems inst name errors rs) >>= fun e => Tale.sayV c (summary name e) >>= fun _ => Tale.ret e)
      (verifyItems inst name errors rs >>= fun e => Prog.ret e) := .bind (.quiet _) fun e => .after (follows_sayV c _) (.ret _)
  rw [prog_bind_ret] at h
  exact h

theorem follows_installResolutions (c : Console) (m : Machine σ) (ic : InstallerCtx σ) (o : InstallOpts) (name : String) (rs : List Resolution) :
    Follows (installResolutionsTelling c m ic o name rs) (installResolutions m ic o name rs) := by
  unfold installResolutionsTelling installResolutions
  refine .bind (.quiet _) fun inst => .bind (.quiet _) fun r => ?_
  cases r with
  | error e => exact .quiet _
  | ok commands =>
    unfold performTelling
    refine .ite (.after (follows_sayV c _) (.ret _)) (.ite ?_ ?_)
    · exact .bind (.quiet _) fun _ => .bind (.quiet _) fun _ => .ret _
    · exact .bind (follows_runCommands c m name _ _ _) fun r => .ite (.ret _) (follows_verify c inst name _ _)

theorem follows_installLoop (c : Console) (m : Machine σ) (ic : InstallerCtx σ) (o : InstallOpts) (all : List InstErr)
    (l : List (String × List Resolution)) : Follows (installLoopTelling c m ic o all l) (installLoop m ic o all l) := by
  induction l generalizing all with
  | nil => exact .ret _
  | cons x t ih =>
    unfold installLoopTelling installLoop
    exact .bind (follows_installResolutions c m ic o _ _) fun e => .ite (.ret _) (ih _)

theorem follows_check (said : σ → List Line) (f : σ → Except Exc Unit × σ) (mk : Except Exc Unit → Event) {β : Type} {g : Unit → Tale σ β} {k : Prog σ β}
    (hg : Follows (g ()) k) : Follows (checkTelling said f mk >>= g) (do let r ← Prog.attempt f mk; Prog.lift r; k) := by
  have : Follows (checkTelling said f mk) (do let r ← Prog.attempt f mk; Prog.lift r) := by
    intro s
    refine ⟨?_, ?_, ?_⟩
    · rfl
    · rfl
    · simp [checkTelling, Prog.lift, Out.prepend]
  have h := this.bind (f := g) (g := fun _ => k) fun _ => hg
  have e : ((do let r ← Prog.attempt f mk; Prog.lift r) >>= fun _ => k : Prog σ β) = (do let r ← Prog.attempt f mk; Prog.lift r; k) := by
    funext s
    simp only [attempt_run]
    rw [bind_run, attempt_run]
    cases h : (f s).1 with
    | error e => simp only [Prog.lift, Out.prepend, bind_run]
    | ok u => simp only [Prog.lift, Out.prepend, bind_run, List.append_nil, List.nil_append]
  rw [← e]
  exact h

theorem follows_general (v : Voice σ) (ic : InstallerCtx σ) (os : OsTuple) (fix interactive : Bool) (names : List String) :
    Follows (checkGeneralLoopTelling v ic os fix interactive names) (checkGeneralLoop ic os fix interactive names) := by
  induction names with
  | nil => exact .ret _
  | cons x t ih =>
    unfold checkGeneralLoopTelling checkGeneralLoop
    exact .bind (.quiet _) fun inst => follows_check _ _ _ ih

theorem follows_prereq (v : Voice σ) (ic : InstallerCtx σ) (os : OsTuple) (fix interactive : Bool) (l : List (String × List Resolution)) :
    Follows (checkInstallLoopTelling v ic os fix interactive l) (checkInstallLoop ic os fix interactive l) := by
  induction l with
  | nil => exact .ret _
  | cons x t ih =>
    unfold checkInstallLoopTelling checkInstallLoop
    exact .bind (.quiet _) fun inst => follows_check _ _ _ ih

theorem follows_install (c : Console) (v : Voice σ) (m : Machine σ) (ic : InstallerCtx σ) (db : Database) (f : Dict String (List String))
    (o : InstallOpts) (keys : List String) (all : Bool) : Follows (installTelling c v m ic db f o keys all) (install m ic db f o keys all) := by
  unfold installTelling install
  refine .bind (.quiet _) fun r => .ite (.ret _) ?_
  unfold installAfterResolveTelling installAfterResolve
  refine .bind ?_ fun _ => .ite (.quiet _) ?_
  · unfold checkGeneralTelling checkGeneralPrerequisites
    exact .bind (.quiet _) fun os => follows_general v ic os _ _ _
  · refine .bind (.quiet _) fun x => .ite (.ret _) ?_
    unfold installPlannedTelling installPlanned
    refine .bind ?_ fun _ => .bind ?_ fun e => .ret _
    · unfold checkInstallTelling checkInstallPrerequisites
      exact .bind (.quiet _) fun os => follows_prereq v ic os _ _ _
    · exact follows_installLoop c m ic o _ _

/-! ## What is said -/

/-- Everything said is of a certain kind. -/
def Tells (P : Remark → Prop) (t : Tale σ α) : Prop := ∀ s r, LogItem.said r ∈ (t s).log → P r

theorem Tells.quiet {P : Remark → Prop} (p : Prog σ α) : Tells P (Tale.quiet p) := by
  intro s r h
  simp [Tale.quiet] at h

theorem Tells.ret {P : Remark → Prop} (a : α) : Tells P (Tale.ret a : Tale σ α) := by
  intro s r h
  simp [Tale.ret] at h

theorem Tells.bind {P : Remark → Prop} {t : Tale σ α} {f : α → Tale σ β} (h : Tells P t) (hf : ∀ a, Tells P (f a)) : Tells P (t >>= f) := by
  intro s r hr
  cases ht : (t s).res with
  | error e => rw [tale_bind_error ht] at hr; exact h s r hr
  | ok a =>
    rw [tale_bind_ok ht] at hr
    rcases List.mem_append.1 hr with hr | hr
    · exact h s r hr
    · exact hf a _ r hr

theorem Tells.ite {P : Remark → Prop} {Q : Prop} [Decidable Q] {t t' : Tale σ α} (h : Tells P t) (h' : Tells P t') : Tells P (if Q then t else t') := by
  split
  · exact h
  · exact h'

theorem tells_sayV {P : Remark → Prop} (c : Console) (r : Remark) (h : c.verbose = true → P r) : Tells P (Tale.sayV c r : Tale σ Unit) := by
  unfold Tale.sayV
  split
  · rename_i hc
    intro s r' hr
    simp only [Tale.say, List.mem_singleton, LogItem.said.injEq] at hr
    rw [hr]; exact h hc
  · exact .ret ()

theorem tells_print {P : Remark → Prop} (ls : List Line) (h : ∀ l ∈ ls, P (.line l)) : Tells P (Tale.print ls : Tale σ Unit) := by
  intro s r hr
  simp only [Tale.print, List.mem_map] at hr
  obtain ⟨l, hl, e⟩ := hr
  cases e; exact h l hl

/-- What `install.py` itself says. -/
def Remark.own : Remark → Prop
  | .line _ => False
  | _ => True

theorem tells_runCommands {P : Remark → Prop} (c : Console) (hc : c.verbose = true → ∀ t, P (.returned t)) (m : Machine σ) (inst : String) (cont : Bool)
    (errors : List InstErr) (cmds : List Cmd) : Tells P (runCommandsTelling c m inst cont errors cmds) := by
  induction cmds generalizing errors with
  | nil => exact .ret _
  | cons cmd t ih =>
    unfold runCommandsTelling
    exact .bind (.quiet _) fun _ => .bind (.quiet _) fun r => .bind (.quiet _) fun code => .bind (.quiet _) fun text =>
      .bind (tells_sayV c _ fun h => hc h text) fun _ => .ite (.ite (ih _) (.ret _)) (ih _)

theorem summary_own (name : String) (e : List InstErr) : (summary name e).own := by
  unfold summary
  split <;> trivial

theorem tells_installResolutions {P : Remark → Prop} (c : Console) (hc : c.verbose = true → ∀ r : Remark, r.own → P r) (m : Machine σ)
    (ic : InstallerCtx σ) (o : InstallOpts) (name : String) (rs : List Resolution) : Tells P (installResolutionsTelling c m ic o name rs) := by
  unfold installResolutionsTelling
  refine .bind (.quiet _) fun inst => .bind (.quiet _) fun r => ?_
  cases r with
  | error e => exact .quiet _
  | ok commands =>
    show Tells P (performTelling c m o inst name rs commands)
    unfold performTelling
    refine .ite (.bind (tells_sayV c _ fun h => hc h _ trivial) fun _ => .ret _) (.ite ?_ ?_)
    · exact .bind (.quiet _) fun _ => .bind (.quiet _) fun _ => .ret _
    · refine .bind (tells_runCommands c (fun h t => hc h _ trivial) m name _ _ _) fun r => .ite (.ret _) ?_
      unfold verifyTelling
      exact .bind (.quiet _) fun e => .bind (tells_sayV c _ fun h => hc h _ (summary_own _ _)) fun _ => .ret _

theorem tells_installLoop {P : Remark → Prop} (c : Console) (hc : c.verbose = true → ∀ r : Remark, r.own → P r) (m : Machine σ)
    (ic : InstallerCtx σ) (o : InstallOpts) (all : List InstErr) (l : List (String × List Resolution)) : Tells P (installLoopTelling c m ic o all l) := by
  induction l generalizing all with
  | nil => exact .ret _
  | cons x t ih =>
    unfold installLoopTelling
    exact .bind (tells_installResolutions c hc m ic o _ _) fun e => .ite (.ret _) (ih _)

theorem tells_check {P : Remark → Prop} (said : σ → List Line) (h : ∀ s, ∀ l ∈ said s, P (.line l)) (f : σ → Except Exc Unit × σ)
    (mk : Except Exc Unit → Event) : Tells P (checkTelling said f mk) := by
  intro s r hr
  simp only [checkTelling, List.mem_append, List.mem_map, List.mem_singleton, reduceCtorEq, or_false] at hr
  obtain ⟨l, hl, e⟩ := hr
  cases e; exact h s l hl

/-- Everything that is said while installing is said by the installers' checks or, if verbose, by `install.py`. -/
theorem tells_install {P : Remark → Prop} (c : Console) (hc : c.verbose = true → ∀ r : Remark, r.own → P r) (v : Voice σ)
    (h1 : ∀ n os fix inter s, ∀ l ∈ v.general n os fix inter s, P (.line l)) (h2 : ∀ n rs os fix inter s, ∀ l ∈ v.prereq n rs os fix inter s, P (.line l))
    (m : Machine σ) (ic : InstallerCtx σ) (db : Database) (f : Dict String (List String))
    (o : InstallOpts) (keys : List String) (all : Bool) : Tells P (installTelling c v m ic db f o keys all) := by
  have hg : ∀ os fix inter names, Tells P (checkGeneralLoopTelling v ic os fix inter names) := by
    intro os fix inter names
    induction names with
    | nil => exact .ret _
    | cons x t ih =>
      unfold checkGeneralLoopTelling
      exact .bind (.quiet _) fun inst => .bind (tells_check _ (h1 x os fix inter) _ _) fun _ => ih
  have hp : ∀ os fix inter l, Tells P (checkInstallLoopTelling v ic os fix inter l) := by
    intro os fix inter l
    induction l with
    | nil => exact .ret _
    | cons x t ih =>
      unfold checkInstallLoopTelling
      exact .bind (.quiet _) fun inst => .bind (tells_check _ (h2 x.1 x.2 os fix inter) _ _) fun _ => ih
  unfold installTelling
  refine .bind (.quiet _) fun r => .ite (.ret _) ?_
  unfold installAfterResolveTelling
  refine .bind ?_ fun _ => .ite (.quiet _) ?_
  · unfold checkGeneralTelling
    exact .bind (.quiet _) fun os => hg os _ _ _
  · refine .bind (.quiet _) fun x => .ite (.ret _) ?_
    unfold installPlannedTelling
    refine .bind ?_ fun _ => .bind ?_ fun e => .ret _
    · unfold checkInstallTelling
      exact .bind (.quiet _) fun os => hp os _ _ _
    · exact tells_installLoop c hc m ic o _ _

end Verif
