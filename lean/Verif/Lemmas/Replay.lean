import Verif.Lemmas.Install2
/-! # The events of an installation account for every change of the machine -/
namespace Verif
variable {σ α β : Type} {m : Machine σ} {ic : InstallerCtx σ} {o : InstallOpts}

theorem Replays.append {s s1 s2 : σ} {a b : List Event} (h1 : Replays m ic o s a s1) (h2 : Replays m ic o s1 b s2) :
    Replays m ic o s (a ++ b) s2 := by
  induction h1 with
  | nil => exact h2
  | cons h _ ih => exact .cons h (ih h2)

/-- The events of the program account for all it does. -/
def Faithful (m : Machine σ) (ic : InstallerCtx σ) (o : InstallOpts) (p : Prog σ α) : Prop := ∀ s, Replays m ic o s (p s).ev (p s).st

theorem Faithful.bind {p : Prog σ α} {f : α → Prog σ β} (hp : Faithful m ic o p) (hf : ∀ a, Faithful m ic o (f a)) :
    Faithful m ic o (p >>= f) := by
  intro s
  rw [bind_run]
  cases h : (p s).res with
  | error e => exact hp s
  | ok a => exact (hp s).append (hf a _)

theorem Faithful.lift (x : Except Exc α) : Faithful m ic o (Prog.lift x : Prog σ α) := fun _ => .nil
theorem Faithful.ret (x : α) : Faithful m ic o (Prog.ret x : Prog σ α) := fun _ => .nil
theorem Faithful.raise (e : Exc) : Faithful m ic o (Prog.raise e : Prog σ α) := fun _ => .nil
theorem Faithful.attempt {c : σ → Except Exc α × σ} {mk : Except Exc α → Event}
    (h : ∀ s, Does m ic o s (mk (c s).1) (c s).2) : Faithful m ic o (Prog.attempt c mk) := fun s => .cons (h s) .nil

/-- A lifted value of which more is known. -/
theorem Faithful.lift_bind {x : Except Exc α} {f : α → Prog σ β} (h : ∀ a, x = .ok a → Faithful m ic o (f a)) :
    Faithful m ic o (Prog.lift x >>= f) := by
  cases x with
  | error e => exact fun _ => .nil
  | ok a => exact h a rfl

theorem require_ok {n : String} {i : Installer σ} (h : requireInstaller ic n = .ok i) : lookupInstaller ic n = some i := by
  unfold requireInstaller at h
  split at h
  · next j hj => injection h with h; rw [hj, h]
  · cases h

theorem faithful_checkGeneralLoop {os : OsTuple} (hos : ic.osTuple = .ok os) (names : List String) :
    Faithful m ic o (checkGeneralLoop ic os o.fixPrerequisites o.interactive names) := by
  induction names with
  | nil => exact .ret _
  | cons n t ih =>
    refine .lift_bind fun i hi => .bind (.attempt fun s => .general (require_ok hi) hos rfl) fun r => .bind (.lift _) fun _ => ih

theorem faithful_checkInstallLoop {os : OsTuple} (hos : ic.osTuple = .ok os) (l : List (String × List Resolution)) :
    Faithful m ic o (checkInstallLoop ic os o.fixPrerequisites o.interactive l) := by
  induction l with
  | nil => exact .ret _
  | cons n t ih =>
    obtain ⟨n, rs⟩ := n
    refine .lift_bind fun i hi => .bind (.attempt fun s => .prereq (require_ok hi) hos rfl) fun r => .bind (.lift _) fun _ => ih

theorem faithful_filterLoop (u : List (String × List Resolution)) (errs : List InstErr) (l : List (String × List Resolution)) :
    Faithful m ic o (filterLoop ic u errs l) := by
  induction l generalizing u errs with
  | nil => exact .ret _
  | cons n t ih =>
    obtain ⟨n, rs⟩ := n
    rw [filterLoop]
    refine .lift_bind fun i hi => .bind (.attempt fun s => .filter (require_ok hi) rfl) fun r => ?_
    cases r with
    | ok rs' => exact ih _ _
    | error e =>
      simp only
      split
      · exact ih _ _
      · exact .raise _

theorem faithful_runCommands (n : String) (cont : Bool) (errs : List InstErr) (cmds : List Cmd) :
    Faithful m ic o (runCommands m n cont errs cmds) := by
  induction cmds generalizing errs with
  | nil => exact .ret _
  | cons c t ih =>
    rw [runCommands]
    refine .bind (.lift _) fun _ => .bind (.attempt fun s => .exec rfl) fun r => .bind (.lift _) fun code => .bind (.lift _) fun _ => ?_
    split
    · split
      · exact ih _
      · exact .ret _
    · exact ih _

theorem faithful_verifyItems {n : String} {i : Installer σ} (hi : lookupInstaller ic n = some i) (errs : List InstErr) (rs : List Resolution) :
    Faithful m ic o (verifyItems i n errs rs) := by
  induction rs generalizing errs with
  | nil => exact .ret _
  | cons r t ih =>
    rw [verifyItems]
    refine .bind (.attempt fun s => .probe hi rfl) fun x => ?_
    cases x with
    | ok b => cases b <;> exact ih _
    | error e =>
      simp only
      split
      · exact ih _
      · exact .raise _

theorem faithful_emit {e : Event} (h : ∀ s, Does m ic o s e s) : Faithful m ic o (Prog.emit e) := fun s => .cons (h s) .nil

theorem faithful_showCommands (n : String) (cmds : List Cmd) : Faithful m ic o (showCommands n cmds) := by
  induction cmds with
  | nil => exact .ret _
  | cons c t ih =>
    rw [showCommands]
    exact .bind (.lift _) fun _ => .bind (faithful_emit fun _ => .shown) fun _ => ih

theorem faithful_installResolutions (n : String) (rs : List Resolution) : Faithful m ic o (installResolutions m ic o n rs) := by
  unfold installResolutions
  refine .lift_bind fun i hi => .bind (.attempt fun s => .plan (require_ok hi) rfl) fun c => ?_
  cases c with
  | error e => exact .raise _
  | ok cmds =>
    simp only
    split
    · exact .ret _
    · split
      · exact .bind (faithful_emit fun _ => .heading) fun _ => .bind (faithful_showCommands _ _) fun _ => .ret _
      · refine .bind (faithful_runCommands _ _ _ _) fun r => ?_
        split
        · exact .ret _
        · exact faithful_verifyItems (require_ok hi) _ _

theorem faithful_installLoop (all : List InstErr) (l : List (String × List Resolution)) : Faithful m ic o (installLoop m ic o all l) := by
  induction l generalizing all with
  | nil => exact .ret _
  | cons g t ih =>
    obtain ⟨n, rs⟩ := g
    rw [installLoop]
    refine .bind (faithful_installResolutions _ _) fun errs => ?_
    split
    · exact .ret _
    · exact ih _

theorem faithful_install (db : Database) (f : Dict String (List String)) (keys : List String) (all : Bool) :
    Faithful m ic o (install m ic db f o keys all) := by
  unfold install
  refine .bind (.lift _) fun r => ?_
  split
  · exact .ret _
  · unfold installAfterResolve
    refine .bind (.lift_bind fun os hos => faithful_checkGeneralLoop hos _) fun _ => ?_
    split
    · exact .raise _
    · refine .bind (faithful_filterLoop _ _ _) fun u => ?_
      split
      · exact .ret _
      · exact .bind (.lift_bind fun os hos => faithful_checkInstallLoop hos _) fun _ => .bind (faithful_installLoop _ _) fun _ => .ret _

/-- An event in the middle of a replay happened in some state. -/
theorem Replays.mem {s s' : σ} {l : List Event} (h : Replays m ic o s l s') {e : Event} (he : e ∈ l) : ∃ s1 s2, Does m ic o s1 e s2 := by
  induction h with
  | nil => cases he
  | cons h1 _ ih =>
    rcases List.mem_cons.1 he with rfl | he
    · exact ⟨_, _, h1⟩
    · exact ih he

theorem Replays.split {s s' : σ} {a b : List Event} (h : Replays m ic o s (a ++ b) s') : ∃ s1, Replays m ic o s a s1 ∧ Replays m ic o s1 b s' := by
  induction a generalizing s with
  | nil => exact ⟨s, .nil, h⟩
  | cons e a ih =>
    cases h with
    | cons h1 h2 =>
      obtain ⟨s1, h3, h4⟩ := ih h2
      exact ⟨s1, .cons h1 h3, h4⟩

end Verif
