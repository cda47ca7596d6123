import Verif.Spec.Util
/-! # C112: context managers put back what they change -/
namespace Verif

theorem setDirs_same (o : Nat) (f : DirObj → DirObj) (s : Proc) : (setDirs o f s).dirs o = f (s.dirs o) := by
  simp [setDirs]

theorem getcwd_ok {s : Proc} (h : StillThere s s) : getcwd s = (.ok s.cwd, s) := by
  unfold StillThere at h
  simp [getcwd, h]

theorem rememberCwd_ok {s : Proc} (o : Nat) (h : StillThere s s) :
    rememberCwd o s = (.ok (), setDirs o (fun d => { d with originalCwd := some s.cwd }) s) := by
  simp [rememberCwd, Block.andThen, getcwd_ok h]

/-- Entering: the process is in the directory, and the object keeps where it was. -/
theorem changeEnter_ok {s : Proc} {o : Nat} {d : List String} {n : FsNode} (h : StillThere s s)
    (hd : (s.dirs o).directory = some d) (hn : s.fs d = some n) (he : n.enter = true) :
    changeEnter o s = (.ok (some d), entered o s.cwd d n s) := by
  simp [changeEnter, Block.andThen, rememberCwd_ok o h, setDirs_same, hd, chdir, setDirs, hn, he, entered]

theorem restore_ok {o : Nat} {s s' : Proc} (hs : StillThere s s') (ho : (s'.dirs o).originalCwd = some s.cwd) :
    restoreCwd o s' = (.ok (), { s' with cwd := s.cwd, cwdId := s.cwdId }) := by
  unfold StillThere at hs
  simp [restoreCwd, ho, pathExists, chdir, hs]

/-- **C112** For every block that does not use the guarding object itself, however it ends (with a value or an
exception) and whatever directory it ends in: if the directory where the process was at the beginning is still there, the process is back in it,
the outcome is the block's, and nothing else has changed. Missing from the full claim: see the refutations below. -/
theorem C112_change_directory_partial {β : Type} (s : Proc) (o : Nat) (d : List String) (n : FsNode) (body : Block β)
    (h : StillThere s s) (hd : (s.dirs o).directory = some d) (hn : s.fs d = some n) (he : n.enter = true)
    (hb : LeavesObj o body) (hs : StillThere s (body (entered o s.cwd d n s)).2) :
    (withChange o body s).1 = (body (entered o s.cwd d n s)).1 ∧
    SameCwd s (withChange o body s).2 ∧
    (withChange o body s).2 = { (body (entered o s.cwd d n s)).2 with cwd := s.cwd, cwdId := s.cwdId } := by
  have ho : (((body (entered o s.cwd d n s)).2).dirs o).originalCwd = some s.cwd := by
    rw [hb]; simp [entered, setDirs]
  have key : withChange o body s = ((body (entered o s.cwd d n s)).1,
      { (body (entered o s.cwd d n s)).2 with cwd := s.cwd, cwdId := s.cwdId }) := by
    show withBlock _ _ _ s = _
    simp only [withBlock, changeEnter_ok h hd hn he, restore_ok hs ho]
  rw [key]
  exact ⟨rfl, ⟨rfl, rfl⟩, rfl⟩

/-- The block runs in the directory asked for. -/
theorem C112_runs_inside (s : Proc) (o : Nat) (d : List String) (n : FsNode) :
    (entered o s.cwd d n s).cwd = d ∧ (entered o s.cwd d n s).cwdId = n.id ∧ (entered o s.cwd d n s).fs = s.fs :=
  ⟨rfl, rfl, rfl⟩

/-- **C112** If the directory cannot be entered the block does not run and the process stays where it is. -/
theorem C112_cannot_enter {β : Type} (s : Proc) (o : Nat) (body : Block β) (h : StillThere s s)
    (hd : ∀ d n, (s.dirs o).directory = some d → s.fs d = some n → n.enter = false) :
    (withChange o body s).1 = .error .osError ∧ SameCwd s (withChange o body s).2 ∧
    (withChange o body s).2.fs = s.fs := by
  have key : ∃ t, changeEnter o s = (.error .osError, t) ∧ SameCwd s t ∧ t.fs = s.fs := by
    refine ⟨setDirs o (fun d => { d with originalCwd := some s.cwd }) s, ?_, ⟨rfl, rfl⟩, rfl⟩
    simp only [changeEnter, Block.andThen, rememberCwd_ok o h, setDirs_same]
    cases hdir : (s.dirs o).directory with
    | none => simp [chdir]
    | some d =>
      cases hn : s.fs d with
      | none => simp [chdir, setDirs, hn]
      | some n => simp [chdir, setDirs, hn, hd d n hdir hn]
  obtain ⟨t, ht, h1, h2⟩ := key
  simp only [withChange, withBlock, ht]
  exact ⟨trivial, h1, h2⟩

/-- **C112, refutation** `change_directory()`, with the default of its argument, never runs its block. -/
theorem C112_default_argument_refuted {β : Type} (s : Proc) (o : Nat) (body : Block β) (h : StillThere s s)
    (hd : (s.dirs o).directory = none) : (withChange o body s).1 = .error .osError :=
  (C112_cannot_enter s o body h (fun d n e _ => by rw [hd] at e; cases e)).1

/-- **C112, refutation** If the directory the process came from is gone, the process silently stays wherever the block left it. -/
theorem C112_original_gone_refuted {β : Type} (s : Proc) (o : Nat) (d : List String) (n : FsNode) (body : Block β)
    (h : StillThere s s) (hd : (s.dirs o).directory = some d) (hn : s.fs d = some n) (he : n.enter = true)
    (hb : LeavesObj o body) (hs : (body (entered o s.cwd d n s)).2.fs s.cwd = none) :
    withChange o body s = body (entered o s.cwd d n s) := by
  have ho : (((body (entered o s.cwd d n s)).2).dirs o).originalCwd = some s.cwd := by
    rw [hb]; simp [entered, setDirs]
  have hr : restoreCwd o (body (entered o s.cwd d n s)).2 = (.ok (), (body (entered o s.cwd d n s)).2) := by
    simp [restoreCwd, ho, pathExists, hs]
  simp only [withChange, withBlock, changeEnter_ok h hd hn he, hr]

/-- **C112, refutation** If something that cannot be entered has taken the place of the directory, leaving raises and hides how the block ended. -/
theorem C112_original_replaced_refuted {β : Type} (s : Proc) (o : Nat) (d : List String) (n m : FsNode) (body : Block β)
    (h : StillThere s s) (hd : (s.dirs o).directory = some d) (hn : s.fs d = some n) (he : n.enter = true)
    (hb : LeavesObj o body) (hs : (body (entered o s.cwd d n s)).2.fs s.cwd = some m) (hm : m.enter = false) :
    withChange o body s = (.error .osError, (body (entered o s.cwd d n s)).2) := by
  have ho : (((body (entered o s.cwd d n s)).2).dirs o).originalCwd = some s.cwd := by
    rw [hb]; simp [entered, setDirs]
  have hr : restoreCwd o (body (entered o s.cwd d n s)).2 = (.error .osError, (body (entered o s.cwd d n s)).2) := by
    simp [restoreCwd, ho, pathExists, hs, chdir, hm]
  simp only [withChange, withBlock, changeEnter_ok h hd hn he, hr]

/-- **C112** Two objects, one inside the other: back where the outer one was entered. -/
theorem C112_nested {β : Type} (s : Proc) (o o' : Nat) (d d' : List String) (n n' : FsNode) (body : Block β) (ho : o ≠ o')
    (h : StillThere s s) (hd : (s.dirs o).directory = some d) (hn : s.fs d = some n) (he : n.enter = true)
    (hd' : (s.dirs o').directory = some d') (hn' : s.fs d' = some n') (he' : n'.enter = true)
    (hb : LeavesObj o body) (hb' : LeavesObj o' body)
    (hs : ∀ t, t.fs = s.fs → (body t).2.fs = s.fs) :
    (withChange o (withChange o' body) s).1 = (body (entered o' d d' n' (entered o s.cwd d n s))).1 ∧
    SameCwd s (withChange o (withChange o' body) s).2 := by
  have e1 : (entered o s.cwd d n s).dirs o' = s.dirs o' := by simp [entered, setDirs, Ne.symm ho]
  have hnode : n = ⟨n.id, true⟩ := by cases n; cases he; rfl
  have inner := C112_change_directory_partial (entered o s.cwd d n s) o' d' n' body
    (by show s.fs d = _; rw [hn]; exact congrArg some hnode) (by rw [e1]; exact hd') hn' he' hb'
    (by exact (congrFun (hs (entered o' d d' n' (entered o s.cwd d n s)) rfl) d).trans (hn.trans (congrArg some hnode)))
  obtain ⟨i1, -, i3⟩ := inner
  have hob : restoreCwd o (withChange o' body (entered o s.cwd d n s)).2 =
      (.ok (), { (withChange o' body (entered o s.cwd d n s)).2 with cwd := s.cwd, cwdId := s.cwdId }) := by
    refine restore_ok ?_ ?_
    · show (withChange o' body (entered o s.cwd d n s)).2.fs s.cwd = _
      rw [i3]
      show (body _).2.fs s.cwd = _
      exact (congrFun (hs (entered o' d d' n' (entered o s.cwd d n s)) rfl) s.cwd).trans h
    · rw [i3]
      show ((body _).2.dirs o).originalCwd = _
      rw [hb]
      simp [entered, setDirs, ho]
  have key : withChange o (withChange o' body) s = ((withChange o' body (entered o s.cwd d n s)).1,
      { (withChange o' body (entered o s.cwd d n s)).2 with cwd := s.cwd, cwdId := s.cwdId }) := by
    show withBlock _ _ _ s = _
    simp only [withBlock, changeEnter_ok h hd hn he, hob]
  rw [key]
  exact ⟨i1, rfl, rfl⟩

/-- **C112, refutation** One object used for two nested `with` statements: the process ends up in the directory of the object, not where it was. -/
theorem C112_same_object_refuted {β : Type} (s : Proc) (o : Nat) (d : List String) (n : FsNode) (body : Block β)
    (h : StillThere s s) (hd : (s.dirs o).directory = some d) (hn : s.fs d = some n) (he : n.enter = true)
    (hb : LeavesObj o body) (hs : ∀ t, t.fs = s.fs → (body t).2.fs = s.fs) :
    (withChange o (withChange o body) s).2.cwd = d ∧ (withChange o (withChange o body) s).2.cwdId = n.id := by
  have hnode : n = ⟨n.id, true⟩ := by cases n; cases he; rfl
  have inner := C112_change_directory_partial (entered o s.cwd d n s) o d n body
    (by show s.fs d = _; rw [hn]; exact congrArg some hnode) (by simp [entered, setDirs, hd]) hn he hb
    (by exact (congrFun (hs (entered o d d n (entered o s.cwd d n s)) rfl) d).trans (hn.trans (congrArg some hnode)))
  obtain ⟨-, -, i3⟩ := inner
  have hob : restoreCwd o (withChange o body (entered o s.cwd d n s)).2 =
      (.ok (), { (withChange o body (entered o s.cwd d n s)).2 with
        cwd := (entered o s.cwd d n s).cwd, cwdId := (entered o s.cwd d n s).cwdId }) := by
    refine restore_ok (s := entered o s.cwd d n s) ?_ ?_
    · show (withChange o body (entered o s.cwd d n s)).2.fs d = _
      rw [i3]
      show (body _).2.fs d = _
      exact (congrFun (hs (entered o d d n (entered o s.cwd d n s)) rfl) d).trans (hn.trans (congrArg some hnode))
    · rw [i3]
      show ((body _).2.dirs o).originalCwd = _
      rw [hb]
      simp [entered, setDirs]
  have key : (withChange o (withChange o body) s).2 =
      { (withChange o body (entered o s.cwd d n s)).2 with
        cwd := (entered o s.cwd d n s).cwd, cwdId := (entered o s.cwd d n s).cwdId } := by
    show (withBlock _ _ _ s).2 = _
    simp only [withBlock, changeEnter_ok h hd hn he, hob]
  rw [key]
  exact ⟨rfl, rfl⟩

/-! ## `temporary_directory` -/

/-- The process inside the block: a new directory at `p` with identity `i`. -/
def tempEntered (o : Nat) (p : List String) (i : Nat) (s : Proc) : Proc :=
  { setDirs o (fun d => { d with originalCwd := some s.cwd, tempPath := some p }) s with
    fs := fun q => if q = p then some ⟨i, true⟩ else s.fs q
    cwd := p
    cwdId := i }

theorem tempEnter_ok {T : TempLib} {s : Proc} {o : Nat} {p : List String} {i : Nat} (h : StillThere s s)
    (hp : T.pick (setDirs o (fun d => { d with originalCwd := some s.cwd }) s) = some (p, i)) :
    tempEnter T o s = (.ok (some p), tempEntered o p i s) := by
  have e : (fun j => if j = o then ({ (if j = o then { s.dirs j with originalCwd := some s.cwd } else s.dirs j) with tempPath := some p } : DirObj)
        else (if j = o then { s.dirs j with originalCwd := some s.cwd } else s.dirs j)) =
      (fun j => if j = o then { s.dirs j with originalCwd := some s.cwd, tempPath := some p } else s.dirs j) := by
    funext j
    by_cases hj : j = o <;> simp [hj]
  simp [tempEnter, Block.andThen, rememberCwd_ok o h, makeTemp, hp, setDirs_same, chdir]
  simp [setDirs, tempEntered, e]

theorem isPrefixOf_iff (p q : List String) : p.isPrefixOf q = true ↔ ∃ r, q = p ++ r := by
  rw [List.isPrefixOf_iff_prefix]
  exact ⟨fun ⟨r, h⟩ => ⟨r, h.symm⟩, fun ⟨r, h⟩ => ⟨r, h.symm⟩⟩

/-- **C112** For every block that does not use the guarding object itself, however it ends: if `rmtree` does not fail and the directory where the
process was is still there, then afterwards nothing is left at or below the temporary directory, everything else is as the block left it, the
process is back where it was, and the outcome is the block's. Missing from the full claim: see `C112_rmtree_refuted`. -/
theorem C112_temporary_directory_partial {β : Type} (T : TempLib) (s : Proc) (o : Nat) (p : List String) (i : Nat)
    (body : Option (List String) → Block β) (h : StillThere s s) (ht : FsTree s.fs)
    (hp : T.pick (setDirs o (fun d => { d with originalCwd := some s.cwd }) s) = some (p, i)) (hnew : s.fs p = none)
    (hb : LeavesObj o (body (some p))) (hs : StillThere s (body (some p) (tempEntered o p i s)).2)
    (hr : ∀ t q, T.fails t q = none) :
    (withTemp T o body s).1 = (body (some p) (tempEntered o p i s)).1 ∧
    SameCwd s (withTemp T o body s).2 ∧
    (∀ r, (body (some p) (tempEntered o p i s)).2.fs p ≠ none → (withTemp T o body s).2.fs (p ++ r) = none) ∧
    (∀ q, (∀ r, q ≠ p ++ r) → (withTemp T o body s).2.fs q = (body (some p) (tempEntered o p i s)).2.fs q) := by
  have ho : ((body (some p) (tempEntered o p i s)).2.dirs o) =
      { s.dirs o with originalCwd := some s.cwd, tempPath := some p } := by
    rw [hb]; simp [tempEntered, setDirs]
  have hnp : p.isPrefixOf s.cwd = false := by
    cases hx : p.isPrefixOf s.cwd with
    | false => rfl
    | true =>
      obtain ⟨r, e⟩ := (isPrefixOf_iff _ _).1 hx
      have := ht p r (by rw [← e]; unfold StillThere at h; rw [h]; rfl)
      rw [hnew] at this
      cases this
  generalize hB : body (some p) (tempEntered o p i s) = B at *
  have key : withTemp T o body s = (B.1, { B.2 with
      fs := (fun q => if (B.2.fs p).isSome && p.isPrefixOf q then none else B.2.fs q), cwd := s.cwd, cwdId := s.cwdId }) := by
    simp only [withTemp, withBlock, tempEnter_ok h hp, hB]
    have hl : tempLeave T o B.2 = (.ok (), { B.2 with
      fs := (fun q => if (B.2.fs p).isSome && p.isPrefixOf q then none else B.2.fs q), cwd := s.cwd, cwdId := s.cwdId }) := by
      cases hx : (B.2.fs p).isSome with
      | true =>
        have h1 : removeTemp T o B.2 = (.ok (), { B.2 with fs := fun q => if p.isPrefixOf q then none else B.2.fs q }) := by
          simp [removeTemp, ho, pathExists, hx, rmtree, hr]
        have h2 := restore_ok (o := o) (s := s) (s' := { B.2 with fs := fun q => if p.isPrefixOf q then none else B.2.fs q })
          (by show (if p.isPrefixOf s.cwd then none else B.2.fs s.cwd) = _; rw [hnp]; exact hs) (by rw [ho])
        simp only [tempLeave, Block.andThen, h1, h2, Bool.true_and]
      | false =>
        have h1 : removeTemp T o B.2 = (.ok (), B.2) := by simp [removeTemp, ho, pathExists, hx]
        have h2 := restore_ok (o := o) (s := s) (s' := B.2) hs (by rw [ho])
        simp only [tempLeave, Block.andThen, h1, h2, Bool.false_and, Bool.false_eq_true, if_false]
    simp only [hl]
  rw [key]
  refine ⟨rfl, ⟨rfl, rfl⟩, ?_, ?_⟩
  · intro r hne
    have : (B.2.fs p).isSome = true := by
      cases hq : B.2.fs p with
      | none => exact absurd hq hne
      | some _ => rfl
    simp [this]
  · intro q hq
    have : p.isPrefixOf q = false := by
      cases hx : p.isPrefixOf q with
      | false => rfl
      | true => obtain ⟨r, e⟩ := (isPrefixOf_iff _ _).1 hx; exact absurd e (hq r)
    simp [this]

/-- **C112, refutation** If `rmtree` raises, the process stays where the block left it (in the temporary directory, say), although the directory it came from
is still there, and how the block ended is lost. -/
theorem C112_rmtree_refuted {β : Type} (T : TempLib) (s : Proc) (o : Nat) (p : List String) (i : Nat)
    (body : Option (List String) → Block β) (h : StillThere s s)
    (hp : T.pick (setDirs o (fun d => { d with originalCwd := some s.cwd }) s) = some (p, i))
    (hb : LeavesObj o (body (some p))) (hex : (body (some p) (tempEntered o p i s)).2.fs p ≠ none)
    (fs' : List String → Option FsNode) (hr : T.fails (body (some p) (tempEntered o p i s)).2 p = some fs') :
    withTemp T o body s = (.error .osError, { (body (some p) (tempEntered o p i s)).2 with fs := fs' }) := by
  have ho : ((body (some p) (tempEntered o p i s)).2.dirs o) =
      { s.dirs o with originalCwd := some s.cwd, tempPath := some p } := by
    rw [hb]; simp [tempEntered, setDirs]
  generalize hB : body (some p) (tempEntered o p i s) = B at *
  have hx : (B.2.fs p).isSome = true := by
    cases hq : B.2.fs p with
    | none => exact absurd hq hex
    | some _ => rfl
  simp only [withTemp, withBlock, tempEnter_ok h hp, hB]
  have h1 : tempLeave T o B.2 = (.error .osError, { B.2 with fs := fs' }) := by
    simp [tempLeave, Block.andThen, removeTemp, ho, pathExists, hx, rmtree, hr]
  simp only [h1]

/-! ## `redirected_stdio` -/

/-- **C112** For every block that does not use the guarding object itself, however it ends and whatever it assigns to `sys.stdout`
and `sys.stderr`: afterwards both are what they were before, and the outcome is the block's. -/
theorem C112_redirected_stdio_partial {β : Type} (s : Proc) (o : Nat) (body : Nat × Nat → Block β)
    (hb : LeavesStdio o (body (s.streams, s.streams + 1))) :
    (withStdio o body s).1 = (body (s.streams, s.streams + 1) (stdioEnter o s).2).1 ∧
    (withStdio o body s).2.stdout = s.stdout ∧ (withStdio o body s).2.stderr = s.stderr ∧
    (withStdio o body s).2.written = (body (s.streams, s.streams + 1) (stdioEnter o s).2).2.written := by
  have ho : (body (s.streams, s.streams + 1) (stdioEnter o s).2).2.stdios o = ⟨some s.stdout, some s.stderr⟩ := by
    rw [hb]; simp [stdioEnter, setStdios]
  have he : (stdioEnter o s).1 = .ok (s.streams, s.streams + 1) := rfl
  have key : withStdio o body s = ((body (s.streams, s.streams + 1) (stdioEnter o s).2).1,
      { (body (s.streams, s.streams + 1) (stdioEnter o s).2).2 with stdout := s.stdout, stderr := s.stderr }) := by
    simp only [withStdio, withBlock]
    rw [show stdioEnter o s = (.ok (s.streams, s.streams + 1), (stdioEnter o s).2) from rfl]
    simp [stdioLeave, ho]
  rw [key]
  exact ⟨rfl, rfl, rfl, rfl⟩

theorem printing_spec {β : Type} (lines : List (Bool × String)) (r : Except BlockExc β) (s : Proc) (hne : s.stdout ≠ s.stderr) :
    printing lines r s = (r, { s with written := (fun i =>
      if i = s.stdout then s.written i ++ linesTo false lines
      else if i = s.stderr then s.written i ++ linesTo true lines else s.written i) }) := by
  induction lines generalizing s with
  | nil => simp [printing, linesTo]
  | cons l ls ih =>
    rcases l with ⟨b, t⟩
    simp only [printing, Block.andThen, printTo]
    refine (ih { s with written := fun i => if i = (if b then s.stderr else s.stdout) then s.written i ++ [t] else s.written i } hne).trans ?_
    refine Prod.ext rfl ?_
    simp only [Proc.mk.injEq, true_and, and_true]
    funext i
    cases b
    · by_cases h1 : i = s.stdout
      · subst h1; simp [linesTo]
      · simp [h1, linesTo]
    · by_cases h1 : i = s.stdout
      · subst h1; simp [linesTo, hne]
      · by_cases h2 : i = s.stderr
        · subst h2; simp [linesTo, h1]
        · simp [h1, h2, linesTo]

/-- **C112** What a block prints is in the two buffers, each in order, and nothing reaches the streams that existed before. -/
theorem C112_captured {β : Type} (s : Proc) (o : Nat) (lines : List (Bool × String)) (r : Except BlockExc β) :
    (withStdio o (fun _ => printing lines r) s).1 = r ∧
    (withStdio o (fun _ => printing lines r) s).2.written s.streams = linesTo false lines ∧
    (withStdio o (fun _ => printing lines r) s).2.written (s.streams + 1) = linesTo true lines ∧
    (∀ i, i < s.streams → (withStdio o (fun _ => printing lines r) s).2.written i = s.written i) ∧
    (withStdio o (fun _ => printing lines r) s).2.stdout = s.stdout ∧
    (withStdio o (fun _ => printing lines r) s).2.stderr = s.stderr := by
  have hl : LeavesStdio o (printing lines r) := by
    clear s
    intro s
    induction lines generalizing s with
    | nil => rfl
    | cons l ls ih => exact ih _
  have hne : (stdioEnter o s).2.stdout ≠ (stdioEnter o s).2.stderr := by simp [stdioEnter]
  obtain ⟨h1, h2, h3, h4⟩ := C112_redirected_stdio_partial s o (fun _ => printing lines r) hl
  rw [h1, h2, h3, h4, printing_spec lines r _ hne]
  refine ⟨rfl, ?_, ?_, ?_, rfl, rfl⟩
  · simp [stdioEnter]
  · simp [stdioEnter]
  · intro i hi
    have e1 : i ≠ s.streams := by omega
    have e2 : i ≠ s.streams + 1 := by omega
    have e3 : ¬ s.streams ≤ i := by omega
    simp [stdioEnter, e1, e2, e3]

/-- **C112** Nested redirections with different objects, around every block that uses neither: what is printed between the end of the inner one and the end of the
outer one is captured by the outer one, and at the end both streams are what they were before. -/
theorem C112_stdio_nested {β γ : Type} (s : Proc) (o o' : Nat) (body : Nat × Nat → Block β) (ho : o ≠ o') (hb : ∀ x, LeavesStdio o (body x))
    (hb' : ∀ x, LeavesStdio o' (body x)) (lines : List (Bool × String)) (r : Except BlockExc γ)
    (hw : ∀ x t, (body x t).2.written s.streams = t.written s.streams ∧ (body x t).2.written (s.streams + 1) = t.written (s.streams + 1))
    {x : β} (hok : (body (s.streams + 2, s.streams + 3) (stdioEnter o' (stdioEnter o s).2).2).1 = .ok x) :
    (withStdio o (fun _ => (withStdio o' body).andThen fun _ => printing lines r) s).1 = r ∧
    (withStdio o (fun _ => (withStdio o' body).andThen fun _ => printing lines r) s).2.stdout = s.stdout ∧
    (withStdio o (fun _ => (withStdio o' body).andThen fun _ => printing lines r) s).2.stderr = s.stderr ∧
    (withStdio o (fun _ => (withStdio o' body).andThen fun _ => printing lines r) s).2.written s.streams = linesTo false lines ∧
    (withStdio o (fun _ => (withStdio o' body).andThen fun _ => printing lines r) s).2.written (s.streams + 1) = linesTo true lines := by
  have hprint : ∀ (ls : List (Bool × String)) (t : Proc), (printing ls r t).2.stdios = t.stdios := by
    intro ls
    induction ls with
    | nil => intro t; rfl
    | cons l ls ih => intro t; rw [printing]; show (printing ls r _).2.stdios = _; rw [ih]
  obtain ⟨i1, i2, i3, i4⟩ := C112_redirected_stdio_partial (stdioEnter o s).2 o' body (hb' _)
  have hin : (withStdio o' body (stdioEnter o s).2).1 = .ok x := i1.trans hok
  have hrun : ∀ t, (∃ y, (withStdio o' body t).1 = .ok y) → ((withStdio o' body).andThen fun _ => printing lines r) t = printing lines r (withStdio o' body t).2 := by
    rintro t ⟨y, hy⟩
    unfold Block.andThen
    rcases h : withStdio o' body t with ⟨e | z, t'⟩
    · rw [h] at hy; cases hy
    · rfl
  have hobj : (((withStdio o' body).andThen fun _ => printing lines r) (stdioEnter o s).2).2.stdios o = ((stdioEnter o s).2).stdios o := by
    rw [hrun _ ⟨x, hin⟩, hprint]
    show ((stdioLeave o' (body (s.streams + 2, s.streams + 3) (stdioEnter o' (stdioEnter o s).2).2).2).2).stdios o = _
    show ((body (s.streams + 2, s.streams + 3) (stdioEnter o' (stdioEnter o s).2).2).2).stdios o = _
    rw [hb]
    simp [stdioEnter, setStdios, ho]
  have hkey : withStdio o (fun _ => (withStdio o' body).andThen fun _ => printing lines r) s =
      ((((withStdio o' body).andThen fun _ => printing lines r) (stdioEnter o s).2).1,
        { (((withStdio o' body).andThen fun _ => printing lines r) (stdioEnter o s).2).2 with stdout := s.stdout, stderr := s.stderr }) := by
    simp only [withStdio, withBlock]
    rw [show stdioEnter o s = (.ok (s.streams, s.streams + 1), (stdioEnter o s).2) from rfl]
    have : (((withStdio o' body).andThen fun _ => printing lines r) (stdioEnter o s).2).2.stdios o = ⟨some s.stdout, some s.stderr⟩ := by
      rw [hobj]; simp [stdioEnter, setStdios]
    simp only [withStdio, withBlock] at this
    simp [stdioLeave, this]
  have hspec := printing_spec lines r (withStdio o' body (stdioEnter o s).2).2 (by
    rw [i2, i3]; simp [stdioEnter])
  rw [hkey, hrun _ ⟨x, hin⟩, hspec]
  have hwr : ∀ i, i = s.streams ∨ i = s.streams + 1 → (withStdio o' body (stdioEnter o s).2).2.written i = [] := by
    intro i hi
    rw [i4]
    rcases hi with rfl | rfl
    · show (body (s.streams + 2, s.streams + 3) _).2.written _ = _
      rw [(hw _ _).1]
      simp [stdioEnter]
    · show (body (s.streams + 2, s.streams + 3) _).2.written _ = _
      rw [(hw _ _).2]
      simp [stdioEnter]
  refine ⟨rfl, rfl, rfl, ?_, ?_⟩
  · show (if s.streams = (withStdio o' body (stdioEnter o s).2).2.stdout then _ else _) = _
    rw [i2, if_pos (by simp [stdioEnter]), hwr _ (.inl rfl)]; rfl
  · show (if s.streams + 1 = (withStdio o' body (stdioEnter o s).2).2.stdout then _ else _) = _
    rw [i2, i3, if_neg (by simp [stdioEnter]), if_pos (by simp [stdioEnter]), hwr _ (.inr rfl)]; rfl

/-- **C112, refutation** One `redirected_stdio` object used for two nested `with` statements: afterwards `sys.stdout` is a buffer, for every block. -/
theorem C112_stdio_same_object_refuted {β : Type} (s : Proc) (o : Nat) (body : Nat × Nat → Block β)
    (hb : ∀ x, LeavesStdio o (body x)) (hs : s.stdout < s.streams) :
    (withStdio o (fun _ => withStdio o body) s).2.stdout = s.streams ∧
    (withStdio o (fun _ => withStdio o body) s).2.stdout ≠ s.stdout := by
  obtain ⟨h1, h2, h3, h4⟩ := C112_redirected_stdio_partial (stdioEnter o s).2 o body (hb _)
  have hi : ((withStdio o body (stdioEnter o s).2).2.stdios o).originalStdout = some s.streams := by
    have e : withStdio o body (stdioEnter o s).2 =
        ((body (s.streams + 2, s.streams + 3) (stdioEnter o (stdioEnter o s).2).2).1,
         (stdioLeave o (body (s.streams + 2, s.streams + 3) (stdioEnter o (stdioEnter o s).2).2).2).2) := rfl
    rw [e]
    show ((body (s.streams + 2, s.streams + 3) _).2.stdios o).originalStdout = _
    rw [hb]
    simp [stdioEnter, setStdios]
  have key : (withStdio o (fun _ => withStdio o body) s).2 =
      (stdioLeave o (withStdio o body (stdioEnter o s).2).2).2 := rfl
  have : (withStdio o (fun _ => withStdio o body) s).2.stdout = s.streams := by
    rw [key]
    simp [stdioLeave, hi]
  exact ⟨this, by rw [this]; omega⟩

/-! ## The hypotheses can be met -/

/-- A process in `/home`, with directories `/`, `/home`, `/tmp`. -/
def exProc : Proc where
  fs := fun p => if p = [] then some ⟨0, true⟩ else if p = ["home"] then some ⟨1, true⟩ else if p = ["tmp"] then some ⟨2, true⟩ else none
  cwd := ["home"]
  cwdId := 1
  stdout := 1
  stderr := 2
  written := fun _ => []
  streams := 3
  dirs := fun i => if i ≤ 1 then { directory := some ["tmp"] } else {}
  stdios := fun _ => {}

/-- A block that goes to the root directory and raises. -/
def exBlock : Block Nat := (chdir (some [])).andThen fun _ s => (.error (.raised 7), s)

theorem exBlock_leaves (o : Nat) : LeavesObj o exBlock := by
  intro s
  cases h : s.fs [] with
  | none => simp [exBlock, Block.andThen, chdir, h]
  | some n => by_cases he : n.enter = true <;> simp [exBlock, Block.andThen, chdir, h, he]

example : (withChange 0 exBlock exProc).1 = .error (.raised 7) ∧ SameCwd exProc (withChange 0 exBlock exProc).2 :=
  ⟨(C112_change_directory_partial exProc 0 ["tmp"] ⟨2, true⟩ exBlock rfl rfl rfl rfl (exBlock_leaves 0) rfl).1,
   (C112_change_directory_partial exProc 0 ["tmp"] ⟨2, true⟩ exBlock rfl rfl rfl rfl (exBlock_leaves 0) rfl).2.1⟩

example : (withChange 2 exBlock exProc).1 = .error .osError := C112_default_argument_refuted exProc 2 exBlock rfl rfl

/-- A block that removes everything. -/
def exRemove : Block Nat := fun s => (.ok 3, { s with fs := fun _ => none })

example : (withChange 0 exRemove exProc).2.cwd = ["tmp"] := by
  rw [C112_original_gone_refuted exProc 0 ["tmp"] ⟨2, true⟩ exRemove rfl rfl rfl rfl (fun _ => rfl) rfl]; rfl

/-- A block that puts a file in place of `/home`. -/
def exReplace : Block Nat := fun s => (.ok 3, { s with fs := fun p => if p = ["home"] then some ⟨9, false⟩ else s.fs p })

example : (withChange 0 exReplace exProc).1 = .error .osError := by
  rw [C112_original_replaced_refuted exProc 0 ["tmp"] ⟨2, true⟩ ⟨9, false⟩ exReplace rfl rfl rfl rfl (fun _ => rfl) rfl rfl]

theorem exBlock_fs (s t : Proc) (h : t.fs = s.fs) : (exBlock t).2.fs = s.fs := by
  rw [← h]
  cases h : t.fs [] with
  | none => simp [exBlock, Block.andThen, chdir, h]
  | some n => by_cases he : n.enter = true <;> simp [exBlock, Block.andThen, chdir, h, he]

example : SameCwd exProc (withChange 0 (withChange 1 exBlock) exProc).2 :=
  (C112_nested exProc 0 1 ["tmp"] ["tmp"] ⟨2, true⟩ ⟨2, true⟩ exBlock (by decide) rfl rfl rfl rfl rfl rfl rfl
    (exBlock_leaves 0) (exBlock_leaves 1) (fun t h => exBlock_fs _ t h)).2

example : (withChange 0 (withChange 0 exBlock) exProc).2.cwd = ["tmp"] :=
  (C112_same_object_refuted exProc 0 ["tmp"] ⟨2, true⟩ exBlock rfl rfl rfl rfl (exBlock_leaves 0) (fun t h => exBlock_fs _ t h)).1

/-- `mkdtemp` picks `/tmp/x`; `rmtree` fails if `bad`. -/
def exTemp (bad : Bool) : TempLib where
  pick := fun _ => some (["tmp", "x"], 5)
  fails := fun s _ => if bad then some s.fs else none

theorem exProc_tree : FsTree exProc.fs := by
  intro p q h
  cases p with
  | nil => rfl
  | cons a p =>
    have h' : (if a :: (p ++ q) = [] then some ⟨0, true⟩ else if a :: (p ++ q) = ["home"] then some ⟨1, true⟩
      else if a :: (p ++ q) = ["tmp"] then some (⟨2, true⟩ : FsNode) else none).isSome = true := h
    show (if a :: p = [] then some ⟨0, true⟩ else if a :: p = ["home"] then some ⟨1, true⟩
      else if a :: p = ["tmp"] then some (⟨2, true⟩ : FsNode) else none).isSome = true
    cases p with
    | nil =>
      by_cases h1 : a = "home"
      · simp [h1]
      · by_cases h2 : a = "tmp"
        · simp [h2]
        · simp [h1, h2] at h'
    | cons b p => simp at h'

example : (withTemp (exTemp false) 2 (fun _ => exBlock) exProc).1 = .error (.raised 7) ∧
    SameCwd exProc (withTemp (exTemp false) 2 (fun _ => exBlock) exProc).2 ∧
    (withTemp (exTemp false) 2 (fun _ => exBlock) exProc).2.fs (["tmp", "x"] ++ ["y"]) = none :=
  have h := C112_temporary_directory_partial (exTemp false) exProc 2 ["tmp", "x"] 5 (fun _ => exBlock) rfl exProc_tree rfl rfl
    (exBlock_leaves 2) rfl (fun _ _ => rfl)
  ⟨h.1, h.2.1, h.2.2.1 _ (by decide)⟩

example : (withTemp (exTemp true) 2 (fun _ s => (.ok 4, s)) exProc).1 = .error .osError ∧
    (withTemp (exTemp true) 2 (fun _ s => (.ok 4, s)) exProc).2.cwd = ["tmp", "x"] := by
  rw [C112_rmtree_refuted (exTemp true) exProc 2 ["tmp", "x"] 5 (fun _ s => (.ok 4, s)) rfl rfl (fun _ => rfl) (by decide) _ rfl]
  exact ⟨rfl, rfl⟩

example : (withStdio 0 (fun _ => printing [(false, "a"), (true, "b"), (false, "c")] (.ok 1)) exProc).2.written 3 = ["a", "c"] :=
  (C112_captured exProc 0 _ (.ok 1)).2.1

example : (withStdio 0 (fun _ => withStdio 0 (fun _ => printing [(false, "a")] (.ok 1))) exProc).2.stdout = 3 :=
  (C112_stdio_same_object_refuted exProc 0 (fun _ => printing [(false, "a")] (.ok 1)) (fun _ _ => rfl) (by decide)).1

/-- A block that assigns to `sys.stdout`. -/
def exAssignBlock : Nat × Nat → Block Nat := fun _ s => (.ok 5, { s with stdout := 99 })

/-- What is printed after the inner redirection. -/
def exPrintedLines : List (Bool × String) := [(false, "a"), (true, "b"), (false, "c")]

/-- Two redirections; the inner block assigns to `sys.stdout`. -/
example : ∃ s', s' = (withStdio 0 (fun _ => (withStdio 1 exAssignBlock).andThen fun _ => printing (β := Nat) exPrintedLines (.error (.raised 1))) exProc).2 ∧
    s'.stdout = exProc.stdout ∧ s'.written exProc.streams = linesTo false exPrintedLines ∧ linesTo false exPrintedLines = ["a", "c"] :=
  have h := C112_stdio_nested exProc 0 1 exAssignBlock (by decide) (fun _ _ => rfl) (fun _ _ => rfl) exPrintedLines (.error (.raised 1) : Except BlockExc Nat)
    (fun _ _ => ⟨rfl, rfl⟩) (x := 5) rfl
  ⟨_, rfl, h.2.1, h.2.2.2.1, by decide⟩

end Verif
