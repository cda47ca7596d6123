import Verif.Model.Commands
/-! # Lemmas about code that prints -/
namespace Verif

theorem Run.bind_eq {α β : Type} (r : Run α) (f : α → Run β) : (r >>= f) = r.bind f := rfl

theorem run_bind_error {α β : Type} {r : Run α} {e : Exc} (h : r.res = .error e) (f : α → Run β) : (r >>= f) = ⟨r.lines, .error e⟩ := by
  rw [Run.bind_eq, Run.bind, h]

theorem run_bind_ok {α β : Type} {r : Run α} {a : α} (h : r.res = .ok a) (f : α → Run β) :
    (r >>= f) = ⟨r.lines ++ (f a).lines, (f a).res⟩ := by rw [Run.bind_eq, Run.bind, h]

theorem run_lift_ok {α β : Type} (a : α) (f : α → Run β) : (Run.lift (.ok a) >>= f) = f a := by
  rw [run_bind_ok (r := Run.lift (.ok a)) (a := a) rfl]; simp [Run.lift]

theorem run_lift_error {α β : Type} (e : Exc) (f : α → Run β) : (Run.lift (.error e : Except Exc α) >>= f) = ⟨[], .error e⟩ :=
  run_bind_error rfl f

/-- What code prints does not change how it ends. -/
theorem said_res {σ α β : Type} (on : Bool) (t : AnsiTable) (out : Out σ α) (f : α → Run β) :
    (Run.said on t out >>= f).res = (Run.lift out.res >>= f).res := by
  cases h : out.res with
  | ok a => rw [run_bind_ok (r := Run.said on t out) h, run_lift_ok]
  | error e => rw [run_bind_error (r := Run.said on t out) h, run_lift_error]

theorem said_ok {σ α β : Type} {on : Bool} {t : AnsiTable} {out : Out σ α} {a : α} (h : out.res = .ok a) (f : α → Run β) :
    (Run.said on t out >>= f) = ⟨out.ev.flatMap (eventLines on t) ++ (f a).lines, (f a).res⟩ := run_bind_ok (r := Run.said on t out) h f

theorem said_error {σ α β : Type} {on : Bool} {t : AnsiTable} {out : Out σ α} {e : Exc} (h : out.res = .error e) (f : α → Run β) :
    (Run.said on t out >>= f) = ⟨out.ev.flatMap (eventLines on t), .error e⟩ := run_bind_error (r := Run.said on t out) h f

theorem run_pure_bind {β : Type} (f : Unit → Run β) : ((pure () : Run Unit) >>= f) = f () := by
  rw [run_bind_ok (r := (pure () : Run Unit)) (a := ()) rfl]; simp [pure]

/-- Neither of the exceptions the commands catch. -/
def Exc.notCaught (e : Exc) : Prop := e ≠ .keyboardInterrupt ∧ e ≠ .eofError

theorem interruptible_ok {on : Bool} {r : Run Unit} (h : r.res = .ok ()) : interruptible on r = r := by
  unfold interruptible; rw [h]

theorem interruptible_error {on : Bool} {r : Run Unit} {e : Exc} (h : r.res = .error e) :
    interruptible on r = if e = .keyboardInterrupt ∨ e = .eofError then ⟨r.lines ++ (info on []).lines, .error (.systemExit 1)⟩ else r := by
  unfold interruptible
  rw [h]
  by_cases hk : e = .keyboardInterrupt
  · subst hk; simp
  by_cases he : e = .eofError
  · subst he; simp
  rw [if_neg (by simp [hk, he])]
  cases e <;> first | rfl | exact absurd rfl hk | exact absurd rfl he

/-- A command that prints what it can and then ends. -/
theorem returnsNone_res (r : Run Unit) : r.returnsNone.lines = r.lines ∧
    r.returnsNone.res = match r.res with | .ok () => .ok none | .error e => .error e := by
  unfold Run.returnsNone Run.bind
  cases h : r.res <;> simp

/-! ## Resolutions as text -/

theorem mapM_error_cases {α β : Type} {f : α → Except Exc β} {l : List α} {e : Exc} (h : l.mapM f = .error e) : ∃ x ∈ l, f x = .error e := by
  induction l with
  | nil => simp [pure, Except.pure] at h
  | cons a t ih =>
    rw [List.mapM_cons] at h
    cases ha : f a with
    | error e' =>
      rw [ha] at h; simp only [bind, Except.bind, Except.error.injEq] at h
      exact ⟨a, by simp, h ▸ ha⟩
    | ok b =>
      rw [ha] at h
      cases ht : t.mapM f with
      | error e' =>
        rw [ht] at h; simp only [bind, Except.bind, Except.error.injEq] at h
        subst h
        obtain ⟨x, hx, hf⟩ := ih ht
        exact ⟨x, by simp [hx], hf⟩
      | ok bs => rw [ht] at h; simp [bind, Except.bind, pure, Except.pure] at h

/-- Rendering a resolution can only fail with the errors of looking up attributes and joining texts. -/
theorem resolution_str_error {r : Resolution} {e : Exc} (h : r.str = .error e) : e = .attributeError ∨ e = .typeError ∨ e = .keyError := by
  unfold Resolution.str Resolution.toList at h
  have h2 : ∀ (l : List PVal) acc e, toListLoop r acc l = .error e → e = .keyError := by
    intro l
    induction l with
    | nil => intro acc e h; simp [toListLoop] at h
    | cons x t ih =>
      intro acc e h
      cases x <;> first | (simp [toListLoop] at h; exact h.symm) | skip
      rename_i k
      simp only [toListLoop] at h
      split at h
      · exact ih _ _ h
      · exact ih _ _ h
      · simp only [Except.error.injEq] at h; exact h.symm
  have h3 : ∀ (l : List PVal) e, joinTexts l = .error e → e = .typeError := by
    intro l
    induction l with
    | nil => intro e h; simp [joinTexts] at h
    | cons x t ih =>
      intro e h
      cases x <;> first | (simp [joinTexts] at h; exact h.symm) | skip
      simp only [joinTexts, bind, Except.bind] at h
      split at h
      · rename_i e' he; simp only [Except.error.injEq] at h; subst h; exact ih _ he
      · simp [pure, Except.pure] at h
  have h4 : ∀ v e, iterVal v = .error e → e = .typeError := by
    intro v e h; cases v <;> simp [iterVal] at h <;> exact h.symm
  have h5 : ∀ k e, resAttr r k = .error e → e = .attributeError := by
    intro k e h; unfold resAttr at h; split at h <;> simp at h; exact h.symm
  simp only [bind, Except.bind] at h
  split at h
  · rename_i e' he
    simp only [Except.error.injEq] at h; subst h
    split at he
    · rename_i e'' he'; simp only [Except.error.injEq] at he; subst he; exact .inl (h5 _ _ he')
    · split at he
      · rename_i e'' he'; simp only [Except.error.injEq] at he; subst he; exact .inr (.inl (h4 _ _ he'))
      · exact .inr (.inr (h2 _ _ _ he))
  · split at h
    · rename_i e'' he'; simp only [Except.error.injEq] at h; subst h; exact .inr (.inl (h3 _ _ he'))
    · simp [pure, Except.pure] at h

theorem resolutionString_error {rs : List Resolution} {e : Exc} (h : resolutionString rs = .error e) :
    e = .attributeError ∨ e = .typeError ∨ e = .keyError := by
  unfold resolutionString at h
  simp only [bind, Except.bind] at h
  split at h
  · rename_i e' he; simp only [Except.error.injEq] at h; subst h
    obtain ⟨x, _, hx⟩ := mapM_error_cases he
    exact resolution_str_error hx
  · simp [pure, Except.pure] at h

end Verif
