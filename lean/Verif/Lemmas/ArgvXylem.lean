import Verif.Spec.ArgvProgram
import Verif.Props.ArgvAccepted
import Verif.Props.Program
/-! # The parsers of xylem -/
namespace Verif

/-- An option string as usual, as a check. -/
def usualFlag (o : OptSpec) (f : String) : Bool :=
  !f.toList.contains '=' &&
  match f.toList with
  | ['-', '-'] => false
  | '-' :: '-' :: _ => true
  | ['-', _] => o.action != .store && o.action != .append
  | _ => false

theorem usual_of {opts : List OptSpec} (h1 : ∀ o ∈ opts, ∀ f ∈ o.flags, usualFlag o f = true) (h2 : ∀ o ∈ opts, o.flags.Nodup) : Usual opts := by
  refine ⟨fun o ho f hf => ?_, fun o ho f hf => ?_, h2⟩
  · have := h1 o ho f hf
    unfold usualFlag at this
    simp only [Bool.and_eq_true, Bool.not_eq_true', List.contains_eq_mem, decide_eq_false_iff_not] at this
    exact this.1
  · have := h1 o ho f hf
    unfold usualFlag at this
    rw [Bool.and_eq_true] at this
    have h := this.2
    cases hr : f.toList with
    | nil => rw [hr] at h; cases h
    | cons a r =>
      rw [hr] at h
      by_cases ha : a = '-'
      · subst ha
        cases r with
        | nil => cases h
        | cons b r =>
          by_cases hb : b = '-'
          · subst hb
            cases r with
            | nil => cases h
            | cons c r => exact .inl ⟨c, r, rfl⟩
          · cases r with
            | nil =>
              refine .inr ⟨b, hb, ?_, ?_⟩
              · rw [shortFlag, ← hr, String.ofList_toList]
              · simpa [hb] using h
            | cons c r => simp [hb] at h
      · simp [ha] at h

/-- The options every parser of xylem has. -/
def sharedOptions : List OptSpec := xylemDescription.options ++ globalOptions

theorem xylem_usual (cmd : String) : (∀ o ∈ commandOptions cmd ++ sharedOptions, ∀ f ∈ o.flags, usualFlag o f = true) ∧
    (∀ o ∈ commandOptions cmd ++ sharedOptions, o.flags.Nodup) := by
  unfold commandOptions
  split <;> exact ⟨by decide +kernel, by decide +kernel⟩

theorem xylem_shadow (cmd : String) : NoShadow sharedOptions (commandOptions cmd ++ sharedOptions) := by
  unfold NoShadow commandOptions
  split <;> decide +kernel

theorem ParsersFor.common {cmd : String} {top sub : List OptSpec} (h : ParsersFor cmd top sub) :
    top = sharedOptions ∧ sub = commandOptions cmd ++ top ∧ Usual sub ∧ FlagsApart sub ∧ NoShadow top sub := by
  have ht := (mkParser_ok h.top).1
  have hs := mkParser_ok h.sub
  have e1 : top = sharedOptions := by rw [ht]; rfl
  have e2 : sub = commandOptions cmd ++ top := by rw [hs.1, e1, List.append_assoc]; rfl
  refine ⟨e1, e2, ?_, hs.2, ?_⟩
  · rw [e2, e1]; exact usual_of (xylem_usual cmd).1 (xylem_usual cmd).2
  · rw [e2, e1]; exact xylem_shadow cmd

end Verif
