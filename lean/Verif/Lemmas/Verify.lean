import Verif.Model.RulesDict
import Verif.Spec.Expanded
import Verif.Lemmas.Dict
/-! Helper lemmas about verification. -/
set_option linter.unusedSimpArgs false
namespace Verif

theorem Except_unit_ok {e : Except Exc Unit} : e = .ok () ∨ ∃ x, e = .error x := by
  cases e with
  | error x => exact .inr ⟨x, rfl⟩
  | ok u => exact .inl rfl

theorem bind_ok_iff {e : Except Exc Unit} {f : Except Exc Unit} :
    (do e; f : Except Exc Unit) = .ok () ↔ e = .ok () ∧ f = .ok () := by
  cases e <;> simp [bind, Except.bind]

theorem bind_err {e : Except Exc Unit} {f : Except Exc Unit} {x : Exc}
    (h : (do e; f : Except Exc Unit) = .error x) : e = .error x ∨ f = .error x := by
  cases e with
  | error y => simp [bind, Except.bind] at h; subst h; exact .inl rfl
  | ok u => simp [bind, Except.bind] at h; exact .inr h

theorem forCheck_ok_iff {f : PKey → PVal → Except Exc Unit} {d : List (PKey × PVal)} :
    forCheck f d = .ok () ↔ ∀ k v, (k, v) ∈ d → f k v = .ok () := by
  induction d with
  | nil => simp [forCheck]
  | cons x d ih =>
    obtain ⟨k, v⟩ := x
    simp only [forCheck, bind_ok_iff, ih]
    constructor
    · rintro ⟨h1, h2⟩ a b hm
      rcases List.mem_cons.1 hm with h | h
      · simp_all
      · exact h2 _ _ h
    · intro h; exact ⟨h k v (by simp), fun a b hm => h a b (List.mem_cons_of_mem _ hm)⟩

theorem forCheck_err {f : PKey → PVal → Except Exc Unit} {d : List (PKey × PVal)} {e : Exc}
    (hf : ∀ k v e, f k v = .error e → e = .valueError) (h : forCheck f d = .error e) : e = .valueError := by
  induction d with
  | nil => simp [forCheck] at h
  | cons x d ih =>
    obtain ⟨k, v⟩ := x
    simp only [forCheck] at h
    rcases bind_err h with h | h
    · exact hf _ _ _ h
    · exact ih h

/-! ### identifiers -/

theorem isWordChar_iff {uni : Char → Bool} {c : Char} : isWordChar uni c = true ↔ WordChar uni c := by
  have key : ∀ a b : Char, a ≤ b ↔ a.toNat ≤ b.toNat := fun a b => Iff.rfl
  have us : c = '_' ↔ c.toNat = 95 := by
    constructor
    · rintro rfl; rfl
    · intro h; exact Char.toNat_inj.1 h
  unfold isWordChar WordChar
  simp only [key, us]
  have e1 : 'a'.toNat = 97 := rfl
  have e2 : 'z'.toNat = 122 := rfl
  have e3 : 'A'.toNat = 65 := rfl
  have e4 : 'Z'.toNat = 90 := rfl
  have e5 : '0'.toNat = 48 := rfl
  have e6 : '9'.toNat = 57 := rfl
  rw [e1, e2, e3, e4, e5, e6]
  split
  · have ha : c.isAlphanum = true ↔ ((97 ≤ c.toNat ∧ c.toNat ≤ 122) ∨ (65 ≤ c.toNat ∧ c.toNat ≤ 90)
        ∨ (48 ≤ c.toNat ∧ c.toNat ≤ 57)) := by
      simp only [Char.isAlphanum, Char.isAlpha, Char.isUpper, Char.isLower, Char.isDigit, Bool.or_eq_true,
        Bool.and_eq_true, decide_eq_true_eq]
      simp only [ge_iff_le, UInt32.le_iff_toNat_le, Char.toNat]
      simp only [show ('A'.val).toNat = 65 from rfl, show ('Z'.val).toNat = 90 from rfl,
        show ('a'.val).toNat = 97 from rfl, show ('z'.val).toNat = 122 from rfl,
        show ('0'.val).toNat = 48 from rfl, show ('9'.val).toNat = 57 from rfl]
      simp
      omega
    simp only [Bool.or_eq_true, ha, beq_iff_eq, us]
    omega
  · constructor
    · intro h; exact .inr (.inr (.inr (.inr ⟨by omega, h⟩)))
    · rintro (h | h | h | h | h)
      · omega
      · omega
      · omega
      · omega
      · exact h.2

theorem isIdentChar_iff {uni : Char → Bool} {c : Char} :
    isIdentChar uni c = true ↔ NameChar uni c := by
  unfold isIdentChar NameChar
  simp only [Bool.or_eq_true, beq_iff_eq, or_assoc, isWordChar_iff]

theorem newline_not_ident (uni : Char → Bool) : isIdentChar uni '\n' = false := by
  unfold isIdentChar isWordChar
  rfl

theorem takeWhile_all {α : Type} {p : α → Bool} {l : List α} (h : ∀ a ∈ l, p a = true) (r : List α)
    (hr : ∀ a, r.head? = some a → p a = false) : (l ++ r).takeWhile p = l ∧ (l ++ r).dropWhile p = r := by
  induction l with
  | nil =>
    cases r with
    | nil => simp
    | cons b r => have := hr b rfl; simp [List.takeWhile, List.dropWhile, this]
  | cons a l ih =>
    have ha := h a (by simp)
    have := ih (fun b hb => h b (by simp [hb]))
    simp [List.takeWhile, List.dropWhile, ha, this.1, this.2]

theorem mem_takeWhile_p {α : Type} {p : α → Bool} {l : List α} {a : α} (h : a ∈ l.takeWhile p) : p a = true := by
  induction l with
  | nil => simp at h
  | cons b l ih =>
    by_cases hb : p b = true
    · simp only [List.takeWhile, hb, List.mem_cons] at h
      rcases h with rfl | h
      · exact hb
      · exact ih h
    · simp [List.takeWhile, hb] at h

theorem identRegex_iff {uni : Char → Bool} {s : String} :
    identRegex uni s = true ↔
      ∃ body, body ≠ [] ∧ (∀ c ∈ body, NameChar uni c) ∧ (s.toList = body ∨ s.toList = body ++ ['\n']) := by
  unfold identRegex
  simp only [Bool.and_eq_true, bne_iff_ne, ne_eq, List.length_eq_zero_iff, Bool.or_eq_true, beq_iff_eq]
  constructor
  · rintro ⟨h1, h2⟩
    refine ⟨s.toList.takeWhile (isIdentChar uni), h1, ?_, ?_⟩
    · intro c hc
      exact isIdentChar_iff.1 (mem_takeWhile_p hc)
    · have := List.takeWhile_append_dropWhile (p := isIdentChar uni) (l := s.toList)
      rcases h2 with h2 | h2
      · left; rw [h2] at this; simpa using this.symm
      · right; rw [h2] at this; exact this.symm
  · rintro ⟨body, h1, h2, h3⟩
    have h2' : ∀ c ∈ body, isIdentChar uni c = true := fun c hc => isIdentChar_iff.2 (h2 c hc)
    rcases h3 with h3 | h3
    · have := takeWhile_all h2' [] (by simp)
      simp only [List.append_nil] at this
      rw [h3, this.1, this.2]; exact ⟨h1, .inl rfl⟩
    · have := takeWhile_all h2' ['\n'] (by intro a ha; simp at ha; subst ha; exact newline_not_ident uni)
      rw [h3, this.1, this.2]; exact ⟨h1, .inr rfl⟩

theorem keyword_iff {allow : List String} {s : String} :
    (rulesDictKeywords.filter (fun k => !allow.contains k)).contains s = true ↔ Reserved s ∧ s ∉ allow := by
  simp only [List.contains_iff_mem, List.mem_filter, rulesDictKeywords, List.mem_cons, List.not_mem_nil, or_false,
    Reserved, Bool.not_eq_true', List.contains_eq_mem, decide_eq_false_iff_not, decide_eq_true_eq]

theorem verifyIdentifier_iff {uni : Char → Bool} {k : PKey} {allow : List String} :
    verifyIdentifier uni k allow = .ok () ↔
      ∃ s, k = .str s ∧ AcceptedName uni s ∧ (Reserved s → s ∈ allow) := by
  unfold verifyIdentifier
  cases k with
  | str s =>
    simp only [PKey.str.injEq, exists_eq_left', AcceptedName]
    by_cases hk : (rulesDictKeywords.filter (fun k => !allow.contains k)).contains s = true
    · rw [if_pos hk]
      have := keyword_iff.1 hk
      simp only [reduceCtorEq, false_iff, not_and]
      intro _ h; exact this.2 (h this.1)
    · rw [if_neg hk]
      have hk' : Reserved s → s ∈ allow := by
        intro hr
        by_cases hs : s ∈ allow
        · exact hs
        · exact absurd (keyword_iff.2 ⟨hr, hs⟩) hk
      by_cases hm : s = "mountain lion"
      · rw [if_pos hm]; simp [hm]; intro hr; rw [← hm] at hr ⊢; exact hk' hr
      · rw [if_neg hm]
        simp only [hm, false_or]
        by_cases hi : identRegex uni s = true
        · rw [if_pos hi]; simp only [true_iff]; exact ⟨identRegex_iff.1 hi, hk'⟩
        · rw [if_neg hi]
          simp only [reduceCtorEq, false_iff, not_and]
          intro h; exact absurd (identRegex_iff.2 h) hi
  | none => simp
  | int i => simp
  | other n => simp

theorem verifyIdentifier_err {uni : Char → Bool} {k : PKey} {allow : List String} {e : Exc}
    (h : verifyIdentifier uni k allow = .error e) : e = .valueError := by
  unfold verifyIdentifier at h
  split at h
  · split at h
    · simp_all
    · split at h
      · simp at h
      · split at h <;> simp_all
  · simp_all

/-! ### rules -/

theorem verifyXylemKey_iff {uni : Char → Bool} {k : PKey} :
    verifyXylemKey uni k = .ok () ↔ ValidName uni none k := by
  unfold verifyXylemKey ValidName; rw [verifyIdentifier_iff]; simp
theorem verifyOsName_iff {uni : Char → Bool} {k : PKey} :
    verifyOsName uni k = .ok () ↔ ValidName uni (some "any_os") k := by
  unfold verifyOsName ValidName; rw [verifyIdentifier_iff]; simp [eq_comm]
theorem verifyOsVersion_iff {uni : Char → Bool} {k : PKey} :
    verifyOsVersion uni k = .ok () ↔ ValidName uni (some "any_version") k := by
  unfold verifyOsVersion ValidName; rw [verifyIdentifier_iff]; simp [eq_comm]
theorem verifyInstallerName_iff {uni : Char → Bool} {k : PKey} :
    verifyInstallerName uni k = .ok () ↔ ValidName uni (some "default_installer") k := by
  unfold verifyInstallerName ValidName; rw [verifyIdentifier_iff]; simp [eq_comm]

theorem verifyDepends_iff {uni : Char → Bool} {l : List PVal} :
    verifyDepends uni l = .ok () ↔ ∀ x ∈ l, ∃ s, x = .str s ∧ ValidName uni none (.str s) := by
  induction l with
  | nil => simp [verifyDepends]
  | cons v l ih =>
    simp only [verifyDepends, bind_ok_iff, ih, List.mem_cons, forall_eq_or_imp]
    refine and_congr ?_ Iff.rfl
    rw [verifyXylemKey_iff]
    cases v <;> simp [PVal.asKey, ValidName]

theorem verifyDepends_err {uni : Char → Bool} {l : List PVal} {e : Exc} (h : verifyDepends uni l = .error e) :
    e = .valueError := by
  induction l with
  | nil => simp [verifyDepends] at h
  | cons v l ih =>
    simp only [verifyDepends] at h
    rcases bind_err h with h | h
    · exact verifyIdentifier_err h
    · exact ih h

theorem verifyRuleItem_iff {uni : Char → Bool} {k : PKey} {w : PVal} :
    verifyRuleItem uni k w = .ok () ↔
    (∃ s, k = .str s) ∧
    (k = .str "packages" → ∃ l, w = .list l) ∧
    (k = .str "depends" → ∃ l, w = .list l ∧ ∀ x ∈ l, ∃ s, x = .str s ∧ ValidName uni none (.str s)) := by
  unfold verifyRuleItem
  cases k with
  | str s =>
    by_cases h1 : s = "packages"
    · subst h1
      cases w <;> simp [bind, Except.bind, pure, Except.pure, throw, throwThe, MonadExceptOf.throw]
    · by_cases h2 : s = "depends"
      · subst h2
        cases w <;> simp [bind, Except.bind, pure, Except.pure, throw, throwThe, MonadExceptOf.throw, verifyDepends_iff]
      · simp [h1, h2, bind, Except.bind, pure, Except.pure]
  | none => simp
  | int i => simp
  | other n => simp

theorem verifyRuleItem_err {uni : Char → Bool} {k : PKey} {w : PVal} {e : Exc}
    (h : verifyRuleItem uni k w = .error e) : e = .valueError := by
  unfold verifyRuleItem at h
  cases k with
  | str s =>
    by_cases h1 : s = "packages"
    · subst h1
      cases w <;> simp [bind, Except.bind, pure, Except.pure, throw, throwThe, MonadExceptOf.throw] at h <;> exact h.symm
    · by_cases h2 : s = "depends"
      · subst h2
        cases w <;> simp [bind, Except.bind, pure, Except.pure, throw, throwThe, MonadExceptOf.throw] at h
        all_goals first | exact h.symm | exact verifyDepends_err h
      · simp [h1, h2, bind, Except.bind, pure, Except.pure] at h
  | none => simp at h; exact h.symm
  | int i => simp at h; exact h.symm
  | other n => simp at h; exact h.symm

theorem verifyInstallerRule_iff {uni : Char → Bool} {v : PVal} :
    verifyInstallerRule uni v = .ok () ↔ ValidRule uni v := by
  unfold verifyInstallerRule ValidRule
  cases v <;> simp [forCheck_ok_iff, verifyRuleItem_iff]

theorem verifyInstallerRule_err {uni : Char → Bool} {v : PVal} {e : Exc}
    (h : verifyInstallerRule uni v = .error e) : e = .valueError := by
  unfold verifyInstallerRule at h
  cases v with
  | dict d => exact forCheck_err (fun _ _ _ h => verifyRuleItem_err h) h
  | _ => simp at h; exact h.symm

theorem verifyInstallerDict_iff {uni : Char → Bool} {allow : Bool} {v : PVal} :
    verifyInstallerDict uni allow v = .ok () ↔ ValidInst uni (allow = true) v := by
  unfold verifyInstallerDict ValidInst
  cases v with
  | dict d =>
    simp only [forCheck_ok_iff, PVal.dict.injEq, exists_eq_left']
    refine forall_congr' fun k => forall_congr' fun w => imp_congr_right fun _ => ?_
    cases allow
    · by_cases hk : k = .str "default_installer"
      · simp [hk, bind, Except.bind, throw, throwThe, MonadExceptOf.throw]
      · simp only [hk, Bool.not_false, if_true, if_false, pure_bind]
        rw [bind_ok_iff, verifyInstallerName_iff, verifyInstallerRule_iff]; simp
    · simp only [Bool.not_true, Bool.false_eq_true, if_false, pure_bind]
      rw [bind_ok_iff, verifyInstallerName_iff, verifyInstallerRule_iff]; simp
  | _ => simp

theorem verifyInstallerDict_err {uni : Char → Bool} {allow : Bool} {v : PVal} {e : Exc}
    (h : verifyInstallerDict uni allow v = .error e) : e = .valueError := by
  unfold verifyInstallerDict at h
  cases v with
  | dict d =>
    refine forCheck_err ?_ h
    intro k w e h
    cases allow
    · by_cases hk : k = .str "default_installer"
      · simp [hk, bind, Except.bind, throw, throwThe, MonadExceptOf.throw] at h; exact h.symm
      · simp only [hk, Bool.not_false, if_true, if_false, pure_bind] at h
        rcases bind_err h with h | h
        · exact verifyIdentifier_err h
        · exact verifyInstallerRule_err h
    · simp only [Bool.not_true, Bool.false_eq_true, if_false, pure_bind] at h
      rcases bind_err h with h | h
      · exact verifyIdentifier_err h
      · exact verifyInstallerRule_err h
  | _ => simp at h; exact h.symm

theorem verifyVersionDict_iff {uni : Char → Bool} {allow : Bool} {v : PVal} :
    verifyVersionDict uni allow v = .ok () ↔ ValidVer uni (allow = true) v := by
  unfold verifyVersionDict ValidVer
  cases v with
  | dict d =>
    simp only [forCheck_ok_iff, PVal.dict.injEq, exists_eq_left', bind_ok_iff, verifyOsVersion_iff, verifyInstallerDict_iff]
  | _ => simp

theorem verifyVersionDict_err {uni : Char → Bool} {allow : Bool} {v : PVal} {e : Exc}
    (h : verifyVersionDict uni allow v = .error e) : e = .valueError := by
  unfold verifyVersionDict at h
  cases v with
  | dict d =>
    refine forCheck_err ?_ h
    intro k w e h
    rcases bind_err h with h | h
    · exact verifyIdentifier_err h
    · exact verifyInstallerDict_err h
  | _ => simp at h; exact h.symm

theorem verifyOsDict_iff {uni : Char → Bool} {allow : Bool} {v : PVal} :
    verifyOsDict uni allow v = .ok () ↔ ValidOs uni (allow = true) v := by
  unfold verifyOsDict ValidOs
  cases v with
  | dict d =>
    simp only [forCheck_ok_iff, PVal.dict.injEq, exists_eq_left', bind_ok_iff, verifyOsName_iff, verifyVersionDict_iff,
      Bool.and_eq_true, decide_eq_true_eq]
  | _ => simp

theorem verifyOsDict_err {uni : Char → Bool} {allow : Bool} {v : PVal} {e : Exc}
    (h : verifyOsDict uni allow v = .error e) : e = .valueError := by
  unfold verifyOsDict at h
  cases v with
  | dict d =>
    refine forCheck_err ?_ h
    intro k w e h
    rcases bind_err h with h | h
    · exact verifyIdentifier_err h
    · exact verifyVersionDict_err h
  | _ => simp at h; exact h.symm

theorem verifyRulesDict_iff {uni : Char → Bool} {allow : Bool} {v : PVal} :
    verifyRulesDict uni allow v = .ok () ↔ ValidRules uni True v := by
  unfold verifyRulesDict ValidRules
  cases v with
  | dict d =>
    simp only [forCheck_ok_iff, PVal.dict.injEq, exists_eq_left', bind_ok_iff, verifyXylemKey_iff, verifyOsDict_iff]
  | _ => simp

theorem verifyRulesDict_err {uni : Char → Bool} {allow : Bool} {v : PVal} {e : Exc}
    (h : verifyRulesDict uni allow v = .error e) : e = .valueError := by
  unfold verifyRulesDict at h
  cases v with
  | dict d =>
    refine forCheck_err ?_ h
    intro k w e h
    rcases bind_err h with h | h
    · exact verifyIdentifier_err h
    · exact verifyOsDict_err h
  | _ => simp at h; exact h.symm

end Verif
