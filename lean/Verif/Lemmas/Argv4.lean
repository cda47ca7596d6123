import Verif.Lemmas.Argv3
/-! # Lemmas about the words of the command line: what an accepted command line looks like -/
namespace Verif

theorem classify_arg {opts : List OptSpec} {w : String} (h : classify opts w = .ok .arg) : ArgWord w := by
  unfold classify at h
  split at h
  · rename_i h1; exact .inl h1
  · cases hx : exactly opts w with
    | some o => rw [hx] at h; cases h
    | none =>
      rw [hx] at h
      simp only at h
      split at h
      · rename_i h2
        refine .inr (.inl (String.toList_inj.1 ?_))
        rw [h2]; rfl
      · split at h
        · rename_i k hk
          unfold withEq at hk
          split at hk
          · cases hk
          · rw [Option.map_eq_some_iff] at hk
            obtain ⟨o, _, rfl⟩ := hk
            cases h
        · generalize matching opts w.toList = m at h
          match m, h with
          | [], h =>
            change (if negativeNumber w.toList then Except.ok WordKind.arg else if w.toList.contains ' ' then .ok .arg else .ok .unknown) = Except.ok WordKind.arg at h
            split at h
            · rename_i h3; exact .inr (.inr (.inl h3))
            · split at h
              · rename_i h3; exact .inr (.inr (.inr (by simpa using h3)))
              · cases h
          | [_], h => cases h
          | _ :: _ :: _, h => cases h

theorem dash_of_not_plain {w : String} (h : ¬ (w.toList.head? ≠ some '-')) : ∃ t, w.toList = '-' :: t := by
  rw [ne_eq, Classical.not_not] at h
  cases hw : w.toList with
  | nil => rw [hw] at h; simp at h
  | cons c t => rw [hw] at h; simp at h; exact ⟨t, by rw [h]⟩

theorem map_eq_single {α β : Type} {f : α → β} {l : List α} {b : β} (h : l.map f = [b]) : ∃ a, l = [a] ∧ f a = b := by
  match l, h with
  | [a], h => exact ⟨a, rfl, by simpa using h⟩

/-- A list that is filtered to one element has it. -/
theorem filterMap_mem {α β : Type} {f : α → Option β} {l : List α} {b : β} (h : l.filterMap f = [b]) : ∃ a ∈ l, f a = some b := by
  have : b ∈ l.filterMap f := by rw [h]; exact List.mem_cons_self
  obtain ⟨a, h1, h2⟩ := List.mem_filterMap.1 this
  exact ⟨a, h1, h2⟩

/-- What a word that is an option can look like. -/
theorem classify_opt {opts : List OptSpec} (hu : Usual opts) {w : String} {o : OptSpec} {f : String} {v : Option (List Char)}
    (h : classify opts w = .ok (.opt o f v)) :
    (v = none ∧ findOption opts w = .ok o) ∨
    (∃ x g, v = some x ∧ isShort f = false ∧ w = String.ofList (g.toList ++ '=' :: x) ∧ findOption opts g = .ok o) ∨
    (∃ x c, v = some x ∧ f = shortFlag c ∧ c ≠ '-' ∧ exactly opts f = some o ∧ o.action.takesValue = false ∧
      (w = String.ofList ('-' :: c :: x) ∨ w = String.ofList ('-' :: c :: '=' :: x))) := by
  have found : ∀ {g : String} {o : OptSpec}, exactly opts g = some o → findOption opts g = .ok o := by
    intro g o hg; rw [findOption_eq, hg]
  have shortCase : ∀ {g : String} {o : OptSpec}, exactly opts g = some o → (isShort g = false) ∨
      (∃ c, g = shortFlag c ∧ c ≠ '-' ∧ o.action.takesValue = false) := by
    intro g o hg
    obtain ⟨h1, h2⟩ := exactly_some hg
    rcases hu.form o h1 g h2 with ⟨a, r, e⟩ | ⟨c, hc, rfl, n1, n2⟩
    · left; unfold isShort; rw [e]; rfl
    · right
      refine ⟨c, rfl, hc, ?_⟩
      cases ho : o.action.takesValue with
      | false => rfl
      | true => rcases (takesValue_iff _).1 ho with e | e <;> contradiction
  unfold classify at h
  split at h
  · cases h
  · rename_i hd
    obtain ⟨t, ht⟩ := dash_of_not_plain hd
    cases hx : exactly opts w with
    | some p =>
      rw [hx] at h
      cases h
      exact .inl ⟨rfl, found hx⟩
    | none =>
      rw [hx] at h
      simp only at h
      split at h
      · cases h
      · rename_i hne
        split at h
        · rename_i k hk
          cases h
          unfold withEq at hk
          cases hcut : cutEq w.toList with
          | none => rw [hcut] at hk; cases hk
          | some ab =>
            obtain ⟨a, b⟩ := ab
            rw [hcut] at hk
            simp only [Option.map_eq_some_iff] at hk
            obtain ⟨p, hp, e⟩ := hk
            injection e with e1 e2 e3
            subst e1; subst e2; subst e3
            obtain ⟨i1, _⟩ := cutEq_some hcut
            rcases shortCase hp with hs | ⟨c, hc, hcd, hv⟩
            · refine .inr (.inl ⟨b, String.ofList a, rfl, hs, ?_, found hp⟩)
              rw [String.toList_ofList, ← i1, String.ofList_toList]
            · refine .inr (.inr ⟨b, c, rfl, hc, hcd, hp, hv, .inr ?_⟩)
              have ha : a = ['-', c] := by
                have := congrArg String.toList hc
                rwa [String.toList_ofList, shortFlag_toList] at this
              rw [ha] at i1
              have i2 := congrArg String.ofList i1
              rw [String.ofList_toList] at i2
              exact i2
        · rename_i hweq
          cases hm : matching opts w.toList with
          | nil =>
            rw [hm] at h
            change (if negativeNumber w.toList then Except.ok WordKind.arg else if w.toList.contains ' ' then .ok .arg else .ok .unknown) = _ at h
            split at h
            · cases h
            · split at h <;> cases h
          | cons m0 mt =>
            cases mt with
            | cons _ _ => rw [hm] at h; cases h
            | nil =>
              rw [hm] at h
              obtain ⟨g, p, u⟩ := m0
              cases h
              unfold matching at hm
              split at hm
              · rename_i hdd
                have hdd' : ['-', '-'] <+: w.toList := by simpa using hdd
                obtain ⟨⟨g', p'⟩, hfl, e⟩ := map_eq_single hm
                simp only [Prod.mk.injEq] at e
                obtain ⟨rfl, rfl, rfl⟩ := e
                cases hcut : cutEq w.toList with
                | none =>
                  have hcw : cutWord w.toList = (w.toList, none) := by unfold cutWord; rw [hcut]
                  rw [hcw] at hfl ⊢
                  refine .inl ⟨rfl, ?_⟩
                  rw [findOption_eq, hx, abbreviated_eq hdd', hfl]
                | some ab =>
                  obtain ⟨a, b⟩ := ab
                  have hcw : cutWord w.toList = (a, some b) := by unfold cutWord; rw [hcut]
                  rw [hcw] at hfl ⊢
                  obtain ⟨i1, i2⟩ := cutEq_some hcut
                  have hxa : exactly opts (String.ofList a) = none := by
                    unfold withEq at hweq
                    rw [hcut] at hweq
                    simpa using hweq
                  have hap : ['-', '-'] <+: a := by
                    rw [i1] at hdd'
                    match a, hdd' with
                    | [], h => simp at h
                    | [c], h => simp only [List.cons_append, List.nil_append, List.cons_prefix_cons] at h; exact absurd h.2.1 (by decide)
                    | c :: d :: a, h =>
                      simp only [List.cons_append, List.cons_prefix_cons] at h
                      rw [← h.1, ← h.2.1]
                      simp
                  have hmem : (g', p') ∈ (flagTable opts).filter fun x => a.isPrefixOf x.1.toList := by rw [hfl]; exact List.mem_cons_self
                  obtain ⟨hm1, hm2⟩ := List.mem_filter.1 hmem
                  obtain ⟨hp, hg⟩ := mem_flagTable.1 hm1
                  refine .inr (.inl ⟨b, String.ofList a, rfl, ?_, ?_, ?_⟩)
                  · have hpre : a <+: g'.toList := by simpa using hm2
                    obtain ⟨t', ht'⟩ := hap.trans hpre
                    unfold isShort
                    rw [← ht']
                    rfl
                  · rw [String.toList_ofList, ← i1, String.ofList_toList]
                  · rw [findOption_eq, hxa, abbreviated_eq (by rw [String.toList_ofList]; exact hap), String.toList_ofList, hfl]
              · rename_i hnd
                obtain ⟨⟨g', p'⟩, hmem, e⟩ := filterMap_mem hm
                obtain ⟨hp, hg⟩ := mem_flagTable.1 hmem
                have hnd' : ¬ ['-', '-'] <+: w.toList := by simpa using hnd
                unfold shortMatch at e
                simp only at e
                obtain ⟨c, t', htt⟩ : ∃ c t', t = c :: t' := by
                  cases t with
                  | nil => exact absurd ht hne
                  | cons c t' => exact ⟨c, t', rfl⟩
                subst htt
                have hcd : c ≠ '-' := by
                  rintro rfl
                  apply hnd'
                  rw [ht]
                  simp
                split at e
                · rename_i heq
                  simp only [Option.some.injEq, Prod.mk.injEq] at e
                  obtain ⟨rfl, rfl, rfl⟩ := e
                  rw [ht] at heq
                  have hgc : g' = shortFlag c := toList_shortFlag heq
                  subst hgc
                  have hex : ∃ q, exactly opts (shortFlag c) = some q := by
                    cases hq : exactly opts (shortFlag c) with
                    | some q => exact ⟨q, rfl⟩
                    | none => exact absurd hg (exactly_none.1 hq p' hp)
                  obtain ⟨q, hq⟩ := hex
                  have hsing : q = p' := by
                    obtain ⟨hq1, hq2⟩ := exactly_some hq
                    have : (shortFlag c, q, some (w.toList.drop 2)) ∈ (flagTable opts).filterMap (shortMatch w.toList) := by
                      rw [List.mem_filterMap]
                      refine ⟨(shortFlag c, q), mem_flagTable.2 ⟨hq1, hq2⟩, ?_⟩
                      unfold shortMatch
                      rw [if_pos (by rw [ht]; exact heq)]
                    rw [hm] at this
                    simpa using this
                  subst hsing
                  rcases shortCase hq with hs | ⟨c', hc', hcd', hv⟩
                  · have : isShort (shortFlag c) = true := by
                      unfold isShort
                      rw [shortFlag_toList]
                      simpa using hcd
                    rw [this] at hs; cases hs
                  · refine .inr (.inr ⟨t', c, by rw [ht]; rfl, rfl, hcd, hq, hv, .inl ?_⟩)
                    rw [← ht, String.ofList_toList]
                · rename_i hneq
                  split at e
                  · rename_i hpre
                    exfalso
                    rw [List.isPrefixOf_iff_prefix, ht] at hpre
                    cases t' with
                    | nil =>
                      rcases hu.form p' hp g' hg with ⟨a, r, e2⟩ | ⟨a, _, e2, _⟩
                      · rw [e2] at hpre
                        simp only [List.cons_prefix_cons] at hpre
                        exact hcd hpre.2.1
                      · rw [e2, shortFlag_toList] at hpre
                        simp only [List.cons_prefix_cons] at hpre
                        apply hneq
                        rw [e2, shortFlag_toList, ht, hpre.2.1]
                        rfl
                    | cons d cs => exact hu.short_only hp hg hcd hpre
                  · cases e

/-- Accepted bundles consist of short options. -/
theorem unbundle_ok {opts : List OptSpec} (hu : Usual opts) (cs : List Char) : ∀ {o : OptSpec} {res : List OptSpec × OptSpec × Option (List Char)}, o.action.takesValue = false →
    unbundle opts o true cs = .ok res → cs ≠ [] ∧ '-' ∉ cs ∧ ∀ c ∈ cs, ∃ o', exactly opts (shortFlag c) = some o' ∧ o'.action.takesValue = false := by
  have shortV : ∀ {c : Char} {o' : OptSpec}, exactly opts (shortFlag c) = some o' → c ≠ '-' ∧ o'.action.takesValue = false := by
    intro c o' h
    obtain ⟨h1, h2⟩ := exactly_some h
    rcases hu.form o' h1 _ h2 with ⟨a, r, e⟩ | ⟨a, ha, e, n1, n2⟩
    · rw [shortFlag_toList] at e; simp at e
    · have : c = a := by have := congrArg String.toList e; simpa [shortFlag_toList] using this
      refine ⟨this ▸ ha, ?_⟩
      cases ho : o'.action.takesValue with
      | false => rfl
      | true => rcases (takesValue_iff _).1 ho with e | e <;> contradiction
  induction cs with
  | nil =>
    intro o res ho h
    simp [unbundle, ho] at h
  | cons c cs ih =>
    intro o res ho h
    rw [unbundle] at h
    simp only [ho, Bool.false_eq_true, if_false, if_true] at h
    change (match exactly opts (shortFlag c) with | none => Except.error (Exc.systemExit 2) | some o' => if cs = [] then .ok ([o], o', none) else (unbundle opts o' true cs).map fun r => (o :: r.1, r.2)) = Except.ok res at h
    cases hx : exactly opts (shortFlag c) with
    | none => rw [hx] at h; cases h
    | some o' =>
      obtain ⟨h1, h2⟩ := shortV hx
      rw [hx] at h
      simp only at h
      refine ⟨by simp, ?_, ?_⟩
      · intro hm
        rcases List.mem_cons.1 hm with e | hm
        · exact h1 e.symm
        · split at h
          · rename_i e; rw [e] at hm; simp at hm
          · cases hy : unbundle opts o' true cs with
            | error e => rw [hy] at h; cases h
            | ok res' => exact (ih h2 hy).2.1 hm
      · intro d hd
        rcases List.mem_cons.1 hd with rfl | hd
        · exact ⟨o', hx, h2⟩
        · split at h
          · rename_i e; rw [e] at hd; simp at hd
          · cases hy : unbundle opts o' true cs with
            | error e => rw [hy] at h; cases h
            | ok res' => exact (ih h2 hy).2.2 d hd

end Verif
