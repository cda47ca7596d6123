import Verif.Lemmas.Install
/-! # Lemmas about the loops of `install.py`: groups, checks, filtering, squashing -/
namespace Verif
variable {σ α β : Type}

/-! ## The loop over groups -/

/-- What the loop over the groups did. -/
structure RanLoop (o : InstallOpts) (groups : List (String × List Resolution)) (all : List InstErr) (out : Out σ (List InstErr)) : Prop where
  executed : executedOf out.ev <+: plannedOf out.ev
  nothingAfter : ∀ pre i c r post, out.ev = pre ++ .exec i c r :: post →
    ((∃ e, r = .error e) ∨ (o.continueOnError = false ∧ r ≠ .ok 0)) → post = []
  itemsPlanned : plannedItems out.ev <+: groups
  simulated : o.simulate = true → executedOf out.ev = []
  errors : ∀ errs, out.res = .ok errs → errs = all ++ out.ev.filterMap failureOf ∧ (∀ i c e, .exec i c (.error e) ∉ out.ev)
  allItems : ∀ errs, out.res = .ok errs → (out.ev.filterMap failureOf = [] ∨ o.continueOnError = true) → plannedItems out.ev = groups
  complete : o.simulate = false → ∀ errs, out.res = .ok errs → (out.ev.filterMap failureOf = [] ∨ o.continueOnError = true) →
    executedOf out.ev = plannedOf out.ev
  clean : o.simulate = false → ∀ errs, out.res = .ok errs → out.ev.filterMap failureOf = [] →
    ∃ cmds, cmds.length = groups.length ∧ out.ev = cleanGroups groups cmds
  onlyInstall : ∀ e ∈ out.ev, e.isCheck = false ∧ e.isFilter = false

theorem split_append {α : Type} {a b pre post : List α} {x : α} (h : a ++ b = pre ++ x :: post) :
    (∃ post', a = pre ++ x :: post' ∧ post = post' ++ b) ∨ (∃ pre', b = pre' ++ x :: post ∧ pre = a ++ pre') := by
  induction a generalizing pre with
  | nil => right; exact ⟨pre, by simpa using h, by simp⟩
  | cons y a ih =>
    cases pre with
    | nil =>
      simp only [List.nil_append, List.cons_append, List.cons.injEq] at h
      left; exact ⟨a, by simp [h.1], h.2.symm⟩
    | cons z pre =>
      simp only [List.cons_append, List.cons.injEq] at h
      rcases ih h.2 with ⟨p, h1, h2⟩ | ⟨p, h1, h2⟩
      · left; exact ⟨p, by simp [h.1, h1], h2⟩
      · right; exact ⟨p, h1, by simp [h.1, h2]⟩

theorem installLoop_ran (m : Machine σ) (ic : InstallerCtx σ) (o : InstallOpts) (groups : List (String × List Resolution))
    (all : List InstErr) (hall : o.continueOnError = false → all = []) (s : σ) :
    RanLoop o groups all (installLoop m ic o all groups s) := by
  induction groups generalizing all s with
  | nil =>
    constructor <;> simp [installLoop, executedOf, plannedOf, plannedItems]
    exact fun _ => rfl
  | cons g t ih =>
    obtain ⟨name, items⟩ := g
    have hG := installResolutions_ran m ic o name items s
    rw [installLoop, bind_run]
    generalize hg : installResolutions m ic o name items s = G at hG
    -- if something in the group was planned it was this group
    have hitems : ∀ errs, G.res = .ok errs → plannedItems G.ev = [(name, items)] := by
      intro errs hr
      rcases hG.itemsPlanned with h | ⟨_, h⟩
      · exact h
      · rw [hr] at h; simp at h
    cases hr : G.res with
    | error e =>
      simp only
      constructor
      · exact hG.executed
      · exact hG.nothingAfter
      · rcases hG.itemsPlanned with h | ⟨h, _⟩
        · rw [h]; simp
        · simp only; rw [h]; simp [plannedItems]
      · exact hG.simulated
      · simp
      · simp
      · simp
      · simp
      · exact hG.onlyInstall
    | ok errs =>
      simp only
      obtain ⟨he, hne⟩ := hG.errors errs hr
      by_cases hstop : errs.length ≠ 0 ∧ o.continueOnError = false
      · rw [if_pos hstop]
        simp only [ret_run, Out.prepend]
        have hfail : errs ≠ [] := by intro h; simp [h] at hstop
        constructor
        · simpa using hG.executed
        · simpa using hG.nothingAfter
        · simp only [List.append_nil]; rw [hitems errs hr]; simp
        · simpa using hG.simulated
        · intro errs' h'
          simp only [Except.ok.injEq] at h'; subst h'
          simp only [List.append_nil]
          exact ⟨by rw [hall hstop.2]; exact he, hne⟩
        · intro _ _ h
          simp only [List.append_nil] at h
          rw [← he] at h
          rcases h with h | h
          · exact absurd h hfail
          · rw [hstop.2] at h; simp at h
        · intro _ _ _ h
          simp only [List.append_nil] at h
          rw [← he] at h
          rcases h with h | h
          · exact absurd h hfail
          · rw [hstop.2] at h; simp at h
        · intro _ _ _ h
          simp only [List.append_nil] at h
          rw [← he] at h
          exact absurd h hfail
        · simpa using hG.onlyInstall
      · rw [if_neg hstop]
        have hgo : errs = [] ∨ o.continueOnError = true := by
          by_cases h1 : errs = []
          · exact Or.inl h1
          · right
            cases hc : o.continueOnError with
            | true => rfl
            | false => exact absurd ⟨by simpa using h1, hc⟩ hstop
        have hT := ih (all ++ errs) (by
          intro hc
          rcases hgo with h | h
          · rw [h, hall hc]; rfl
          · rw [hc] at h; simp at h) G.st
        generalize htl : installLoop m ic o (all ++ errs) t G.st = T at hT
        constructor
        · simp only [Out.prepend_ev, executedOf_append, plannedOf_append]
          cases hs : o.simulate with
          | true => rw [hG.simulated hs, hT.simulated hs]; simp
          | false => rw [hG.complete hs errs hr hgo]; exact (List.prefix_append_right_inj _).2 hT.executed
        · intro pre i c r post hev hbad
          rcases split_append hev with ⟨post', h1, h2⟩ | ⟨pre', h1, h2⟩
          · exfalso
            rcases hbad with ⟨e, hb⟩ | ⟨hb1, hb2⟩
            · exact hne i c e (by rw [h1, hb]; simp)
            · have : errs = [] := by
                rcases hgo with h | h
                · exact h
                · rw [hb1] at h; simp at h
              rw [this] at he
              have hn := List.filterMap_eq_nil_iff.1 he.symm (.exec i c r) (by rw [h1]; simp)
              cases r with
              | error e => exact hne i c e (by rw [h1]; simp)
              | ok code =>
                simp only [failureOf] at hn
                split at hn
                · rename_i h0; rw [h0] at hb2; exact hb2 rfl
                · simp at hn
          · exact hT.nothingAfter pre' i c r post h1 hbad
        · simp only [Out.prepend_ev, plannedItems_append]
          rw [hitems errs hr]
          simpa using hT.itemsPlanned
        · intro hs
          simp only [Out.prepend_ev, executedOf_append]
          rw [hG.simulated hs, hT.simulated hs]; rfl
        · intro errs' h'
          obtain ⟨h1, h2⟩ := hT.errors errs' h'
          refine ⟨?_, ?_⟩
          · rw [h1, Out.prepend_ev, List.filterMap_append, ← he, List.append_assoc]
          · intro i c e hm
            simp only [Out.prepend_ev, List.mem_append] at hm
            rcases hm with hm | hm
            · exact hne i c e hm
            · exact h2 i c e hm
        · intro errs' h' hor
          simp only [Out.prepend_ev, plannedItems_append] at hor ⊢
          rw [hitems errs hr, hT.allItems errs' h' (by
            rw [List.filterMap_append, List.append_eq_nil_iff] at hor
            rcases hor with h | h
            · exact Or.inl h.2
            · exact Or.inr h)]
          rfl
        · intro hs errs' h' hor
          simp only [Out.prepend_ev, executedOf_append, plannedOf_append] at hor ⊢
          rw [hG.complete hs errs hr hgo, hT.complete hs errs' h' (by
            rw [List.filterMap_append, List.append_eq_nil_iff] at hor
            rcases hor with h | h
            · exact Or.inl h.2
            · exact Or.inr h)]
        · intro hs errs' h' hnil
          simp only [Out.prepend_ev, List.filterMap_append, List.append_eq_nil_iff] at hnil
          obtain ⟨cs, h1, h2⟩ := hT.clean hs errs' h' hnil.2
          rw [hnil.1] at he
          obtain ⟨c, hc⟩ := hG.clean hs (by rw [hr, he])
          exact ⟨c :: cs, by simp [h1], by simp only [Out.prepend_ev, cleanGroups]; rw [hc, h2]⟩
        · intro e hm
          simp only [Out.prepend_ev, List.mem_append] at hm
          rcases hm with hm | hm
          · exact hG.onlyInstall e hm
          · exact hT.onlyInstall e hm

/-! ## Prerequisite checks -/

theorem checkGeneralLoop_events (ic : InstallerCtx σ) (os : OsTuple) (fix inter : Bool) (names : List String) (s : σ) :
    ∀ e ∈ (checkGeneralLoop ic os fix inter names s).ev, ∃ n r, e = .general n fix r := by
  induction names generalizing s with
  | nil => simp [checkGeneralLoop]
  | cons n t ih =>
    rw [checkGeneralLoop, requireInstaller]
    cases lookupInstaller ic n with
    | none => simp
    | some inst =>
      simp only [lift_ok_run, attempt_run]
      cases h : (inst.checkGeneral os fix inter s).1 with
      | error e => simp
      | ok u =>
        simp only [lift_ok_run]
        intro e he
        simp only [Out.prepend_ev, List.cons_append, List.nil_append, List.mem_cons] at he
        rcases he with rfl | he
        · exact ⟨n, .ok u, rfl⟩
        · exact ih _ e he

theorem checkGeneral_events (ic : InstallerCtx σ) (fix inter : Bool) (names : List String) (s : σ) :
    ∀ e ∈ (checkGeneralPrerequisites ic names fix inter s).ev, ∃ n r, e = .general n fix r := by
  unfold checkGeneralPrerequisites
  cases ic.osTuple with
  | error e => simp
  | ok os => simp only [lift_ok_run]; exact checkGeneralLoop_events ic os fix inter names s

theorem checkInstallLoop_events (ic : InstallerCtx σ) (os : OsTuple) (fix inter : Bool) (l : List (String × List Resolution)) (s : σ) :
    ∀ e ∈ (checkInstallLoop ic os fix inter l s).ev, ∃ n rs r, e = .prereq n rs fix r := by
  induction l generalizing s with
  | nil => simp [checkInstallLoop]
  | cons p t ih =>
    obtain ⟨n, rs⟩ := p
    rw [checkInstallLoop, requireInstaller]
    cases lookupInstaller ic n with
    | none => simp
    | some inst =>
      simp only [lift_ok_run, attempt_run]
      cases h : (inst.checkInstall rs os fix inter s).1 with
      | error e => simp
      | ok u =>
        simp only [lift_ok_run]
        intro e he
        simp only [Out.prepend_ev, List.cons_append, List.nil_append, List.mem_cons] at he
        rcases he with rfl | he
        · exact ⟨n, rs, .ok u, rfl⟩
        · exact ih _ e he

theorem checkInstall_events (ic : InstallerCtx σ) (fix inter : Bool) (l : Dict String (List Resolution)) (s : σ) :
    ∀ e ∈ (checkInstallPrerequisites ic l fix inter s).ev, ∃ n rs r, e = .prereq n rs fix r := by
  unfold checkInstallPrerequisites
  cases ic.osTuple with
  | error e => simp
  | ok os => simp only [lift_ok_run]; exact checkInstallLoop_events ic os fix inter l s

theorem checkGeneral_ok (ic : InstallerCtx σ) (fix inter : Bool) (names : List String) (s : σ)
    (h : (checkGeneralPrerequisites ic names fix inter s).res = .ok ()) :
    (checkGeneralPrerequisites ic names fix inter s).ev = names.map fun n => .general n fix (.ok ()) := by
  have loop : ∀ os s, (checkGeneralLoop ic os fix inter names s).res = .ok () →
      (checkGeneralLoop ic os fix inter names s).ev = names.map fun n => .general n fix (.ok ()) := by
    clear h
    intro os
    induction names with
    | nil => intro s _; rfl
    | cons n t ih =>
      intro s
      rw [checkGeneralLoop, requireInstaller]
      cases lookupInstaller ic n with
      | none => simp
      | some inst =>
        simp only [lift_ok_run, attempt_run]
        cases h : (inst.checkGeneral os fix inter s).1 with
        | error e => simp
        | ok u =>
          simp only [lift_ok_run, Out.prepend_res, Out.prepend_ev]
          intro hr
          rw [ih _ hr]; rfl
  unfold checkGeneralPrerequisites at h ⊢
  cases ho : ic.osTuple with
  | error e => rw [ho] at h; simp at h
  | ok os => rw [ho] at h; simp only [lift_ok_run] at h ⊢; exact loop os s h

theorem checkInstall_ok (ic : InstallerCtx σ) (fix inter : Bool) (l : List (String × List Resolution)) (s : σ)
    (h : (checkInstallPrerequisites ic l fix inter s).res = .ok ()) :
    (checkInstallPrerequisites ic l fix inter s).ev = l.map fun p => .prereq p.1 p.2 fix (.ok ()) := by
  have loop : ∀ os s, (checkInstallLoop ic os fix inter l s).res = .ok () →
      (checkInstallLoop ic os fix inter l s).ev = l.map fun p => .prereq p.1 p.2 fix (.ok ()) := by
    clear h
    intro os
    induction l with
    | nil => intro s _; rfl
    | cons p t ih =>
      intro s
      obtain ⟨n, rs⟩ := p
      rw [checkInstallLoop, requireInstaller]
      cases lookupInstaller ic n with
      | none => simp
      | some inst =>
        simp only [lift_ok_run, attempt_run]
        cases h : (inst.checkInstall rs os fix inter s).1 with
        | error e => simp
        | ok u =>
          simp only [lift_ok_run, Out.prepend_res, Out.prepend_ev]
          intro hr
          rw [ih _ hr]; rfl
  unfold checkInstallPrerequisites at h ⊢
  cases ho : ic.osTuple with
  | error e => rw [ho] at h; simp at h
  | ok os => rw [ho] at h; simp only [lift_ok_run] at h ⊢; exact loop os s h

/-! ## Filtering -/

/-- What filtering did. -/
structure RanFilter (groups : List (String × List Resolution)) (u : List (String × List Resolution)) (errs : List InstErr)
    (out : Out σ (List (String × List Resolution) × List InstErr)) : Prop where
  events : ∀ e ∈ out.ev, e.isFilter = true
  inputs : out.ev.filterMap filterInput <+: groups
  result : ∀ u' errs', out.res = .ok (u', errs') → out.ev.filterMap filterInput = groups ∧ u' = u ++ out.ev.filterMap keptOf ∧
    errs' = errs ++ out.ev.filterMap filterFailureOf ∧ ∀ i items e, .filter i items (.error e) ∈ out.ev → e.isInstallerError = true

theorem filterLoop_ran (ic : InstallerCtx σ) (groups u : List (String × List Resolution)) (errs : List InstErr) (s : σ) :
    RanFilter groups u errs (filterLoop ic u errs groups s) := by
  induction groups generalizing u errs s with
  | nil => constructor <;> simp [filterLoop]
  | cons g t ih =>
    obtain ⟨name, rs⟩ := g
    rw [filterLoop, requireInstaller]
    cases hl : lookupInstaller ic name with
    | none => constructor <;> simp
    | some inst =>
      simp only [lift_ok_run, attempt_run]
      have step : ∀ (r : Except Exc (List Resolution)) (u1 : List (String × List Resolution)) (errs1 : List InstErr),
          u1 = u ++ [Event.filter name rs r].filterMap keptOf →
          errs1 = errs ++ [Event.filter name rs r].filterMap filterFailureOf →
          (∀ e, r = .error e → e.isInstallerError = true) → ∀ s',
          RanFilter ((name, rs) :: t) u errs ((filterLoop ic u1 errs1 t s').prepend [.filter name rs r]) := by
        intro r u1 errs1 hu he hi s'
        have h := ih u1 errs1 s'
        constructor
        · intro e hm
          simp only [Out.prepend_ev, List.cons_append, List.nil_append, List.mem_cons] at hm
          rcases hm with rfl | hm
          · rfl
          · exact h.events e hm
        · simpa [filterInput] using h.inputs
        · intro u' errs' hr
          obtain ⟨h1, h2, h3, h4⟩ := h.result u' errs' hr
          refine ⟨by simp [filterInput, h1], ?_, ?_, ?_⟩
          · rw [h2, hu, Out.prepend_ev, List.filterMap_append, List.append_assoc]
          · rw [h3, he, Out.prepend_ev, List.filterMap_append, List.append_assoc]
          · intro i items e hm
            simp only [Out.prepend_ev, List.cons_append, List.nil_append, List.mem_cons] at hm
            rcases hm with hm | hm
            · simp only [Event.filter.injEq] at hm; exact hi e hm.2.2.symm
            · exact h4 i items e hm
      cases hr : (inst.filterUninstalled rs s).1 with
      | ok rs' =>
        refine step (.ok rs') _ _ ?_ (by simp [filterFailureOf]) (by simp) _
        by_cases h0 : rs' = []
        · simp [keptOf, h0]
        · simp [keptOf, h0]
      | error e =>
        simp only
        cases hi : e.isInstallerError with
        | true =>
          simp only [if_true]
          refine step (.error e) _ _ ?_ (by simp [filterFailureOf]) (by simpa using hi) _
          by_cases h0 : rs = []
          · simp [keptOf, h0]
          · simp [keptOf, h0]
        | false =>
          simp only [Bool.false_eq_true, if_false]
          constructor <;> simp [Event.isFilter, filterInput]

/-! ## Squashing -/

theorem extendLast_snoc (l : List (String × List Resolution)) (n : String) (a rs : List Resolution) :
    extendLast (l ++ [(n, a)]) rs = l ++ [(n, a ++ rs)] := by
  induction l with
  | nil => rfl
  | cons x t ih =>
    cases t with
    | nil => rfl
    | cons y t => simp only [List.cons_append] at ih ⊢; rw [extendLast, ih]

theorem NeighboursDiffer_append {l : List (String × List Resolution)} {a : String × List Resolution} :
    NeighboursDiffer (l ++ [a]) ↔ NeighboursDiffer l ∧ ∀ b, l.getLast? = some b → b.1 ≠ a.1 := by
  induction l with
  | nil => simp [NeighboursDiffer]
  | cons x t ih =>
    cases t with
    | nil => simp [NeighboursDiffer]
    | cons y t =>
      simp only [List.cons_append, NeighboursDiffer]
      rw [← List.cons_append, ih]
      simp [and_assoc]

theorem GroupsOf_append {bs bs' : List (List (String × List Resolution))} {gs gs' : List (String × List Resolution)}
    (h : GroupsOf bs gs) (h' : GroupsOf bs' gs') : GroupsOf (bs ++ bs') (gs ++ gs') := by
  induction bs generalizing gs with
  | nil => cases gs with
    | nil => exact h'
    | cons g gs => simp [GroupsOf] at h
  | cons b bs ih => cases gs with
    | nil => simp [GroupsOf] at h
    | cons g gs => exact ⟨h.1, ih h.2⟩

theorem squashGo_spec (l : List (String × List Resolution)) : ∀ (sq : List (String × List Resolution)) (n : String)
    (a : List Resolution) (bs : List (List (String × List Resolution))) (b : List (String × List Resolution)),
    GroupsOf bs sq → GroupOf b (n, a) → NeighboursDiffer (sq ++ [(n, a)]) →
    ∃ blocks, bs.flatten ++ b ++ l = blocks.flatten ∧ GroupsOf blocks (squashGo (sq ++ [(n, a)]) (some n) l) ∧
      NeighboursDiffer (squashGo (sq ++ [(n, a)]) (some n) l) := by
  induction l with
  | nil =>
    intro sq n a bs b h1 h2 h3
    exact ⟨bs ++ [b], by simp, GroupsOf_append h1 ⟨h2, trivial⟩, h3⟩
  | cons p t ih =>
    obtain ⟨k, rs⟩ := p
    intro sq n a bs b h1 h2 h3
    unfold squashGo
    by_cases hk : some n = some k
    · rw [if_pos hk, extendLast_snoc]
      simp only [Option.some.injEq] at hk; subst hk
      have := ih sq n (a ++ rs) bs (b ++ [(n, rs)]) h1 ⟨by simp, by
        intro p hp
        rcases List.mem_append.1 hp with hp | hp
        · exact h2.2.1 p hp
        · simp at hp; rw [hp], by simpa using h2.2.2⟩ (by
        rw [NeighboursDiffer_append] at h3 ⊢; exact h3)
      simpa using this
    · rw [if_neg hk, extendLast_snoc]
      have := ih (sq ++ [(n, a)]) k ([] ++ rs) (bs ++ [b]) [(k, rs)] (GroupsOf_append h1 ⟨h2, trivial⟩) ⟨by simp, by simp, by simp⟩ (by
        rw [NeighboursDiffer_append]
        exact ⟨h3, by simpa using fun h => hk (by rw [h])⟩)
      simpa using this

theorem squash_spec (l : List (String × List Resolution)) :
    ∃ blocks, l = blocks.flatten ∧ GroupsOf blocks (squashResolutions l) ∧ NeighboursDiffer (squashResolutions l) := by
  unfold squashResolutions
  cases l with
  | nil => exact ⟨[], rfl, trivial, trivial⟩
  | cons p t =>
    obtain ⟨k, rs⟩ := p
    unfold squashGo
    rw [if_neg (by simp)]
    have := squashGo_spec t [] k rs [] [(k, rs)] trivial ⟨by simp, by simp, by simp⟩ trivial
    simpa [extendLast] using this

/-- Two ways to group the same list into blocks with different neighbours agree. -/
theorem GroupsOf_unique {l : List (String × List Resolution)} {bs bs' : List (List (String × List Resolution))}
    {gs gs' : List (String × List Resolution)} (hl : l = bs.flatten) (hl' : l = bs'.flatten) (h : GroupsOf bs gs) (h' : GroupsOf bs' gs')
    (hn : NeighboursDiffer gs) (hn' : NeighboursDiffer gs') : gs = gs' := by
  subst hl
  induction bs generalizing bs' gs gs' with
  | nil =>
    cases gs with
    | cons g gs => simp [GroupsOf] at h
    | nil =>
      cases bs' with
      | nil => cases gs' with
        | nil => rfl
        | cons g gs' => simp [GroupsOf] at h'
      | cons b bs' =>
        cases gs' with
        | nil => simp [GroupsOf] at h'
        | cons g gs' =>
          have := h'.1.1
          simp at hl'
          exact absurd hl'.1 this
  | cons b bs ih =>
    cases gs with
    | nil => simp [GroupsOf] at h
    | cons g gs =>
      cases bs' with
      | nil => simp at hl'; exact absurd hl'.1 h.1.1
      | cons b' bs' =>
        cases gs' with
        | nil => simp [GroupsOf] at h'
        | cons g' gs' =>
          simp only [List.flatten_cons] at hl'
          -- the names of a block that goes on after the other one ended
          have aux : ∀ (b b' c : List (String × List Resolution)) (bs : List (List (String × List Resolution))) (g g' : String × List Resolution)
              (gs : List (String × List Resolution)), GroupOf b g → GroupsOf bs gs → NeighboursDiffer (g :: gs) → GroupOf b' g' →
              b' = b ++ c → c ≠ [] → bs.flatten.head? = c.head? → False := by
            intro b b' c bs g g' gs hb hbs hnd hb' he hc hh
            cases bs with
            | nil => cases c with
              | nil => exact hc rfl
              | cons x c => simp at hh
            | cons b2 bs =>
              cases gs with
              | nil => simp [GroupsOf] at hbs
              | cons g2 gs =>
                cases b2 with
                | nil => exact hbs.1.1 rfl
                | cons y b2 =>
                  cases c with
                  | nil => exact hc rfl
                  | cons x c =>
                    simp at hh
                    have e1 : y.1 = g2.1 := hbs.1.2.1 y (by simp)
                    have e2 : x.1 = g'.1 := hb'.2.1 x (by rw [he]; simp)
                    cases b with
                    | nil => exact hb.1 rfl
                    | cons z b =>
                      have e3 : z.1 = g.1 := hb.2.1 z (by simp)
                      have e4 : z.1 = g'.1 := hb'.2.1 z (by rw [he]; simp)
                      exact hnd.1 (by rw [← e1, hh, e2, ← e4, e3])
          have hb : b = b' := by
            rcases List.append_eq_append_iff.1 hl' with ⟨c, h1, h2⟩ | ⟨c, h1, h2⟩
            · cases c with
              | nil => simpa using h1.symm
              | cons x c => exact (aux b b' (x :: c) bs g g' gs h.1 h.2 hn h'.1 h1 (by simp) (by rw [h2]; simp)).elim
            · cases c with
              | nil => simpa using h1
              | cons x c => exact (aux b' b (x :: c) bs' g' g gs' h'.1 h'.2 hn' h.1 h1 (by simp) (by rw [h2]; simp)).elim
          subst hb
          rw [List.append_cancel_left_eq] at hl'
          have hg : g = g' := by
            obtain ⟨h1, h2, h3⟩ := h.1
            obtain ⟨h1', h2', h3'⟩ := h'.1
            cases b with
            | nil => exact absurd rfl h1
            | cons z b =>
              have : g.1 = g'.1 := by rw [← h2 z (by simp), h2' z (by simp)]
              exact Prod.ext this (by rw [h3, h3'])
          have nd : ∀ {x : String × List Resolution} {l}, NeighboursDiffer (x :: l) → NeighboursDiffer l := by
            intro x l h
            cases l with
            | nil => trivial
            | cons y l => exact h.2
          rw [hg, ih h.2 h'.2 (nd hn) (nd hn') hl']

/-- Squashing a list whose neighbours already differ changes nothing. -/
theorem squash_of_differ {l : List (String × List Resolution)} (h : NeighboursDiffer l) : squashResolutions l = l := by
  obtain ⟨bs, h1, h2, h3⟩ := squash_spec l
  have hself : ∀ l : List (String × List Resolution), GroupsOf (l.map fun p => [p]) l := by
    intro l
    induction l with
    | nil => trivial
    | cons p t ih => exact ⟨⟨by simp, by simp, by simp⟩, ih⟩
  have hflat : ∀ l : List (String × List Resolution), l = (l.map fun p => [p]).flatten := by
    intro l
    induction l with
    | nil => rfl
    | cons p t ih => simp only [List.map_cons, List.flatten_cons, ← ih]; rfl
  exact GroupsOf_unique h1 (hflat l) h2 (hself l) h3 h

/-! ## Programs that leave the machine alone -/

/-- The program does not change the machine state. -/
def Keeps (p : Prog σ α) : Prop := ∀ s, (p s).st = s

theorem Keeps.bind {p : Prog σ α} {f : α → Prog σ β} (hp : Keeps p) (hf : ∀ a, Keeps (f a)) : Keeps (p >>= f) := by
  intro s
  rw [bind_run]
  cases h : (p s).res with
  | error e => exact hp s
  | ok a => simp only [Out.prepend_st]; rw [hf a, hp s]

theorem Keeps.lift (x : Except Exc α) : Keeps (Prog.lift x : Prog σ α) := fun _ => rfl
theorem Keeps.ret (x : α) : Keeps (Prog.ret x : Prog σ α) := fun _ => rfl
theorem Keeps.raise (e : Exc) : Keeps (Prog.raise e : Prog σ α) := fun _ => rfl
theorem Keeps.attempt {c : σ → Except Exc α × σ} (h : ∀ s, (c s).2 = s) (mk : Except Exc α → Event) : Keeps (Prog.attempt c mk) := fun s => h s

end Verif
