import Verif.Spec.CommandLine
import Verif.Lemmas.Config2
/-! # Lemmas about the command line -/
namespace Verif

/-! ## Building parsers -/

/-- Options do not share option strings. -/
abbrev FlagsApart (opts : List OptSpec) : Prop := opts.Pairwise fun a b => ∀ f ∈ a.flags, f ∉ b.flags

theorem addArgument_ok {opts opts' : List OptSpec} {o : OptSpec} (h : addArgument opts o = .ok opts') :
    opts' = opts ++ [o] ∧ o.dest ≠ "" ∧ ∀ p ∈ opts, ∀ f ∈ p.flags, f ∉ o.flags := by
  unfold addArgument at h
  split at h
  · simp at h
  · rename_i h1
    split at h
    · simp at h
    · rename_i h2
      injection h with h
      refine ⟨h.symm, h1, ?_⟩
      intro p hp f hf hfo
      apply h2
      rw [List.any_eq_true]
      refine ⟨f, hfo, ?_⟩
      rw [List.any_eq_true]
      exact ⟨p, hp, by simpa using hf⟩

theorem addArguments_ok (l : List OptSpec) : ∀ {opts opts' : List OptSpec}, FlagsApart opts → l.foldlM addArgument opts = .ok opts' →
    opts' = opts ++ l ∧ FlagsApart opts' := by
  induction l with
  | nil => intro opts opts' h1 h; cases h; simpa using h1
  | cons o l ih =>
    intro opts opts' h1 h
    rw [List.foldlM_cons] at h
    obtain ⟨o1, h2, h3⟩ := Except_bind_ok.1 h
    obtain ⟨rfl, _, h5⟩ := addArgument_ok h2
    have : FlagsApart (opts ++ [o]) := by
      unfold FlagsApart
      rw [List.pairwise_append]
      refine ⟨h1, by simp, ?_⟩
      intro a ha b hb
      rw [List.mem_singleton] at hb; subst hb
      exact h5 a ha
    obtain ⟨h6, h7⟩ := ih this h3
    exact ⟨by rw [h6]; simp, h7⟩

theorem mkParser_ok {extra opts : List OptSpec} {desc : Desc} (h : mkParser extra desc = .ok opts) :
    opts = extra ++ desc.options ++ globalOptions ∧ FlagsApart opts := by
  have := addArguments_ok _ (opts := []) List.Pairwise.nil h
  simpa using this

theorem apart_unique {opts : List OptSpec} (h : FlagsApart opts) {a b : OptSpec} (ha : a ∈ opts) (hb : b ∈ opts) {f : String} (hfa : f ∈ a.flags)
    (hfb : f ∈ b.flags) : a = b := by
  induction opts with
  | nil => simp at ha
  | cons o l ih =>
    rw [FlagsApart, List.pairwise_cons] at h
    rcases List.mem_cons.1 ha with e1 | ha'
    · rcases List.mem_cons.1 hb with e2 | hb'
      · rw [e1, e2]
      · exact absurd hfb (h.1 b hb' f (e1 ▸ hfa))
    · rcases List.mem_cons.1 hb with e2 | hb'
      · exact absurd hfa (h.1 a ha' f (e2 ▸ hfb))
      · exact ih h.2 ha' hb'

/-! ## Matching option strings -/

theorem findOption_full {opts : List OptSpec} (h : FlagsApart opts) {o : OptSpec} (ho : o ∈ opts) {f : String} (hf : f ∈ o.flags) :
    findOption opts f = .ok o := by
  unfold findOption
  cases hx : opts.find? fun o => o.flags.contains f with
  | none =>
    rw [List.find?_eq_none] at hx
    exact absurd (by simpa using hf) (hx o ho)
  | some p =>
    have h1 := List.mem_of_find?_eq_some hx
    have h2 := List.find?_some hx
    simp only
    rw [apart_unique h h1 ho (by simpa using h2) hf]

theorem mem_flagTable {opts : List OptSpec} {f : String} {o : OptSpec} : (f, o) ∈ flagTable opts ↔ o ∈ opts ∧ f ∈ o.flags := by
  unfold flagTable
  simp only [List.mem_flatMap, List.mem_map, Prod.mk.injEq]
  constructor
  · rintro ⟨p, hp, g, hg, rfl, rfl⟩; exact ⟨hp, hg⟩
  · rintro ⟨h1, h2⟩; exact ⟨o, h1, f, h2, rfl, rfl⟩

theorem findOption_mem {opts : List OptSpec} {f : String} {o : OptSpec} (h : findOption opts f = .ok o) : o ∈ opts := by
  unfold findOption at h
  cases hx : opts.find? fun o => o.flags.contains f with
  | some p =>
    simp only [hx] at h
    injection h with h
    exact h ▸ List.mem_of_find?_eq_some hx
  | none =>
    simp only [hx] at h
    split at h
    · rename_i g p hp
      injection h with h; subst h
      have : (g, p) ∈ abbreviated opts f := by rw [hp]; simp
      unfold abbreviated at this
      split at this
      · exact (mem_flagTable.1 (List.mem_filter.1 this).1).1
      · simp at this
    · simp at h

theorem findOption_flag {opts : List OptSpec} {f : String} {o : OptSpec} (hf : f ∈ allFlags opts) (h : findOption opts f = .ok o) : f ∈ o.flags := by
  obtain ⟨p, hp, hfp⟩ := List.mem_flatMap.1 hf
  unfold findOption at h
  cases hx : opts.find? fun o => o.flags.contains f with
  | some q =>
    simp only [hx] at h
    injection h with h
    subst h
    simpa using List.find?_some hx
  | none =>
    rw [List.find?_eq_none] at hx
    exact absurd (by simpa using hfp) (hx p hp)

/-! ## Values -/

/-- The default an option gets. -/
def dfltVal : OptAction → Option ArgVal
  | .quit => none
  | .storeTrue => some (.flag false)
  | _ => some (.cmd .none)

/-- The values of an `append` option so far. -/
def soFar : Option ArgVal → List String
  | some (.cmd (.many l)) => l
  | _ => []

/-- What an action makes of a value. -/
def actVal (a : OptAction) (cur : Option ArgVal) (value : Option String) : Option ArgVal :=
  match a, value with
  | .store, some v => some (.cmd (.one v))
  | .append, some v => some (.cmd (.many (soFar cur ++ [v])))
  | .storeTrue, none => some (.flag true)
  | _, _ => cur

theorem listSoFar_ok {ns : ArgSpace} {d : String} {l : List String} (h : listSoFar ns d = .ok l) : l = soFar (dget ns d) := by
  unfold listSoFar at h
  unfold soFar
  split at h <;> rename_i hx
  · injection h with h; rw [hx]; exact h.symm
  · injection h with h; rw [hx]; exact h.symm
  · injection h with h; rw [hx]; exact h.symm
  · simp at h

theorem runAction_dget {o : OptSpec} {v : Option String} {ns ns' : ArgSpace} (h : runAction o v ns = .ok ns') (d : String) :
    dget ns' d = if o.dest = d then actVal o.action (dget ns o.dest) v else dget ns d := by
  unfold runAction at h
  cases ha : o.action <;> cases v <;> simp only [ha] at h <;> try (simp at h; done)
  · injection h with h; subst h; rw [dget_set]; rfl
  · cases hl : listSoFar ns o.dest with
    | error e => rw [hl] at h; simp [Except.map] at h
    | ok l =>
      rw [hl] at h; simp only [Except.map] at h
      injection h with h; subst h; rw [dget_set, listSoFar_ok hl]; rfl
  · injection h with h; subst h; rw [dget_set]; rfl

theorem addDefault_dget (ns : ArgSpace) (o : OptSpec) (d : String) :
    dget (addDefault ns o) d = (dget ns d).or (if o.dest = d then dfltVal o.action else none) := by
  unfold addDefault
  by_cases hd : o.dest = d
  · subst hd
    rw [if_pos rfl]
    by_cases hh : dhas ns o.dest = true
    · rw [if_pos hh]
      have := mem_dkeys_iff.1 (dhas_iff.1 hh)
      cases hx : dget ns o.dest with
      | none => rw [hx] at this; simp at this
      | some v => rfl
    · rw [if_neg hh]
      have hn : dget ns o.dest = none := dhas_false.1 (by simpa using hh)
      rw [hn]
      cases ha : o.action <;> simp only [dget_set, dfltVal, if_true, hn] <;> rfl
  · rw [if_neg hd]
    by_cases hh : dhas ns o.dest = true
    · rw [if_pos hh]; simp
    · rw [if_neg hh]
      cases ha : o.action <;> simp only [dget_set, if_neg hd] <;> simp

theorem addDefaults_dget (opts : List OptSpec) (ns : ArgSpace) (d : String) :
    dget (opts.foldl addDefault ns) d = (dget ns d).or (opts.findSome? fun o => if o.dest = d then dfltVal o.action else none) := by
  induction opts generalizing ns with
  | nil => simp
  | cons o l ih =>
    rw [List.foldl_cons, ih, addDefault_dget, List.findSome?_cons]
    cases dget ns d with
    | some v => simp
    | none =>
      cases hx : (if o.dest = d then dfltVal o.action else none) with
      | none => simp
      | some v => simp

theorem dests_unique {opts : List OptSpec} (h : (opts.map OptSpec.dest).Nodup) {a b : OptSpec} (ha : a ∈ opts) (hb : b ∈ opts) (hd : a.dest = b.dest) :
    a = b := List.inj_on_of_nodup_map h ha hb hd

theorem findSome_dest {opts : List OptSpec} (h : (opts.map OptSpec.dest).Nodup) {o : OptSpec} (ho : o ∈ opts) :
    (opts.findSome? fun p => if p.dest = o.dest then dfltVal p.action else none) = dfltVal o.action := by
  induction opts with
  | nil => simp at ho
  | cons p l ih =>
    rw [List.map_cons, List.nodup_cons] at h
    rw [List.findSome?_cons]
    rcases List.mem_cons.1 ho with rfl | hm
    · rw [if_pos rfl]
      cases hx : dfltVal o.action with
      | some v => rfl
      | none =>
        simp only
        rw [List.findSome?_eq_none_iff]
        intro q hq
        rw [if_neg]
        intro e
        exact h.1 (e ▸ List.mem_map_of_mem hq)
    · have : ¬ p.dest = o.dest := fun e => h.1 (e ▸ List.mem_map_of_mem hm)
      rw [if_neg this]
      exact ih h.2 hm

/-- One option of the command line as seen by the option `o`. -/
def destStep (opts : List OptSpec) (o : OptSpec) (cur : Option ArgVal) (g : Given) : Option ArgVal :=
  match findOption opts g.flag with
  | .ok p => if p = o then actVal o.action cur g.value else cur
  | .error _ => cur

theorem takeGiven_ok {opts : List OptSpec} {ns ns' : ArgSpace} {g : Given} (h : takeGiven opts ns g = .ok ns') :
    ∃ o, findOption opts g.flag = .ok o ∧ runAction o g.value ns = .ok ns' := Except_bind_ok.1 h

theorem fold_dest {opts : List OptSpec} (hd : (opts.map OptSpec.dest).Nodup) {o : OptSpec} (ho : o ∈ opts) (l : List Given) :
    ∀ {ns ns' : ArgSpace}, l.foldlM (takeGiven opts) ns = .ok ns' → dget ns' o.dest = l.foldl (destStep opts o) (dget ns o.dest) := by
  induction l with
  | nil => intro ns ns' h; cases h; rfl
  | cons g l ih =>
    intro ns ns' h
    rw [List.foldlM_cons] at h
    obtain ⟨n1, h1, h2⟩ := Except_bind_ok.1 h
    obtain ⟨p, hp, hr⟩ := takeGiven_ok h1
    rw [List.foldl_cons, ih h2, runAction_dget hr]
    unfold destStep
    simp only [hp]
    by_cases hpo : p = o
    · subst hpo; rw [if_pos rfl, if_pos rfl]
    · rw [if_neg hpo, if_neg]
      intro e
      exact hpo (dests_unique hd (findOption_mem hp) ho e)

/-- Attributes no option stores to do not change. -/
theorem fold_other {opts : List OptSpec} {d : String} (hd : d ∉ opts.map OptSpec.dest) (l : List Given) :
    ∀ {ns ns' : ArgSpace}, l.foldlM (takeGiven opts) ns = .ok ns' → dget ns' d = dget ns d := by
  induction l with
  | nil => intro ns ns' h; cases h; rfl
  | cons g l ih =>
    intro ns ns' h
    rw [List.foldlM_cons] at h
    obtain ⟨n1, h1, h2⟩ := Except_bind_ok.1 h
    obtain ⟨p, hp, hr⟩ := takeGiven_ok h1
    rw [ih h2, runAction_dget hr, if_neg]
    intro e
    exact hd (e ▸ List.mem_map_of_mem (findOption_mem hp))

theorem asGiven_snoc (m : Bool) (l : List String) (v : String) : asGiven m (l ++ [v]) = if m then .many (l ++ [v]) else .one v := by
  unfold asGiven; simp

theorem soFar_asGiven (l : List String) : soFar (some (.cmd (asGiven true l))) = l := by
  unfold asGiven
  cases h : l.getLast? with
  | none => rw [List.getLast?_eq_none_iff] at h; subst h; rfl
  | some v => rfl

theorem actVal_asGiven (m : Bool) (l : List String) (v : String) :
    actVal (if m then .append else .store) (some (.cmd (asGiven m l))) (some v) = some (.cmd (asGiven m (l ++ [v]))) := by
  rw [asGiven_snoc]
  cases m
  · rfl
  · simp only [if_true, actVal, soFar_asGiven]

end Verif
