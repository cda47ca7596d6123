import Verif.Lemmas.Argv
/-! # Lemmas about reading the words of the command line -/
namespace Verif

theorem takesValue_iff (a : OptAction) : a.takesValue = true ↔ (a = .store ∨ a = .append) := by cases a <;> simp [OptAction.takesValue]

theorem applyAll_none (ns : ArgSpace) (pre : List OptSpec) (o : OptSpec) :
    applyAll ns pre o none = (pre ++ [o]).foldlM (fun ns o => runAction o none ns) ns := by
  rw [List.foldlM_append]
  unfold applyAll
  simp

/-- A short option that is no abbreviation is found in full. -/
theorem short_exact {opts : List OptSpec} {c : Char} (hc : c ≠ '-') {o : OptSpec} (h : findOption opts (shortFlag c) = .ok o) :
    exactly opts (shortFlag c) = some o := by
  rcases findOption_cases h with h1 | ⟨_, g, _, _, _, h4, _⟩
  · exact h1
  · rw [shortFlag_toList] at h4
    simp only [List.cons_prefix_cons] at h4
    exact absurd h4.2.1.symm hc

theorem takeGiven_found {opts : List OptSpec} {g : Given} {o : OptSpec} (h : findOption opts g.flag = .ok o) (ns : ArgSpace) :
    takeGiven opts ns g = runAction o g.value ns := by
  unfold takeGiven
  rw [h]
  rfl

/-- A bundle of short options is the options one after the other. -/
theorem unbundle_switches {opts : List OptSpec} (d : Char) (cs : List Char) : ∀ (o : OptSpec), o.action.takesValue = false →
    (∀ c ∈ d :: cs, ∃ o', exactly opts (shortFlag c) = some o' ∧ o'.action.takesValue = false) →
    ∃ pre last, unbundle opts o true (d :: cs) = .ok (pre, last, none) ∧ last.action.takesValue = false ∧
      ∀ ns, (pre ++ [last]).foldlM (fun ns o => runAction o none ns) ns =
        (runAction o none ns).bind fun ns => ((d :: cs).map switchGiven).foldlM (takeGiven opts) ns := by
  have hstep : ∀ {c : Char} {o' : OptSpec}, exactly opts (shortFlag c) = some o' → ∀ ns, takeGiven opts ns (switchGiven c) = runAction o' none ns := by
    intro c o' h ns
    exact takeGiven_found (g := switchGiven c) (by rw [findOption_eq]; show (match exactly opts (shortFlag c) with | some o => _ | none => _) = _; rw [h]) ns
  induction cs generalizing d with
  | nil =>
    intro o ho h
    obtain ⟨o', h1, h2⟩ := h d (by simp)
    refine ⟨[o], o', ?_, h2, ?_⟩
    · simp only [unbundle, ho, Bool.false_eq_true, if_false, if_true]
      show (match exactly opts (shortFlag d) with | none => _ | some o' => _) = _
      rw [h1]
    · intro ns
      show (runAction o none ns).bind (fun ns => (runAction o' none ns).bind fun ns => .ok ns) = _
      congr 1
      funext ns
      show _ = (takeGiven opts ns (switchGiven d)).bind fun ns => .ok ns
      rw [hstep h1]
  | cons e cs ih =>
    intro o ho h
    obtain ⟨o', h1, h2⟩ := h d (by simp)
    obtain ⟨pre, last, h3, h4, h5⟩ := ih e o' h2 (fun c hc => h c (List.mem_cons_of_mem _ hc))
    refine ⟨o :: pre, last, ?_, h4, ?_⟩
    · rw [unbundle]
      simp only [ho, Bool.false_eq_true, if_false, if_true]
      show (match exactly opts (shortFlag d) with | none => _ | some o' => _) = _
      rw [h1]
      simp only [List.cons_ne_nil, if_false, h3]
      rfl
    · intro ns
      show (runAction o none ns).bind (fun ns => (pre ++ [last]).foldlM (fun ns o => runAction o none ns) ns) = _
      congr 1
      funext ns
      rw [h5 ns]
      show _ = (takeGiven opts ns (switchGiven d)).bind fun ns => ((e :: cs).map switchGiven).foldlM (takeGiven opts) ns
      rw [hstep h1]

theorem classifyAll_cons {opts : List OptSpec} {w : String} (h : w ≠ "--") {k : WordKind} (hk : classify opts w = .ok k) (ws : List String) :
    classifyAll opts (w :: ws) = (classifyAll opts ws).map fun ks => (w, k) :: ks := by
  rw [classifyAll, if_neg h, hk]
  show (classifyAll opts ws).bind _ = _
  cases classifyAll opts ws <;> rfl

/-! ## Reading one word -/

theorem read_attached {opts : List OptSpec} {p : Positionals} {w : String} {o : OptSpec} {f : String} {x : List Char} (ho : o.action.takesValue = true)
    (ks : List (String × WordKind)) (r : Reading) :
    readWords opts p ((w, .opt o f (some x)) :: ks) r =
      (runAction o (some (String.ofList x)) r.ns).bind fun ns => readWords opts p ks (r.opted ns) := by
  have h : optionsOf opts o f (some x) = .ok ([], o, some x) := by
    unfold optionsOf
    cases x <;> simp [unbundle, ho]
  rw [readWords]
  simp only [h]
  have : applyAll r.ns [] o (some (String.ofList x)) = runAction o (some (String.ofList x)) r.ns := rfl
  rw [this]
  cases runAction o (some (String.ofList x)) r.ns <;> rfl

theorem read_value {opts : List OptSpec} {p : Positionals} {w v : String} {o : OptSpec} {f : String} (ho : o.action.takesValue = true)
    (ks : List (String × WordKind)) (r : Reading) :
    readWords opts p ((w, .opt o f none) :: (v, .arg) :: ks) r =
      (runAction o (some v) r.ns).bind fun ns => readWords opts p ks (r.opted ns) := by
  rw [readWords]
  simp only [optionsOf, ho, if_true]
  have : applyAll r.ns [] o (some v) = runAction o (some v) r.ns := rfl
  rw [this]
  cases runAction o (some v) r.ns <;> rfl

theorem read_switch {opts : List OptSpec} {p : Positionals} {w : String} {o : OptSpec} {f : String} (ho : o.action.takesValue = false)
    (ks : List (String × WordKind)) (r : Reading) :
    readWords opts p ((w, .opt o f none) :: ks) r = (runAction o none r.ns).bind fun ns => readWords opts p ks (r.opted ns) := by
  rw [readWords]
  simp only [optionsOf, ho]
  have : applyAll r.ns [] o none = runAction o none r.ns := rfl
  rw [this]
  cases runAction o none r.ns <;> rfl

theorem read_bundle {opts : List OptSpec} {p : Positionals} {w : String} {o : OptSpec} {f : String} (hf : isShort f = true) {d : Char} {cs : List Char}
    (ho : o.action.takesValue = false) (h : ∀ c ∈ d :: cs, ∃ o', exactly opts (shortFlag c) = some o' ∧ o'.action.takesValue = false)
    (ks : List (String × WordKind)) (r : Reading) :
    readWords opts p ((w, .opt o f (some (d :: cs))) :: ks) r =
      ((runAction o none r.ns).bind fun ns => ((d :: cs).map switchGiven).foldlM (takeGiven opts) ns).bind fun ns => readWords opts p ks (r.opted ns) := by
  obtain ⟨pre, last, h1, h2, h3⟩ := unbundle_switches d cs o ho h
  have h4 : optionsOf opts o f (some (d :: cs)) = .ok (pre, last, none) := by unfold optionsOf; simp only [hf]; exact h1
  rw [readWords]
  simp only [h4, h2]
  rw [applyAll_none, h3]
  cases (runAction o none r.ns).bind fun ns => ((d :: cs).map switchGiven).foldlM (takeGiven opts) ns <;> rfl

theorem opted_opted (r : Reading) (a b : ArgSpace) : (r.opted a).opted b = r.opted b := by
  unfold Reading.opted
  cases r.phase <;> rfl

/-- What is left to read after options: nothing changes if there were none. -/
def Reading.after (r : Reading) (l : List Given) (ns : ArgSpace) : Reading := if l = [] then r else r.opted ns

theorem bind_assoc_ok {ε α β γ : Type} (x : Except ε α) (f : α → Except ε β) (g : β → Except ε γ) : (x.bind f).bind g = x.bind fun a => (f a).bind g := by
  cases x <;> rfl

/-- After the options `l` from `r.opted`, whatever `l` is, the state is the same. -/
theorem after_opted (r : Reading) (l : List Given) (ns ns' : ArgSpace) (h : l = [] → ns = ns') : (r.opted ns).after l ns' = r.opted ns' := by
  unfold Reading.after
  split
  · rename_i hl; rw [h hl]
  · exact opted_opted r ns ns'

theorem then_after {opts : List OptSpec} {p : Positionals} (l : List Given) (r : Reading) (kt : List (String × WordKind)) (ns : ArgSpace) :
    ((l.foldlM (takeGiven opts) (r.opted ns).ns).bind fun ns' => readWords opts p kt ((r.opted ns).after l ns')) =
      (l.foldlM (takeGiven opts) ns).bind fun ns' => readWords opts p kt (r.opted ns') := by
  have : (r.opted ns).ns = ns := rfl
  rw [this]
  cases h : l.foldlM (takeGiven opts) ns with
  | error e => rfl
  | ok ns' =>
    show readWords opts p kt ((r.opted ns).after l ns') = readWords opts p kt (r.opted ns')
    rw [after_opted]
    intro hl
    subst hl
    cases h
    rfl

/-- Words that write options are read as these options. -/
theorem read_written {opts : List OptSpec} (hu : Usual opts) (hf : FlagsApart opts) (p : Positionals) {l : List Given} {ws : List String}
    (hw : Written PlainWord l ws) : (∀ g ∈ l, Fitting opts g) →
    ∃ ks, ks.map Prod.fst = ws ∧ (∀ tail, classifyAll opts (ws ++ tail) = (classifyAll opts tail).map fun kt => ks ++ kt) ∧
      ∀ kt r, readWords opts p (ks ++ kt) r = (l.foldlM (takeGiven opts) r.ns).bind fun ns => readWords opts p kt (r.after l ns) := by
  have map_map : ∀ {α : Type} (x : Except Exc α) (w : α → α) (v : α → α), (x.map v).map w = x.map fun a => w (v a) := by
    intro α x w v; cases x <;> rfl
  induction hw with
  | nil =>
    intro _
    refine ⟨[], rfl, fun tail => ?_, fun kt r => rfl⟩
    show classifyAll opts tail = _
    cases classifyAll opts tail <;> rfl
  | @alone l ws f hne hw ih =>
    intro hk
    obtain ⟨ks, h0, h1, h2⟩ := ih (fun g hg => hk g (List.mem_cons_of_mem _ hg))
    obtain ⟨o, h3, h4⟩ := hk _ List.mem_cons_self
    obtain ⟨g, h5⟩ := classify_found hu h3
    have h6 : o.action.takesValue = false := by
      cases hv : o.action.takesValue with
      | false => rfl
      | true => exact absurd (h4.2 ((takesValue_iff _).1 hv)) (by simp)
    refine ⟨(f, .opt o g none) :: ks, by simp [h0], fun tail => ?_, fun kt r => ?_⟩
    · show classifyAll opts (f :: (ws ++ tail)) = _
      rw [classifyAll_cons hne h5, h1, map_map]; rfl
    · show readWords opts p ((f, .opt o g none) :: (ks ++ kt)) r = _
      rw [read_switch h6, List.foldlM_cons, takeGiven_found (g := ⟨f, none⟩) h3]
      show _ = ((runAction o none r.ns).bind _).bind _
      rw [bind_assoc_ok]
      congr 1
      funext ns
      rw [h2, then_after]
      rfl
  | @apart l ws f v hne hv hw ih =>
    intro hk
    obtain ⟨ks, h0, h1, h2⟩ := ih (fun g hg => hk g (List.mem_cons_of_mem _ hg))
    obtain ⟨o, h3, h4⟩ := hk _ List.mem_cons_self
    obtain ⟨g, h5⟩ := classify_found hu h3
    have h6 : o.action.takesValue = true := (takesValue_iff _).2 (h4.1 rfl)
    have hv' : v ≠ "--" := by rintro rfl; exact hv rfl
    refine ⟨(f, .opt o g none) :: (v, .arg) :: ks, by simp [h0], fun tail => ?_, fun kt r => ?_⟩
    · show classifyAll opts (f :: v :: (ws ++ tail)) = _
      rw [classifyAll_cons hne h5, classifyAll_cons hv' (classify_plain hv), h1, map_map, map_map]; rfl
    · show readWords opts p ((f, .opt o g none) :: (v, .arg) :: (ks ++ kt)) r = _
      rw [read_value h6, List.foldlM_cons, takeGiven_found (g := ⟨f, some v⟩) h3]
      show _ = ((runAction o (some v) r.ns).bind _).bind _
      rw [bind_assoc_ok]
      congr 1
      funext ns
      rw [h2, then_after]
      rfl
  | @joined l ws f v hw ih =>
    intro hk
    obtain ⟨ks, h0, h1, h2⟩ := ih (fun g hg => hk g (List.mem_cons_of_mem _ hg))
    obtain ⟨o, h3, h4⟩ := hk _ List.mem_cons_self
    obtain ⟨g, h5⟩ := classify_joined hu h3 (v := v) (w := String.ofList (f.toList ++ '=' :: v.toList)) (by simp)
    have h6 : o.action.takesValue = true := (takesValue_iff _).2 (h4.1 rfl)
    have hne : String.ofList (f.toList ++ '=' :: v.toList) ≠ "--" := by
      intro e
      have := congrArg String.toList e
      rw [String.toList_ofList] at this
      have h7 : '=' ∈ "--".toList := by rw [← this]; simp
      exact absurd h7 (by decide)
    refine ⟨(String.ofList (f.toList ++ '=' :: v.toList), .opt o g (some v.toList)) :: ks, by rw [List.map_cons, h0], fun tail => ?_, fun kt r => ?_⟩
    · show classifyAll opts (_ :: (ws ++ tail)) = _
      rw [classifyAll_cons hne h5, h1, map_map]; rfl
    · show readWords opts p ((_, .opt o g (some v.toList)) :: (ks ++ kt)) r = _
      rw [read_attached h6, List.foldlM_cons, takeGiven_found (g := ⟨f, some v⟩) h3, String.ofList_toList]
      show _ = ((runAction o (some v) r.ns).bind _).bind _
      rw [bind_assoc_ok]
      congr 1
      funext ns
      rw [h2, then_after]
      rfl
  | @bundle l ws c d cs hd hw ih =>
    intro hk
    obtain ⟨ks, h0, h1, h2⟩ := ih (fun g hg => hk g (List.mem_append_right _ hg))
    have hall : ∀ a ∈ c :: d :: cs, ∃ o, exactly opts (shortFlag a) = some o ∧ o.action.takesValue = false := by
      intro a ha
      obtain ⟨o, h3, h4⟩ := hk (switchGiven a) (List.mem_append_left _ (List.mem_map_of_mem ha))
      refine ⟨o, short_exact (fun e => hd (e ▸ ha)) h3, ?_⟩
      cases hv : o.action.takesValue with
      | false => rfl
      | true => exact absurd (h4.2 ((takesValue_iff _).1 hv)) (by simp [switchGiven])
    obtain ⟨o, h3, h6⟩ := hall c List.mem_cons_self
    have hde : d ≠ '=' := by
      rintro rfl
      obtain ⟨o', h7, _⟩ := hall '=' (by simp)
      obtain ⟨h8, h9⟩ := exactly_some h7
      exact hu.noEq _ h8 _ h9 (by rw [shortFlag_toList]; simp)
    have h5 := classify_bundle hu hf hde h3 (d := d) (cs := cs) (w := String.ofList ('-' :: c :: d :: cs)) (by simp)
    have hne : String.ofList ('-' :: c :: d :: cs) ≠ "--" := by
      intro e
      have := congrArg String.toList e
      rw [String.toList_ofList] at this
      have h7 := congrArg List.length this
      simp at h7
    have hs : isShort (shortFlag c) = true := by
      unfold isShort
      rw [shortFlag_toList]
      have : c ≠ '-' := fun e => hd (by rw [e]; exact List.mem_cons_self)
      simpa using this
    refine ⟨(String.ofList ('-' :: c :: d :: cs), .opt o (shortFlag c) (some (d :: cs))) :: ks, by rw [List.map_cons, h0], fun tail => ?_, fun kt r => ?_⟩
    · show classifyAll opts (_ :: (ws ++ tail)) = _
      rw [classifyAll_cons hne h5, h1, map_map]; rfl
    · show readWords opts p ((_, .opt o (shortFlag c) (some (d :: cs))) :: (ks ++ kt)) r = _
      rw [read_bundle hs h6 (fun a ha => hall a (List.mem_cons_of_mem _ ha))]
      rw [List.foldlM_append]
      have h8 : ((c :: d :: cs).map switchGiven).foldlM (takeGiven opts) r.ns =
          (runAction o none r.ns).bind fun ns => ((d :: cs).map switchGiven).foldlM (takeGiven opts) ns := by
        rw [List.map_cons, List.foldlM_cons, takeGiven_found (g := switchGiven c) (o := o)]
        · rfl
        · rw [findOption_eq]
          show (match exactly opts (shortFlag c) with | some o => _ | none => _) = _
          rw [h3]
      rw [h8]
      generalize ((runAction o none r.ns).bind fun ns => ((d :: cs).map switchGiven).foldlM (takeGiven opts) ns) = X
      cases X with
      | error e => rfl
      | ok ns =>
        show readWords opts p (ks ++ kt) (r.opted ns) = (l.foldlM (takeGiven opts) ns).bind _
        rw [h2, then_after]
        rfl
  | @bundleEq l ws c d cs hd hw ih =>
    intro hk
    obtain ⟨ks, h0, h1, h2⟩ := ih (fun g hg => hk g (List.mem_append_right _ hg))
    have hall : ∀ a ∈ c :: d :: cs, ∃ o, exactly opts (shortFlag a) = some o ∧ o.action.takesValue = false := by
      intro a ha
      obtain ⟨o, h3, h4⟩ := hk (switchGiven a) (List.mem_append_left _ (List.mem_map_of_mem ha))
      refine ⟨o, short_exact (fun e => hd (e ▸ ha)) h3, ?_⟩
      cases hv : o.action.takesValue with
      | false => rfl
      | true => exact absurd (h4.2 ((takesValue_iff _).1 hv)) (by simp [switchGiven])
    obtain ⟨o, h3, h6⟩ := hall c List.mem_cons_self
    have h5 := classify_bundleEq hu h3 (w := String.ofList ('-' :: c :: '=' :: d :: cs)) (d := d) (cs := cs) (by simp)
    have hne : String.ofList ('-' :: c :: '=' :: d :: cs) ≠ "--" := by
      intro e
      have := congrArg String.toList e
      rw [String.toList_ofList] at this
      have h7 := congrArg List.length this
      simp at h7
    have hs : isShort (shortFlag c) = true := by
      unfold isShort
      rw [shortFlag_toList]
      have : c ≠ '-' := fun e => hd (by rw [e]; exact List.mem_cons_self)
      simpa using this
    refine ⟨(String.ofList ('-' :: c :: '=' :: d :: cs), .opt o (shortFlag c) (some (d :: cs))) :: ks, by rw [List.map_cons, h0], fun tail => ?_, fun kt r => ?_⟩
    · show classifyAll opts (_ :: (ws ++ tail)) = _
      rw [classifyAll_cons hne h5, h1, map_map]; rfl
    · show readWords opts p ((_, .opt o (shortFlag c) (some (d :: cs))) :: (ks ++ kt)) r = _
      rw [read_bundle hs h6 (fun a ha => hall a (List.mem_cons_of_mem _ ha))]
      rw [List.foldlM_append]
      have h8 : ((c :: d :: cs).map switchGiven).foldlM (takeGiven opts) r.ns =
          (runAction o none r.ns).bind fun ns => ((d :: cs).map switchGiven).foldlM (takeGiven opts) ns := by
        rw [List.map_cons, List.foldlM_cons, takeGiven_found (g := switchGiven c) (o := o)]
        · rfl
        · rw [findOption_eq]
          show (match exactly opts (shortFlag c) with | some o => _ | none => _) = _
          rw [h3]
      rw [h8]
      generalize ((runAction o none r.ns).bind fun ns => ((d :: cs).map switchGiven).foldlM (takeGiven opts) ns) = X
      cases X with
      | error e => rfl
      | ok ns =>
        show readWords opts p (ks ++ kt) (r.opted ns) = (l.foldlM (takeGiven opts) ns).bind _
        rw [h2, then_after]
        rfl

end Verif
