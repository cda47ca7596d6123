import Verif.Spec.Program
import Verif.Props.Startup
/-! # Lemmas about whole runs -/
namespace Verif

theorem parser_nodup {extra opts : List OptSpec} {desc : Desc} (hp : mkParser extra desc = .ok opts) (hn : ∀ o ∈ extra, o.flags.Nodup) :
    ∀ o ∈ opts, o.flags.Nodup := by
  intro o ho
  rw [(mkParser_ok hp).1, List.mem_append, List.mem_append] at ho
  rcases ho with (ho | ho) | ho
  · exact hn o ho
  · obtain ⟨i, _, rfl⟩ := List.mem_map.1 ho
    simp [ConfigItem.option]
  · revert o
    decide

/-- An option string means an option exactly if it is one of its option strings or an unambiguous abbreviation of one. -/
theorem findOption_iff {opts : List OptSpec} (hf : FlagsApart opts) (hn : ∀ o ∈ opts, o.flags.Nodup) {f : String} {o : OptSpec} :
    findOption opts f = .ok o ↔ o ∈ opts ∧ (f ∈ o.flags ∨ ∃ h ∈ o.flags, Abbreviates opts f h) := by
  have hnd := flagTable_nodup hf hn
  have hnone : f ∉ allFlags opts → (opts.find? fun o => o.flags.contains f) = none := by
    intro h
    rw [List.find?_eq_none]
    intro o ho hc
    exact h (List.mem_flatMap.2 ⟨o, ho, by simpa using hc⟩)
  have hab : ∀ x, x ∈ abbreviated opts f ↔ "--".toList <+: f.toList ∧ x ∈ flagTable opts ∧ f.toList <+: x.1.toList := by
    intro x
    unfold abbreviated
    split
    · rename_i h
      rw [List.mem_filter, List.isPrefixOf_iff_prefix]
      exact ⟨fun h' => ⟨List.isPrefixOf_iff_prefix.1 h, h'⟩, fun h' => h'.2⟩
    · rename_i h
      have : ¬ "--".toList <+: f.toList := fun h' => h (List.isPrefixOf_iff_prefix.2 h')
      simp only [List.not_mem_nil, false_iff]
      exact fun hh => this hh.1
  have hand : (abbreviated opts f).Nodup := by
    unfold abbreviated
    split
    · exact (List.Nodup.of_map _ hnd).filter _
    · exact List.nodup_nil
  constructor
  · intro h
    refine ⟨findOption_mem h, ?_⟩
    by_cases hfa : f ∈ allFlags opts
    · exact .inl (findOption_flag hfa h)
    · right
      unfold findOption at h
      simp only [hnone hfa] at h
      split at h
      · rename_i g p he1
        injection h with h; subst h
        have hm := (hab (g, p)).1 (by rw [he1]; simp)
        obtain ⟨ho, hgo⟩ := mem_flagTable.1 hm.2.1
        refine ⟨g, hgo, hfa, hm.1, List.mem_flatMap.2 ⟨p, ho, hgo⟩, hm.2.2, ?_⟩
        intro h hh hfh
        obtain ⟨q, hq, hhq⟩ := List.mem_flatMap.1 hh
        have := (hab (h, q)).2 ⟨hm.1, mem_flagTable.2 ⟨hq, hhq⟩, hfh⟩
        rw [he1, List.mem_singleton] at this
        exact congrArg Prod.fst this
      · simp at h
  · rintro ⟨ho, hfo | ⟨g, hgo, h1, h2, h3, h4, h5⟩⟩
    · exact findOption_full hf ho hfo
    · have : abbreviated opts f = [(g, o)] := by
        apply singleton_of hand
        intro x
        rw [hab]
        constructor
        · rintro ⟨_, hx, hpx⟩
          obtain ⟨a, b⟩ := x
          obtain ⟨hb, hab'⟩ := mem_flagTable.1 hx
          have : a = g := h5 a (List.mem_flatMap.2 ⟨b, hb, hab'⟩) hpx
          subst this
          rw [apart_unique hf hb ho hab' hgo]
        · rintro rfl
          exact ⟨h2, mem_flagTable.2 ⟨ho, hgo⟩, h4⟩
      unfold findOption
      simp only [hnone h1, this]

/-- What it means that the option `o` is found, by its option strings. -/
theorem means_iff {opts : List OptSpec} (hf : FlagsApart opts) (hn : ∀ o ∈ opts, o.flags.Nodup) {f flag : String} {o : OptSpec} (ho : o ∈ opts)
    (hfl : flag ∈ o.flags) : Means opts f flag ↔ findOption opts f = .ok o := by
  rw [findOption_iff hf hn]
  constructor
  · rintro ⟨p, hp, hfp, h⟩
    have := apart_unique hf hp ho hfp hfl
    subst this
    exact ⟨hp, h⟩
  · rintro ⟨_, h⟩
    exact ⟨o, ho, hfl, h⟩

/-! ## Folds -/

/-- A switch seen from the command line: its final value, from the options given. -/
theorem fold_switch_on {opts : List OptSpec} {o : OptSpec} (ha : o.action = .storeTrue) (l : List Given) (b : Bool)
    (hok : ∀ g ∈ l, findOption opts g.flag = .ok o → g.value = none) :
    l.foldl (destStep opts o) (some (.flag b)) = some (.flag true) ∨
      (l.foldl (destStep opts o) (some (.flag b)) = some (.flag b) ∧ ∀ g ∈ l, findOption opts g.flag ≠ .ok o) := by
  induction l generalizing b with
  | nil => right; exact ⟨rfl, by simp⟩
  | cons g l ih =>
    rw [List.foldl_cons]
    by_cases hg : findOption opts g.flag = .ok o
    · have hv := hok g (List.mem_cons_self ..) hg
      have e : destStep opts o (some (.flag b)) g = some (.flag true) := by
        unfold destStep
        simp only [hg, if_true, ha, hv, actVal]
      rw [e]
      rcases ih true (fun x hx => hok x (List.mem_cons_of_mem _ hx)) with h | ⟨h, _⟩
      · exact .inl h
      · exact .inl h
    · have e : destStep opts o (some (.flag b)) g = some (.flag b) := by
        unfold destStep
        split
        · rename_i p hp
          rw [if_neg]
          intro e; subst e; exact hg hp
        · rfl
      rw [e]
      rcases ih b (fun x hx => hok x (List.mem_cons_of_mem _ hx)) with h | ⟨h, h'⟩
      · exact .inl h
      · refine .inr ⟨h, ?_⟩
        intro x hx
        rcases List.mem_cons.1 hx with rfl | hx
        · exact hg
        · exact h' x hx

/-- Every option of an accepted command line is used properly. -/
theorem fold_accepted {opts : List OptSpec} (l : List Given) : ∀ {ns ns' : ArgSpace}, l.foldlM (takeGiven opts) ns = .ok ns' →
    ∀ g ∈ l, ∃ o, findOption opts g.flag = .ok o ∧ o.action ≠ .quit ∧ (o.action = .storeTrue → g.value = none) ∧
      (o.action = .store → ∃ v, g.value = some v) := by
  induction l with
  | nil => intro ns ns' _ g hg; simp at hg
  | cons g l ih =>
    intro ns ns' h x hx
    rw [List.foldlM_cons] at h
    obtain ⟨n1, h1, h2⟩ := Except_bind_ok.1 h
    rcases List.mem_cons.1 hx with rfl | hx
    · obtain ⟨o, ho, hr⟩ := takeGiven_ok h1
      refine ⟨o, ho, ?_⟩
      unfold runAction at hr
      cases ha : o.action <;> cases hv : x.value <;> simp only [ha, hv] at hr <;> simp at hr ⊢
    · exact ih h2 x hx

/-- A switch of a parser after its options are read. -/
theorem switch_on_iff {opts : List OptSpec} (hd : (opts.map OptSpec.dest).Nodup) {o : OptSpec} (ho : o ∈ opts) (ha : o.action = .storeTrue)
    {l : List Given} {ns ns' : ArgSpace} (h0 : ∃ b, dget ns o.dest = some (.flag b)) (h : l.foldlM (takeGiven opts) ns = .ok ns') :
    switchOn ns' o.dest = true ↔ switchOn ns o.dest = true ∨ ∃ g ∈ l, findOption opts g.flag = .ok o := by
  obtain ⟨b, hb⟩ := h0
  have hk := fold_dest hd ho l h
  have hb' : switchOn ns o.dest = b := by unfold switchOn; rw [hb]
  rw [hb'] 
  rw [hb] at hk
  have hacc := fold_accepted l h
  rcases fold_switch_on ha l b (fun g hg hfo => by
    obtain ⟨p, hp, _, h3, _⟩ := hacc g hg
    rw [hfo] at hp; injection hp with hp; subst hp
    exact h3 ha) with e | ⟨e, he⟩
  · have : switchOn ns' o.dest = true := by unfold switchOn; rw [hk, e]
    rw [this]
    simp only [true_iff]
    by_contra hc
    push_neg at hc
    obtain ⟨hb2, hn⟩ := hc
    rw [foldl_const_mem] at e
    · injection e with e; injection e with e; exact hb2 e
    · intro v g hg
      unfold destStep
      split
      · rename_i p hp
        rw [if_neg]
        intro e; subst e; exact hn g hg hp
      · rfl
  · have : switchOn ns' o.dest = b := by unfold switchOn; rw [hk, e]
    rw [this]
    constructor
    · exact .inl
    · rintro (h | ⟨g, hg, h⟩)
      · exact h
      · exact absurd h (he g hg)

theorem addDefaults_switch {opts : List OptSpec} (hd : (opts.map OptSpec.dest).Nodup) {o : OptSpec} (ho : o ∈ opts) (ha : o.action = .storeTrue)
    {ns : ArgSpace} (h : dget ns o.dest = none) : dget (opts.foldl addDefault ns) o.dest = some (.flag false) := by
  rw [addDefaults_dget, findSome_dest hd ho, h, ha]; rfl

/-- Names of options of the command alone are not touched by the top level parser. -/
theorem top_untouched {top : List OptSpec} {before : List Given} {n0 : ArgSpace} (h : parseInto top [] before = .ok n0) {d : String}
    (hd : d ∉ top.map OptSpec.dest) : dget n0 d = none := by
  rw [fold_other hd before h, addDefaults_dget]
  have : (top.findSome? fun p => if p.dest = d then dfltVal p.action else none) = none := by
    rw [List.findSome?_eq_none_iff]
    intro q hq
    rw [if_neg]
    exact fun e => hd (e ▸ List.mem_map_of_mem hq)
  rw [this]; rfl

theorem switchOn_congr {ns ns' : ArgSpace} {d : String} (h : dget ns d = dget ns' d) : switchOn ns d = switchOn ns' d := by
  unfold switchOn; rw [h]

/-- The two halves of a parsed command line. -/
theorem parse_cases {fresh : Bool} {top sub : List OptSpec} {before after : List Given} {ns : ArgSpace}
    (h : parseCommandLine fresh top sub before after = .ok ns) :
    ∃ n0, parseInto top [] before = .ok n0 ∧ ((fresh = true ∧ ∃ n2, parseInto sub [] after = .ok n2 ∧ ns = dupdate n0 n2) ∨
      (fresh = false ∧ parseInto sub n0 after = .ok ns)) := by
  unfold parseCommandLine at h
  obtain ⟨n0, h1, h2⟩ := Except_bind_ok.1 h
  refine ⟨n0, h1, ?_⟩
  cases fresh with
  | true =>
    rw [if_pos rfl] at h2
    obtain ⟨n2, h3, h4⟩ := Except_bind_ok.1 h2
    exact .inl ⟨rfl, n2, h3, (pure_ok.1 h4).symm⟩
  | false => exact .inr ⟨rfl, h2⟩

/-- The switches of the command itself: on exactly if given after the name of the command. -/
theorem command_switch {extra top sub : List OptSpec} {desc : Desc} (ht : mkParser [] desc = .ok top) (hs : mkParser extra desc = .ok sub)
    (hn : ∀ o ∈ extra, o.flags.Nodup) (hd : (sub.map OptSpec.dest).Nodup) {fresh : Bool} {before after : List Given} {ns : ArgSpace}
    (h : parseCommandLine fresh top sub before after = .ok ns) {o : OptSpec} (ho : o ∈ extra) (ha : o.action = .storeTrue) {flag : String}
    (hfl : flag ∈ o.flags) : switchOn ns o.dest = true ↔ IsGiven sub flag after := by
  obtain ⟨et, hft⟩ := mkParser_ok ht
  obtain ⟨es, hfs⟩ := mkParser_ok hs
  have hos : o ∈ sub := by rw [es, List.append_assoc]; exact List.mem_append_left _ ho
  have hdt : o.dest ∉ top.map OptSpec.dest := by
    rw [es, List.append_assoc, List.map_append, List.nodup_append] at hd
    intro hm
    rw [et, List.nil_append] at hm
    exact hd.2.2 _ (List.mem_map_of_mem ho) _ hm rfl
  have hm : (∃ g ∈ after, findOption sub g.flag = .ok o) ↔ IsGiven sub flag after := by
    unfold IsGiven
    simp only [means_iff hfs (parser_nodup hs hn) hos hfl]
  rw [← hm]
  obtain ⟨n0, h0, ⟨_, n2, h2, rfl⟩ | ⟨_, h2⟩⟩ := parse_cases h
  · have hdf := addDefaults_switch hd hos ha (ns := []) rfl
    have k := switch_on_iff hd hos ha ⟨false, hdf⟩ h2
    have hsome := fold_isSome after (d := o.dest) h2 (by rw [hdf]; rfl)
    have e : switchOn (dupdate n0 n2) o.dest = switchOn n2 o.dest := by
      apply switchOn_congr
      rw [dget_dupdate (parse_DWF h2)]
      cases hx : dget n2 o.dest with
      | none => rw [hx] at hsome; simp at hsome
      | some v => rfl
    rw [e, k]
    have : switchOn (sub.foldl addDefault []) o.dest = false := by unfold switchOn; rw [hdf]
    simp [this]
  · have hdf := addDefaults_switch hd hos ha (top_untouched h0 hdt)
    have k := switch_on_iff hd hos ha ⟨false, hdf⟩ h2
    rw [k]
    have : switchOn (sub.foldl addDefault n0) o.dest = false := by unfold switchOn; rw [hdf]
    simp [this]


/-- The global switches: on if given after the name of the command; only on if given before or after it. -/
theorem global_switch {extra top sub : List OptSpec} {desc : Desc} (ht : mkParser [] desc = .ok top) (hs : mkParser extra desc = .ok sub)
    (hn : ∀ o ∈ extra, o.flags.Nodup) (hd : (sub.map OptSpec.dest).Nodup) {fresh : Bool} {before after : List Given} {ns : ArgSpace}
    (h : parseCommandLine fresh top sub before after = .ok ns) {o : OptSpec} (ho : o ∈ top) (ha : o.action = .storeTrue) {flag : String}
    (hfl : flag ∈ o.flags) : (IsGiven sub flag after → switchOn ns o.dest = true) ∧
      (switchOn ns o.dest = true → IsGiven top flag before ∨ IsGiven sub flag after) := by
  obtain ⟨et, hft⟩ := mkParser_ok ht
  obtain ⟨es, hfs⟩ := mkParser_ok hs
  have hsl : top.Sublist sub := by
    rw [et, es, List.nil_append, List.append_assoc]
    exact List.sublist_append_right ..
  have hos : o ∈ sub := hsl.subset ho
  have hdt : (top.map OptSpec.dest).Nodup := hd.sublist (hsl.map _)
  have hm : (∃ g ∈ after, findOption sub g.flag = .ok o) ↔ IsGiven sub flag after := by
    unfold IsGiven
    simp only [means_iff hfs (parser_nodup hs hn) hos hfl]
  have hmt : (∃ g ∈ before, findOption top g.flag = .ok o) ↔ IsGiven top flag before := by
    unfold IsGiven
    simp only [means_iff hft (parser_nodup ht (by simp)) ho hfl]
  rw [← hm, ← hmt]
  obtain ⟨n0, h0, ⟨_, n2, h2, rfl⟩ | ⟨_, h2⟩⟩ := parse_cases h
  · have hdf := addDefaults_switch hd hos ha (ns := []) rfl
    have k := switch_on_iff hd hos ha ⟨false, hdf⟩ h2
    have hsome := fold_isSome after (d := o.dest) h2 (by rw [hdf]; rfl)
    have e : switchOn (dupdate n0 n2) o.dest = switchOn n2 o.dest := by
      apply switchOn_congr
      rw [dget_dupdate (parse_DWF h2)]
      cases hx : dget n2 o.dest with
      | none => rw [hx] at hsome; simp at hsome
      | some v => rfl
    rw [e, k]
    have : switchOn (sub.foldl addDefault []) o.dest = false := by unfold switchOn; rw [hdf]
    rw [this]
    exact ⟨.inr, fun hh => hh.elim (fun hh => absurd hh (by simp)) .inr⟩
  · have hdf := addDefaults_switch hdt ho ha (ns := []) rfl
    have k0 := switch_on_iff hdt ho ha ⟨false, hdf⟩ h0
    have hb : ∃ b, dget n0 o.dest = some (.flag b) := by
      have hk := fold_dest hdt ho before h0
      rw [hdf] at hk
      have hacc := fold_accepted before h0
      rcases fold_switch_on ha before false (fun g hg hfo => by
        obtain ⟨p, hp, _, h3, _⟩ := hacc g hg
        rw [hfo] at hp; injection hp with hp; subst hp
        exact h3 ha) with e | ⟨e, _⟩
      · exact ⟨true, hk.trans e⟩
      · exact ⟨false, hk.trans e⟩
    obtain ⟨b, hb⟩ := hb
    have hdf2 : dget (sub.foldl addDefault n0) o.dest = some (.flag b) := by rw [addDefaults_dget, hb]; rfl
    have k := switch_on_iff hd hos ha ⟨b, hdf2⟩ h2
    have e : switchOn (sub.foldl addDefault n0) o.dest = switchOn n0 o.dest := by apply switchOn_congr; rw [hdf2, hb]
    rw [e, k0] at k
    have : switchOn (top.foldl addDefault []) o.dest = false := by unfold switchOn; rw [hdf]
    rw [this] at k
    rw [k]
    refine ⟨.inr, ?_⟩
    rintro ((hh | hh) | hh)
    · simp at hh
    · exact .inl hh
    · exact .inr hh

/-- Options that end the program are not accepted. -/
theorem quit_refused {extra top sub : List OptSpec} {desc : Desc} (ht : mkParser [] desc = .ok top) (hs : mkParser extra desc = .ok sub)
    (hn : ∀ o ∈ extra, o.flags.Nodup) {fresh : Bool} {before after : List Given} {ns : ArgSpace}
    (h : parseCommandLine fresh top sub before after = .ok ns) {flag : String} (hfl : flag ∈ ["--help", "--version"]) :
    ¬ IsGiven top flag before ∧ ¬ IsGiven sub flag after := by
  obtain ⟨et, hft⟩ := mkParser_ok ht
  obtain ⟨es, hfs⟩ := mkParser_ok hs
  obtain ⟨o, ho, hof, hoq⟩ : ∃ o ∈ globalOptions, flag ∈ o.flags ∧ o.action = .quit := by
    simp only [List.mem_cons, List.not_mem_nil, or_false] at hfl
    rcases hfl with rfl | rfl
    · exact ⟨⟨["-h", "--help"], "help", .quit⟩, by simp [globalOptions], by simp, rfl⟩
    · exact ⟨⟨["--version"], "version", .quit⟩, by simp [globalOptions], by simp, rfl⟩
  have hot : o ∈ top := by rw [et]; exact List.mem_append_right _ ho
  have hos : o ∈ sub := by rw [es]; exact List.mem_append_right _ ho
  have key : ∀ {opts : List OptSpec} {l : List Given} {n n' : ArgSpace}, FlagsApart opts → (∀ o ∈ opts, o.flags.Nodup) → o ∈ opts →
      l.foldlM (takeGiven opts) n = .ok n' → ¬ IsGiven opts flag l := by
    intro opts l n n' hf hn ho hp ⟨g, hg, hm⟩
    rw [means_iff hf hn ho hof] at hm
    obtain ⟨p, h1, h2, _⟩ := fold_accepted l hp g hg
    rw [hm] at h1; injection h1 with h1; subst h1
    exact h2 hoq
  obtain ⟨n0, h0, ⟨_, n2, h2, rfl⟩ | ⟨_, h2⟩⟩ := parse_cases h
  · exact ⟨key hft (parser_nodup ht (by simp)) hot h0, key hfs (parser_nodup hs hn) hos h2⟩
  · exact ⟨key hft (parser_nodup ht (by simp)) hot h0, key hfs (parser_nodup hs hn) hos h2⟩

theorem findOption_error {opts : List OptSpec} {f : String} {e : Exc} (h : findOption opts f = .error e) : e = .systemExit 2 := by
  unfold findOption at h
  split at h
  · simp at h
  · split at h
    · simp at h
    · injection h with h; exact h.symm

/-- The ways reading options ends the program. -/
theorem fold_error {opts : List OptSpec} (l : List Given) : ∀ {ns : ArgSpace} {e : Exc}, l.foldlM (takeGiven opts) ns = .error e →
    e = .systemExit 2 ∨ e = .attributeError ∨ (e = .systemExit 0 ∧ ∃ g ∈ l, ∃ o, findOption opts g.flag = .ok o ∧ o.action = .quit) := by
  induction l with
  | nil => intro ns e h; cases h
  | cons g l ih =>
    intro ns e h
    rw [List.foldlM_cons] at h
    cases h1 : takeGiven opts ns g with
    | ok n1 =>
      rw [h1] at h
      rcases ih h with h | h | ⟨h, x, hx, hh⟩
      · exact .inl h
      · exact .inr (.inl h)
      · exact .inr (.inr ⟨h, x, List.mem_cons_of_mem _ hx, hh⟩)
    | error e' =>
      rw [h1] at h
      have he : e' = e := by injection h
      subst he
      unfold takeGiven at h1
      cases ho : findOption opts g.flag with
      | error e2 =>
        rw [ho] at h1
        have he : e2 = e' := by injection h1
        subst he
        exact .inl (findOption_error ho)
      | ok o =>
        rw [ho] at h1
        have h1 : runAction o g.value ns = .error e' := h1
        unfold runAction at h1
        cases ha : o.action <;> cases hv : g.value <;> simp only [ha, hv] at h1 <;>
          first
          | (injection h1 with h1; exact .inl h1.symm)
          | skip
        · simp at h1
        · cases hl : listSoFar ns o.dest with
          | ok q => rw [hl] at h1; simp [Except.map] at h1
          | error e3 =>
            rw [hl] at h1
            simp only [Except.map] at h1
            injection h1 with h1; subst h1
            right; left
            unfold listSoFar at hl
            split at hl <;> simp at hl
            exact hl.symm
        · simp at h1
        · injection h1 with h1
          exact .inr (.inr ⟨h1.symm, g, List.mem_cons_self .., o, ho, ha⟩)

/-- Only help and version end the program with exit status 0 while options are read. -/
theorem parse_error_status {extra top sub : List OptSpec} {desc : Desc} (ht : mkParser [] desc = .ok top) (hs : mkParser extra desc = .ok sub)
    (hn : ∀ o ∈ extra, o.flags.Nodup) (hq : ∀ o ∈ extra, o.action ≠ .quit) {fresh : Bool} {before after : List Given} {e : Exc}
    (h : parseCommandLine fresh top sub before after = .error e) :
    (uncaught e).status = 0 → ∃ flag ∈ ["--help", "--version"], IsGiven top flag before ∨ IsGiven sub flag after := by
  obtain ⟨et, hft⟩ := mkParser_ok ht
  obtain ⟨es, hfs⟩ := mkParser_ok hs
  have key : ∀ {ex opts : List OptSpec} {l : List Given} {n : ArgSpace}, mkParser ex desc = .ok opts → (∀ o ∈ ex, o.flags.Nodup) →
      (∀ o ∈ ex, o.action ≠ .quit) → l.foldlM (takeGiven opts) n = .error e → (uncaught e).status = 0 →
      ∃ flag ∈ ["--help", "--version"], IsGiven opts flag l := by
    intro ex opts l n hp hn hq hf h0
    obtain ⟨eo, hfo⟩ := mkParser_ok hp
    rcases fold_error l hf with rfl | rfl | ⟨rfl, g, hg, o, ho, ha⟩
    · simp [uncaught, Ending.status] at h0
    · simp [uncaught, Ending.status] at h0
    · have hm := findOption_mem ho
      have hgl : o ∈ globalOptions := by
        rw [eo, List.mem_append, List.mem_append] at hm
        rcases hm with (hm | hm) | hm
        · exact absurd ha (hq o hm)
        · obtain ⟨i, _, rfl⟩ := List.mem_map.1 hm
          rw [action_eq] at ha
          split at ha <;> simp at ha
        · exact hm
      obtain ⟨flag, h1, h2⟩ : ∃ flag ∈ ["--help", "--version"], flag ∈ o.flags := by
        have all : ∀ o ∈ globalOptions, o.action = .quit → ∃ flag ∈ ["--help", "--version"], flag ∈ o.flags := by decide
        exact all o hgl ha
      exact ⟨flag, h1, g, hg, (means_iff hfo (parser_nodup hp hn) hm h2).2 ho⟩
  intro h0
  unfold parseCommandLine at h
  cases h1 : parseInto top [] before with
  | error e1 =>
    rw [h1] at h
    have : e1 = e := by injection h
    subst this
    obtain ⟨flag, hfl, hg⟩ := key ht (by simp) (by simp) h1 h0
    exact ⟨flag, hfl, .inl hg⟩
  | ok n0 =>
    rw [h1] at h
    have h : (if fresh = true then parseInto sub [] after >>= fun ns' => pure (dupdate n0 ns') else parseInto sub n0 after) = .error e := h
    cases fresh with
    | true =>
      rw [if_pos rfl] at h
      rcases Except_bind_err.1 h with h | ⟨a, _, h⟩
      · obtain ⟨flag, hfl, hg⟩ := key hs hn hq h h0
        exact ⟨flag, hfl, .inr hg⟩
      · cases h
    | false =>
      obtain ⟨flag, hfl, hg⟩ := key hs hn hq h h0
      exact ⟨flag, hfl, .inr hg⟩

/-! ## Up to the command -/

theorem reached_ok {env : StartEnv} {desc : Desc} {fresh : Bool} {top sub : List OptSpec} {positional : Except Exc Unit} {p p' : Process}
    {before after : List Given} {ns : ArgSpace} :
    reached env desc fresh top sub positional p before after = .ok (p', ns) ↔ parseCommandLine fresh top sub before after = .ok ns ∧
      positional = .ok () ∧ switchOn ns "print_config" = false ∧
      ∃ c, effectiveConfig env desc ns = .ok c ∧ p' = { handleSwitches env ns p with config := c } := by
  unfold reached
  constructor
  · intro h
    obtain ⟨ns', h1, h⟩ := Except_bind_ok.1 h
    obtain ⟨_, h2, h⟩ := Except_bind_ok.1 h
    obtain ⟨c, h3, h⟩ := Except_bind_ok.1 h
    have h := pure_ok.1 h
    injection h with e1 e2
    subst e1 e2
    refine ⟨h1, h2, ?_⟩
    cases he : effectiveConfig env desc ns' with
    | error e => rw [handle_error he] at h3; simp at h3
    | ok c' =>
      rw [handle_ok he] at h3
      split at h3
      · simp at h3
      · rename_i hp
        injection h3 with h3; subst h3
        exact ⟨by simpa using hp, c', rfl, rfl⟩
  · rintro ⟨h1, h2, h3, c, h4, rfl⟩
    rw [h1, h2]
    show (handleConfigArguments env desc (handleSwitches env ns p) ns).res >>= _ = _
    rw [handle_ok h4, h3]
    rfl

theorem mainWith_reached {env : StartEnv} {desc : Desc} {text : Bool → Exc → List Char} {fresh : Bool} {top sub : List OptSpec}
    {positional : Except Exc Unit} {p p' : Process} {before after : List Given} {ns : ArgSpace}
    (h : reached env desc fresh top sub positional p before after = .ok (p', ns)) (func : Process → ArgSpace → Run (Option Int)) :
    mainWith env desc text fresh top sub positional func p before after = (p', mainTry p'.color p'.debug text (func p' ns)) := by
  obtain ⟨h1, h2, h3, c, h4, rfl⟩ := reached_ok.1 h
  unfold mainWith
  rw [h1, h2]
  show mainParsed env desc text func p ns = _
  unfold mainParsed
  simp only [handle_ok h4, h3, Bool.false_eq_true, if_false, List.nil_append]

theorem mainWith_not_reached {env : StartEnv} {desc : Desc} {text : Bool → Exc → List Char} {fresh : Bool} {top sub : List OptSpec}
    {positional : Except Exc Unit} {p : Process} {before after : List Given} {e : Exc}
    (h : reached env desc fresh top sub positional p before after = .error e) (func : Process → ArgSpace → Run (Option Int)) :
    (mainWith env desc text fresh top sub positional func p before after).2.ending = uncaught e := by
  unfold reached at h
  unfold mainWith
  cases h1 : parseCommandLine fresh top sub before after with
  | error e1 => rw [h1] at h; injection h with h; subst h; rfl
  | ok ns =>
    rw [h1] at h
    cases h2 : positional with
    | error e2 => rw [h2] at h; injection h with h; subst h; rfl
    | ok u =>
      cases u
      rw [h2] at h
      have h : ((handleConfigArguments env desc (handleSwitches env ns p) ns).res >>= fun c =>
        pure ({ handleSwitches env ns p with config := c }, ns)) = Except.error e := h
      show (mainParsed env desc text func p ns).2.ending = _
      unfold mainParsed
      rcases hr : handleConfigArguments env desc (handleSwitches env ns p) ns with ⟨lines, e' | c⟩
      · rw [hr] at h
        injection h with h
        subst h
        simp only [hr]
      · rw [hr] at h
        cases h

end Verif
