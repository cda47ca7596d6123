import Verif.Props.SetupBuiltin
/-! # Disabling the builtin plugins (C43), and the options of the builtin installers (C77) -/
namespace Verif
variable {α σ : Type}

/-- Entry points with distinct valid names: those that are not disabled are loaded, in their order. -/
theorem load_enabled {uni : Char → Bool} {disabled : List PVal} (l : List (String × α)) (hn : (l.map Prod.fst).Nodup)
    (hv : ∀ x ∈ l, PluginName uni x.1) :
    ∃ s, loadPlugins uni disabled (l.map fun x => builtinEntry x.1 x.1 x.2) = .ok s ∧ s.loaded.Sublist l ∧
      ∀ x, x ∈ s.loaded ↔ x ∈ l ∧ PVal.str x.1 ∉ disabled := by
  have key : ∀ (l : List (String × α)) (s : LoadState α), ((s.loaded ++ l).map Prod.fst).Nodup → (∀ x ∈ l, PluginName uni x.1) →
      ∃ s', (l.map fun x => builtinEntry x.1 x.1 x.2).foldlM (loadStep uni disabled) s = .ok s' ∧
        ∃ more, s'.loaded = s.loaded ++ more ∧ more.Sublist l ∧ ∀ x, x ∈ more ↔ x ∈ l ∧ PVal.str x.1 ∉ disabled := by
    intro l
    induction l with
    | nil => intro s _ _; exact ⟨s, rfl, [], by simp, List.Sublist.refl _, by simp⟩
    | cons x t ih =>
      intro s hn hv
      have hharm : Harmless disabled (builtinEntry x.1 x.1 x.2 : EntryPoint α) :=
        ⟨_, rfl, .inr ⟨x.1, _, ⟨"", rfl, rfl, rfl⟩, .inr ⟨_, _, rfl⟩⟩⟩
      have hnew : x.1 ∉ s.loaded.map Prod.fst := by
        rw [List.map_append, List.map_cons] at hn
        have := (List.nodup_append.1 hn).2.2
        intro hmem
        exact this _ hmem _ (by simp) rfl
      obtain ⟨r, hr, hc⟩ := loadStep_harmless (uni := uni) s hharm
      rcases hc with ⟨pn, n, a, rfl, hp, hs⟩ | ⟨hno, hs⟩
      · have hna : n = x.1 ∧ a = x.2 ∧ PVal.str x.1 ∉ disabled := by
          obtain ⟨d, t', g1, g2, -, g4, g5, -⟩ := hp
          cases g1
          simp at g4 g2
          subst g2
          exact ⟨g4.1.symm, g4.2.symm, g5⟩
        obtain ⟨rfl, rfl, hd⟩ := hna
        obtain ⟨s', h1, more, h2, h3, h4⟩ := ih ⟨s.loaded ++ [(x.1, x.2)], s.reports ++ [.loaded (.str pn) x.1]⟩ (by simpa using hn)
          (fun y hy => hv y (List.mem_cons_of_mem _ hy))
        refine ⟨s', ?_, x :: more, by simpa using h2, h3.cons_cons x, fun y => ?_⟩
        · rw [List.map_cons, List.foldlM_cons, hs]
          exact h1
        · rw [List.mem_cons, List.mem_cons, h4]
          constructor
          · rintro (rfl | h)
            · exact ⟨.inl rfl, hd⟩
            · exact ⟨.inr h.1, h.2⟩
          · rintro ⟨rfl | h, h'⟩
            · exact .inl rfl
            · exact .inr ⟨h, h'⟩
      · have hd : PVal.str x.1 ∈ disabled := Classical.byContradiction fun hd =>
          hnew (hno x.1 x.1 x.2 ⟨_, "", rfl, rfl, rfl, rfl, hd, hv x (by simp)⟩)
        obtain ⟨s', h1, more, h2, h3, h4⟩ := ih ⟨s.loaded, s.reports ++ [r]⟩
          (by
            refine hn.sublist ?_
            exact (List.Sublist.append (List.Sublist.refl _) (List.sublist_cons_self x t)).map _)
          (fun y hy => hv y (List.mem_cons_of_mem _ hy))
        refine ⟨s', ?_, more, h2, h3.cons x, fun y => ?_⟩
        · rw [List.map_cons, List.foldlM_cons, hs]
          exact h1
        · rw [h4, List.mem_cons]
          constructor
          · rintro ⟨h, h'⟩; exact ⟨.inr h, h'⟩
          · rintro ⟨rfl | h, h'⟩
            · exact absurd hd h'
            · exact ⟨h, h'⟩
  obtain ⟨s, h1, more, h2, h3, h4⟩ := key l ⟨[], []⟩ (by simpa using hn) hv
  simp only [List.nil_append] at h2
  subst h2
  exact ⟨s, h1, h3, h4⟩

/-- The chosen os is one of the plugins. -/
theorem chosen_mem {plugins : List OsPlugin} {v : OverrideVal} {c : CurrentOs} (h : chooseOs plugins v = .ok c) : c.plugin ∈ plugins := by
  cases v with
  | none =>
    unfold chooseOs at h
    cases hd : detected plugins with
    | error e => rw [(C44_sets_current ⟨plugins, none⟩).2 e hd] at h; simp at h
    | ok p =>
      rw [(C44_sets_current ⟨plugins, none⟩).1 p hd] at h
      have hm : p ∈ plugins := by
        rw [detected_eq] at hd
        cases hl : detectLoop none plugins with
        | error e => rw [hl] at hd; simp at hd
        | ok r =>
          rw [hl] at hd
          have key : ∀ (l : List OsPlugin) (r r' : Option OsPlugin), detectLoop r l = .ok r' → ∀ p, r' = some p → r = some p ∨ p ∈ l := by
            intro l
            induction l with
            | nil => intro r r' h p hp; simp [detectLoop] at h; subst h; exact .inl hp
            | cons q t ih =>
              intro r r' h p hp
              unfold detectLoop at h
              split at h
              · simp at h
              · exact (ih _ _ h p hp).imp id (List.mem_cons_of_mem _)
              · split at h
                · rcases ih _ _ h p hp with h' | h'
                  · injection h' with h'; subst h'; exact .inr (by simp)
                  · exact .inr (List.mem_cons_of_mem _ h')
                · rename_i r0
                  rcases ih _ _ h p hp with h' | h'
                  · injection h' with h'
                    have : moreSpecific r0 q = r0 ∨ moreSpecific r0 q = q := by unfold moreSpecific; split <;> [exact .inl rfl; (split <;> [exact .inr rfl; exact .inl rfl])]
                    rcases this with e | e
                    · exact .inl (by rw [← h', e])
                    · exact .inr (by rw [← h', e]; simp)
                  · exact .inr (List.mem_cons_of_mem _ h')
          cases r with
          | none => simp at hd
          | some q =>
            simp at hd; subst hd
            exact ((key _ _ _ hl q rfl).resolve_left (by simp))
      simp only [currentOs] at h
      obtain ⟨a, ha, h⟩ := Except_bind_ok.1 h
      obtain ⟨t, ht, h⟩ := Except_bind_ok.1 h
      simp at ha
      have := pure_ok.1 h
      subst ha; subst this
      exact hm
  | text s => simp [chooseOs] at h
  | pair name version =>
    unfold chooseOs overrideOs at h
    simp only at h
    cases hl : lookupOs plugins name with
    | none => rw [hl] at h; simp at h
    | some p =>
      rw [hl] at h
      have hm : p ∈ plugins := List.mem_of_find?_eq_some hl
      cases hv : mkOverride p version with
      | error e => simp only [hv] at h; cases h
      | ok c' =>
        simp only [hv] at h
        have e1 : c' = c := by
          simp [currentOs, bind, Except.bind, pure, Except.pure] at h
          exact h
        subst e1
        have : c'.plugin = p := by
          unfold mkOverride at hv
          split at hv
          · obtain ⟨w, _, hw⟩ := Except_bind_ok.1 hv
            rw [← pure_ok.1 hw]; rfl
          · split at hv
            · injection hv with hv; rw [← hv]; rfl
            · simp at hv
        rw [this]; exact hm

/-- **C43** Disabling builtin plugins by name, as the installer context sees it: the installers set up are exactly the builtin ones whose names are not
among the disabled installer plugins (in their order, each with its options), and the os is one whose plugin is not disabled; a name disabled for the
one kind does not disable a plugin of the other kind. -/
theorem C43_disabled_builtins (uni : Char → Bool) (expand : String → String) (s : Settings) (p : Platform) (h : Host σ) (fakeDir : String)
    (r : InstallerSetup σ) (hr : installerContext uni expand s (builtinOsEntries p) (builtinInstallerEntries h fakeDir) = .ok r) :
    (∃ enabled : List (InstallerPlugin σ), enabled.Sublist (builtinInstallers h fakeDir) ∧
      (∀ q ∈ builtinInstallers h fakeDir, q ∈ enabled ↔ PVal.str q.name ∉ s.disabledInstallers) ∧
      List.Forall₂ (fun q i => ∃ v, GivenOptions s.installerOptions q.name v ∧ q.configure v = .ok i) enabled r.plugins) ∧
    ∃ o ∈ builtinPlugins p, PVal.str o.name ∉ s.disabledOs ∧ r.osTuple.1 = o.name := by
  have hos : (builtinPlugins p).map OsPlugin.name = ["debian", "ubuntu", "xubuntu", "osx"] := rfl
  have hin : (builtinInstallers h fakeDir).map InstallerPlugin.name = builtinNames := rfl
  obtain ⟨s1, a1, a2, a3⟩ := load_enabled (uni := uni) (disabled := s.disabledOs) ((builtinPlugins p).map fun o => (o.name, o))
    (by rw [List.map_map]; exact (show ((builtinPlugins p).map OsPlugin.name).Nodup from by rw [hos]; decide))
    (by
      intro x hx
      obtain ⟨o, ho, rfl⟩ := List.mem_map.1 hx
      have := List.mem_map_of_mem (f := OsPlugin.name) ho
      rw [hos] at this
      exact builtin_names_valid uni _ (by simp at this ⊢; tauto))
  obtain ⟨s2, b1, b2, b3⟩ := load_enabled (uni := uni) (disabled := s.disabledInstallers) ((builtinInstallers h fakeDir).map fun o => (o.name, o))
    (by rw [List.map_map]; exact (show ((builtinInstallers h fakeDir).map InstallerPlugin.name).Nodup from by rw [hin]; decide))
    (by
      intro x hx
      obtain ⟨o, ho, rfl⟩ := List.mem_map.1 hx
      have := List.mem_map_of_mem (f := InstallerPlugin.name) ho
      rw [hin] at this
      exact builtin_names_valid uni _ (by simp [builtinNames] at this ⊢; tauto))
  rw [List.map_map] at a1 b1
  have e1 : builtinOsEntries p = List.map ((fun x => builtinEntry x.1 x.1 x.2) ∘ fun o => (o.name, o)) (builtinPlugins p) := rfl
  have e2 : builtinInstallerEntries h fakeDir =
    List.map ((fun x => builtinEntry x.1 x.1 x.2) ∘ fun o => (o.name, o)) (builtinInstallers h fakeDir) := rfl
  unfold installerContext at hr
  rw [e1, e2] at hr
  simp only [a1, b1, bind, Except.bind] at hr
  cases hc : setupOs expand (s1.loaded.map Prod.snd) s.override s.osOptions with
  | error e => rw [hc] at hr; cases hr
  | ok os =>
    rw [hc] at hr
    simp only at hr
    obtain ⟨c1, c2, -⟩ := C42_installers s os _ r hr
    refine ⟨⟨_, ?_, ?_, c2⟩, ?_⟩
    · have := b2.map Prod.snd
      rw [List.map_map] at this
      simpa [Function.comp_def] using this
    · intro q hq
      rw [List.mem_map]
      constructor
      · rintro ⟨x, hx, rfl⟩
        obtain ⟨g1, g2⟩ := (b3 x).1 hx
        obtain ⟨o, -, rfl⟩ := List.mem_map.1 g1
        exact g2
      · intro hd
        exact ⟨(q.name, q), (b3 _).2 ⟨List.mem_map.2 ⟨q, hq, rfl⟩, hd⟩, rfl⟩
    · have hm : os.os.plugin ∈ s1.loaded.map Prod.snd := by
        unfold setupOs at hc
        obtain ⟨c, g1, hc⟩ := Except_bind_ok.1 hc
        obtain ⟨o, g2, hc⟩ := Except_bind_ok.1 hc
        have := pure_ok.1 hc
        subst this
        exact chosen_mem g1
      obtain ⟨x, hx, hx'⟩ := List.mem_map.1 hm
      obtain ⟨g1, g2⟩ := (a3 x).1 hx
      obtain ⟨o, ho, rfl⟩ := List.mem_map.1 g1
      refine ⟨o, ho, g2, ?_⟩
      unfold CurrentOs.getTuple at c1
      obtain ⟨v, -, c1⟩ := Except_bind_ok.1 c1
      have := pure_ok.1 c1
      rw [← this]
      simp only at hx' ⊢
      rw [← hx']

/-- Non-vacuity: with pip and the Debian os disabled, the context still comes up, without pip. -/
example : (installerContext (fun _ => false) id { disabledInstallers := [.str "pip", .str "ubuntu"], disabledOs := [.str "debian", .str "apt"] }
      (builtinOsEntries exUbuntu) (builtinInstallerEntries exHost "/f")).toOption.map
    (fun r => (r.osTuple, r.plugins.map Installer.name, r.context.core.map Installer.name)) =
    some (("ubuntu", "trusty"), ["fake", "apt", "homebrew", "macports"], ["apt"]) := by decide +kernel

end Verif
