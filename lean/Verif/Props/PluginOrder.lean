import Verif.Spec.PluginOrder
import Verif.Props.Uninstalled
import Verif.Props.Resolve
import Mathlib.Data.List.Perm.Basic
namespace Verif
variable {α σ : Type}

/-! ## Loading -/

theorem provides_det {uni : Char → Bool} {disabled : List PVal} {ep : EntryPoint α} {pn pn' n n' : String} {a a' : α}
    (h : Provides uni disabled ep pn n a) (h' : Provides uni disabled ep pn' n' a') : n = n' ∧ a = a' := by
  obtain ⟨d, t, h1, _, _, h4, _⟩ := h
  obtain ⟨d', t', g1, _, _, g4, _⟩ := h'
  rw [h1] at g1
  cases g1
  rw [h4] at g4
  injection g4 with g4
  injection g4 with g4
  injection g4 with g4
  injection g4 with g4 g5
  injection g4 with g4
  injection g4 with g4
  exact ⟨g4, g5⟩

theorem distinct_same {uni : Char → Bool} {disabled : List PVal} {eps : List (EntryPoint α)} (h : DistinctNames uni disabled eps) {ep ep' : EntryPoint α}
    (he : ep ∈ eps) (he' : ep' ∈ eps) {pn pn' n : String} {a a' : α} (hp : Provides uni disabled ep pn n a) (hp' : Provides uni disabled ep' pn' n a') :
    a = a' := by
  induction eps with
  | nil => cases he
  | cons x t ih =>
    obtain ⟨h1, h2⟩ := List.pairwise_cons.1 h
    rcases List.mem_cons.1 he with e | m
    · rcases List.mem_cons.1 he' with e' | m'
      · subst e; subst e'; exact (provides_det hp hp').2
      · subst e; exact absurd hp' (h1 _ m' _ _ _ _ _ hp)
    · rcases List.mem_cons.1 he' with e' | m'
      · subst e'; exact absurd hp (h1 _ m _ _ _ _ _ hp')
      · exact ih h2 m m'

theorem DistinctNames.perm {uni : Char → Bool} {disabled : List PVal} {eps eps' : List (EntryPoint α)} (h : DistinctNames uni disabled eps)
    (hp : eps.Perm eps') : DistinctNames uni disabled eps' :=
  hp.pairwise h fun {_ _} hxy pn pn' n a a' h1 h2 => hxy pn' pn n a' a h2 h1

/-- What is loaded are the plugins that are provided. -/
theorem loaded_mem {uni : Char → Bool} {disabled : List PVal} {eps : List (EntryPoint α)} (h : DistinctNames uni disabled eps) {s : LoadState α}
    (hs : loadPlugins uni disabled eps = .ok s) (x : String × α) : x ∈ s.loaded ↔ ∃ ep ∈ eps, ∃ pn, Provides uni disabled ep pn x.1 x.2 := by
  obtain ⟨h1, ⟨idx, -, h2⟩, h3, -⟩ := C43_loaded uni disabled eps s hs
  constructor
  · intro hx
    obtain ⟨k, -, ⟨ep, pn, he, hp⟩, -⟩ := forall₂_mem_left h2 hx
    exact ⟨ep, List.mem_of_getElem? he, pn, hp⟩
  · rintro ⟨ep, he, pn, hp⟩
    obtain ⟨y, hy, hn⟩ := List.mem_map.1 (h3 ep he pn x.1 x.2 hp)
    obtain ⟨k, -, ⟨ep', pn', he', hp'⟩, -⟩ := forall₂_mem_left h2 hy
    obtain ⟨n, a⟩ := x
    obtain ⟨n', a'⟩ := y
    simp only at hn hp hp'
    subst hn
    rw [distinct_same h he (List.mem_of_getElem? he') hp hp']
    exact hy

theorem load_perm {uni : Char → Bool} {disabled : List PVal} {eps eps' : List (EntryPoint α)} (h : DistinctNames uni disabled eps) (hp : eps.Perm eps')
    {s : LoadState α} (hs : loadPlugins uni disabled eps = .ok s) : ∃ s', loadPlugins uni disabled eps' = .ok s' ∧ s.loaded.Perm s'.loaded := by
  obtain ⟨s', hs'⟩ := (C43_succeeds_iff_partial uni disabled eps').2 fun ep he => (C43_succeeds_iff_partial uni disabled eps).1 ⟨s, hs⟩ ep (hp.mem_iff.2 he)
  refine ⟨s', hs', (List.perm_ext_iff_of_nodup ?_ ?_).2 fun x => ?_⟩
  · exact List.Nodup.of_map _ (C43_loaded _ _ _ _ hs).1
  · exact List.Nodup.of_map _ (C43_loaded _ _ _ _ hs').1
  · rw [loaded_mem h hs, loaded_mem (h.perm hp) hs']
    simp only [hp.mem_iff]

theorem find_perm {β : Type} [BEq β] [LawfulBEq β] {f : α → β} {l l' : List α} (h : l.Perm l') (hn : (l.map f).Nodup) (b : β) :
    l.find? (fun x => f x == b) = l'.find? (fun x => f x == b) := by
  have hn' : (l'.map f).Nodup := (h.map f).nodup_iff.1 hn
  have inj : ∀ {m : List α}, (m.map f).Nodup → ∀ x ∈ m, ∀ y ∈ m, f x = f y → x = y := fun hm x hx y hy e => List.inj_on_of_nodup_map hm hx hy e
  cases h1 : l.find? (fun x => f x == b) with
  | none =>
    symm
    rw [List.find?_eq_none] at h1 ⊢
    exact fun x hx => h1 x (h.mem_iff.2 hx)
  | some x =>
    have hx := List.mem_of_find?_eq_some h1
    have hb : f x = b := by simpa using List.find?_some h1
    cases h2 : l'.find? (fun x => f x == b) with
    | none =>
      rw [List.find?_eq_none] at h2
      exact absurd (by simpa using hb) (h2 x (h.mem_iff.1 hx))
    | some y =>
      have hy := List.mem_of_find?_eq_some h2
      have hb' : f y = b := by simpa using List.find?_some h2
      rw [inj hn' x (h.mem_iff.1 hx) y hy (by rw [hb, hb'])]

/-! ## The os -/

theorem chooseOs_perm {l l' : List OsPlugin} (h : l.Perm l') (hn : (l.map OsPlugin.name).Nodup) {v : OverrideVal}
    (hd : v = .none → ∃ d ∈ l, Detects d ∧ ∀ p ∈ l, Detects p → p ≠ d → p.name ∈ d.allNames ∧ d.name ∉ p.allNames) {c : CurrentOs}
    (hc : chooseOs l v = .ok c) : chooseOs l' v = .ok c := by
  cases v with
  | text s => exact hc
  | pair name version =>
    have hl : lookupOs l' name = lookupOs l name := (find_perm h hn name).symm
    unfold chooseOs overrideOs at hc ⊢
    simp only [hl] at hc ⊢
    cases h1 : lookupOs l name with
    | none => rw [h1] at hc; simp at hc
    | some p =>
      simp only [h1] at hc ⊢
      cases h2 : mkOverride p version with
      | error e => simp only [h2] at hc; simp at hc
      | ok c' => simp only [h2] at hc ⊢; exact hc
  | none =>
    obtain ⟨d, h1, h2, h3⟩ := hd rfl
    have tot : ∀ p ∈ l, ∃ b, p.isOs = .ok b := by
      intro p hp
      by_cases hall : ∀ p ∈ l, ∃ b, p.isOs = .ok b
      · exact hall p hp
      · exfalso
        have : ∀ (m : List OsPlugin) (r : Option OsPlugin), (¬ ∀ p ∈ m, ∃ b, p.isOs = .ok b) → ∃ e, detectLoop r m = .error e := by
          intro m
          induction m with
          | nil => intro r hm; simp at hm
          | cons q t ih =>
            intro r hm
            rw [detectLoop_cons]
            cases hq : q.isOs with
            | error e => exact ⟨e, rfl⟩
            | ok b =>
              have ht : ¬ ∀ p ∈ t, ∃ b, p.isOs = .ok b := fun ht => hm fun p hp => by
                rcases List.mem_cons.1 hp with rfl | hp
                · exact ⟨b, hq⟩
                · exact ht p hp
              cases b with
              | false => exact ih _ ht
              | true => exact ih _ ht
        obtain ⟨e, he⟩ := this l none hall
        unfold chooseOs detectOs at hc
        simp only [he] at hc
        simp at hc
    have g1 := C44_most_specific l tot d h1 h2 h3
    have g2 := C44_most_specific l' (fun p hp => tot p (h.mem_iff.2 hp)) d (h.mem_iff.1 h1) h2 fun p hp => h3 p (h.mem_iff.2 hp)
    unfold chooseOs at hc ⊢
    simp only [(C44_sets_current ⟨l, none⟩).1 d g1] at hc
    simp only [(C44_sets_current ⟨l', none⟩).1 d g2]
    exact hc

/-! ## The installers -/

theorem mapM_perm {β : Type} {f : α → Except Exc β} {l l' : List α} (h : l.Perm l') {r : List β} (hr : l.mapM f = .ok r) :
    ∃ r', l'.mapM f = .ok r' ∧ r.Perm r' := by
  obtain ⟨w, h1, h2⟩ := List.perm_comp_forall₂ h.symm (mapM_ok_iff.1 hr)
  exact ⟨w, mapM_ok_iff.2 h1, h2.symm⟩

theorem core_same {insts insts' : List (Installer σ)} (h : insts.Perm insts') (hn : (insts.map Installer.name).Nodup) {names missing : List String}
    {core : List (Installer σ × Nat)} (hc : CoreOf insts names core missing) :
    ∀ {missing' : List String} {core' : List (Installer σ × Nat)}, CoreOf insts' names core' missing' →
      missing = missing' ∧ core.map Prod.fst = core'.map Prod.fst := by
  induction hc with
  | nil => intro m c hc'; cases hc'; exact ⟨rfl, rfl⟩
  | found h1 h2 h3 h4 ih =>
    intro m c hc'
    cases hc' with
    | found g1 g2 g3 g4 =>
      obtain ⟨e1, e2⟩ := ih g4
      have : _ = _ := List.inj_on_of_nodup_map hn (List.mem_of_getElem? h1) (h.mem_iff.2 (List.mem_of_getElem? g1)) (h2.trans g2.symm)
      subst this
      exact ⟨e1, by simp only [List.map_cons, e2]⟩
    | missing g1 g2 => exact absurd h2 (g1 _ (h.mem_iff.1 (List.mem_of_getElem? h1)))
  | missing h1 h2 ih =>
    intro m c hc'
    cases hc' with
    | found g1 g2 g3 g4 => exact absurd g2 (h1 _ (h.mem_iff.2 (List.mem_of_getElem? g1)))
    | missing g1 g2 =>
      obtain ⟨e1, e2⟩ := ih g2
      exact ⟨by rw [e1], e2⟩

theorem core_named {insts : List (Installer σ)} (hn : (insts.map Installer.name).Nodup) {names missing : List String}
    {core : List (Installer σ × Nat)} (hc : CoreOf insts names core missing) {i : Installer σ} {k : Nat} (hi : insts[k]? = some i) :
    k ∈ core.map Prod.snd ↔ i.name ∈ names := by
  induction hc with
  | nil => simp
  | @found n i0 k0 ns core missing h1 h2 h3 h4 ih =>
    rw [List.map_cons, List.mem_cons, List.mem_cons, ih]
    constructor
    · rintro (e | e)
      · simp only at e
        subst e
        rw [h1] at hi
        cases hi
        exact .inl h2
      · exact .inr e
    · rintro (e | e)
      · left
        obtain ⟨q1, q2⟩ := List.getElem?_eq_some_iff.1 hi
        obtain ⟨q3, q4⟩ := List.getElem?_eq_some_iff.1 h1
        refine (hn.getElem_inj_iff (hi := by simpa using q1) (hj := by simpa using q3)).1 ?_
        simp only [List.getElem_map, q2, q4, e, h2]
      · exact .inr e
  | missing h1 h2 ih =>
    rw [List.mem_cons, ih]
    constructor
    · exact .inr
    · rintro (e | e)
      · exact absurd e (h1 _ (List.mem_of_getElem? hi))
      · exact e

theorem setup_perm {s : Settings} {os : OsSetup} {plugins plugins' : List (InstallerPlugin σ)} (h : plugins.Perm plugins') {r : InstallerSetup σ}
    (hr : setupInstallers s os plugins = .ok r) (hn : (r.plugins.map Installer.name).Nodup) :
    ∃ r', setupInstallers s os plugins' = .ok r' ∧ r'.osTuple = r.osTuple ∧ r.plugins.Perm r'.plugins ∧
      r'.context.core = r.context.core ∧ r'.notFound = r.notFound ∧ r.context.additional.Perm r'.context.additional := by
  obtain ⟨h1, h2, ⟨names, h3, h4⟩, h5⟩ := setupInstallers_ok.1 hr
  obtain ⟨insts, g2, g3⟩ := mapM_perm h h2
  have hn' : (insts.map Installer.name).Nodup := (g3.map _).nodup_iff.1 hn
  have hc : CoreOf r.plugins names r.core r.notFound := by
    obtain ⟨core, missing, q1, q2⟩ := coreStep_fold r.plugins names ([], [])
    rw [h4] at q1
    simp only [List.nil_append] at q1
    injection q1 with q1 q3
    subst q1 q3
    exact q2
  obtain ⟨core, missing, q1, hc'⟩ := coreStep_fold insts names ([], [])
  simp only [List.nil_append] at q1
  obtain ⟨e1, e2⟩ := core_same g3 hn hc hc'
  have pos : ∀ {l l' : List (Installer σ)} (p : l.Perm l') {i : Installer σ}, i ∈ l → ∃ k : Nat, l'[k]? = some i := by
    intro l l' p i hi
    obtain ⟨k, hk, e⟩ := List.mem_iff_getElem.1 (p.mem_iff.1 hi)
    exact ⟨k, by rw [List.getElem?_eq_getElem hk, e]⟩
  cases hu : s.useAdditional with
  | false =>
    rw [hu] at h5
    simp only [additionalInstallers] at h5
    have h5 : r.additional = [] := by simpa using h5.symm
    refine ⟨⟨insts, core, [], missing, r.osTuple⟩, setupInstallers_ok.2 ⟨h1, g2, ⟨names, h3, q1⟩, by rw [hu]; rfl⟩, rfl, g3, e2.symm, e1.symm, ?_⟩
    show (r.additional.map Prod.fst).Perm []
    rw [h5]
    exact .nil
  | true =>
    rw [hu, additionalInstallers, if_pos rfl] at h5
    obtain ⟨f, f1, f2⟩ := filterE_ok_iff.1 h5
    have hf : ∀ i ∈ r.plugins, i.name ∉ names → ∃ b, i.useAsAdditional r.osTuple = .ok b := by
      intro i hi hni
      obtain ⟨k, hk⟩ := pos (.refl _) hi
      have := f1 (i, k) (by rw [List.mem_zipIdx_iff_getElem?]; exact hk)
      unfold isAdditional at this
      rw [if_neg (fun hx => hni ((core_named hn hc hk).1 (by simpa using hx)))] at this
      exact ⟨_, this⟩
    have ok' : ∃ a, additionalInstallers true (core.map Prod.snd) r.osTuple insts = .ok a := by
      rw [additionalInstallers, if_pos rfl]
      refine ⟨_, filterE_ok_iff.2 ⟨fun x => match isAdditional (core.map Prod.snd) r.osTuple x with | .ok b => b | .error _ => false, ?_, rfl⟩⟩
      rintro ⟨i, k⟩ hik
      rw [List.mem_zipIdx_iff_getElem?] at hik
      simp only at hik
      have : ∃ b, isAdditional (core.map Prod.snd) r.osTuple (i, k) = .ok b := by
        unfold isAdditional
        split
        · exact ⟨_, rfl⟩
        · rename_i hx
          exact hf i (g3.mem_iff.2 (List.mem_of_getElem? hik)) fun hx' => hx (by simpa using (core_named hn' hc' hik).2 hx')
      obtain ⟨b, hb⟩ := this
      simp only [hb]
    obtain ⟨a, ha⟩ := ok'
    have hr' : setupInstallers s os plugins' = .ok ⟨insts, core, a, missing, r.osTuple⟩ :=
      setupInstallers_ok.2 ⟨h1, g2, ⟨names, h3, q1⟩, by rw [hu]; exact ha⟩
    refine ⟨_, hr', rfl, g3, e2.symm, e1.symm, ?_⟩
    have mem : ∀ {r : InstallerSetup σ} {pl : List (InstallerPlugin σ)}, setupInstallers s os pl = .ok r → (r.plugins.map Installer.name).Nodup →
        CoreOf r.plugins names r.core r.notFound → (r.additional.map Prod.fst).Nodup ∧
        ∀ i, i ∈ r.additional.map Prod.fst ↔ i ∈ r.plugins ∧ i.name ∉ names ∧ i.useAsAdditional r.osTuple = .ok true := by
      intro r pl hr hn hc
      obtain ⟨-, -, -, -, c5⟩ := C42_installers s os pl r hr
      obtain ⟨c5, c6⟩ := c5 hu
      constructor
      · obtain ⟨-, -, -, k5⟩ := setupInstallers_ok.1 hr
        rw [hu, additionalInstallers, if_pos rfl] at k5
        obtain ⟨f, -, f2⟩ := filterE_ok_iff.1 k5
        rw [f2]
        refine List.Nodup.sublist (List.Sublist.map _ List.filter_sublist) ?_
        rw [List.zipIdx_map_fst]
        exact List.Nodup.of_map _ hn
      · intro i
        rw [List.mem_map]
        constructor
        · rintro ⟨⟨j, k⟩, hx, e⟩
          simp only at e
          subst e
          obtain ⟨k1, k2, k3⟩ := (c6 _ _).1 hx
          exact ⟨List.mem_of_getElem? k1, fun hx => k2 ((core_named hn hc k1).2 hx), k3⟩
        · rintro ⟨k1, k2, k3⟩
          obtain ⟨k, hk⟩ := pos (.refl _) k1
          exact ⟨(i, k), (c6 _ _).2 ⟨hk, fun hx => k2 ((core_named hn hc hk).1 hx), k3⟩, rfl⟩
    obtain ⟨m1, m2⟩ := mem hr hn hc
    obtain ⟨m3, m4⟩ := mem hr' hn' hc'
    refine (List.perm_ext_iff_of_nodup m1 m3).2 fun i => ?_
    rw [m2, m4]
    simp only [g3.mem_iff]

/-! ## The contexts -/

theorem loaded_named {uni : Char → Bool} {disabled : List PVal} {eps : List (EntryPoint α)} (hd : DistinctNames uni disabled eps) {f : α → String}
    {P : String → α → Prop} (h : AllProvided uni disabled eps P) (hP : ∀ n a, P n a → f a = n) {s : LoadState α}
    (hs : loadPlugins uni disabled eps = .ok s) :
    ((s.loaded.map Prod.snd).map f).Nodup ∧ ∀ a ∈ s.loaded.map Prod.snd, ∃ n, P n a := by
  have key : ∀ x ∈ s.loaded, P x.1 x.2 := fun x hx => by
    obtain ⟨ep, he, pn, hp⟩ := (loaded_mem hd hs x).1 hx
    exact h ep he pn _ _ hp
  constructor
  · rw [List.map_map, List.map_congr_left (f := f ∘ Prod.snd) (g := Prod.fst) fun x hx => hP _ _ (key x hx)]
    exact (C43_loaded _ _ _ _ hs).1
  · intro a ha
    obtain ⟨x, hx, rfl⟩ := List.mem_map.1 ha
    exact ⟨x.1, key x hx⟩

theorem override_none {v : PVal} (h : overrideOf v = .ok .none) : v = .none := by
  unfold overrideOf at h
  split at h <;> first | rfl | cases h

theorem order_override {c : Config} {s : Settings} (h : effectiveSettings c = .ok s) (hs : s.override = .none) :
    readOpt c "os_override" = .ok .none := by
  unfold effectiveSettings settingsOf at h
  obtain ⟨o, ho, h⟩ := Except_bind_ok.1 h
  obtain ⟨ov, hov, h⟩ := Except_bind_ok.1 h
  obtain ⟨f, -, h⟩ := Except_bind_ok.1 h
  obtain ⟨a, ha, h⟩ := Except_bind_ok.1 h
  obtain ⟨b, hb, h⟩ := Except_bind_ok.1 h
  obtain ⟨_, -, h⟩ := Except_bind_ok.1 h
  obtain ⟨_, -, h⟩ := Except_bind_ok.1 h
  obtain ⟨_, -, h⟩ := Except_bind_ok.1 h
  have := pure_ok.1 h
  subst this
  simp only at hs
  subst hs
  rw [ho, override_none hov]

section
variable {env : StartEnv} {c : Config} {w : Surroundings σ} {a : List (EntryPoint OsPlugin)} {b : List (EntryPoint (InstallerPlugin σ))}
  {d : List (EntryPoint Spec)}

theorem order_setupOs (h : OrderFree c w) {s : Settings} (hs : effectiveSettings c = .ok s) (ha : w.osEntries.Perm a) {l : LoadState OsPlugin}
    (hl : loadPlugins w.uni s.disabledOs w.osEntries = .ok l) :
    ∃ l', loadPlugins w.uni s.disabledOs a = .ok l' ∧ ∀ os, setupOs env.expand (l.loaded.map Prod.snd) s.override s.osOptions = .ok os →
      setupOs env.expand (l'.loaded.map Prod.snd) s.override s.osOptions = .ok os := by
  obtain ⟨m, hm, hd, hn, ho⟩ := h.os
  rw [(settings_disabled hs).1] at hm
  cases hm
  obtain ⟨l', h1, h2⟩ := load_perm hd ha hl
  refine ⟨l', h1, fun os hos => ?_⟩
  unfold setupOs at hos ⊢
  obtain ⟨cur, hc, hos⟩ := Except_bind_ok.1 hos
  have nd := (loaded_named hd hn (fun _ _ e => e) hl).1
  have := chooseOs_perm (h2.map Prod.snd) nd (fun hv => by
    obtain ⟨q, ep, pn, n, q1, q2, q3, q4⟩ := ho (order_override hs hv)
    have hq := (loaded_mem hd hl (n, q)).2 ⟨ep, q1, pn, q2⟩
    refine ⟨q, List.mem_map.2 ⟨_, hq, rfl⟩, q3, fun p hp => ?_⟩
    obtain ⟨x, hx, rfl⟩ := List.mem_map.1 hp
    obtain ⟨ep', e1, pn', e2⟩ := (loaded_mem hd hl x).1 hx
    exact q4 ep' e1 pn' _ _ e2) hc
  rw [this]
  exact hos

theorem order_os (h : OrderFree c w) (ha : w.osEntries.Perm a) {os : OsSetup} (hos : osFor env w c = .ok os) :
    osFor env { w with osEntries := a, installerEntries := b, specEntries := d } c = .ok os := by
  unfold osFor at hos ⊢
  obtain ⟨s, hs, hos⟩ := Except_bind_ok.1 hos
  obtain ⟨l, hl, hos⟩ := Except_bind_ok.1 hos
  obtain ⟨l', h1, h2⟩ := order_setupOs (env := env) h hs ha hl
  rw [hs]
  show (loadPlugins w.uni s.disabledOs a >>= _) = _
  rw [h1]
  exact h2 os hos

/-- Two installer contexts that may differ in the order of their plugins. -/
structure AlikeSetups (r r' : InstallerSetup σ) : Prop where
  osTuple : r'.osTuple = r.osTuple
  plugins : r.plugins.Perm r'.plugins
  named : (r.plugins.map Installer.name).Nodup
  core : r'.context.core = r.context.core
  notFound : r'.notFound = r.notFound
  additional : r.context.additional.Perm r'.context.additional
  loaded : ∀ i ∈ r.context.additional, i ∈ r.plugins

theorem order_options {c : Config} {s : Settings} (h : effectiveSettings c = .ok s) : readOpt c "installer_options" = .ok (.dict s.installerOptions) := by
  unfold effectiveSettings settingsOf at h
  obtain ⟨o, -, h⟩ := Except_bind_ok.1 h
  obtain ⟨ov, -, h⟩ := Except_bind_ok.1 h
  obtain ⟨f, -, h⟩ := Except_bind_ok.1 h
  obtain ⟨a, -, h⟩ := Except_bind_ok.1 h
  obtain ⟨b, -, h⟩ := Except_bind_ok.1 h
  obtain ⟨_, -, h⟩ := Except_bind_ok.1 h
  obtain ⟨_, -, h⟩ := Except_bind_ok.1 h
  obtain ⟨d, hd, h⟩ := Except_bind_ok.1 h
  obtain ⟨v, hv, hd⟩ := Except_bind_ok.1 hd
  have := pure_ok.1 h
  subst this
  cases v <;> simp [dictValue] at hd
  rw [hv, hd]

theorem names_kept {o : Dict PKey PVal} {pl : List (InstallerPlugin σ)}
    {rs : List (Installer σ)} (h : List.Forall₂ (fun p i => p.configure (optionsFor o p.name) = .ok i) pl rs)
    (hn : ∀ p ∈ pl, ∃ n, p.name = n ∧ ∀ v i, GivenOptions o n v → p.configure v = .ok i → i.name = n) : rs.map Installer.name = pl.map InstallerPlugin.name := by
  induction h with
  | nil => rfl
  | cons q1 _ ih =>
    rw [List.map_cons, List.map_cons, ih fun x hx => hn x (List.mem_cons_of_mem _ hx)]
    obtain ⟨n, e1, e2⟩ := hn _ (List.mem_cons_self ..)
    rw [e2 _ _ (optionsFor_given.2 (by rw [e1])) q1, e1]

theorem order_context (h : OrderFree c w) (ha : w.osEntries.Perm a) (hb : w.installerEntries.Perm b) {r : InstallerSetup σ}
    (hr : contextFor env w c = .ok r) :
    ∃ r', contextFor env { w with osEntries := a, installerEntries := b, specEntries := d } c = .ok r' ∧ AlikeSetups r r' := by
  unfold contextFor at hr ⊢
  obtain ⟨s, hs, hr⟩ := Except_bind_ok.1 hr
  unfold installerContext at hr
  obtain ⟨l, hl, hr⟩ := Except_bind_ok.1 hr
  obtain ⟨os, hos, hr⟩ := Except_bind_ok.1 hr
  obtain ⟨m, hm, hr⟩ := Except_bind_ok.1 hr
  obtain ⟨l', h1, h2⟩ := order_setupOs (env := env) h hs ha hl
  obtain ⟨dis, opts, hdis, hopts, hd, hn⟩ := h.installer
  rw [(settings_disabled hs).2] at hdis
  cases hdis
  rw [order_options hs] at hopts
  cases hopts
  obtain ⟨m', g1, g2⟩ := load_perm hd hb hm
  obtain ⟨n1, n2⟩ := loaded_named hd hn (f := InstallerPlugin.name) (fun _ _ e => e.1) hm
  have nd : (r.plugins.map Installer.name).Nodup := by
    obtain ⟨-, k2, -, -⟩ := setupInstallers_ok.1 hr
    have k2 := mapM_ok_iff.1 k2
    have : r.plugins.map Installer.name = (m.loaded.map Prod.snd).map InstallerPlugin.name := by
      exact names_kept k2 n2
    rw [this]
    exact n1
  obtain ⟨r', k1, k2, k3, k4, k5, k6⟩ := setup_perm (g2.map Prod.snd) hr nd
  refine ⟨r', ?_, ⟨k2, k3, nd, k4, k5, k6, fun i hi => ?_⟩⟩
  rotate_left
  · obtain ⟨-, -, -, c4, c5⟩ := C42_installers s os _ r hr
    obtain ⟨⟨j, k⟩, hx, e⟩ := List.mem_map.1 hi
    simp only at e
    subst e
    cases hu : s.useAdditional with
    | false => rw [c4 hu] at hx; cases hx
    | true => exact List.mem_of_getElem? (((c5 hu).2 _ _).1 hx).1
  rw [hs]
  show (loadPlugins w.uni s.disabledOs a >>= fun l => setupOs env.expand (l.loaded.map Prod.snd) s.override s.osOptions >>= fun os =>
    loadPlugins w.uni s.disabledInstallers b >>= fun insts => setupInstallers s os (insts.loaded.map Prod.snd)) = _
  rw [h1]
  show (setupOs env.expand (l'.loaded.map Prod.snd) s.override s.osOptions >>= fun os =>
    loadPlugins w.uni s.disabledInstallers b >>= fun insts => setupInstallers s os (insts.loaded.map Prod.snd)) = _
  rw [h2 os hos]
  show (loadPlugins w.uni s.disabledInstallers b >>= fun insts => setupInstallers s os (insts.loaded.map Prod.snd)) = _
  rw [g1]
  exact k1

/-! ## The sources -/

theorem order_specs (h : OrderFree c w) (hd : w.specEntries.Perm d) {l : List Spec} (hl : specsFor w c = .ok l) :
    ∃ l', specsFor { w with osEntries := a, installerEntries := b, specEntries := d } c = .ok l' ∧ getSpec l' = getSpec l := by
  unfold specsFor at hl ⊢
  obtain ⟨dis, hdis, hl⟩ := Except_bind_ok.1 hl
  obtain ⟨m, hm, hp⟩ := Except_bind_ok.1 hl
  obtain ⟨dis', hdis', hdn, hn⟩ := h.spec
  have : dis' = dis := by
    rw [hdis'] at hdis
    simp only [bind, Except.bind, listValue] at hdis
    cases hdis
    rfl
  subst this
  obtain ⟨m', g1, g2⟩ := load_perm hdn hd hm
  have nd := (loaded_named hdn hn (fun _ _ e => e) hm).1
  have := pure_ok.1 hp
  subst this
  refine ⟨m'.loaded.map Prod.snd, ?_, ?_⟩
  · rw [hdis]
    show (loadPlugins w.uni dis' d >>= fun l => pure (l.loaded.map Prod.snd)) = _
    rw [g1]
    rfl
  · funext k
    unfold getSpec
    have nd' : ((m.loaded.map Prod.snd).map fun s : Spec => PKey.str s.name).Nodup := by
      have : ((m.loaded.map Prod.snd).map fun s : Spec => PKey.str s.name) = ((m.loaded.map Prod.snd).map Spec.name).map PKey.str :=
        (List.map_map (f := Spec.name) (g := PKey.str)).symm
      rw [this]
      exact List.Nodup.map (fun _ _ e => PKey.str.inj e) nd
    have e := find_perm (g2.map Prod.snd) nd' k
    have e' : (m'.loaded.map Prod.snd).find? (fun s => decide (PKey.str s.name = k)) = (m.loaded.map Prod.snd).find? (fun s => decide (PKey.str s.name = k)) := e.symm
    rw [e']

theorem order_ctx (h : OrderFree c w) (ha : w.osEntries.Perm a) {k : LookupCtx} (hk : lookupCtxFor env w c = .ok k) :
    lookupCtxFor env { w with osEntries := a, installerEntries := b, specEntries := d } c = .ok k := by
  unfold lookupCtxFor at hk ⊢
  obtain ⟨os, hos, hk⟩ := Except_bind_ok.1 hk
  rw [order_os h ha hos]
  exact hk

end

/-! ## Opening the database -/

section
variable {l l' : List Spec} (h : getSpec l' = getSpec l)
include h

theorem mkSource_specs : mkSourceOfDescr l' = mkSourceOfDescr l := by
  funext file descr
  unfold mkSourceOfDescr
  rw [h]

theorem initFiles_specs (files : List (String × Except Exc PVal)) : initFromFiles l' files = initFromFiles l files := by
  induction files with
  | nil => rfl
  | cons x t ih =>
    obtain ⟨file, parsed⟩ := x
    rw [initFromFiles, initFromFiles, mkSource_specs h, ih]

theorem open_specs (env : CacheEnv) (w : SourcesWorld) (dir : String) : openDatabase env l' w dir = openDatabase env l w dir := by
  unfold openDatabase
  rw [initFiles_specs h]

theorem initSaying_specs (on : Bool) (ytext : String → List Char) (files : List (String × Except Exc PVal)) :
    initSaying on ytext l' files = initSaying on ytext l files := by
  induction files with
  | nil => rfl
  | cons x t ih =>
    obtain ⟨file, parsed⟩ := x
    rw [initSaying, initSaying, mkSource_specs h, ih]

theorem openSaying_specs (on verbose : Bool) (ytext : String → List Char) (ds dc : String) (env : CacheEnv) (w : SourcesWorld) (p : SourcesPaths) :
    openSaying on verbose ytext ds dc env l' w p = openSaying on verbose ytext ds dc env l w p := by
  unfold openSaying
  rw [initSaying_specs h]

end

/-! ## Resolving -/

theorem coreLoop_perm {d : InstDict} {l l' : List (Installer σ)} (h : l.Perm l')
    (hu : ∀ i ∈ l, ∀ j ∈ l, dhas d i.name = true → dhas d j.name = true → i = j) : coreLoop d l' = coreLoop d l := by
  have has : ∀ {i : Installer σ} {rule : Rule}, dget d i.name = some rule → dhas d i.name = true := by
    intro i rule hx
    cases hb : dhas d i.name with
    | true => rfl
    | false => rw [dhas_false.1 hb] at hx; cases hx
  cases h1 : coreLoop d l with
  | none =>
    rw [coreLoop_none] at h1 ⊢
    exact fun i hi => h1 i (h.mem_iff.2 hi)
  | some x =>
    obtain ⟨i, rule⟩ := x
    obtain ⟨pre, post, e, h2, -⟩ := coreLoop_some.1 h1
    have hi : i ∈ l := by rw [e]; simp
    cases h3 : coreLoop d l' with
    | none =>
      rw [coreLoop_none] at h3
      have := h3 i (h.mem_iff.1 hi)
      rw [h2] at this
      cases this
    | some y =>
      obtain ⟨j, rule'⟩ := y
      obtain ⟨pre', post', e', h4, -⟩ := coreLoop_some.1 h3
      have hj : j ∈ l := h.mem_iff.2 (by rw [e']; simp)
      have := hu i hi j hj (has h2) (has h4)
      subst this
      rw [h2] at h4
      cases h4
      rfl

section
variable {r r' : InstallerSetup σ} (h : AlikeSetups r r')
include h

theorem alike_lookup : lookupInstaller r'.context = lookupInstaller r.context := by
  funext name
  exact (find_perm h.plugins h.named name).symm

theorem alike_choose {f : Dict String (List String)} {db : Database} (hu : Undisputed r.context db f) {key : String} {d : InstDict} (hd : db.lookup key = .ok d) :
    chooseInstaller r'.context (installFromMap f) key d = chooseInstaller r.context (installFromMap f) key d := by
  unfold chooseInstaller
  rw [alike_lookup h, h.core]
  cases hk : dget (installFromMap f) key with
  | some n => rfl
  | none =>
    simp only
    cases hc : coreLoop d r.context.core with
    | some x => rfl
    | none =>
      simp only
      have : ∀ i ∈ r.context.additional, ∀ j ∈ r.context.additional, dhas d i.name = true → dhas d j.name = true → i = j := by
        rcases hu key d hd with ⟨e, he, hke⟩ | ⟨i, hi, hid⟩ | hu
        · exact absurd hke (installFromMap_none.1 hk e he)
        · have := coreLoop_none.1 hc i hi
          rw [dhas_false.2 this] at hid
          cases hid
        · exact fun i hi j hj h1 h2 => List.inj_on_of_nodup_map h.named (h.loaded i hi) (h.loaded j hj) (hu i hi j hj h1 h2)
      rw [additionalLoop_eq, additionalLoop_eq, coreLoop_perm (l := r.context.additional.reverse) (l' := r'.context.additional.reverse)
        ((List.reverse_perm _).trans (h.additional.trans (List.reverse_perm _).symm))
        (fun i hi j hj => this i (List.mem_reverse.1 hi) j (List.mem_reverse.1 hj))]

theorem alike_tuple : r'.context.osTuple = r.context.osTuple := congrArg Except.ok h.osTuple

theorem alike_key {f : Dict String (List String)} {db : Database} (hu : Undisputed r.context db f) (key : String) :
    resolveKey r'.context db.lookup (installFromMap f) key = resolveKey r.context db.lookup (installFromMap f) key := by
  unfold resolveKey
  rw [alike_tuple h]
  cases hd : db.lookup key with
  | error e => rfl
  | ok d =>
    cases d with
    | nil => rfl
    | cons x t =>
      simp only
      rw [alike_choose h hu hd]

theorem alike_resolve {f : Dict String (List String)} {db : Database} (hu : Undisputed r.context db f) (keys : List String) (all : Bool) :
    resolve r'.context db f keys all = resolve r.context db f keys all := by
  have : ∀ ks acc, resolveLoop r'.context db.lookup (installFromMap f) acc ks = resolveLoop r.context db.lookup (installFromMap f) acc ks := by
    intro ks
    induction ks with
    | nil => intro acc; rfl
    | cons k t ih =>
      intro acc
      rw [resolveLoop, resolveLoop, alike_key h hu]
      simp only [ih]
  unfold resolve
  simp only [this]

/-! ## Installing -/

theorem alike_require : requireInstaller r'.context = requireInstaller r.context := by
  funext name
  unfold requireInstaller
  rw [alike_lookup h]

theorem alike_filter (rs : List (String × List Resolution)) : filterUninstalled r'.context rs = filterUninstalled r.context rs := by
  have : ∀ rs u e, filterLoop r'.context u e rs = filterLoop r.context u e rs := by
    intro rs
    induction rs with
    | nil => intro u e; rfl
    | cons x t ih =>
      intro u e
      obtain ⟨n, l⟩ := x
      rw [filterLoop, filterLoop, alike_require h]
      simp only [ih]
  exact this _ _ _

theorem alike_install {m : Machine σ} {f : Dict String (List String)} {db : Database} (hu : Undisputed r.context db f) (o : InstallOpts) (keys : List String) (all : Bool) :
    install m r'.context db f o keys all = install m r.context db f o keys all := by
  have h1 : ∀ os fix int l, checkGeneralLoop r'.context os fix int l = checkGeneralLoop r.context os fix int l := by
    intro os fix int l
    induction l with
    | nil => rfl
    | cons x t ih => rw [checkGeneralLoop, checkGeneralLoop, alike_require h, ih]
  have h2 : ∀ os fix int l, checkInstallLoop r'.context os fix int l = checkInstallLoop r.context os fix int l := by
    intro os fix int l
    induction l with
    | nil => rfl
    | cons x t ih => obtain ⟨n, rs⟩ := x; rw [checkInstallLoop, checkInstallLoop, alike_require h, ih]
  have h3 : ∀ n rs, installResolutions m r'.context o n rs = installResolutions m r.context o n rs := by
    intro n rs
    unfold installResolutions
    rw [alike_require h]
  have h4 : ∀ l all, installLoop m r'.context o all l = installLoop m r.context o all l := by
    intro l
    induction l with
    | nil => intro all; rfl
    | cons x t ih => intro all; obtain ⟨n, rs⟩ := x; rw [installLoop, installLoop, h3]; simp only [ih]
  unfold install installAfterResolve installPlanned installResolved checkGeneralPrerequisites checkInstallPrerequisites
  rw [alike_resolve h hu]
  simp only [alike_tuple h, alike_filter h, h1, h2, h4]

theorem alike_telling {c : Console} {v : Voice σ} {m : Machine σ} {f : Dict String (List String)} {db : Database} (hu : Undisputed r.context db f) (o : InstallOpts)
    (keys : List String) (all : Bool) : installTelling c v m r'.context db f o keys all = installTelling c v m r.context db f o keys all := by
  have h1 : ∀ os fix int l, checkGeneralLoopTelling v r'.context os fix int l = checkGeneralLoopTelling v r.context os fix int l := by
    intro os fix int l
    induction l with
    | nil => rfl
    | cons x t ih => rw [checkGeneralLoopTelling, checkGeneralLoopTelling, alike_require h, ih]
  have h2 : ∀ os fix int l, checkInstallLoopTelling v r'.context os fix int l = checkInstallLoopTelling v r.context os fix int l := by
    intro os fix int l
    induction l with
    | nil => rfl
    | cons x t ih => obtain ⟨n, rs⟩ := x; rw [checkInstallLoopTelling, checkInstallLoopTelling, alike_require h, ih]
  have h3 : ∀ n rs, installResolutionsTelling c m r'.context o n rs = installResolutionsTelling c m r.context o n rs := by
    intro n rs
    unfold installResolutionsTelling
    rw [alike_require h]
  have h4 : ∀ l all, installLoopTelling c m r'.context o all l = installLoopTelling c m r.context o all l := by
    intro l
    induction l with
    | nil => intro all; rfl
    | cons x t ih => intro all; obtain ⟨n, rs⟩ := x; rw [installLoopTelling, installLoopTelling, h3]; simp only [ih]
  unfold installTelling installAfterResolveTelling installPlannedTelling installResolvedTelling checkGeneralTelling checkInstallTelling
  rw [alike_resolve h hu]
  simp only [alike_tuple h, alike_filter h, h1, h2, h4]

end

/-! ## Commands -/

/-- What is needed in addition: in the first world everything can be set up, and no key is disputed. -/
structure Settled (env : StartEnv) (w : Surroundings σ) (c : Config) : Prop where
  free : OrderFree c w
  context : ∃ r, contextFor env w c = .ok r ∧ ∀ db f, databaseFor env w c = .ok db → installFromOf c = .ok f → Undisputed r.context db f
  specs : ∃ l, specsFor w c = .ok l

section
variable {env : StartEnv} {c : Config} {w : Surroundings σ} {a : List (EntryPoint OsPlugin)} {b : List (EntryPoint (InstallerPlugin σ))}
  {d : List (EntryPoint Spec)} (ha : w.osEntries.Perm a) (hb : w.installerEntries.Perm b) (hd : w.specEntries.Perm d)
include ha hb hd

omit ha hb in
theorem order_loaded (h : OrderFree c w) (hs : ∃ l, specsFor w c = .ok l) :
    loadedFor { w with osEntries := a, installerEntries := b, specEntries := d } c = loadedFor w c := by
  obtain ⟨l, hl⟩ := hs
  obtain ⟨l', g1, g2⟩ := order_specs (a := a) (b := b) h hd hl
  unfold loadedFor sourcesFor
  rw [g1, hl]
  show (pathsFor w c >>= fun p => (pathsFor w c >>= fun p => openDatabase (cacheEnvFor w p) l' (w.sourcesIn p.sourcesDir) p.sourcesDir) >>= fun sources => _) =
    (pathsFor w c >>= fun p => (pathsFor w c >>= fun p => openDatabase (cacheEnvFor w p) l (w.sourcesIn p.sourcesDir) p.sourcesDir) >>= fun sources => _)
  simp only [open_specs g2]
  rfl

omit ha hb hd in
theorem os_of_context {r : InstallerSetup σ} (hr : contextFor env w c = .ok r) : ∃ os, osFor env w c = .ok os := by
  unfold contextFor installerContext at hr
  obtain ⟨s, hs, hr⟩ := Except_bind_ok.1 hr
  obtain ⟨l, hl, hr⟩ := Except_bind_ok.1 hr
  obtain ⟨os, hos, hr⟩ := Except_bind_ok.1 hr
  refine ⟨os, ?_⟩
  unfold osFor
  rw [hs]
  show (loadPlugins w.uni s.disabledOs w.osEntries >>= _) = _
  rw [hl]
  exact hos

omit hb hd in
theorem order_lookupCtx (h : OrderFree c w) {r : InstallerSetup σ} (hr : contextFor env w c = .ok r) :
    lookupCtxFor env { w with osEntries := a, installerEntries := b, specEntries := d } c = lookupCtxFor env w c := by
  unfold contextFor installerContext at hr
  obtain ⟨s, hs, hr⟩ := Except_bind_ok.1 hr
  obtain ⟨l, hl, hr⟩ := Except_bind_ok.1 hr
  obtain ⟨os, hos, hr⟩ := Except_bind_ok.1 hr
  have ho : osFor env w c = .ok os := by
    unfold osFor
    rw [hs]
    show (loadPlugins w.uni s.disabledOs w.osEntries >>= _) = _
    rw [hl]
    exact hos
  unfold lookupCtxFor
  rw [order_os h ha ho, ho]

theorem order_installRun {p : Process} {ns : ArgSpace} {keys : List String} (h : Settled env w p.config) :
    installRun env { w with osEntries := a, installerEntries := b, specEntries := d } keys p ns = installRun env w keys p ns := by
  funext s
  obtain ⟨r, hr, hu⟩ := h.context
  obtain ⟨r', hr', hal⟩ := order_context (d := d) h.free ha hb hr
  unfold installRun installInputs databaseFor
  rw [hr, hr', order_loaded hd h.free h.specs, order_lookupCtx ha h.free hr]
  have hdb : (loadedFor w p.config >>= fun l => lookupCtxFor env w p.config >>= fun k => pure (databaseOf w.uni l k)) = databaseFor env w p.config := rfl
  simp only [bind, Except.bind] at hdb ⊢
  cases h1 : loadedFor w p.config with
  | error e => rfl
  | ok l =>
    cases h2 : lookupCtxFor env w p.config with
    | error e => rfl
    | ok k =>
      cases h3 : installFromOf p.config with
      | error e => rfl
      | ok f =>
        rw [h1] at hdb
        simp only [h2] at hdb
        exact congrFun (alike_install hal (hu _ _ hdb.symm h3) _ _ _) s

omit ha hb in
theorem order_updateRun {p : Process} {ns : ArgSpace} (h : Settled env w p.config) :
    updateRun { w with osEntries := a, installerEntries := b, specEntries := d } p ns = updateRun w p ns := by
  obtain ⟨l, hl⟩ := h.specs
  obtain ⟨l', g1, g2⟩ := order_specs (a := a) (b := b) h.free hd hl
  unfold updateRun updateApi
  rw [g1, hl]
  simp only [open_specs g2]
  rfl

/-! ## What is printed -/

omit ha hb in
theorem order_loadedSaying (k : Console) (h : Settled env w c) :
    AlikeBut (loadedSaying k { w with osEntries := a, installerEntries := b, specEntries := d } c) (loadedSaying k w c) := by
  obtain ⟨l, hl⟩ := h.specs
  obtain ⟨l', g1, g2⟩ := order_specs (a := a) (b := b) h.free hd hl
  unfold loadedSaying
  refine .bind (.refl _) fun p _ => ?_
  have e1 := specs_same k { w with osEntries := a, installerEntries := b, specEntries := d } c
  have e2 := specs_same k w c
  rw [g1] at e1
  rw [hl] at e2
  refine AlikeBut.trans (e1.bind fun _ _ => .refl _) (alike_symm (AlikeBut.trans (e2.bind fun _ _ => .refl _) ?_))
  rw [run_lift_ok, run_lift_ok, openSaying_specs g2]
  exact .refl _

omit hb in
theorem order_inputsSaying (k : Console) (h : Settled env w c) :
    AlikeBut (resolveInputsSaying k env { w with osEntries := a, installerEntries := b, specEntries := d } c) (resolveInputsSaying k env w c) := by
  obtain ⟨r, hr, -⟩ := h.context
  unfold resolveInputsSaying
  rw [order_lookupCtx ha h.free hr]
  exact .bind (order_loadedSaying hd k h) fun _ _ => .refl _

omit hb in
theorem order_lookupLoop (k : Console) (dump : PVal → Except Exc (List Char)) (os : Except Exc (List Char)) (h : Settled env w c) (keys : List String) :
    AlikeBut (lookupLoopSaying k dump (lookupSaying k env { w with osEntries := a, installerEntries := b, specEntries := d } c) os keys)
      (lookupLoopSaying k dump (lookupSaying k env w c) os keys) := by
  obtain ⟨r, hr, -⟩ := h.context
  induction keys with
  | nil => exact .refl _
  | cons x t ih =>
    refine .bind ?_ fun _ _ => .bind (.refl _) fun _ _ => ih
    unfold lookupSaying
    rw [order_lookupCtx ha h.free hr]
    exact .bind (order_loadedSaying hd k h) fun _ _ => .refl _

theorem order_command (o : Outside σ) (s : σ) (keys : List String) (name : String) (p : Process) (ns : ArgSpace) (hw : o.world = w)
    (h : Settled o.env w p.config) :
    AlikeBut (commandFunc { o with world := { w with osEntries := a, installerEntries := b, specEntries := d } } s keys name p ns)
      (commandFunc o s keys name p ns) ∧
    commandDone { o with world := { w with osEntries := a, installerEntries := b, specEntries := d } } s keys p ns name =
      commandDone o s keys p ns name := by
  obtain ⟨r, hr, hu⟩ := h.context
  obtain ⟨r', hr', hal⟩ := order_context (d := d) h.free ha hb hr
  obtain ⟨os, hos⟩ := os_of_context hr
  have hos' := order_os (b := b) (d := d) h.free ha hos
  have c1 := context_same (p.console o.texts) o.env w p.config
  have c2 := context_same (p.console o.texts) o.env { w with osEntries := a, installerEntries := b, specEntries := d } p.config
  have q1 : contextAndOs o.env w p.config = .ok (r, os) := by unfold contextAndOs; rw [hr, hos]; rfl
  have q2 : contextAndOs o.env { w with osEntries := a, installerEntries := b, specEntries := d } p.config = .ok (r', os) := by
    unfold contextAndOs; rw [hr', hos']; rfl
  rw [q1] at c1
  rw [q2] at c2
  have ctx : ∀ {β : Type} {f f' : InstallerSetup σ × OsSetup → Run β}, AlikeBut (f' (r', os)) (f (r, os)) →
      AlikeBut (contextSaying (p.console o.texts) o.env { w with osEntries := a, installerEntries := b, specEntries := d } p.config >>= f')
        (contextSaying (p.console o.texts) o.env w p.config >>= f) := by
    intro β f f' hf
    refine AlikeBut.trans (c2.bind fun _ _ => .refl _) (alike_symm (AlikeBut.trans (c1.bind fun _ _ => .refl _) ?_))
    rw [run_lift_ok, run_lift_ok]
    exact alike_symm hf
  have inp : ∀ {β : Type} {f f' : Database × Dict String (List String) → Run β}, (∀ i, Undisputed r.context i.1 i.2 → AlikeBut (f' i) (f i)) →
      AlikeBut (resolveInputsSaying (p.console o.texts) o.env { w with osEntries := a, installerEntries := b, specEntries := d } p.config >>= f')
        (resolveInputsSaying (p.console o.texts) o.env w p.config >>= f) := by
    intro β f f' hf
    refine .bind (order_inputsSaying ha hd _ h) fun i hi => hf i ?_
    have := (inputs_same (p.console o.texts) o.env w p.config).1
    rw [hi] at this
    have this : resolveInputs o.env w p.config = .ok i := this.symm
    unfold resolveInputs at this
    obtain ⟨db, h1, this⟩ := Except_bind_ok.1 this
    obtain ⟨f, h2, this⟩ := Except_bind_ok.1 this
    have := pure_ok.1 this
    subst this
    exact hu _ _ h1 h2
  subst hw
  constructor
  · unfold commandFunc
    split
    · unfold installFuncTelling
      refine .none (.interruptible (ctx (inp fun i hi => ?_)))
      refine .bind ?_ fun _ _ => ?_
      · refine (resolve_same _ _ _ _ _ _).trans (alike_symm ((resolve_same _ _ _ _ _ _).trans ?_))
        rw [alike_resolve hal hi]
        exact .refl _
      · rw [alike_telling hal hi]
        exact .refl _
    · unfold resolveFuncSaying
      refine .none (.interruptible (ctx (inp fun i hi => ?_)))
      refine .bind ?_ fun _ _ => .refl _
      refine (resolve_same _ _ _ _ _ _).trans (alike_symm ((resolve_same _ _ _ _ _ _).trans ?_))
      rw [alike_resolve hal hi]
      exact .refl _
    · unfold lookupFuncSaying osStringFor
      refine .none (.interruptible (ctx ?_))
      rw [order_lookupCtx ha h.free hr]
      exact order_lookupLoop ha hd _ _ _ h keys
    · unfold updateFuncSaying
      refine .none (.interruptible (.bind (.refl _) fun x _ => ?_))
      obtain ⟨l, hl⟩ := h.specs
      obtain ⟨l', g1, g2⟩ := order_specs (a := a) (b := b) h.free hd hl
      have e1 := specs_same (p.console o.texts) { o.world with osEntries := a, installerEntries := b, specEntries := d } p.config
      have e2 := specs_same (p.console o.texts) o.world p.config
      rw [g1] at e1
      rw [hl] at e2
      refine AlikeBut.trans (e1.bind fun _ _ => .refl _) (alike_symm (AlikeBut.trans (e2.bind fun _ _ => .refl _) ?_))
      rw [run_lift_ok, run_lift_ok]
      unfold updateSaying
      rw [openSaying_specs g2]
      exact .refl _
    · exact .refl _
  · unfold commandDone
    split
    · simp only [order_installRun ha hb hd h]
    · simp only [order_updateRun hd h]
    · rfl
    · rfl

end

/-! ## C145 -/

/-- **C145** The order in which the plugins are found does not matter, if no two plugins have the same name, one os is more specific than all others that
detect themselves (or the os is given), no two additional installers have a rule for the same key, and nothing raises: xylem, called with any words, does
the same to the machine, to the cached files and to rules files, ends the same way with the same settings, and prints the same on stdout. -/
theorem C145_whatever_order_partial (o : Outside σ) (w' : Surroundings σ) (desc : Desc) (fresh : Bool) (p : Process) (words : List String) (s : σ)
    (hw : Shuffled o.world w')
    (h : ∀ r c, parseXylem fresh desc words = .ok r → (handleConfigArguments o.env desc (handleSwitches o.env r.2.1 p) r.2.1).res = .ok c →
      Settled o.env o.world c) :
    let o' := { o with world := w' }
    xylemDone o' desc fresh p words s = xylemDone o desc fresh p words s ∧
    (xylemMain o' desc fresh p words s).1 = (xylemMain o desc fresh p words s).1 ∧
    (xylemMain o' desc fresh p words s).2.ending = (xylemMain o desc fresh p words s).2.ending ∧
    (xylemMain o' desc fresh p words s).2.lines.filter Line.notErr = (xylemMain o desc fresh p words s).2.lines.filter Line.notErr := by
  intro o'
  unfold xylemDone xylemMain
  cases hp : parseXylem fresh desc words with
  | error e => exact ⟨rfl, rfl, rfl, rfl⟩
  | ok r =>
    simp only
    cases hc : handleConfigArguments o.env desc (handleSwitches o.env r.2.1 p) r.2.1 with
    | mk lines res =>
      cases res with
      | error e => simp only [mainParsed, o', hc]; exact ⟨trivial, trivial, trivial, trivial⟩
      | ok c =>
        have hu := h r c hp (by rw [hc])
        obtain ⟨ha, hb, hd, hr⟩ := hw
        obtain ⟨uni, e1, e2, e3, g1, g2, g3, g4, g5, g6, g7, g8, g9⟩ := w'
        injection hr with r1 _ _ _ r2 r3 r4 r5 r6 r7 r8 r9 r10
        subst r1 r2 r3 r4 r5 r6 r7 r8 r9 r10
        have key := order_command ha hb hd o s r.2.2 r.1.name { handleSwitches o.env r.2.1 p with config := c } r.2.1 rfl hu
        refine ⟨?_, ?_⟩
        · simp only [o', hc]
          exact key.2
        · simp only [mainParsed, o', hc]
          have := mainTry_same (n := []) (handleSwitches o.env r.2.1 p).color (handleSwitches o.env r.2.1 p).debug o.text key.1
          refine ⟨trivial, this.1, ?_⟩
          rw [List.filter_append, List.filter_append]
          exact congrArg (fun x => lines.filter Line.notErr ++ x) this.2

/-- **C145** The same through the API: the installer context has the same os, core installers and names not found, the same plugins and additional
installers up to their order, and gives the same installers for all names; the sources are those loaded before, and `resolve` and `install` give the same. -/
theorem C145_same_contexts_partial (env : StartEnv) {c : Config} {w w' : Surroundings σ} (hw : Shuffled w w') (h : OrderFree c w) {r : InstallerSetup σ}
    (hr : contextFor env w c = .ok r) :
    (∃ r', contextFor env w' c = .ok r' ∧ r'.osTuple = r.osTuple ∧ r'.context.core = r.context.core ∧ r'.notFound = r.notFound ∧
      r.plugins.Perm r'.plugins ∧ r.context.additional.Perm r'.context.additional ∧
      (∀ name, lookupInstaller r'.context name = lookupInstaller r.context name) ∧
      ∀ db f, Undisputed r.context db f →
        (∀ keys all, resolve r'.context db f keys all = resolve r.context db f keys all) ∧
        ∀ m o keys all, install m r'.context db f o keys all = install m r.context db f o keys all) ∧
    lookupCtxFor env w' c = lookupCtxFor env w c ∧ ((∃ l, specsFor w c = .ok l) → loadedFor w' c = loadedFor w c) := by
  obtain ⟨ha, hb, hd, hx⟩ := hw
  obtain ⟨uni, e1, e2, e3, g1, g2, g3, g4, g5, g6, g7, g8, g9⟩ := w'
  injection hx with r1 _ _ _ r2 r3 r4 r5 r6 r7 r8 r9 r10
  subst r1 r2 r3 r4 r5 r6 r7 r8 r9 r10
  obtain ⟨r', h1, h2⟩ := order_context (d := e3) h ha hb hr
  exact ⟨⟨r', h1, h2.osTuple, h2.core, h2.notFound, h2.plugins, h2.additional, congrFun (alike_lookup h2), fun db f hu =>
    ⟨alike_resolve h2 hu, fun m o keys all => alike_install h2 hu o keys all⟩⟩, order_lookupCtx ha h hr, order_loaded hd h⟩

end Verif
