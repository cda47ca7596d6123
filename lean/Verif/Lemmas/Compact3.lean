import Verif.Lemmas.Compact2
/-! Helper lemmas about compaction: re-expansion of version, os and rules dicts. -/
set_option linter.unusedSimpArgs false
namespace Verif

theorem dget_filter {β : Type} {d : Dict String β} (hd : DWF d) (p : String × β → Bool) (k : String) :
    dget (d.filter p) k = (dget d k).filter (fun v => p (k, v)) := by
  induction d with
  | nil => rfl
  | cons x d ih =>
    obtain ⟨a, b⟩ := x
    simp only [DWF_cons] at hd
    by_cases hp : p (a, b) = true
    · rw [List.filter_cons_of_pos hp]
      simp only [dget]
      split
      · rename_i h; subst h; simp [Option.filter, hp]
      · exact ih hd.2
    · rw [List.filter_cons_of_neg hp]
      simp only [dget]
      split
      · rename_i h; subst h
        rw [ih hd.2]
        rw [dget_eq_none.2 hd.1]; simp [Option.filter, hp]
      · exact ih hd.2

theorem dget_keptVer {dflt : Option String} {vd : VerDict} (hv : DWF vd) (ver : String) :
    dget (keptVer dflt vd) ver =
      if ver = "any_version" then dget vd "any_version"
      else (dget vd ver).filter (fun i => keepV dflt ((dget vd "any_version").map (cVal dflt)) (ver, i)) := by
  unfold keptVer
  cases ha : dget vd "any_version" with
  | some av =>
    simp only [dget, Option.map_some]
    by_cases h : ver = "any_version"
    · subst h; simp
    · rw [if_neg (Ne.symm h), if_neg h, dget_filter hv]
  | none =>
    simp only [Option.map_none]
    by_cases h : ver = "any_version"
    · subst h; rw [if_pos rfl, dget_filter hv, ha]; rfl
    · rw [if_neg h, dget_filter hv]

theorem keptVer_DWF {dflt : Option String} {vd : VerDict} (hv : DWF vd) : DWF (keptVer dflt vd) := by
  unfold keptVer
  cases ha : dget vd "any_version" with
  | some av =>
    simp only [DWF_cons]
    refine ⟨?_, dkeys_filter_nodup hv _⟩
    intro hm
    obtain ⟨x, hx, he⟩ := List.mem_map.1 hm
    have := (List.mem_filter.1 hx).2
    simp [keepV, he] at this
  | none => exact dkeys_filter_nodup hv _

theorem keptVer_good {dflt : Option String} {vd : VerDict} (hv : GoodVer vd) : GoodVer (keptVer dflt vd) := by
  refine ⟨keptVer_DWF hv.nodup, ?_⟩
  intro n i hn
  rw [dget_keptVer hv.nodup] at hn
  split at hn
  · exact hv.insts _ _ hn
  · obtain ⟨h1, _⟩ := Option.filter_eq_some_iff.1 hn
    exact hv.insts _ _ h1

/-- The version dict that comes back after compaction and expansion. -/
def reVer (dflt : Option String) (vd : VerDict) : VerDict := vmap (reInst dflt) (keptVer dflt vd)

theorem DWF_vmap {α β : Type} {f : α → β} {d : Dict String α} (h : DWF d) : DWF (vmap f d) := by
  unfold DWF; rw [dkeys_vmap]; exact h

theorem reVer_good {dflt : Option String} {vd : VerDict} (hv : GoodVer vd) : GoodVer (reVer dflt vd) := by
  have hk := keptVer_good (dflt := dflt) hv
  refine ⟨DWF_vmap hk.nodup, ?_⟩
  intro n i hn
  unfold reVer at hn
  rw [dget_vmap] at hn
  obtain ⟨j, hj, rfl⟩ := Option.map_eq_some_iff.1 hn
  exact reInst_good (hk.insts _ _ hj)

/-- General form of `mapVals_dictVal` with key-dependent functions. -/
theorem mapVals_dictVal' {f : PKey → PVal → Except Exc PVal} {α : Type} {g h : String → α → PVal} {d : Dict String α}
    (hd : DWF d) (hf : ∀ k a, dget d k = some a → f (.str k) (g k a) = .ok (h k a)) :
    mapVals f (d.map fun kv => (PKey.str kv.1, g kv.1 kv.2)) = .ok (d.map fun kv => (PKey.str kv.1, h kv.1 kv.2)) := by
  have : ∀ x ∈ d, f (.str x.1) (g x.1 x.2) = .ok (h x.1 x.2) := fun x hx => hf x.1 x.2 (mem_dget hd hx)
  clear hd hf
  induction d with
  | nil => rfl
  | cons x d ih =>
    simp only [List.map_cons, mapVals, this x (.head _), ih (fun y hy => this y (.tail _ hy)), bind, Except.bind,
      pure, Except.pure]

theorem DWF_str' {α : Type} {g : String → α → PVal} {d : Dict String α} (h : DWF d) :
    DWF (d.map fun kv => (PKey.str kv.1, g kv.1 kv.2)) := by
  unfold DWF dkeys at *
  rw [List.map_map]
  have : (Prod.fst ∘ fun kv : String × α => (PKey.str kv.1, g kv.1 kv.2)) = PKey.str ∘ Prod.fst := rfl
  rw [this, ← List.map_map]
  exact List.pairwise_map.2 (h.imp (fun hn he => hn (by injection he)))

theorem expand_verOut {dflt : Option String} {vd : VerDict} (hv : GoodVer vd) (os : PKey) (ho : os ≠ .str "any_os")
    (hc : ∀ k i, dget vd k = some i → compactInstallerDict i dflt = .ok (cVal dflt i)) :
    expandOsVersionDefinition os (verOut dflt vd) = .ok (reVer dflt vd).toVal := by
  have gk := keptVer_good (dflt := dflt) hv
  have hck : ∀ k i, dget (keptVer dflt vd) k = some i → expandInstallerDefinition (cVal dflt i) = .ok (reInst dflt i).toVal := by
    intro k i hk
    have hk' : dget vd k = some i := by
      rw [dget_keptVer hv.nodup] at hk
      split at hk
      · rename_i h; rw [h]; exact hk
      · exact (Option.filter_eq_some_iff.1 hk).1
    exact (compactInst_ok (hv.insts _ _ hk') (hc _ _ hk')).2.1
  have main : expandOsVersionDefinition os (dictVal (cVal dflt) (keptVer dflt vd)) = .ok (reVer dflt vd).toVal := by
    rw [expandVersion_eq]
    simp only [dictVal, upConvert, anyOsWrap, if_neg ho, bind, Except.bind]
    rw [forItems_eq _ (DWF_str gk.nodup),
      mapVals_dictVal (f := expandInstallerDefinition) (h := fun i => (reInst dflt i).toVal) gk.nodup hck]
    simp only [pure, Except.pure, reVer, VerDict.toVal, dictVal_vmap]; rfl
  unfold verOut
  cases ha : dget vd "any_version" with
  | none => exact main
  | some av =>
    simp only
    split
    · rename_i hl
      have hs := single_key ha hl.1
      have hk : keptVer dflt vd = [("any_version", av)] := by
        rw [hs]; simp [keptVer, dget, keepV]
      obtain ⟨-, -, h3⟩ := compactInst_ok (hv.insts _ _ ha) (hc _ _ ha)
      rcases h3 with ⟨l, hl', he⟩ | ⟨_, he⟩
      · rw [he, reVer, hk]
        rw [expandVersion_eq]
        simp only [upConvert, anyOsWrap, if_neg ho, bind, Except.bind]
        simp only [vmap, List.map_cons, List.map_nil, reInst_collapse hl']
        rfl
      · rw [he] at hl; simp [PVal.isDict, dictVal] at hl
    · exact main

/-! ### lookup correspondence on version dicts -/

/-- `i` (old) and `i'` (new) offer equal rules. -/
structure SameOffers (dflt : Option String) (i i' : InstDict) : Prop where
  offers : ∀ inst, (¬ OffersSome i dflt inst ∧ ¬ OffersSome i' dflt inst) ∨
    (∃ ρ ρ', Offers i dflt inst ρ ∧ Offers i' dflt inst ρ' ∧ pyEq ρ.toVal ρ'.toVal = true)
  dkey : truthy dflt = none → ((∃ ρ, dget i "default_installer" = some ρ) ↔ ∃ ρ, dget i' "default_installer" = some ρ)

theorem offers_of_goodInst {dflt : Option String} {i : InstDict} (hi : GoodInst i) {inst : String} {ρ : Rule}
    (h : Offers i dflt inst ρ) : GoodRule ρ := by
  rcases h with ⟨_, h⟩ | ⟨_, _, h⟩ <;> exact hi.rules _ _ h

theorem sameOffers_reInst {dflt : Option String} {i : InstDict} (hi : GoodInst i) (hn : ¬ Clash dflt i) :
    SameOffers dflt i (reInst dflt i) := by
  refine ⟨fun inst => ?_, fun ht => by rw [dgetD_reInst hn ht]⟩
  by_cases h : OffersSome i dflt inst
  · right
    obtain ⟨ρ, h⟩ := h
    exact ⟨ρ, ρ, h, (offers_reInst hn inst ρ).2 h, pyEq_refl _ (offers_of_goodInst hi h).wf⟩
  · left
    refine ⟨h, ?_⟩
    rintro ⟨ρ, h'⟩; exact h ⟨ρ, (offers_reInst hn inst ρ).1 h'⟩

/-- A dropped version offers the same as the re-expanded `any_version` entry. -/
theorem sameOffers_dropped {dflt : Option String} {i a : InstDict} (hi : GoodInst i) (ha : GoodInst a) {x y : PVal}
    (hx : compactInstallerDict i dflt = .ok x) (hy : compactInstallerDict a dflt = .ok y) (he : pyEq x y = true) :
    SameOffers dflt i (reInst dflt a) := by
  have hp := compactInst_pyEq hi ha hx hy he
  have ni := (compactInst_ok hi hx).1
  have na := (compactInst_ok ha hy).1
  refine ⟨fun inst => ?_, fun ht => ?_⟩
  · by_cases h : OffersSome (renameD dflt i) dflt inst
    · right
      obtain ⟨ρ, h⟩ := h
      have hρ := (offers_renameD ni inst ρ).1 h
      rcases h with ⟨h1, h2⟩ | ⟨h1, h2, h3⟩
      · rcases hp inst with ⟨h4, _⟩ | ⟨ρ', σ, h4, h5, h6⟩
        · rw [h4] at h2; simp at h2
        · rw [h4] at h2; injection h2 with h2; subst h2
          exact ⟨ρ', σ, hρ, (offers_reInst na inst σ).2 ((offers_renameD na inst σ).1 (.inl ⟨h1, h5⟩)), h6⟩
      · rcases hp "default_installer" with ⟨h4, _⟩ | ⟨ρ', σ, h4, h5, h6⟩
        · rw [h4] at h3; simp at h3
        · rw [h4] at h3; injection h3 with h3; subst h3
          exact ⟨ρ', σ, hρ, (offers_reInst na inst σ).2 ((offers_renameD na inst σ).1 (.inr ⟨h1, h2, h5⟩)), h6⟩
    · left
      refine ⟨?_, ?_⟩
      · rintro ⟨ρ, h'⟩; exact h ⟨ρ, (offers_renameD ni inst ρ).2 h'⟩
      · rintro ⟨σ, h'⟩
        have h' := (offers_renameD na inst σ).2 ((offers_reInst na inst σ).1 h')
        apply h
        rcases h' with ⟨h1, h2⟩ | ⟨h1, h2, h3⟩
        · rcases hp inst with ⟨_, h4⟩ | ⟨ρ', σ', h4, h5, h6⟩
          · rw [h4] at h2; simp at h2
          · exact ⟨ρ', .inl ⟨h1, h4⟩⟩
        · rcases hp "default_installer" with ⟨_, h4⟩ | ⟨ρ', σ', h4, h5, h6⟩
          · rw [h4] at h3; simp at h3
          · exact ⟨ρ', .inr ⟨h1, h2, h4⟩⟩
  · rw [dgetD_reInst na ht]
    have e1 : renameD dflt i = i := by simp [renameD, ht]
    have e2 : renameD dflt a = a := by simp [renameD, ht]
    rw [e1, e2] at hp
    rcases hp "default_installer" with ⟨h1, h2⟩ | ⟨ρ, σ, h1, h2, _⟩ <;> simp [h1, h2]

theorem sameOffers_nil (dflt : Option String) : SameOffers dflt [] [] := by
  refine ⟨fun inst => .inl ⟨?_, ?_⟩, fun _ => by simp [dget]⟩ <;>
  · rintro ⟨ρ, h | h⟩ <;> simp [dget] at h

/-- Per version of a version dict: either the entries correspond, or the version was dropped in favour of any_version. -/
theorem reVer_dget {dflt : Option String} {vd : VerDict} (hv : GoodVer vd)
    (hc : ∀ k i, dget vd k = some i → compactInstallerDict i dflt = .ok (cVal dflt i)) (ver : String) :
    (SameOffers dflt ((dget vd ver).getD []) ((dget (reVer dflt vd) ver).getD [])) ∨
    (dget (reVer dflt vd) ver = none ∧ ∃ i a, dget vd ver = some i ∧ dget vd "any_version" = some a ∧
      SameOffers dflt i (reInst dflt a)) := by
  have hkeep : ∀ i, dget vd ver = some i → SameOffers dflt i (reInst dflt i) := fun i hi =>
    sameOffers_reInst (hv.insts _ _ hi) (compactInst_ok (hv.insts _ _ hi) (hc _ _ hi)).1
  unfold reVer
  rw [dget_vmap, dget_keptVer hv.nodup]
  by_cases hver : ver = "any_version"
  · subst hver
    left
    simp only [if_true]
    cases hi : dget vd "any_version" with
    | none => exact sameOffers_nil _
    | some i => exact hkeep i hi
  · rw [if_neg hver]
    cases hi : dget vd ver with
    | none => left; exact sameOffers_nil _
    | some i =>
      by_cases hk : keepV dflt ((dget vd "any_version").map (cVal dflt)) (ver, i) = true
      · left
        rw [Option.filter_some, if_pos hk]
        exact hkeep i hi
      · right
        rw [Option.filter_some, if_neg hk]
        refine ⟨rfl, ?_⟩
        cases ha : dget vd "any_version" with
        | none => rw [ha] at hk; simp [keepV, hver] at hk
        | some a =>
          rw [ha] at hk
          have hp : pyEq (cVal dflt i) (cVal dflt a) = true := by simpa [keepV, hver] using hk
          exact ⟨i, a, rfl, rfl, sameOffers_dropped (hv.insts _ _ hi) (hv.insts _ _ ha) (hc _ _ hi) (hc _ _ ha) hp⟩

/-! ### os dicts and rules dicts -/

/-- A loop that fills a new dict entry by entry. -/
def kmapM {α : Type} (f : String → α → Except Exc PVal) : Dict String α → Except Exc (Dict String PVal)
  | [] => .ok []
  | (k, a) :: d => do
    let x ← f k a
    let r ← kmapM f d
    pure ((k, x) :: r)

theorem foldlM_kmapM {α : Type} (f : String → α → Except Exc PVal) (d : Dict String α) (acc : Dict String PVal)
    (h : (dkeys acc ++ dkeys d).Nodup) :
    d.foldlM (fun acc kv => do let x ← f kv.1 kv.2; pure (dset acc kv.1 x)) acc =
      (kmapM f d).map (fun r => acc ++ r) := by
  induction d generalizing acc with
  | nil => simp [kmapM, pure, Except.pure, Except.map]
  | cons x d ih =>
    obtain ⟨k, a⟩ := x
    have hk : k ∉ dkeys acc := fun hm => (List.nodup_append.1 h).2.2 k hm k (by simp) rfl
    simp only [List.foldlM_cons, kmapM]
    cases hf : f k a with
    | error e => rfl
    | ok y =>
      simp only [bind, Except.bind, pure, Except.pure]
      have := ih (dset acc k y) (by rw [dset_new hk]; simpa [dkeys] using h)
      simp only [bind, Except.bind, pure, Except.pure] at this
      rw [this, dset_new hk]
      cases kmapM f d <;> simp [Except.map]

theorem kmapM_ok {α : Type} {f : String → α → Except Exc PVal} {d : Dict String α} {r : Dict String PVal} :
    kmapM f d = .ok r ↔ (∀ x ∈ d, ∃ y, f x.1 x.2 = .ok y) ∧
      r = d.map (fun x => (x.1, match f x.1 x.2 with | .ok y => y | .error _ => .none)) := by
  induction d generalizing r with
  | nil => simp [kmapM, eq_comm]
  | cons x d ih =>
    obtain ⟨k, a⟩ := x
    simp only [kmapM]
    rw [Except_bind_ok]
    constructor
    · rintro ⟨y, hy, h⟩
      obtain ⟨r', hr', h⟩ := Except_bind_ok.1 h
      rw [pure_ok] at h; subst h
      obtain ⟨h1, rfl⟩ := ih.1 hr'
      refine ⟨?_, by simp [hy]⟩
      intro x hx
      rcases List.mem_cons.1 hx with rfl | hx
      · exact ⟨y, hy⟩
      · exact h1 x hx
    · rintro ⟨h1, rfl⟩
      obtain ⟨y, hy⟩ := h1 (k, a) (.head _)
      refine ⟨y, hy, ?_⟩
      rw [ih.2 ⟨fun x hx => h1 x (.tail _ hx), rfl⟩]
      simp [bind, Except.bind, pure, Except.pure, hy]

/-- Value of a computation known to succeed. -/
def okv (x : Except Exc PVal) : PVal := match x with | .ok y => y | .error _ => .none

theorem kmapM_ok' {α : Type} {f : String → α → Except Exc PVal} {d : Dict String α} (hd : DWF d) {r : Dict String PVal} :
    kmapM f d = .ok r ↔ (∀ k a, dget d k = some a → f k a = .ok (okv (f k a))) ∧
      r = d.map (fun x => (x.1, okv (f x.1 x.2))) := by
  rw [kmapM_ok]
  refine and_congr ?_ Iff.rfl
  constructor
  · intro h k a hk
    obtain ⟨y, hy⟩ := h (k, a) (dget_some_mem hk)
    simp only at hy; rw [hy]; rfl
  · intro h x hx
    exact ⟨_, h x.1 x.2 (mem_dget hd hx)⟩

theorem compactOs_iff {od : OsDict} (hd : DWF od) {dflts : Dict String (Option String)} {c : PVal} :
    compactOsDict od dflts = .ok c ↔
      (∀ os vd, dget od os = some vd → compactOsEntry dflts os vd = .ok (okv (compactOsEntry dflts os vd))) ∧
      c = .dict (od.map fun x => (PKey.str x.1, okv (compactOsEntry dflts x.1 x.2))) := by
  unfold compactOsDict
  rw [foldlM_kmapM _ _ _ (by simpa [DWF] using hd)]
  rw [Except_bind_ok]
  constructor
  · rintro ⟨r, hr, h⟩
    rw [pure_ok] at h; subst h
    cases hk : kmapM (compactOsEntry dflts) od with
    | error e => rw [hk] at hr; simp [Except.map] at hr
    | ok r' =>
      rw [hk] at hr; simp [Except.map] at hr; subst hr
      obtain ⟨h1, rfl⟩ := (kmapM_ok' hd).1 hk
      refine ⟨h1, ?_⟩
      simp [dictVal]
  · rintro ⟨h1, rfl⟩
    refine ⟨_, by rw [(kmapM_ok' hd).2 ⟨h1, rfl⟩]; rfl, ?_⟩
    simp [dictVal, pure, Except.pure]

theorem compactRules_iff {r : Rules} (hd : DWF r) {dflts : Dict String (Option String)} {c : PVal} :
    compactRules r dflts = .ok c ↔
      (∀ k od, dget r k = some od → compactOsDict od dflts = .ok (okv (compactOsDict od dflts))) ∧
      c = .dict (r.map fun x => (PKey.str x.1, okv (compactOsDict x.2 dflts))) := by
  unfold compactRules
  rw [foldlM_kmapM (fun _ od => compactOsDict od dflts) _ _ (by simpa [DWF] using hd)]
  rw [Except_bind_ok]
  constructor
  · rintro ⟨r', hr, h⟩
    rw [pure_ok] at h; subst h
    cases hk : kmapM (fun _ od => compactOsDict od dflts) r with
    | error e => rw [hk] at hr; simp [Except.map] at hr
    | ok r' =>
      rw [hk] at hr; simp [Except.map] at hr; subst hr
      obtain ⟨h1, rfl⟩ := (kmapM_ok' hd).1 hk
      refine ⟨h1, ?_⟩
      simp [dictVal]
  · rintro ⟨h1, rfl⟩
    refine ⟨_, by rw [(kmapM_ok' (f := fun _ od => compactOsDict od dflts) hd).2 ⟨h1, rfl⟩]; rfl, ?_⟩
    simp [dictVal, pure, Except.pure]

/-- The default installer of an os in a table. -/
def dfltOf (dflts : Dict String (Option String)) (os : String) : Option String := (dget dflts os).getD none

/-- The version dict of an os that comes back after compaction and expansion. -/
def reOsEntry (dflts : Dict String (Option String)) (os : String) (vd : VerDict) : VerDict :=
  if os = "any_os" then vd else reVer (dfltOf dflts os) vd

/-- The os dict that comes back after compaction and expansion. -/
def reOs (dflts : Dict String (Option String)) (od : OsDict) : OsDict :=
  od.map fun x => (x.1, reOsEntry dflts x.1 x.2)

/-- The rules that come back after compaction and expansion. -/
def reRules (dflts : Dict String (Option String)) (r : Rules) : Rules := r.map fun x => (x.1, reOs dflts x.2)

theorem dget_mapk {α β : Type} (f : String → α → β) (d : Dict String α) (k : String) :
    dget (d.map fun x => (x.1, f x.1 x.2)) k = (dget d k).map (f k) := by
  induction d with
  | nil => rfl
  | cons x d ih =>
    simp only [List.map_cons, dget_cons, ih]
    split
    · rename_i h; rw [h]; rfl
    · rfl

theorem DWF_mapk {α β : Type} {f : String → α → β} {d : Dict String α} (h : DWF d) :
    DWF (d.map fun x => (x.1, f x.1 x.2)) := by
  unfold DWF dkeys at *
  rw [List.map_map]; exact h

theorem reOsEntry_good {dflts : Dict String (Option String)} {od : OsDict} (h : GoodOs od) {os : String} {vd : VerDict}
    (hv : dget od os = some vd) : GoodVer (reOsEntry dflts os vd) := by
  unfold reOsEntry
  split
  · exact h.vers _ _ hv
  · exact reVer_good (h.vers _ _ hv)

theorem reOs_good {dflts : Dict String (Option String)} {od : OsDict} (h : GoodOs od) : GoodOs (reOs dflts od) := by
  refine ⟨DWF_mapk h.nodup, ?_, ?_⟩
  · intro n v hv
    unfold reOs at hv
    rw [dget_mapk] at hv
    obtain ⟨w, hw, rfl⟩ := Option.map_eq_some_iff.1 hv
    exact reOsEntry_good h hw
  · intro v hv
    unfold reOs at hv
    rw [dget_mapk] at hv
    obtain ⟨w, hw, rfl⟩ := Option.map_eq_some_iff.1 hv
    simp only [reOsEntry, if_true]
    exact h.anyOs _ hw

theorem reRules_good {dflts : Dict String (Option String)} {r : Rules} (h : GoodRules r) : GoodRules (reRules dflts r) := by
  refine ⟨DWF_mapk (f := fun _ od => reOs dflts od) h.nodup, ?_⟩
  intro k od hk
  unfold reRules at hk
  rw [dget_mapk (fun _ od => reOs dflts od)] at hk
  obtain ⟨w, hw, rfl⟩ := Option.map_eq_some_iff.1 hk
  exact reOs_good (h.oss _ _ hw)

theorem expand_osEntry {dflts : Dict String (Option String)} {od : OsDict} (h : GoodOs od) {os : String} {vd : VerDict}
    (hv : dget od os = some vd) {c : PVal} (hc : compactOsEntry dflts os vd = .ok c) :
    expandOsVersionDefinition (.str os) c = .ok (reOsEntry dflts os vd).toVal := by
  unfold compactOsEntry at hc
  unfold reOsEntry
  by_cases ho : os = "any_os"
  · rw [if_pos ho] at hc ⊢
    subst ho
    obtain ⟨i, rfl, hD, hA⟩ := h.anyOs _ hv
    simp only [dget, if_true] at hc
    have gi := (h.vers _ _ hv).insts "any_version" i (by simp [dget])
    obtain ⟨-, -, h3⟩ := compactInst_ok gi hc
    have e : renameD none i = i := rfl
    rw [e] at h3
    rcases h3 with ⟨l, hl, _⟩ | ⟨_, rfl⟩
    · unfold Collapses at hl
      rw [hl] at hD; simp [dname, truthy, dget] at hD
    · rw [expandVersion_eq]
      have hA' : dhas (i.map fun kv => (PKey.str kv.1, compactInstallerRule kv.2)) (.str "any_version") = false := by
        unfold dhas; rw [dget_dictItems, hA]; rfl
      have : anyOsWrap (.str "any_os") (i.map fun kv => (PKey.str kv.1, compactInstallerRule kv.2)) =
          .ok [(.str "any_version", dictVal compactInstallerRule i)] := by
        unfold anyOsWrap; rw [if_pos rfl, hA']; rfl
      simp only [dictVal, upConvert, bind, Except.bind, this]
      have hs : forItems (fun (_ : PKey) v => expandInstallerDefinition v) [(.str "any_version", dictVal compactInstallerRule i)]
          = .ok [(.str "any_version", i.toVal)] := by
        rw [forItems_eq _ (by simp)]
        simp [mapVals, expand_dictVal_inst gi, bind, Except.bind, pure, Except.pure]
      rw [dictVal] at hs
      rw [hs]; rfl
  · rw [if_neg ho] at hc ⊢
    have gv := h.vers _ _ hv
    obtain ⟨h1, rfl⟩ := (compactVer_iff gv.nodup).1 hc
    exact expand_verOut gv _ (by simpa using ho) h1

theorem expand_os {dflts : Dict String (Option String)} {od : OsDict} (h : GoodOs od) {c : PVal}
    (hc : compactOsDict od dflts = .ok c) : expandOsDefinition c = .ok (reOs dflts od).toVal := by
  obtain ⟨h1, rfl⟩ := (compactOs_iff h.nodup).1 hc
  unfold expandOsDefinition
  simp only [bind, Except.bind]
  rw [forItems_eq _ (DWF_str' (g := fun k v => okv (compactOsEntry dflts k v)) h.nodup),
    mapVals_dictVal' (g := fun k v => okv (compactOsEntry dflts k v)) (h := fun k v => (reOsEntry dflts k v).toVal) h.nodup
      (fun k a ha => expand_osEntry h ha (h1 _ _ ha))]
  simp [pure, Except.pure, OsDict.toVal, dictVal, reOs]

theorem expand_rules {dflts : Dict String (Option String)} {r : Rules} (h : GoodRules r) {c : PVal}
    (hc : compactRules r dflts = .ok c) : expandRules c = .ok (reRules dflts r).toVal := by
  obtain ⟨h1, rfl⟩ := (compactRules_iff h.nodup).1 hc
  rw [expandRules_dict]
  rw [forItems_eq _ (DWF_str' (g := fun _ od => okv (compactOsDict od dflts)) h.nodup),
    mapVals_dictVal' (g := fun _ od => okv (compactOsDict od dflts)) (h := fun _ od => (reOs dflts od).toVal) h.nodup
      (fun k a ha => expandKey_ok.2 (expand_os (h.oss _ _ ha) (h1 _ _ ha)))]
  simp [bind, Except.bind, pure, Except.pure, Rules.toVal, dictVal, reRules]

end Verif
