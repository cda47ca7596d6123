import Verif.Model.Expand
import Verif.Spec.Expanded
import Verif.Lemmas.Dict
/-! Helper lemmas about expansion. -/
namespace Verif

theorem Except_bind_ok {α β : Type} {x : Except Exc α} {f : α → Except Exc β} {b : β} :
    (x >>= f) = .ok b ↔ ∃ a, x = .ok a ∧ f a = .ok b := by
  cases x <;> simp [bind, Except.bind]

theorem Except_bind_err {α β : Type} {x : Except Exc α} {f : α → Except Exc β} {e : Exc} :
    (x >>= f) = .error e ↔ x = .error e ∨ ∃ a, x = .ok a ∧ f a = .error e := by
  cases x <;> simp [bind, Except.bind]

theorem pure_ok {α : Type} {a b : α} : (pure a : Except Exc α) = .ok b ↔ a = b := by
  simp [pure, Except.pure]

theorem upConvert_WF {kw : String} {v : PVal} {d : Dict PKey PVal} (hv : v.WF) (h : upConvert kw v = .ok d) :
    DWF d ∧ ∀ k w, (k, w) ∈ d → w.WF := by
  cases v with
  | none => simp [upConvert] at h; subst h; simp [PVal.WF, PVal.WFList]
  | str s => simp [upConvert] at h; subst h; simp [PVal.WF, PVal.WFList]
  | list l =>
    simp [upConvert] at h; subst h
    simp only [PVal.WF] at hv
    simp [PVal.WF, hv]
  | dict d' =>
    simp [upConvert] at h; subst h
    simp only [PVal.WF, PVal.WFItems_iff] at hv
    exact hv
  | _ => simp [upConvert] at h

theorem pyEq_nil {v : PVal} : pyEq v (.list []) = true ↔ v = .list [] := by
  cases v <;> simp [pyEq, PVal.num?]
  rename_i l; cases l <;> simp [pyEqList]

theorem normPackages_DWF {d : Dict PKey PVal} (h : DWF d) : DWF (normPackages d) := by
  unfold normPackages; split
  · exact DWF_set h _ _
  · exact DWF_set h _ _
  · exact h

theorem normDepends_DWF {d : Dict PKey PVal} (h : DWF d) : DWF (normDepends d) := by
  unfold normDepends; split
  · exact h
  · split
    · exact DWF_del (DWF_set h _ _) _
    · exact DWF_set h _ _

theorem normPackages_dget {d : Dict PKey PVal} {k : PKey} (hk : k ≠ .str "packages") :
    dget (normPackages d) k = dget d k := by
  unfold normPackages; split
  · rw [dget_set, if_neg (Ne.symm hk)]
  · rw [dget_set, if_neg (Ne.symm hk)]
  · rfl

theorem normDepends_dget {d : Dict PKey PVal} {k : PKey} (hk : k ≠ .str "depends") :
    dget (normDepends d) k = dget d k := by
  unfold normDepends; split
  · rfl
  · split
    · rw [dget_del, if_neg (Ne.symm hk), dget_set, if_neg (Ne.symm hk)]
    · rw [dget_set, if_neg (Ne.symm hk)]

theorem normPackages_packages (d : Dict PKey PVal) :
    dget (normPackages d) (.str "packages") ≠ some .none ∧ ∀ s, dget (normPackages d) (.str "packages") ≠ some (.str s) := by
  unfold normPackages; split
  · rw [dget_set]; simp
  · rw [dget_set]; simp
  · rename_i h1 h2; exact ⟨h1, h2⟩

theorem normDepends_depends (d : Dict PKey PVal) :
    dget (normDepends d) (.str "depends") ≠ some .none ∧ (∀ s, dget (normDepends d) (.str "depends") ≠ some (.str s)) ∧
    dget (normDepends d) (.str "depends") ≠ some (.list []) := by
  unfold normDepends; split
  · rename_i h; rw [h]; simp
  · rename_i v h
    split
    · rw [dget_del]; simp
    · rename_i hn
      rw [dget_set]; simp only [if_true]
      rw [pyEq_nil] at hn
      cases v <;> simp_all [listify]

theorem expandDefinition_spec {v w : PVal} (hv : v.WF) (h : expandDefinition v = .ok w) : ExpandedRule w := by
  unfold expandDefinition at h
  obtain ⟨d, hd, hw⟩ := Except_bind_ok.1 h
  rw [pure_ok] at hw; subst hw
  have hwf := upConvert_WF hv hd
  have hw2 := normDepends_DWF (normPackages_DWF hwf.1)
  refine ⟨_, rfl, ?_, ?_⟩
  · intro p hp
    have := mem_dget hw2 hp
    rw [normDepends_dget (by simp)] at this
    have h2 := normPackages_packages d
    exact ⟨fun e => h2.1 (e ▸ this), fun s e => h2.2 s (e ▸ this)⟩
  · intro p hp
    have := mem_dget hw2 hp
    have h2 := normDepends_depends (normPackages d)
    exact ⟨fun e => h2.1 (e ▸ this), fun s e => h2.2.1 s (e ▸ this), fun e => h2.2.2 (e ▸ this)⟩

theorem expandInstaller_spec {v w : PVal} (hv : v.WF) (h : expandInstallerDefinition v = .ok w) : ExpandedInst w := by
  unfold expandInstallerDefinition at h
  obtain ⟨d, hd, h⟩ := Except_bind_ok.1 h
  obtain ⟨d', hd', hw⟩ := Except_bind_ok.1 h
  rw [pure_ok] at hw; subst hw
  have hwf := upConvert_WF hv hd
  rw [forItems_eq _ hwf.1] at hd'
  refine ⟨_, rfl, fun k w hm => ?_⟩
  obtain ⟨v, hv, he⟩ := mapVals_mem hd' hm
  exact expandDefinition_spec (hwf.2 _ _ hv) he

/-- The version dict handed to the loop of `expand_os_version_definition`. -/
def anyOsWrap (os : PKey) (d : Dict PKey PVal) : Except Exc (Dict PKey PVal) :=
  if os = .str "any_os" then
      if dhas d (.str "any_version") then
        if d.length != 1 then .error .valueError else .ok d
      else .ok [(.str "any_version", .dict d)]
    else .ok d

theorem expandVersion_eq (os : PKey) (v : PVal) : expandOsVersionDefinition os v = (do
    let d ← upConvert "any_version" v
    let d ← anyOsWrap os d
    let d ← forItems (fun _ v => expandInstallerDefinition v) d
    pure (.dict d)) := rfl

theorem anyOsWrap_WF {os : PKey} {d d' : Dict PKey PVal} (hd : DWF d ∧ ∀ k w, (k, w) ∈ d → w.WF)
    (h : anyOsWrap os d = .ok d') : (DWF d' ∧ ∀ k w, (k, w) ∈ d' → w.WF) ∧
      (os = .str "any_os" → dkeys d' = [.str "any_version"]) ∧ (os ≠ .str "any_os" → d' = d) := by
  unfold anyOsWrap at h
  by_cases ho : os = .str "any_os"
  · rw [if_pos ho] at h
    by_cases ha : dhas d (.str "any_version") = true
    · rw [if_pos ha] at h
      split at h
      · simp at h
      · rename_i hl
        simp at h; subst h
        refine ⟨hd, fun _ => ?_, fun hn => absurd ho hn⟩
        simp only [bne_iff_ne, ne_eq, Decidable.not_not] at hl
        obtain ⟨x, rfl⟩ := List.length_eq_one_iff.1 hl
        rw [dhas_iff] at ha
        simp [dkeys] at ha ⊢
        exact ha.symm
    · rw [if_neg ha] at h
      simp at h; subst h
      refine ⟨⟨by simp, ?_⟩, fun _ => by simp [dkeys], fun hn => absurd ho hn⟩
      intro k w hm
      simp at hm; obtain ⟨_, rfl⟩ := hm
      rw [PVal.WF, PVal.WFItems_iff]; exact hd
  · rw [if_neg ho] at h; simp at h; subst h
    exact ⟨hd, fun h => absurd h ho, fun _ => rfl⟩

theorem expandVersion_spec {os : PKey} {v w : PVal} (hv : v.WF) (h : expandOsVersionDefinition os v = .ok w) :
    ExpandedVer w ∧ (os = .str "any_os" → ∃ i, w = .dict [(.str "any_version", i)]) := by
  rw [expandVersion_eq] at h
  obtain ⟨d, hd, h⟩ := Except_bind_ok.1 h
  obtain ⟨d1, hd1, h⟩ := Except_bind_ok.1 h
  obtain ⟨d', hd', hw⟩ := Except_bind_ok.1 h
  rw [pure_ok] at hw; subst hw
  obtain ⟨hwf, ho, -⟩ := anyOsWrap_WF (upConvert_WF hv hd) hd1
  rw [forItems_eq _ hwf.1] at hd'
  refine ⟨⟨_, rfl, fun k w hm => ?_⟩, fun hos => ?_⟩
  · obtain ⟨v, hv, he⟩ := mapVals_mem hd' hm
    exact expandInstaller_spec (hwf.2 _ _ hv) he
  · have hk := mapVals_keys hd'
    rw [ho hos] at hk
    cases d' with
    | nil => simp [dkeys] at hk
    | cons x t =>
      cases t with
      | nil => obtain ⟨a, b⟩ := x; simp [dkeys] at hk; subst hk; exact ⟨b, rfl⟩
      | cons y t => simp [dkeys] at hk

theorem expandOs_spec {v w : PVal} (hv : v.WF) (h : expandOsDefinition v = .ok w) : ExpandedOs w := by
  cases v with
  | dict d =>
    unfold expandOsDefinition at h
    obtain ⟨d', hd', hw⟩ := Except_bind_ok.1 h
    rw [pure_ok] at hw; subst hw
    rw [PVal.WF, PVal.WFItems_iff] at hv
    rw [forItems_eq _ hv.1] at hd'
    refine ⟨_, rfl, fun k w hm => ?_⟩
    obtain ⟨v', hv', he⟩ := mapVals_mem hd' hm
    exact expandVersion_spec (hv.2 _ _ hv') he
  | _ => simp [expandOsDefinition] at h

/-- The body of the loop of `expand_rules`. -/
def expandKey (_ : PKey) (osDict : PVal) : Except Exc PVal :=
  match expandOsDefinition osDict with
  | .ok x => .ok x
  | .error .valueError => .error raiseSpecParsingError
  | .error e => .error e

theorem expandRules_dict (d : Dict PKey PVal) : expandRules (.dict d) = (do
    let d ← forItems expandKey d
    pure (.dict d)) := rfl

theorem expandKey_ok {k : PKey} {v w : PVal} : expandKey k v = .ok w ↔ expandOsDefinition v = .ok w := by
  unfold expandKey
  split
  · rename_i x h; rw [h]
  · rename_i h; rw [h]; simp
  · rename_i e _ h; rw [h]

theorem expandRules_spec {v w : PVal} (hv : v.WF) (h : expandRules v = .ok w) : ExpandedRules w := by
  cases v with
  | none => simp [expandRules] at h; subst h; exact ⟨[], rfl, by simp⟩
  | dict d =>
    rw [expandRules_dict] at h
    obtain ⟨d', hd', hw⟩ := Except_bind_ok.1 h
    rw [pure_ok] at hw; subst hw
    rw [PVal.WF, PVal.WFItems_iff] at hv
    rw [forItems_eq _ hv.1] at hd'
    refine ⟨_, rfl, fun k w hm => ?_⟩
    obtain ⟨v', hv', he⟩ := mapVals_mem hd' hm
    exact expandOs_spec (hv.2 _ _ hv') (expandKey_ok.1 he)
  | _ => simp [expandRules] at h

/-! ### idempotence -/

theorem expandDefinition_id {w : PVal} (hw : ExpandedRule w) : expandDefinition w = .ok w := by
  obtain ⟨d, rfl, hp, hd⟩ := hw
  have h1 : normPackages d = d := by
    unfold normPackages
    cases h : dget d (.str "packages") with
    | none => rfl
    | some v =>
      have := hp v (dget_some_mem h)
      cases v <;> simp_all
  have h2 : normDepends d = d := by
    unfold normDepends
    cases h : dget d (.str "depends") with
    | none => rfl
    | some v =>
      have := hd v (dget_some_mem h)
      have hn : ¬ pyEq v (.list []) = true := by rw [pyEq_nil]; exact this.2.2
      have hs := dset_self_of_dget h
      have hl : listify v = v := by cases v <;> simp_all [listify]
      simp only [hl, hs, if_neg hn]
  simp [expandDefinition, upConvert, bind, Except.bind, pure, Except.pure, h1, h2]

theorem expandInstaller_id {w : PVal} (hw : ExpandedInst w) (hf : w.WF) : expandInstallerDefinition w = .ok w := by
  obtain ⟨d, rfl, h⟩ := hw
  rw [PVal.WF, PVal.WFItems_iff] at hf
  have : forItems (fun _ v => expandDefinition v) d = .ok d := by
    rw [forItems_eq _ hf.1]; exact mapVals_id (fun k v hm => expandDefinition_id (h k v hm))
  simp only [expandInstallerDefinition, upConvert, bind, Except.bind, this, pure, Except.pure]

theorem expandVersion_id {os : PKey} {w : PVal} (hw : ExpandedVer w)
    (ha : os = .str "any_os" → ∃ i, w = .dict [(.str "any_version", i)]) (hf : w.WF) :
    expandOsVersionDefinition os w = .ok w := by
  obtain ⟨d, rfl, h⟩ := hw
  rw [PVal.WF, PVal.WFItems_iff] at hf
  have h1 : anyOsWrap os d = .ok d := by
    unfold anyOsWrap
    by_cases ho : os = .str "any_os"
    · obtain ⟨i, hi⟩ := ha ho
      injection hi with hi; subst hi
      rw [if_pos ho]; rfl
    · rw [if_neg ho]
  have : forItems (fun _ v => expandInstallerDefinition v) d = .ok d := by
    rw [forItems_eq _ hf.1]; exact mapVals_id (fun k v hm => expandInstaller_id (h k v hm) (hf.2 _ _ hm))
  rw [expandVersion_eq]
  simp only [upConvert, bind, Except.bind, h1, this, pure, Except.pure]

theorem expandOs_id {w : PVal} (hw : ExpandedOs w) (hf : w.WF) : expandOsDefinition w = .ok w := by
  obtain ⟨d, rfl, h⟩ := hw
  rw [PVal.WF, PVal.WFItems_iff] at hf
  have : forItems expandOsVersionDefinition d = .ok d := by
    rw [forItems_eq _ hf.1]
    exact mapVals_id (fun k v hm => expandVersion_id (h k v hm).1 (h k v hm).2 (hf.2 _ _ hm))
  simp only [expandOsDefinition, bind, Except.bind, this, pure, Except.pure]

theorem expandRules_id {w : PVal} (hw : ExpandedRules w) (hf : w.WF) : expandRules w = .ok w := by
  obtain ⟨d, rfl, h⟩ := hw
  rw [PVal.WF, PVal.WFItems_iff] at hf
  have : forItems expandKey d = .ok d := by
    rw [forItems_eq _ hf.1]
    exact mapVals_id (fun k v hm => expandKey_ok.2 (expandOs_id (h k v hm) (hf.2 _ _ hm)))
  rw [expandRules_dict]
  simp only [bind, Except.bind, this, pure, Except.pure]

/-! ### the result is a Python value again (distinct keys) -/

theorem dset_mem {κ β : Type} [DecidableEq κ] {d : Dict κ β} {k a : κ} {v b : β} (h : (a, b) ∈ dset d k v) :
    (a = k ∧ b = v) ∨ (a, b) ∈ d := by
  induction d with
  | nil => simp [dset] at h; exact .inl h
  | cons x d ih =>
    obtain ⟨c, w⟩ := x
    simp only [dset] at h
    split at h
    · rename_i hc
      rcases List.mem_cons.1 h with h | h
      · simp at h; exact .inl ⟨h.1.trans hc, h.2⟩
      · exact .inr (List.mem_cons_of_mem _ h)
    · rcases List.mem_cons.1 h with h | h
      · rw [h]; exact .inr (by simp)
      · rcases ih h with h | h
        · exact .inl h
        · exact .inr (List.mem_cons_of_mem _ h)

theorem ddel_mem {κ β : Type} [DecidableEq κ] {d : Dict κ β} {k a : κ} {b : β} (h : (a, b) ∈ ddel d k) :
    (a, b) ∈ d := by
  induction d with
  | nil => simp [ddel] at h
  | cons x d ih =>
    obtain ⟨c, w⟩ := x
    simp only [ddel] at h
    split at h
    · exact List.mem_cons_of_mem _ (ih h)
    · rcases List.mem_cons.1 h with h | h
      · rw [h]; simp
      · exact List.mem_cons_of_mem _ (ih h)

theorem normPackages_vals {d : Dict PKey PVal} (h : ∀ k w, (k, w) ∈ d → w.WF) :
    ∀ k w, (k, w) ∈ normPackages d → w.WF := by
  intro k w hm
  unfold normPackages at hm
  split at hm
  · rcases dset_mem hm with h' | h'
    · rw [h'.2]; simp [PVal.WF, PVal.WFList]
    · exact h _ _ h'
  · rcases dset_mem hm with h' | h'
    · rw [h'.2]; simp [PVal.WF, PVal.WFList]
    · exact h _ _ h'
  · exact h _ _ hm

theorem normDepends_vals {d : Dict PKey PVal} (h : ∀ k w, (k, w) ∈ d → w.WF) :
    ∀ k w, (k, w) ∈ normDepends d → w.WF := by
  intro k w hm
  unfold normDepends at hm
  split at hm
  · exact h _ _ hm
  · rename_i v hv
    have hvw := h _ _ (dget_some_mem hv)
    have key : ∀ k w, (k, w) ∈ dset d (.str "depends") (listify v) → w.WF := by
      intro k w hm
      rcases dset_mem hm with h' | h'
      · rw [h'.2]
        cases v <;> simp_all [listify, PVal.WF, PVal.WFList]
      · exact h _ _ h'
    split at hm
    · exact key _ _ (ddel_mem hm)
    · exact key _ _ hm

theorem mapVals_WF {f : PKey → PVal → Except Exc PVal} {d d' : Dict PKey PVal} (hd : DWF d)
    (hf : ∀ k v w, (k, v) ∈ d → f k v = .ok w → w.WF) (h : mapVals f d = .ok d') : PVal.WF (.dict d') := by
  rw [PVal.WF, PVal.WFItems_iff]
  refine ⟨mapVals_DWF h hd, fun k w hm => ?_⟩
  obtain ⟨v, hv, he⟩ := mapVals_mem h hm
  exact hf _ _ _ hv he

theorem expandDefinition_WF {v w : PVal} (hv : v.WF) (h : expandDefinition v = .ok w) : w.WF := by
  unfold expandDefinition at h
  obtain ⟨d, hd, hw⟩ := Except_bind_ok.1 h
  rw [pure_ok] at hw; subst hw
  have hwf := upConvert_WF hv hd
  rw [PVal.WF, PVal.WFItems_iff]
  exact ⟨normDepends_DWF (normPackages_DWF hwf.1), normDepends_vals (normPackages_vals hwf.2)⟩

theorem expandInstaller_WF {v w : PVal} (hv : v.WF) (h : expandInstallerDefinition v = .ok w) : w.WF := by
  unfold expandInstallerDefinition at h
  obtain ⟨d, hd, h⟩ := Except_bind_ok.1 h
  obtain ⟨d', hd', hw⟩ := Except_bind_ok.1 h
  rw [pure_ok] at hw; subst hw
  have hwf := upConvert_WF hv hd
  rw [forItems_eq _ hwf.1] at hd'
  exact mapVals_WF hwf.1 (fun k v w hm he => expandDefinition_WF (hwf.2 _ _ hm) he) hd'

theorem expandVersion_WF {os : PKey} {v w : PVal} (hv : v.WF) (h : expandOsVersionDefinition os v = .ok w) : w.WF := by
  rw [expandVersion_eq] at h
  obtain ⟨d, hd, h⟩ := Except_bind_ok.1 h
  obtain ⟨d1, hd1, h⟩ := Except_bind_ok.1 h
  obtain ⟨d', hd', hw⟩ := Except_bind_ok.1 h
  rw [pure_ok] at hw; subst hw
  obtain ⟨hwf, -⟩ := anyOsWrap_WF (upConvert_WF hv hd) hd1
  rw [forItems_eq _ hwf.1] at hd'
  exact mapVals_WF hwf.1 (fun k v w hm he => expandInstaller_WF (hwf.2 _ _ hm) he) hd'

theorem expandOs_WF {v w : PVal} (hv : v.WF) (h : expandOsDefinition v = .ok w) : w.WF := by
  cases v with
  | dict d =>
    unfold expandOsDefinition at h
    obtain ⟨d', hd', hw⟩ := Except_bind_ok.1 h
    rw [pure_ok] at hw; subst hw
    rw [PVal.WF, PVal.WFItems_iff] at hv
    rw [forItems_eq _ hv.1] at hd'
    exact mapVals_WF hv.1 (fun k v w hm he => expandVersion_WF (hv.2 _ _ hm) he) hd'
  | _ => simp [expandOsDefinition] at h

theorem expandRules_WF {v w : PVal} (hv : v.WF) (h : expandRules v = .ok w) : w.WF := by
  cases v with
  | none => simp [expandRules] at h; subst h; simp [PVal.WF, PVal.WFItems]
  | dict d =>
    rw [expandRules_dict] at h
    obtain ⟨d', hd', hw⟩ := Except_bind_ok.1 h
    rw [pure_ok] at hw; subst hw
    rw [PVal.WF, PVal.WFItems_iff] at hv
    rw [forItems_eq _ hv.1] at hd'
    exact mapVals_WF hv.1 (fun k v w hm he => expandOs_WF (hv.2 _ _ hm) (expandKey_ok.1 he)) hd'
  | _ => simp [expandRules] at h

/-! ### errors -/

theorem forItems_err {f : PKey → PVal → Except Exc PVal} {d : Dict PKey PVal} {E : Exc}
    (hf : ∀ k v e, f k v = .error e → e = E) {e : Exc} (h : forItems f d = .error e) : e = E := by
  unfold forItems at h
  generalize d = acc at h
  -- both copies of `d` were generalised to `acc`
  have key : ∀ (l acc : Dict PKey PVal),
      l.foldlM (fun acc kv => do let v ← f kv.1 kv.2; pure (dset acc kv.1 v)) acc = .error e → e = E := by
    intro l
    induction l with
    | nil => intro acc h; simp [pure, Except.pure] at h
    | cons x l ih =>
      intro acc h
      simp only [List.foldlM] at h
      rcases Except_bind_err.1 h with h | ⟨a, ha, h⟩
      · rcases Except_bind_err.1 h with h | ⟨a, ha, h⟩
        · exact hf _ _ _ h
        · simp [pure, Except.pure] at h
      · exact ih _ h
  exact key _ _ h

theorem upConvert_err {kw : String} {v : PVal} {e : Exc} (h : upConvert kw v = .error e) : e = .valueError := by
  cases v <;> simp [upConvert] at h <;> exact h.symm

theorem expandDefinition_err {v : PVal} {e : Exc} (h : expandDefinition v = .error e) : e = .valueError := by
  unfold expandDefinition at h
  rcases Except_bind_err.1 h with h | ⟨a, ha, h⟩
  · exact upConvert_err h
  · simp [pure, Except.pure] at h

theorem expandInstaller_err {v : PVal} {e : Exc} (h : expandInstallerDefinition v = .error e) : e = .valueError := by
  unfold expandInstallerDefinition at h
  rcases Except_bind_err.1 h with h | ⟨a, ha, h⟩
  · exact upConvert_err h
  · rcases Except_bind_err.1 h with h | ⟨a, ha, h⟩
    · exact forItems_err (fun _ _ _ h => expandDefinition_err h) h
    · simp [pure, Except.pure] at h

theorem expandVersion_err {os : PKey} {v : PVal} {e : Exc} (h : expandOsVersionDefinition os v = .error e) :
    e = .valueError := by
  rw [expandVersion_eq] at h
  rcases Except_bind_err.1 h with h | ⟨a, ha, h⟩
  · exact upConvert_err h
  · rcases Except_bind_err.1 h with h | ⟨a, ha, h⟩
    · unfold anyOsWrap at h
      split at h
      · split at h
        · split at h
          · simp at h; exact h.symm
          · simp at h
        · simp at h
      · simp at h
    · rcases Except_bind_err.1 h with h | ⟨a, ha, h⟩
      · exact forItems_err (fun _ _ _ h => expandInstaller_err h) h
      · simp [pure, Except.pure] at h

theorem expandOs_err {v : PVal} {e : Exc} (h : expandOsDefinition v = .error e) : e = .valueError := by
  cases v with
  | dict d =>
    unfold expandOsDefinition at h
    rcases Except_bind_err.1 h with h | ⟨a, ha, h⟩
    · exact forItems_err (fun _ _ _ h => expandVersion_err h) h
    · simp [pure, Except.pure] at h
  | _ => simp [expandOsDefinition] at h; exact h.symm

theorem expandKey_err {k : PKey} {v : PVal} {e : Exc} (h : expandKey k v = .error e) : e = .typeError := by
  unfold expandKey at h
  split at h
  · simp at h
  · simp [raiseSpecParsingError] at h; exact h.symm
  · rename_i e' hn he; exact absurd (expandOs_err he) (fun h => hn h)

end Verif
