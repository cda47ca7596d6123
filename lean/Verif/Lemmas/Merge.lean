import Verif.Lemmas.Lookup
/-! Helper lemmas about merging rules dicts. -/
namespace Verif

/-! ### loops -/

theorem forItemsDel_aux {β : Type} (f : String → β → Option β) (rest acc : Dict String β)
    (hd : DWF rest) (h : ∀ k ∈ dkeys rest, dget acc k = dget rest k) (k : String) :
    dget (rest.foldl (delStep f) acc) k
    = if k ∈ dkeys rest then (dget rest k).bind (f k) else dget acc k := by
  induction rest generalizing acc with
  | nil => simp
  | cons x rest ih =>
    obtain ⟨a, v⟩ := x
    simp only [DWF_cons] at hd
    simp only [List.foldl_cons]
    rw [ih _ hd.2]
    · simp only [dkeys_cons, List.mem_cons, dget]
      by_cases hk : k ∈ dkeys rest
      · have : a ≠ k := by rintro rfl; exact hd.1 hk
        simp [hk, this]
      · rw [if_neg hk]
        by_cases hak : a = k
        · subst hak
          simp only [true_or, if_true]
          cases hf : f a v with
          | none => simp [delStep, dget_del, hf]
          | some w => simp [delStep, hf]
        · have hka : k ≠ a := fun e => hak e.symm
          simp only [hka, hk, or_self, if_false]
          cases hf : f a v with
          | none => simp [delStep, hf, dget_del, hak]
          | some w => simp [delStep, hf, dget_set, hak]
    · intro k' hk'
      have : a ≠ k' := by rintro rfl; exact hd.1 hk'
      have h1 := h k' (by simp [hk'])
      simp only [dget, this, if_false] at h1
      cases hf : f a v with
      | none => simp only [delStep, hf, dget_del, this, if_false]; exact h1
      | some w => simp only [delStep, hf, dget_set, this, if_false]; exact h1

theorem forItemsDel_dget {β : Type} (f : String → β → Option β) {d : Dict String β} (hd : DWF d) (k : String) :
    dget (forItemsDel f d) k = (dget d k).bind (f k) := by
  rw [forItemsDel, forItemsDel_aux f d d hd (fun _ _ => rfl)]
  split
  · rfl
  · rename_i h; rw [dget_eq_none.2 h]; rfl

theorem forItemsDel_DWF {β : Type} (f : String → β → Option β) {d : Dict String β} (hd : DWF d) :
    DWF (forItemsDel f d) := by
  unfold forItemsDel
  suffices ∀ (l acc : Dict String β), DWF acc → DWF (l.foldl (delStep f) acc) from this d d hd
  intro l
  induction l with
  | nil => intro acc h; exact h
  | cons x l ih =>
    intro acc h
    simp only [List.foldl_cons]
    apply ih
    unfold delStep
    cases f x.1 x.2
    · exact DWF_del h _
    · exact DWF_set h _ _

/-- A loop that updates, for every item of `new`, the entry of the same key in the accumulator. -/
def updLoop {β γ : Type} (g : String → Option γ → β → Except Exc (Option γ)) :
    Dict String β → Dict String γ → Except Exc (Dict String γ)
  | [], acc => .ok acc
  | (k, v) :: t, acc =>
    match g k (dget acc k) v with
    | .error e => .error e
    | .ok none => updLoop g t acc
    | .ok (some x) => updLoop g t (dset acc k x)

theorem updLoop_ok {β γ : Type} {g : String → Option γ → β → Except Exc (Option γ)}
    {new : Dict String β} {acc acc' : Dict String γ} (hd : DWF new) (h : updLoop g new acc = .ok acc') (k : String) :
    (dget new k = none → dget acc' k = dget acc k) ∧
    ∀ v, dget new k = some v → ∃ o, g k (dget acc k) v = .ok o ∧ dget acc' k = o.or (dget acc k) := by
  induction new generalizing acc with
  | nil => simp [updLoop] at h; subst h; simp
  | cons x t ih =>
    obtain ⟨a, w⟩ := x
    simp only [DWF_cons] at hd
    simp only [updLoop] at h
    simp only [dget]
    cases hg : g a (dget acc a) w with
    | error e => simp [hg] at h
    | ok o =>
      by_cases hak : a = k
      · subst hak
        have hk : dget t a = none := dget_eq_none.2 hd.1
        simp only [if_true]
        refine ⟨by simp, ?_⟩
        intro v hv; simp at hv; subst hv
        refine ⟨o, hg, ?_⟩
        cases o with
        | none => simp only [hg] at h; rw [(ih hd.2 h).1 hk]; simp
        | some x => simp only [hg] at h; rw [(ih hd.2 h).1 hk]; simp
      · simp only [hak, if_false]
        cases o with
        | none => simp only [hg] at h; exact ih hd.2 h
        | some x =>
          simp only [hg] at h
          have := ih hd.2 h
          simpa only [dget_set, hak, if_false] using this

theorem updLoop_DWF {β γ : Type} {g : String → Option γ → β → Except Exc (Option γ)}
    {new : Dict String β} {acc acc' : Dict String γ} (hd : DWF acc) (h : updLoop g new acc = .ok acc') : DWF acc' := by
  induction new generalizing acc with
  | nil => simp [updLoop] at h; subst h; exact hd
  | cons x t ih =>
    obtain ⟨a, w⟩ := x
    simp only [updLoop] at h
    cases hg : g a (dget acc a) w with
    | error e => simp [hg] at h
    | ok o => cases o with
      | none => simp only [hg] at h; exact ih hd h
      | some x => simp only [hg] at h; exact ih (DWF_set hd _ _) h

theorem updLoop_succeeds {β γ : Type} {g : String → Option γ → β → Except Exc (Option γ)}
    {new : Dict String β} {acc : Dict String γ} (hd : DWF new)
    (h : ∀ k v, dget new k = some v → ∃ o, g k (dget acc k) v = .ok o) : ∃ acc', updLoop g new acc = .ok acc' := by
  induction new generalizing acc with
  | nil => exact ⟨acc, rfl⟩
  | cons x t ih =>
    obtain ⟨a, w⟩ := x
    simp only [DWF_cons] at hd
    simp only [updLoop]
    have ht : ∀ acc2 : Dict String γ, (∀ k ∈ dkeys t, dget acc2 k = dget acc k) → ∃ acc', updLoop g t acc2 = .ok acc' := by
      intro acc2 he
      apply ih hd.2
      intro k v hk
      have hkm : k ∈ dkeys t := mem_dkeys_iff.2 (by simp [hk])
      rw [he k hkm]
      apply h
      have : a ≠ k := by rintro rfl; exact hd.1 hkm
      simp only [dget, this, if_false, hk]
    obtain ⟨o, ho⟩ := h a w (by simp [dget])
    rw [ho]
    cases o with
    | none => exact ht _ (fun _ _ => rfl)
    | some x =>
      apply ht
      intro k hk
      have : a ≠ k := by rintro rfl; exact hd.1 hk
      simp [dget_set, this]

/-! ### installer and version level -/

/-- cell of a version dict -/
def vcell (vd : VerDict) (v i : String) : Option Rule := (dget vd v).bind (fun d => dget d i)
/-- effective cell of a version dict -/
def ecell (vd : VerDict) (dflt : Option String) (v i : String) : Option Rule := (dget vd v).bind (effLast dflt i)

theorem copyInst_eq (d : InstDict) (dflt : Option String) : copyInstallerDict d dflt = mergeInstallerDict d [] dflt := rfl

theorem copyVer_eq (d : VerDict) (dflt : Option String) :
    copyVersionDict d dflt = updLoop (fun _ _ i => (copyInstallerDict i dflt).map some) d [] := by
  unfold copyVersionDict
  generalize ([] : VerDict) = acc
  induction d generalizing acc with
  | nil => rfl
  | cons x t ih =>
    obtain ⟨a, w⟩ := x
    simp only [List.foldlM_cons, updLoop]
    cases copyInstallerDict w dflt with
    | error e => rfl
    | ok c => exact ih _

theorem copyVer_cell {d c : VerDict} {dflt : Option String} (hd : DWF d) (h : copyVersionDict d dflt = .ok c)
    (v i : String) : vcell c v i = ecell d dflt v i := by
  rw [copyVer_eq] at h
  obtain ⟨h1, h2⟩ := updLoop_ok hd h v
  unfold vcell ecell
  cases hv : dget d v with
  | none => rw [h1 hv]; simp
  | some w =>
    obtain ⟨o, ho, hc⟩ := h2 _ hv
    rw [hc]
    cases hcp : copyInstallerDict w dflt with
    | error e => simp [hcp, Except.map] at ho
    | ok x =>
      simp [hcp, Except.map] at ho; subst ho
      rw [copyInst_eq] at hcp
      simp [mergeInst_dget hcp]

theorem copyVer_WF {d c : VerDict} {dflt : Option String} (hd : d.WF) (h : copyVersionDict d dflt = .ok c) : c.WF := by
  rw [copyVer_eq] at h
  refine ⟨updLoop_DWF (by simp) h, ?_⟩
  intro v i hv
  obtain ⟨h1, h2⟩ := updLoop_ok hd.1 h v
  cases hdv : dget d v with
  | none => rw [h1 hdv] at hv; simp at hv
  | some w =>
    obtain ⟨o, ho, hc⟩ := h2 _ hdv
    cases hcp : copyInstallerDict w dflt with
    | error e => simp [hcp, Except.map] at ho
    | ok x =>
      simp [hcp, Except.map] at ho; subst ho
      rw [hc] at hv; simp at hv; subst hv
      exact mergeInst_DWF hcp (by simp)

theorem rmInst_dget (d : InstDict) (inst i : String) :
    dget (if dhas d inst then ddel d inst else d) i = if inst = i then none else dget d i := by
  split
  · rw [dget_del]
  · rename_i h
    have : dget d inst = none := dhas_false.1 (by simpa using h)
    split
    · subst_vars; exact this
    · rfl

theorem rmInst_DWF {d : InstDict} (h : DWF d) (inst : String) :
    DWF (if dhas d inst then ddel d inst else d) := by
  split
  · exact DWF_del h _
  · exact h

theorem rmVer_cell {vd : VerDict} (h : DWF vd) (inst : String) (retain : Bool) (v i : String) :
    vcell (removeRuleForAllVersions vd inst retain) v i =
      if ¬ (retain = true ∧ v = "any_version") ∧ inst = i then none else vcell vd v i := by
  unfold vcell removeRuleForAllVersions
  rw [forItemsDel_dget _ h]
  cases hv : dget vd v with
  | none => simp
  | some d =>
    simp only [Option.bind_some]
    by_cases hr : retain = true ∧ v = "any_version"
    · simp [hr]
    · have hb : ¬ ((retain && decide (v = "any_version")) = true) := by simpa using hr
      rw [if_neg hb]
      have hri := rmInst_dget d inst i
      generalize (if dhas d inst = true then ddel d inst else d) = D at hri ⊢
      split
      · rename_i he
        have he' := List.isEmpty_iff.1 he
        rw [he'] at hri
        simp only [dget_nil] at hri
        simp only [hr, not_false_eq_true, true_and, Option.bind_none]
        exact hri
      · simp only [Option.bind_some, hri, hr, not_false_eq_true, true_and]

theorem rmVer_WF {vd : VerDict} (h : vd.WF) (inst : String) (retain : Bool) :
    (removeRuleForAllVersions vd inst retain).WF := by
  refine ⟨forItemsDel_DWF _ h.1, ?_⟩
  intro v i hv
  unfold removeRuleForAllVersions at hv
  rw [forItemsDel_dget _ h.1] at hv
  cases hd : dget vd v with
  | none => simp [hd] at hv
  | some d =>
    rw [hd] at hv
    simp only [Option.bind_some] at hv
    split at hv
    · simp at hv; subst hv; exact h.2 _ _ hd
    · have hw := rmInst_DWF (h.2 _ _ hd) inst
      generalize (if dhas d inst = true then ddel d inst else d) = D at hv hw
      split at hv
      · simp at hv
      · simp only [Option.some.injEq] at hv; subst hv; exact hw

/-- loop over the effective installer names -/
def effLoop {γ : Type} (f : γ → String → γ) (dflt : Option String) : InstDict → γ → Except Exc γ
  | [], c => .ok c
  | kv :: t, c => match effName dflt kv.1 with
    | none => .error .valueError
    | some n => effLoop f dflt t (f c n)

theorem effLoop_eq {γ : Type} (f : γ → String → γ) (dflt : Option String) (l : InstDict) (c : γ) :
    l.foldlM (fun acc kv => do
        let inst ← replaceDefaultInstaller kv.1 dflt
        pure (f acc inst)) c = effLoop f dflt l c := by
  induction l generalizing c with
  | nil => rfl
  | cons x t ih =>
    have hx := replaceDefault_eq x.1 dflt
    cases he : effName dflt x.1 with
    | none => simp only [he] at hx; simp only [List.foldlM_cons, effLoop, he, hx]; rfl
    | some n =>
      simp only [he] at hx; simp only [List.foldlM_cons, effLoop, he, hx]; exact ih _

/-- the removal loop of `merge_version_dict` -/
theorem rmVerLoop {new : InstDict} {c c' : VerDict} {dflt : Option String} (hc : c.WF)
    (h : effLoop (fun acc inst => removeRuleForAllVersions acc inst true) dflt new c = Except.ok c') :
    c'.WF ∧ ∀ v i, vcell c' v i = if v ≠ "any_version" ∧ (effLast dflt i new).isSome then none else vcell c v i := by
  induction new generalizing c with
  | nil =>
    simp only [effLoop, Except.ok.injEq] at h
    subst h; exact ⟨hc, by simp [effLast]⟩
  | cons x t ih =>
    simp only [effLoop] at h
    cases he : effName dflt x.1 with
    | none => simp [he] at h
    | some n =>
      simp only [he] at h
      have hw := rmVer_WF hc n true
      have := ih hw h
      refine ⟨this.1, fun v i => ?_⟩
      rw [this.2, rmVer_cell hc.1]
      simp only [effLast, he, Option.some.injEq]
      by_cases hv : v = "any_version"
      · simp [hv]
      · by_cases hi : n = i
        · simp [hi, hv]
        · simp [hi, hv]

/-- the body of the last loop of `merge_version_dict` as an `updLoop` -/
theorem mergeVerTail_eq (new acc : VerDict) (dflt : Option String) :
    new.foldlM (fun acc kv =>
      match dget acc kv.1 with
      | none => do
        let c ← copyInstallerDict kv.2 dflt
        pure (dset acc kv.1 c)
      | some old => do
        let m ← mergeInstallerDict kv.2 old dflt
        pure (dset acc kv.1 m)) acc
    = updLoop (fun _ o i => (mergeInstallerDict i (o.getD []) dflt).map some) new acc := by
  induction new generalizing acc with
  | nil => rfl
  | cons x t ih =>
    obtain ⟨a, w⟩ := x
    simp only [List.foldlM_cons, updLoop]
    cases ho : dget acc a with
    | none =>
      simp only [Option.getD_none, copyInst_eq]
      cases mergeInstallerDict w [] dflt with
      | error e => rfl
      | ok c => exact ih _
    | some old =>
      simp only [Option.getD_some]
      cases mergeInstallerDict w old dflt with
      | error e => rfl
      | ok c => exact ih _

theorem mergeVerTail_cell {new acc c' : VerDict} {dflt : Option String} (hd : DWF new)
    (h : updLoop (fun _ o i => (mergeInstallerDict i (o.getD []) dflt).map some) new acc = .ok c') (v i : String) :
    vcell c' v i = (ecell new dflt v i).or (vcell acc v i) := by
  obtain ⟨h1, h2⟩ := updLoop_ok hd h v
  unfold vcell ecell
  cases hv : dget new v with
  | none => rw [h1 hv]; simp
  | some w =>
    obtain ⟨o, ho, hc⟩ := h2 _ hv
    rw [hc]
    cases hcp : mergeInstallerDict w ((dget acc v).getD []) dflt with
    | error e => simp [hcp, Except.map] at ho
    | ok x =>
      simp [hcp, Except.map] at ho; subst ho
      simp only [Option.some_or, Option.bind_some, mergeInst_dget hcp]
      cases dget acc v <;> simp

theorem mergeVerTail_WF {new acc c' : VerDict} {dflt : Option String} (hd : DWF new) (ha : acc.WF)
    (h : updLoop (fun _ o i => (mergeInstallerDict i (o.getD []) dflt).map some) new acc = .ok c') : c'.WF := by
  refine ⟨updLoop_DWF ha.1 h, ?_⟩
  intro v i hv
  obtain ⟨h1, h2⟩ := updLoop_ok hd h v
  cases hdv : dget new v with
  | none => rw [h1 hdv] at hv; exact ha.2 _ _ hv
  | some w =>
    obtain ⟨o, ho, hc⟩ := h2 _ hdv
    cases hcp : mergeInstallerDict w ((dget acc v).getD []) dflt with
    | error e => simp [hcp, Except.map] at ho
    | ok x =>
      simp [hcp, Except.map] at ho; subst ho
      rw [hc] at hv; simp at hv; subst hv
      refine mergeInst_DWF hcp ?_
      cases hacc : dget acc v with
      | none => simp
      | some y => exact ha.2 _ _ hacc

/-- first half of `merge_version_dict` -/
def mergeVerHead (new combined : VerDict) (dflt : Option String) : Except Exc VerDict :=
  match dget new "any_version" with
    | some newInst => do
      let combined ← effLoop (fun acc inst => removeRuleForAllVersions acc inst true) dflt newInst combined
      match dget combined "any_version" with
      | some old => do
        let m ← mergeInstallerDict newInst old none
        pure (dset combined "any_version" m)
      | none => do
        let c ← copyInstallerDict newInst dflt
        pure (dset combined "any_version" c)
    | none => pure combined

theorem mergeVer_eq (new combined : VerDict) (dflt : Option String) :
    mergeVersionDict new combined dflt = (do
      let c ← mergeVerHead new combined dflt
      updLoop (fun _ o i => (mergeInstallerDict i (o.getD []) dflt).map some) new c) := by
  unfold mergeVersionDict mergeVerHead
  simp only [← mergeVerTail_eq, ← effLoop_eq]
  rfl

/-- If merging with no default succeeds there is no keyword and the default does not matter. -/
theorem effLast_none_dflt {new c c' : InstDict} (h : mergeInstallerDict new c none = .ok c') (dflt : Option String)
    (i : String) : effLast none i new = effLast dflt i new := by
  have := mergeInst_ok_iff.1 ⟨c', h⟩
  clear h
  induction new with
  | nil => rfl
  | cons x t ih =>
    simp only [effLast]
    rw [ih (fun n hn => this n (by simp [hn]))]
    have h1 := this x.1 (by simp)
    have : effName none x.1 = effName dflt x.1 := by
      unfold effName at *
      split
      · simp_all [truthy]
      · rfl
    rw [this]

theorem mergeVerHead_spec {new c c' : VerDict} {dflt : Option String} (hn : new.WF) (hc : c.WF)
    (h : mergeVerHead new c dflt = .ok c') :
    c'.WF ∧ ∀ v i, vcell c' v i =
      if v = "any_version" then (ecell new dflt v i).or (vcell c v i)
      else if (ecell new dflt "any_version" i).isSome then none else vcell c v i := by
  unfold mergeVerHead at h
  cases hv : dget new "any_version" with
  | none =>
    simp only [hv, pure, Except.pure, Except.ok.injEq] at h
    subst h
    refine ⟨hc, fun v i => ?_⟩
    have : ecell new dflt "any_version" i = none := by simp [ecell, hv]
    split
    · subst_vars; simp [this]
    · simp [this]
  | some ni =>
    simp only [hv, bind, Except.bind] at h
    split at h
    · simp at h
    · rename_i c1 h1
      have hl := rmVerLoop hc h1
      have he : ∀ i, ecell new dflt "any_version" i = effLast dflt i ni := by intro i; simp [ecell, hv]
      have hni : DWF ni := hn.2 _ _ hv
      cases ho : dget c1 "any_version" with
      | some old =>
        simp only [ho] at h
        split at h
        · simp at h
        · rename_i m hm
          simp only [pure, Except.pure, Except.ok.injEq] at h
          subst h
          refine ⟨⟨DWF_set hl.1.1 _ _, ?_⟩, fun v i => ?_⟩
          · intro v i hvi
            rw [dget_set] at hvi
            split at hvi
            · simp at hvi; subst hvi; exact mergeInst_DWF hm (hl.1.2 _ _ ho)
            · exact hl.1.2 _ _ hvi
          · by_cases hva : v = "any_version"
            · subst hva
              have h2 := hl.2 "any_version" i
              simp only [vcell, ho, ne_eq, not_true_eq_false, false_and, if_false, Option.bind_some] at h2
              simp only [vcell, dget_set_self, Option.bind_some, if_true, mergeInst_dget hm, he]
              rw [effLast_none_dflt hm dflt, h2]
            · have h2 := hl.2 v i
              have hav : ¬ "any_version" = v := fun e => hva e.symm
              have h3 : vcell (dset c1 "any_version" m) v i = vcell c1 v i := by simp [vcell, dget_set, hav]
              rw [h3, h2, he]; simp [hva]
      | none =>
        simp only [ho] at h
        split at h
        · simp at h
        · rename_i m hm
          simp only [pure, Except.pure, Except.ok.injEq] at h
          subst h
          rw [copyInst_eq] at hm
          refine ⟨⟨DWF_set hl.1.1 _ _, ?_⟩, fun v i => ?_⟩
          · intro v i hvi
            rw [dget_set] at hvi
            split at hvi
            · simp at hvi; subst hvi; exact mergeInst_DWF hm (by simp)
            · exact hl.1.2 _ _ hvi
          · by_cases hva : v = "any_version"
            · subst hva
              have h2 := hl.2 "any_version" i
              simp only [vcell, ho, ne_eq, not_true_eq_false, false_and, if_false, Option.bind_none] at h2
              simp only [vcell, dget_set_self, Option.bind_some, if_true, mergeInst_dget hm, he, ← h2, dget_nil]
            · have h2 := hl.2 v i
              have hav : ¬ "any_version" = v := fun e => hva e.symm
              have h3 : vcell (dset c1 "any_version" m) v i = vcell c1 v i := by simp [vcell, dget_set, hav]
              rw [h3, h2, he]; simp [hva]

theorem mergeVer_spec {new c c' : VerDict} {dflt : Option String} (hn : new.WF) (hc : c.WF)
    (h : mergeVersionDict new c dflt = .ok c') :
    c'.WF ∧ ∀ v i, vcell c' v i = (ecell new dflt v i).or
      (if (ecell new dflt "any_version" i).isSome then none else vcell c v i) := by
  rw [mergeVer_eq] at h
  cases h1 : mergeVerHead new c dflt with
  | error e => simp [h1, bind, Except.bind] at h
  | ok c1 =>
    simp only [h1, bind, Except.bind] at h
    obtain ⟨w1, e1⟩ := mergeVerHead_spec hn hc h1
    refine ⟨mergeVerTail_WF hn.1 w1 h, fun v i => ?_⟩
    rw [mergeVerTail_cell hn.1 h, e1]
    by_cases hva : v = "any_version"
    · subst hva
      simp only [if_true]
      cases ecell new dflt "any_version" i <;> simp
    · simp [hva]

/-! ### os level -/

/-- cell of an os dict -/
def ocell (od : OsDict) (o v i : String) : Option Rule := (dget od o).bind (fun vd => vcell vd v i)
/-- effective cell of an os dict -/
def oecell (od : OsDict) (dflt : Option String) (o v i : String) : Option Rule :=
  (dget od o).bind (fun vd => ecell vd dflt v i)

theorem rmOs_cell {od : OsDict} (h : od.WF) (inst : String) (o v i : String) :
    ocell (removeRuleForAllOs od inst) o v i =
      if o ≠ "any_os" ∧ inst = i then none else ocell od o v i := by
  unfold ocell removeRuleForAllOs
  rw [forItemsDel_dget _ h.1]
  cases hv : dget od o with
  | none => simp
  | some vd =>
    simp only [Option.bind_some]
    by_cases ho : o = "any_os"
    · simp [ho]
    · simp only [ho, if_false, ne_eq, not_false_eq_true, true_and]
      have hr := rmVer_cell (h.2 _ _ hv).1 inst false v i
      simp only [Bool.false_eq_true, false_and, not_false_eq_true, true_and] at hr
      split
      · rename_i he
        rw [List.isEmpty_iff.1 he] at hr
        simp only [Option.bind_none]; exact hr
      · simpa using hr

theorem rmOs_WF {od : OsDict} (h : od.WF) (inst : String) : (removeRuleForAllOs od inst).WF := by
  refine ⟨forItemsDel_DWF _ h.1, ?_⟩
  intro o vd hv
  unfold removeRuleForAllOs at hv
  rw [forItemsDel_dget _ h.1] at hv
  cases hd : dget od o with
  | none => simp [hd] at hv
  | some d =>
    rw [hd] at hv
    simp only [Option.bind_some] at hv
    split at hv
    · simp at hv; subst hv; exact h.2 _ _ hd
    · split at hv
      · simp at hv
      · simp only [Option.some.injEq] at hv; subst hv; exact rmVer_WF (h.2 _ _ hd) _ _

theorem rmOs_anyOs {od : OsDict} (h : od.WF) (inst : String) :
    dget (removeRuleForAllOs od inst) "any_os" = dget od "any_os" := by
  unfold removeRuleForAllOs
  rw [forItemsDel_dget _ h.1]
  cases dget od "any_os" <;> simp

theorem rmOsLoop {new : InstDict} {c c' : OsDict} (hc : c.WF)
    (h : effLoop removeRuleForAllOs none new c = Except.ok c') :
    c'.WF ∧ dget c' "any_os" = dget c "any_os" ∧
    ∀ o v i, ocell c' o v i = if o ≠ "any_os" ∧ (effLast none i new).isSome then none else ocell c o v i := by
  induction new generalizing c with
  | nil =>
    simp only [effLoop, Except.ok.injEq] at h
    subst h; exact ⟨hc, rfl, by simp [effLast]⟩
  | cons x t ih =>
    simp only [effLoop] at h
    cases he : effName none x.1 with
    | none => simp [he] at h
    | some n =>
      simp only [he] at h
      have hw := rmOs_WF hc n
      have := ih hw h
      refine ⟨this.1, by rw [this.2.1, rmOs_anyOs hc], fun o v i => ?_⟩
      rw [this.2.2, rmOs_cell hc]
      simp only [effLast, he, Option.some.injEq]
      by_cases hv : o = "any_os"
      · simp [hv]
      · by_cases hi : n = i
        · simp [hi, hv]
        · simp [hi, hv]

/-- first half of `merge_os_dict` -/
def mergeOsHead (new combined : OsDict) : Except Exc OsDict :=
  match dget new "any_os" with
    | some newVer =>
      match dget newVer "any_version" with
      | none => .error .keyError
      | some newInst => do
        let combined ← effLoop removeRuleForAllOs none newInst combined
        match dget combined "any_os" with
        | some oldVer =>
          match dget oldVer "any_version" with
          | none => .error .keyError
          | some old => do
            let m ← mergeInstallerDict newInst old none
            pure (dset combined "any_os" (dset oldVer "any_version" m))
        | none => do
          let c ← copyVersionDict newVer none
          pure (dset combined "any_os" c)
    | none => pure combined

/-- second half of `merge_os_dict`, per entry -/
def mergeOsStep (dflts : Dict String (Option String)) (os : String) (o : Option VerDict) (nv : VerDict) :
    Except Exc (Option VerDict) :=
  match dget dflts os with
  | none => .ok none
  | some dflt => match o with
    | none => (copyVersionDict nv dflt).map some
    | some old => (mergeVersionDict nv old dflt).map some

theorem mergeOs_eq (new combined : OsDict) (dflts : Dict String (Option String)) :
    mergeOsDict new combined dflts = (do
      let c ← mergeOsHead new combined
      updLoop (mergeOsStep dflts) new c) := by
  have tail : ∀ (l acc : OsDict), l.foldlM (fun acc kv =>
      match dget dflts kv.1 with
      | none => pure acc
      | some dflt =>
        match dget acc kv.1 with
        | none => do
          let c ← copyVersionDict kv.2 dflt
          pure (dset acc kv.1 c)
        | some old => do
          let m ← mergeVersionDict kv.2 old dflt
          pure (dset acc kv.1 m)) acc = updLoop (mergeOsStep dflts) l acc := by
    intro l
    induction l with
    | nil => intro acc; rfl
    | cons x t ih =>
      intro acc
      obtain ⟨a, w⟩ := x
      simp only [List.foldlM_cons, updLoop, mergeOsStep]
      cases hd : dget dflts a with
      | none => exact ih _
      | some dflt =>
        simp only
        cases ho : dget acc a with
        | none =>
          simp only
          cases copyVersionDict w dflt with
          | error e => rfl
          | ok c => exact ih _
        | some old =>
          simp only
          cases mergeVersionDict w old dflt with
          | error e => rfl
          | ok c => exact ih _
  unfold mergeOsDict mergeOsHead
  simp only [← effLoop_eq, ← tail]
  rfl

/-- Invariant of combined os dicts: only known os names, any_os has exactly `any_version`. -/
structure OsInv (dflts : Dict String (Option String)) (c : OsDict) : Prop where
  wf : c.WF
  known : ∀ o vd, dget c o = some vd → o = "any_os" ∨ (dget dflts o).isSome
  anyOs : ∀ vd, dget c "any_os" = some vd → ∀ v, (dget vd v).isSome ↔ v = "any_version"

/-- Requirement on input os dicts: distinct keys; any_os has exactly `any_version` (guaranteed by expansion). -/
structure OsOk (n : OsDict) : Prop where
  wf : n.WF
  anyOs : ∀ vd, dget n "any_os" = some vd → ∀ v, (dget vd v).isSome ↔ v = "any_version"

theorem mergeOsHead_spec {new c c' : OsDict} {dflts : Dict String (Option String)} (hn : OsOk new)
    (hc : OsInv dflts c) (h : mergeOsHead new c = .ok c') :
    OsInv dflts c' ∧ ∀ o v i, ocell c' o v i =
      if o = "any_os" then (oecell new none o v i).or (ocell c o v i)
      else if (oecell new none "any_os" "any_version" i).isSome then none else ocell c o v i := by
  unfold mergeOsHead at h
  cases hv : dget new "any_os" with
  | none =>
    simp only [hv, pure, Except.pure, Except.ok.injEq] at h
    subst h
    refine ⟨hc, fun o v i => ?_⟩
    have e : ∀ v, oecell new none "any_os" v i = none := by intro v; simp [oecell, hv]
    split
    · subst_vars; simp [e]
    · simp [e]
  | some nv =>
    simp only [hv] at h
    cases hni : dget nv "any_version" with
    | none => simp [hni] at h
    | some ni =>
      simp only [hni, bind, Except.bind] at h
      have hwni : DWF ni := (hn.wf.2 _ _ hv).2 _ _ hni
      split at h
      · simp at h
      · rename_i c1 h1
        obtain ⟨w1, a1, e1⟩ := rmOsLoop hc.wf h1
        have he : ∀ i, oecell new none "any_os" "any_version" i = effLast none i ni := by
          intro i; simp [oecell, hv, ecell, hni]
        have hev : ∀ v i, v ≠ "any_version" → oecell new none "any_os" v i = none := by
          intro v i hne
          have := (hn.anyOs _ hv v)
          have hnone : dget nv v = none := by
            cases hh : dget nv v with
            | none => rfl
            | some y => rw [hh] at this; simp at this; exact absurd this hne
          simp [oecell, hv, ecell, hnone]
        have known1 : ∀ o vd, dget c1 o = some vd → o = "any_os" ∨ (dget dflts o).isSome := by
          have key : ∀ (l : InstDict) (a b : OsDict), a.WF → (∀ o vd, dget a o = some vd → o = "any_os" ∨ (dget dflts o).isSome) →
              effLoop removeRuleForAllOs none l a = Except.ok b →
              (∀ o vd, dget b o = some vd → o = "any_os" ∨ (dget dflts o).isSome) := by
            intro l
            induction l with
            | nil => intro a b _ hk hf; simp only [effLoop, Except.ok.injEq] at hf; subst hf; exact hk
            | cons x t ih =>
              intro a b ha hk hf
              simp only [effLoop] at hf
              cases hx : effName none x.1 with
              | none => simp [hx] at hf
              | some n =>
                simp only [hx] at hf
                refine ih _ _ (rmOs_WF ha n) ?_ hf
                intro o vd hov
                unfold removeRuleForAllOs at hov
                rw [forItemsDel_dget _ ha.1] at hov
                cases hao : dget a o with
                | none => simp [hao] at hov
                | some y => exact hk _ _ hao
          exact key ni c c1 hc.wf hc.known h1
        cases ho : dget c1 "any_os" with
        | some ov =>
          simp only [ho] at h
          cases hoi : dget ov "any_version" with
          | none => simp [hoi] at h
          | some old =>
            simp only [hoi] at h
            split at h
            · simp at h
            · rename_i m hm
              simp only [pure, Except.pure, Except.ok.injEq] at h
              subst h
              have wov := w1.2 _ _ ho
              have haov := hc.anyOs ov (by rw [← a1]; exact ho)
              refine ⟨⟨⟨DWF_set w1.1 _ _, ?_⟩, ?_, ?_⟩, fun o v i => ?_⟩
              · intro o vd hov
                rw [dget_set] at hov
                split at hov
                · simp at hov; subst hov
                  refine ⟨DWF_set wov.1 _ _, ?_⟩
                  intro v i hvi
                  rw [dget_set] at hvi
                  split at hvi
                  · simp at hvi; subst hvi; exact mergeInst_DWF hm (wov.2 _ _ hoi)
                  · exact wov.2 _ _ hvi
                · exact w1.2 _ _ hov
              · intro o vd hov
                rw [dget_set] at hov
                split at hov
                · left; exact (by assumption : "any_os" = o).symm
                · exact known1 _ _ hov
              · intro vd hvd v
                rw [dget_set_self] at hvd; simp at hvd; subst hvd
                rw [dget_set]
                split
                · subst_vars; simp
                · exact haov v
              · by_cases hoa : o = "any_os"
                · subst hoa
                  have h2 := e1 "any_os" v i
                  simp only [ne_eq, not_true_eq_false, false_and, if_false] at h2
                  rw [if_pos rfl, ← h2]
                  simp only [ocell, dget_set_self, Option.bind_some, ho, vcell, dget_set]
                  by_cases hva : v = "any_version"
                  · subst hva
                    simp only [if_true, Option.bind_some, mergeInst_dget hm, he, hoi]
                  · have hav : ¬ "any_version" = v := fun e => hva e.symm
                    simp [hav, hev v i hva]
                · have hao : ¬ "any_os" = o := fun e => hoa e.symm
                  have h2 := e1 o v i
                  simp only [hoa, if_false, he, ne_eq, not_false_eq_true, true_and] at h2 ⊢
                  rw [← h2]
                  simp [ocell, dget_set, hao]
        | none =>
          simp only [ho] at h
          split at h
          · simp at h
          · rename_i m hm
            simp only [pure, Except.pure, Except.ok.injEq] at h
            subst h
            have wnv := hn.wf.2 _ _ hv
            refine ⟨⟨⟨DWF_set w1.1 _ _, ?_⟩, ?_, ?_⟩, fun o v i => ?_⟩
            · intro o vd hov
              rw [dget_set] at hov
              split at hov
              · simp at hov; subst hov; exact copyVer_WF wnv hm
              · exact w1.2 _ _ hov
            · intro o vd hov
              rw [dget_set] at hov
              split at hov
              · left; exact (by assumption : "any_os" = o).symm
              · exact known1 _ _ hov
            · intro vd hvd v
              rw [dget_set_self] at hvd; simp at hvd; subst hvd
              have hkeys : (dget m v).isSome ↔ (dget nv v).isSome := by
                rw [copyVer_eq] at hm
                obtain ⟨k1, k2⟩ := updLoop_ok wnv.1 hm v
                cases hnvv : dget nv v with
                | none => rw [k1 hnvv]; simp
                | some w =>
                  obtain ⟨oo, ho1, ho2⟩ := k2 _ hnvv
                  cases hcp : copyInstallerDict w none with
                  | error e => simp [hcp, Except.map] at ho1
                  | ok x => simp [hcp, Except.map] at ho1; subst ho1; simp [ho2]
              rw [hkeys]; exact hn.anyOs _ hv v
            · by_cases hoa : o = "any_os"
              · subst hoa
                have h2 := e1 "any_os" v i
                simp only [ne_eq, not_true_eq_false, false_and, if_false] at h2
                rw [if_pos rfl, ← h2]
                simp only [ocell, dget_set_self, Option.bind_some, ho, Option.bind_none, Option.or_none]
                rw [copyVer_cell wnv.1 hm]
                simp [oecell, hv]
              · have hao : ¬ "any_os" = o := fun e => hoa e.symm
                have h2 := e1 o v i
                simp only [hoa, if_false, he, ne_eq, not_false_eq_true, true_and] at h2 ⊢
                rw [← h2]
                simp [ocell, dget_set, hao]

theorem mergeOs_spec {new c c' : OsDict} {dflts : Dict String (Option String)} (hn : OsOk new)
    (hany : dget dflts "any_os" = none)
    (hc : OsInv dflts c) (h : mergeOsDict new c dflts = .ok c') :
    OsInv dflts c' ∧ 
    (∀ i v, ocell c' "any_os" v i = (oecell new none "any_os" v i).or (ocell c "any_os" v i)) ∧
    ∀ o dflt, dget dflts o = some dflt → ∀ v i, ocell c' o v i = (oecell new dflt o v i).or
      (if (oecell new dflt o "any_version" i).isSome ∨ (oecell new none "any_os" "any_version" i).isSome then none else ocell c o v i) := by
  rw [mergeOs_eq] at h
  cases h1 : mergeOsHead new c with
  | error e => simp [h1, bind, Except.bind] at h
  | ok c1 =>
    simp only [h1, bind, Except.bind] at h
    obtain ⟨inv1, e1⟩ := mergeOsHead_spec hn hc h1
    have hup := fun k => updLoop_ok hn.wf.1 h k
    have hanyeq : dget c' "any_os" = dget c1 "any_os" := by
      obtain ⟨k1, k2⟩ := hup "any_os"
      cases hno : dget new "any_os" with
      | none => exact k1 hno
      | some w =>
        obtain ⟨o, ho1, ho2⟩ := k2 _ hno
        simp [mergeOsStep, hany] at ho1; subst ho1; simpa using ho2
    refine ⟨⟨⟨updLoop_DWF inv1.wf.1 h, ?_⟩, ?_, ?_⟩, ?_, ?_⟩
    · intro o vd hov
      obtain ⟨k1, k2⟩ := hup o
      cases hno : dget new o with
      | none => rw [k1 hno] at hov; exact inv1.wf.2 _ _ hov
      | some w =>
        obtain ⟨oo, ho1, ho2⟩ := k2 _ hno
        unfold mergeOsStep at ho1
        cases hd : dget dflts o with
        | none => simp [hd] at ho1; subst ho1; rw [ho2] at hov; simp at hov; exact inv1.wf.2 _ _ hov
        | some dflt =>
          simp only [hd] at ho1
          cases hc1 : dget c1 o with
          | none =>
            simp only [hc1] at ho1
            cases hcp : copyVersionDict w dflt with
            | error e => simp [hcp, Except.map] at ho1
            | ok x =>
              simp [hcp, Except.map] at ho1; subst ho1
              rw [ho2] at hov; simp at hov; subst hov
              exact copyVer_WF (hn.wf.2 _ _ hno) hcp
          | some old =>
            simp only [hc1] at ho1
            cases hcp : mergeVersionDict w old dflt with
            | error e => simp [hcp, Except.map] at ho1
            | ok x =>
              simp [hcp, Except.map] at ho1; subst ho1
              rw [ho2] at hov; simp at hov; subst hov
              exact (mergeVer_spec (hn.wf.2 _ _ hno) (inv1.wf.2 _ _ hc1) hcp).1
    · intro o vd hov
      obtain ⟨k1, k2⟩ := hup o
      cases hno : dget new o with
      | none => rw [k1 hno] at hov; exact inv1.known _ _ hov
      | some w =>
        obtain ⟨oo, ho1, ho2⟩ := k2 _ hno
        unfold mergeOsStep at ho1
        cases hd : dget dflts o with
        | none => simp [hd] at ho1; subst ho1; rw [ho2] at hov; simp at hov; have := inv1.known _ _ hov; simpa [hd] using this
        | some dflt => right; rfl
    · intro vd hvd; rw [hanyeq] at hvd; exact inv1.anyOs _ hvd
    · intro i v
      have : ocell c' "any_os" v i = ocell c1 "any_os" v i := by simp [ocell, hanyeq]
      rw [this, e1]; simp
    · intro o dflt hd v i
      have hoa : o ≠ "any_os" := by rintro rfl; simp [hany] at hd
      have h2 := e1 o
      simp only [hoa, if_false] at h2
      obtain ⟨k1, k2⟩ := hup o
      cases hno : dget new o with
      | none =>
        have : ocell c' o v i = ocell c1 o v i := by simp [ocell, k1 hno]
        have hz : ∀ v, oecell new dflt o v i = none := by intro v; simp [oecell, hno]
        rw [this, h2, hz, hz]; simp
      | some w =>
        obtain ⟨oo, ho1, ho2⟩ := k2 _ hno
        have ee : ∀ v, oecell new dflt o v i = ecell w dflt v i := by intro v; simp [oecell, hno]
        unfold mergeOsStep at ho1
        simp only [hd] at ho1
        cases hc1 : dget c1 o with
        | none =>
          simp only [hc1] at ho1
          cases hcp : copyVersionDict w dflt with
          | error e => simp [hcp, Except.map] at ho1
          | ok x =>
            simp [hcp, Except.map] at ho1; subst ho1
            have h3 : ocell c' o v i = ecell w dflt v i := by
              simp only [ocell, ho2, Option.some_or, Option.bind_some]
              exact copyVer_cell (hn.wf.2 _ _ hno).1 hcp v i
            have h4 := h2 v i
            simp only [ocell, hc1, Option.bind_none] at h4
            rw [h3, ee, ee]
            split
            · simp
            · rename_i hneg
              have : ¬ (oecell new none "any_os" "any_version" i).isSome = true := fun x => hneg (.inr x)
              rw [if_neg this] at h4
              simp only [ocell, ← h4]; simp
        | some old =>
          simp only [hc1] at ho1
          cases hcp : mergeVersionDict w old dflt with
          | error e => simp [hcp, Except.map] at ho1
          | ok x =>
            simp [hcp, Except.map] at ho1; subst ho1
            have hs := (mergeVer_spec (hn.wf.2 _ _ hno) (inv1.wf.2 _ _ hc1) hcp).2 v i
            have h4 := h2 v i
            simp only [ocell, hc1, Option.bind_some] at h4
            simp only [ocell, ho2, Option.some_or, Option.bind_some, hs, ee, h4]
            cases ecell w dflt v i with
            | some _ => simp
            | none =>
              simp only [Option.none_or]
              by_cases ha : (ecell w dflt "any_version" i).isSome = true
              · simp [ha]
              · simp [ha]

end Verif
