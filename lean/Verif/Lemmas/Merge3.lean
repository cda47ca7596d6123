import Verif.Lemmas.Merge2
/-! Helper lemmas about merging rules dicts: sufficient conditions for success. -/
namespace Verif

abbrev Truthy (dflt : Option String) : Prop := ∃ s, dflt = some s ∧ s ≠ ""

theorem mergeInst_succ {new : InstDict} {dflt : Option String} (h : "default_installer" ∈ dkeys new → Truthy dflt) (c : InstDict) :
    ∃ c', mergeInstallerDict new c dflt = .ok c' := mergeInst_ok_iff'.2 h

theorem copyVer_succ {d : VerDict} (hd : DWF d) {dflt : Option String}
    (h : ∀ v i, dget d v = some i → "default_installer" ∈ dkeys i → Truthy dflt) :
    ∃ c, copyVersionDict d dflt = .ok c := by
  rw [copyVer_eq]
  apply updLoop_succeeds hd
  intro k v hk
  obtain ⟨c, hc⟩ := mergeInst_succ (h k v hk) []
  exact ⟨some c, by rw [copyInst_eq, hc]; rfl⟩

theorem effLoop_succ {γ : Type} (f : γ → String → γ) {dflt : Option String} {l : InstDict}
    (h : "default_installer" ∈ dkeys l → Truthy dflt) (c : γ) : ∃ c', effLoop f dflt l c = .ok c' := by
  induction l generalizing c with
  | nil => exact ⟨c, rfl⟩
  | cons x t ih =>
    have hx : effName dflt x.1 ≠ none := by
      rw [effName_ne_none]; intro hx; exact h (by simp [hx])
    obtain ⟨n, hn⟩ := Option.ne_none_iff_exists'.1 hx
    simp only [effLoop, hn]
    exact ih (fun hm => h (by simp [hm])) _

theorem mergeVer_succ {n c : VerDict} (hn : n.WF) {dflt : Option String}
    (h : ∀ v i, dget n v = some i → "default_installer" ∈ dkeys i → Truthy dflt)
    (hav : ∀ i, dget n "any_version" = some i → "default_installer" ∉ dkeys i) :
    ∃ c', mergeVersionDict n c dflt = .ok c' := by
  rw [mergeVer_eq]
  have h1 : ∃ c1, mergeVerHead n c dflt = .ok c1 := by
    unfold mergeVerHead
    cases hv : dget n "any_version" with
    | none => exact ⟨c, rfl⟩
    | some i =>
      simp only
      obtain ⟨c2, h2⟩ := effLoop_succ (fun acc inst => removeRuleForAllVersions acc inst true) (h _ _ hv) c
      simp only [h2, bind, Except.bind]
      cases ho : dget c2 "any_version" with
      | some old =>
        simp only
        obtain ⟨m, hm⟩ := mergeInst_succ (new := i) (dflt := none) (fun hk => absurd hk (hav _ hv)) old
        simp only [hm]; exact ⟨_, rfl⟩
      | none =>
        simp only
        obtain ⟨m, hm⟩ := mergeInst_succ (h _ _ hv) []
        simp only [copyInst_eq, hm]; exact ⟨_, rfl⟩
  obtain ⟨c1, h1⟩ := h1
  simp only [h1, bind, Except.bind]
  apply updLoop_succeeds hn.1
  intro k v hk
  obtain ⟨x, hx⟩ := mergeInst_succ (h _ _ hk) ((dget c1 k).getD [])
  exact ⟨some x, by rw [hx]; rfl⟩

/-- hypotheses on an input os dict under which it can be copied -/
structure CopyOk (dflts : Dict String (Option String)) (n : OsDict) : Prop where
  any : ∀ vd i, dget n "any_os" = some vd → dget vd "any_version" = some i → "default_installer" ∉ dkeys i
  os : ∀ o dflt, dget dflts o = some dflt → Truthy dflt

theorem copyOs_succ {n : OsDict} {dflts : Dict String (Option String)} (hn : OsOk n) (h : CopyOk dflts n) :
    ∃ c, copyOsDict n dflts = .ok c := by
  rw [copyOs_eq]
  apply updLoop_succeeds hn.wf.1
  intro k vd hk
  unfold copyOsStep
  by_cases ha : k = "any_os"
  · subst ha
    simp only [if_true]
    obtain ⟨c, hc⟩ := copyVer_succ (dflt := none) (hn.wf.2 _ _ hk).1 (fun v i hv hkw => by
      have : v = "any_version" := (hn.anyOs _ hk v).1 (by simp [hv])
      subst this
      exact absurd hkw (h.any _ _ hk hv))
    exact ⟨some c, by rw [hc]; rfl⟩
  · simp only [ha, if_false]
    cases hd : dget dflts k with
    | none => exact ⟨none, rfl⟩
    | some dflt =>
      simp only
      obtain ⟨c, hc⟩ := copyVer_succ (dflt := dflt) (hn.wf.2 _ _ hk).1 (fun v i hv hkw => h.os _ _ hd)
      exact ⟨some c, by rw [hc]; rfl⟩

theorem mergeOs_succ {n c : OsDict} {dflts : Dict String (Option String)} (hn : OsOk n) (h : CopyOk dflts n)
    (hc : OsInv dflts c)
    (hav : ∀ o vd i, dget n o = some vd → dget vd "any_version" = some i → "default_installer" ∉ dkeys i) :
    ∃ c', mergeOsDict n c dflts = .ok c' := by
  rw [mergeOs_eq]
  have h1 : ∃ c1, mergeOsHead n c = .ok c1 := by
    unfold mergeOsHead
    cases hv : dget n "any_os" with
    | none => exact ⟨c, rfl⟩
    | some nv =>
      simp only
      have hs := (hn.anyOs _ hv "any_version").2 rfl
      obtain ⟨ni, hni⟩ := Option.isSome_iff_exists.1 hs
      have hkw := h.any _ _ hv hni
      simp only [hni]
      obtain ⟨c2, h2⟩ := effLoop_succ (dflt := none) removeRuleForAllOs (l := ni) (fun hk => absurd hk hkw) c
      simp only [h2, bind, Except.bind]
      obtain ⟨_, a1, _⟩ := rmOsLoop hc.wf h2
      cases ho : dget c2 "any_os" with
      | some ov =>
        simp only
        obtain ⟨old, hold⟩ := Option.isSome_iff_exists.1 ((hc.anyOs ov (by rw [← a1]; exact ho) "any_version").2 rfl)
        simp only [hold]
        obtain ⟨m, hm⟩ := mergeInst_succ (new := ni) (dflt := none) (fun hk => absurd hk hkw) old
        simp only [hm]; exact ⟨_, rfl⟩
      | none =>
        simp only
        obtain ⟨m, hm⟩ := copyVer_succ (dflt := none) (hn.wf.2 _ _ hv).1 (fun v i hvi hk => by
          have : v = "any_version" := (hn.anyOs _ hv v).1 (by simp [hvi])
          subst this
          exact absurd hk (h.any _ _ hv hvi))
        simp only [hm]; exact ⟨_, rfl⟩
  obtain ⟨c1, h1⟩ := h1
  simp only [h1, bind, Except.bind]
  apply updLoop_succeeds hn.wf.1
  intro o vd hk
  unfold mergeOsStep
  cases hd : dget dflts o with
  | none => exact ⟨none, rfl⟩
  | some dflt =>
    simp only
    have ht := h.os _ _ hd
    cases dget c1 o with
    | none =>
      simp only
      obtain ⟨x, hx⟩ := copyVer_succ (dflt := dflt) (hn.wf.2 _ _ hk).1 (fun _ _ _ _ => ht)
      exact ⟨some x, by rw [hx]; rfl⟩
    | some old =>
      simp only
      obtain ⟨x, hx⟩ := mergeVer_succ (c := old) (dflt := dflt) (hn.wf.2 _ _ hk) (fun _ _ _ _ => ht)
        (fun i hi => hav _ _ _ hk hi)
      exact ⟨some x, by rw [hx]; rfl⟩

theorem mergeRules_succ {dflts : Dict String (Option String)} {rs : List Rules}
    (hn : ∀ r ∈ rs, RulesOk r)
    (hany : dget dflts "any_os" = none) (hkw : ∀ o, dget dflts o ≠ some (some "default_installer"))
    (hcopy : ∀ r ∈ rs, ∀ k od, dget r k = some od → CopyOk dflts od)
    (hav : ∀ r ∈ rs.dropLast, ∀ k od o vd i, dget r k = some od → dget od o = some vd →
      dget vd "any_version" = some i → "default_installer" ∉ dkeys i) :
    ∃ m, mergeRules rs dflts = .ok m := by
  induction rs with
  | nil => exact ⟨[], rfl⟩
  | cons r rs ih =>
    rw [mergeRules_cons]
    obtain ⟨c, hc⟩ := ih (fun r hr => hn r (by simp [hr])) (fun r hr => hcopy r (by simp [hr])) (fun r' hr' => by
      apply hav
      cases rs with
      | nil => simp at hr'
      | cons a l => simp [List.dropLast] at hr' ⊢; exact .inr hr')
    obtain ⟨inv, _, _⟩ := mergeRules_spec (fun r hr => hn r (by simp [hr])) hany hkw hc
    simp only [hc, bind, Except.bind]
    rw [mergeOne_eq]
    apply updLoop_succeeds (hn r (by simp)).wf
    intro k od hk
    unfold mergeRulesStep
    have hod := (hn r (by simp)).os _ _ hk
    have hco := hcopy r (by simp) _ _ hk
    cases hck : dget c k with
    | none =>
      simp only
      obtain ⟨x, hx⟩ := copyOs_succ hod hco
      exact ⟨_, by rw [hx]; rfl⟩
    | some old =>
      simp only
      have hne : rs ≠ [] := by
        rintro rfl
        simp only [mergeRules, List.reverse_nil, List.foldlM_nil, pure, Except.pure, Except.ok.injEq] at hc
        subst hc; simp at hck
      have hr : r ∈ (r :: rs).dropLast := by
        cases rs with
        | nil => exact absurd rfl hne
        | cons a l => simp [List.dropLast]
      obtain ⟨x, hx⟩ := mergeOs_succ hod hco (inv.os _ _ hck).1 (fun o vd i h1 h2 => hav r hr k od o vd i hk h1 h2)
      exact ⟨_, by rw [hx]; rfl⟩

end Verif
