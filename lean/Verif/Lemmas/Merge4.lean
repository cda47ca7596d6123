import Verif.Lemmas.Merge3
import Verif.Lemmas.Expand
/-! Helper lemmas about merging rules dicts: the exact condition for success. -/
namespace Verif

theorem updLoop_ok_iff {β γ : Type} {g : String → Option γ → β → Except Exc (Option γ)}
    {new : Dict String β} {acc : Dict String γ} (hd : DWF new) :
    (∃ acc', updLoop g new acc = .ok acc') ↔ ∀ k v, dget new k = some v → ∃ o, g k (dget acc k) v = .ok o := by
  constructor
  · rintro ⟨a, h⟩ k v hk
    obtain ⟨o, ho, _⟩ := (updLoop_ok hd h k).2 v hk
    exact ⟨o, ho⟩
  · exact updLoop_succeeds hd

theorem updLoop_error {β γ : Type} {g : String → Option γ → β → Except Exc (Option γ)}
    {new : Dict String β} {acc : Dict String γ} (hd : DWF new) {e : Exc} (h : updLoop g new acc = .error e) :
    ∃ k v, dget new k = some v ∧ g k (dget acc k) v = .error e := by
  induction new generalizing acc with
  | nil => simp [updLoop] at h
  | cons x t ih =>
    obtain ⟨a, w⟩ := x
    simp only [DWF_cons] at hd
    simp only [updLoop] at h
    have later : ∀ acc2 : Dict String γ, (∀ k, a ≠ k → dget acc2 k = dget acc k) → updLoop g t acc2 = .error e →
        ∃ k v, dget ((a, w) :: t) k = some v ∧ g k (dget acc k) v = .error e := by
      intro acc2 he h2
      obtain ⟨k, v, h3, h4⟩ := ih hd.2 h2
      have hak : a ≠ k := by
        rintro rfl
        exact hd.1 (mem_dkeys_iff.2 (by simp [h3]))
      exact ⟨k, v, by simp only [dget, hak, if_false, h3], by rw [← he k hak]; exact h4⟩
    cases hg : g a (dget acc a) w with
    | error e' =>
      simp only [hg, Except.error.injEq] at h
      subst h
      exact ⟨a, w, by simp [dget], hg⟩
    | ok o =>
      cases o with
      | none =>
        simp only [hg] at h
        exact later _ (fun _ _ => rfl) h
      | some y =>
        simp only [hg] at h
        exact later _ (fun k hk => by simp [dget_set, hk]) h

theorem map_ok_iff {α β : Type} {f : α → β} {x : Except Exc α} : (∃ y, x.map f = .ok y) ↔ ∃ a, x = .ok a := by
  cases x with
  | error e => simp [Except.map]
  | ok a => simp [Except.map]

theorem map_err {α β : Type} {f : α → β} {x : Except Exc α} {e : Exc} (h : x.map f = .error e) : x = .error e := by
  cases x with
  | error e' => simpa [Except.map] using h
  | ok a => simp [Except.map] at h

theorem mergeInst_err {new c : InstDict} {dflt : Option String} {e : Exc} (h : mergeInstallerDict new c dflt = .error e) : e = .valueError := by
  induction new generalizing c with
  | nil => simp at h
  | cons kv t ih =>
    rw [mergeInst_cons] at h
    cases hx : effName dflt kv.1 with
    | none => simp only [hx, Except.error.injEq] at h; exact h.symm
    | some n => simp only [hx] at h; exact ih h

theorem effLoop_ok_iff {γ : Type} (f : γ → String → γ) {dflt : Option String} {l : InstDict} {c : γ} :
    (∃ c', effLoop f dflt l c = .ok c') ↔ ("default_installer" ∈ dkeys l → Truthy dflt) := by
  constructor
  · rintro ⟨c', h⟩ hm
    induction l generalizing c with
    | nil => simp at hm
    | cons x t ih =>
      simp only [effLoop] at h
      cases hx : effName dflt x.1 with
      | none => simp [hx] at h
      | some n =>
        simp only [hx] at h
        by_cases hd : x.1 = "default_installer"
        · have : effName dflt x.1 ≠ none := by rw [hx]; simp
          exact effName_ne_none.1 this hd
        · refine ih h ?_
          simp only [dkeys_cons, List.mem_cons] at hm
          exact hm.resolve_left (Ne.symm hd)
  · intro h; exact effLoop_succ f h c

theorem effLoop_err {γ : Type} {f : γ → String → γ} {dflt : Option String} {l : InstDict} {c : γ} {e : Exc}
    (h : effLoop f dflt l c = .error e) : e = .valueError := by
  induction l generalizing c with
  | nil => simp [effLoop] at h
  | cons x t ih =>
    simp only [effLoop] at h
    cases hx : effName dflt x.1 with
    | none => simp only [hx, Except.error.injEq] at h; exact h.symm
    | some n => simp only [hx] at h; exact ih h

theorem copyVer_ok_iff {d : VerDict} (hd : DWF d) {dflt : Option String} :
    (∃ c, copyVersionDict d dflt = .ok c) ↔ ∀ v i, dget d v = some i → "default_installer" ∈ dkeys i → Truthy dflt := by
  rw [copyVer_eq, updLoop_ok_iff hd]
  constructor
  · intro h v i hv
    obtain ⟨o, ho⟩ := h v i hv
    rw [copyInst_eq] at ho
    obtain ⟨a, ha⟩ := map_ok_iff.1 ⟨o, ho⟩
    exact mergeInst_ok_iff'.1 ⟨a, ha⟩
  · intro h v i hv
    rw [copyInst_eq]
    exact map_ok_iff.2 (mergeInst_ok_iff'.2 (h v i hv))

theorem copyVer_err {d : VerDict} (hd : DWF d) {dflt : Option String} {e : Exc} (h : copyVersionDict d dflt = .error e) : e = .valueError := by
  rw [copyVer_eq] at h
  obtain ⟨k, v, _, h2⟩ := updLoop_error hd h
  rw [copyInst_eq] at h2
  exact mergeInst_err (map_err h2)

/-- The removal of rules for specific versions does not touch `any_version`. -/
theorem rmVer_anyVersion {vd : VerDict} (h : DWF vd) (inst : String) :
    dget (removeRuleForAllVersions vd inst true) "any_version" = dget vd "any_version" := by
  unfold removeRuleForAllVersions
  rw [forItemsDel_dget _ h]
  cases dget vd "any_version" <;> simp

theorem rmVerLoop_anyVersion {new : InstDict} {c c' : VerDict} {dflt : Option String} (hc : c.WF)
    (h : effLoop (fun acc inst => removeRuleForAllVersions acc inst true) dflt new c = .ok c') :
    dget c' "any_version" = dget c "any_version" := by
  induction new generalizing c with
  | nil => simp only [effLoop, Except.ok.injEq] at h; subst h; rfl
  | cons x t ih =>
    simp only [effLoop] at h
    cases he : effName dflt x.1 with
    | none => simp [he] at h
    | some n =>
      simp only [he] at h
      rw [ih (rmVer_WF hc n true) h, rmVer_anyVersion hc.1]

theorem mergeVerHead_ok_iff {n c : VerDict} (hc : c.WF) {dflt : Option String} :
    (∃ c', mergeVerHead n c dflt = .ok c') ↔
      ∀ i, dget n "any_version" = some i → "default_installer" ∈ dkeys i → Truthy dflt ∧ dget c "any_version" = none := by
  unfold mergeVerHead
  cases hv : dget n "any_version" with
  | none => simp [pure, Except.pure]
  | some i =>
    simp only [Option.some.injEq, forall_eq']
    constructor
    · rintro ⟨c', h⟩ hk
      obtain ⟨c2, h2, h3⟩ := Except_bind_ok.1 h
      refine ⟨(effLoop_ok_iff _).1 ⟨c2, h2⟩ hk, ?_⟩
      rw [← rmVerLoop_anyVersion hc h2]
      cases ho : dget c2 "any_version" with
      | none => rfl
      | some old =>
        simp only [ho] at h3
        obtain ⟨m, hm, _⟩ := Except_bind_ok.1 h3
        obtain ⟨s, hs, _⟩ := mergeInst_ok_iff'.1 ⟨m, hm⟩ hk
        exact absurd hs (by simp)
    · intro h
      obtain ⟨c2, h2⟩ := effLoop_succ (fun acc inst => removeRuleForAllVersions acc inst true) (fun hk => (h hk).1) c
      simp only [h2, bind, Except.bind]
      have ha := rmVerLoop_anyVersion hc h2
      cases ho : dget c2 "any_version" with
      | some old =>
        simp only
        obtain ⟨m, hm⟩ := mergeInst_succ (new := i) (dflt := none) (fun hk => by
          have := (h hk).2
          rw [← ha, ho] at this
          exact absurd this (by simp)) old
        simp only [hm]; exact ⟨_, rfl⟩
      | none =>
        simp only
        obtain ⟨m, hm⟩ := mergeInst_succ (fun hk => (h hk).1) ([] : InstDict)
        simp only [copyInst_eq, hm]; exact ⟨_, rfl⟩

theorem mergeVer_ok_iff {n c : VerDict} (hn : n.WF) (hc : c.WF) {dflt : Option String} :
    (∃ c', mergeVersionDict n c dflt = .ok c') ↔
      (∀ v i, dget n v = some i → "default_installer" ∈ dkeys i → Truthy dflt) ∧
      ∀ i, dget n "any_version" = some i → "default_installer" ∈ dkeys i → dget c "any_version" = none := by
  rw [mergeVer_eq]
  constructor
  · rintro ⟨c', h⟩
    obtain ⟨c1, h1, h2⟩ := Except_bind_ok.1 h
    refine ⟨fun v i hv => ?_, fun i hi hk => (mergeVerHead_ok_iff hc).1 ⟨c1, h1⟩ i hi hk |>.2⟩
    obtain ⟨o, ho⟩ := (updLoop_ok_iff hn.1).1 ⟨c', h2⟩ v i hv
    obtain ⟨a, ha⟩ := map_ok_iff.1 ⟨o, ho⟩
    exact mergeInst_ok_iff'.1 ⟨a, ha⟩
  · rintro ⟨h1, h2⟩
    obtain ⟨c1, hc1⟩ := (mergeVerHead_ok_iff (n := n) (dflt := dflt) hc).2 fun i hi hk => ⟨h1 _ _ hi hk, h2 i hi hk⟩
    simp only [hc1, bind, Except.bind]
    apply updLoop_succeeds hn.1
    intro k v hk
    exact map_ok_iff.2 (mergeInst_succ (h1 _ _ hk) _)

theorem mergeVer_err {n c : VerDict} (hn : n.WF) {dflt : Option String} {e : Exc} (h : mergeVersionDict n c dflt = .error e) :
    e = .valueError := by
  rw [mergeVer_eq] at h
  cases h1 : mergeVerHead n c dflt with
  | ok c1 =>
    simp only [h1, bind, Except.bind] at h
    obtain ⟨k, v, _, h2⟩ := updLoop_error hn.1 h
    exact mergeInst_err (map_err h2)
  | error e' =>
    simp only [h1, bind, Except.bind, Except.error.injEq] at h
    subst h
    unfold mergeVerHead at h1
    cases hv : dget n "any_version" with
    | none => simp [hv, pure, Except.pure] at h1
    | some i =>
      simp only [hv] at h1
      cases h2 : effLoop (fun acc inst => removeRuleForAllVersions acc inst true) dflt i c with
      | error e2 =>
        simp only [h2, bind, Except.bind, Except.error.injEq] at h1
        subst h1
        exact effLoop_err h2
      | ok c2 =>
        simp only [h2, bind, Except.bind] at h1
        cases ho : dget c2 "any_version" with
        | some old =>
          simp only [ho] at h1
          cases h3 : mergeInstallerDict i old none with
          | ok m => simp [h3, pure, Except.pure] at h1
          | error e3 => simp only [h3, Except.error.injEq] at h1; subst h1; exact mergeInst_err h3
        | none =>
          simp only [ho, copyInst_eq] at h1
          cases h3 : mergeInstallerDict i [] dflt with
          | ok m => simp [h3, pure, Except.pure] at h1
          | error e3 => simp only [h3, Except.error.injEq] at h1; subst h1; exact mergeInst_err h3

/-! ### presence of entries -/

/-- the entry of a version of an os -/
def pres (od : OsDict) (o v : String) : Option InstDict := (dget od o).bind fun vd => dget vd v

theorem pres_rmOs {od : OsDict} (h : od.WF) (inst : String) {o : String} (ho : o ≠ "any_os") (v : String) :
    pres (removeRuleForAllOs od inst) o v =
      (pres od o v).bind fun d => if (if dhas d inst then ddel d inst else d).isEmpty then none else some (if dhas d inst then ddel d inst else d) := by
  unfold pres removeRuleForAllOs
  rw [forItemsDel_dget _ h.1]
  cases hv : dget od o with
  | none => simp
  | some vd =>
    simp only [Option.bind_some, ho, if_false]
    have hr : dget (removeRuleForAllVersions vd inst false) v =
        (dget vd v).bind fun d => if (if dhas d inst then ddel d inst else d).isEmpty then none else some (if dhas d inst then ddel d inst else d) := by
      unfold removeRuleForAllVersions
      rw [forItemsDel_dget _ (h.2 _ _ hv).1]
      simp
    rw [← hr]
    split
    · rename_i he
      rw [List.isEmpty_iff.1 he]
      rfl
    · rfl

/-- What is left of an entry after the removal of some installers. -/
theorem pres_rmOsLoop {new : InstDict} {c c' : OsDict} (hc : c.WF) (h : effLoop removeRuleForAllOs none new c = .ok c')
    {o : String} (ho : o ≠ "any_os") (v : String) :
    (pres c' o v).isSome ↔ ∃ i, pres c o v = some i ∧ (new = [] ∨ ∃ inst, inst ∈ dkeys i ∧ inst ∉ dkeys new) := by
  induction new generalizing c with
  | nil =>
    simp only [effLoop, Except.ok.injEq] at h
    subst h
    simp [Option.isSome_iff_exists]
  | cons x t ih =>
    simp only [effLoop] at h
    cases he : effName none x.1 with
    | none => simp [he] at h
    | some n =>
      have hn : n = x.1 := by
        unfold effName at he
        split at he
        · simp [truthy] at he
        · simpa using he.symm
      subst hn
      simp only [he] at h
      rw [ih (rmOs_WF hc x.1) h, pres_rmOs hc x.1 ho]
      cases hp : pres c o v with
      | none => simp
      | some d =>
        have hd : ∀ i, i ∈ dkeys (if dhas d x.1 then ddel d x.1 else d) ↔ i ≠ x.1 ∧ i ∈ dkeys d := by
          intro i
          rw [mem_dkeys_iff, rmInst_dget, mem_dkeys_iff]
          by_cases hx : x.1 = i
          · simp [hx]
          · simp [hx, Ne.symm hx]
        simp only [Option.bind_some]
        generalize (if dhas d x.1 then ddel d x.1 else d) = d' at hd ⊢
        simp only [Option.some.injEq, exists_eq_left', reduceCtorEq, false_or, dkeys_cons, List.mem_cons, not_or]
        have hem : d'.isEmpty = true ↔ ∀ i, i ∉ dkeys d' := by
          cases d' with
          | nil => simp
          | cons y l => simp only [List.isEmpty_cons, Bool.false_eq_true, false_iff]; intro h; exact h y.1 (by simp)
        by_cases hd' : d'.isEmpty = true
        · rw [if_pos hd']; simp only [reduceCtorEq, false_and, exists_false, false_iff]
          rintro ⟨i, h1, h2, _⟩
          exact hem.1 hd' i ((hd i).2 ⟨h2, h1⟩)
        · rw [if_neg hd']; simp only [Option.some.injEq, exists_eq_left']
          constructor
          · rintro (rfl | ⟨i, h1, h2⟩)
            · have : ∃ i, i ∈ dkeys d' := by
                cases d' with
                | nil => simp at hd'
                | cons y l => exact ⟨y.1, by simp⟩
              obtain ⟨i, hi⟩ := this
              exact ⟨i, ((hd i).1 hi).2, ((hd i).1 hi).1, by simp⟩
            · exact ⟨i, ((hd i).1 h1).2, ((hd i).1 h1).1, h2⟩
          · rintro ⟨i, h1, h2, h3⟩
            exact .inr ⟨i, (hd i).2 ⟨h2, h1⟩, h3⟩

/-! ### os level -/

/-- the conditions on an os dict that do not depend on what it is merged into -/
structure OsCopyable (dflts : Dict String (Option String)) (n : OsDict) : Prop where
  any : ∀ i, pres n "any_os" "any_version" = some i → "default_installer" ∉ dkeys i
  os : ∀ o dflt v i, dget dflts o = some dflt → pres n o v = some i → "default_installer" ∈ dkeys i → Truthy dflt

theorem copyAny_ok_iff {n : OsDict} (hn : OsOk n) {vd : VerDict} (hk : dget n "any_os" = some vd) :
    (∃ c, copyVersionDict vd none = .ok c) ↔ ∀ i, pres n "any_os" "any_version" = some i → "default_installer" ∉ dkeys i := by
  rw [copyVer_ok_iff (hn.wf.2 _ _ hk).1]
  constructor
  · intro h i hi hkw
    have : dget vd "any_version" = some i := by simpa [pres, hk] using hi
    obtain ⟨s, hs, _⟩ := h _ _ this hkw
    cases hs
  · intro h v i hv hkw
    have : v = "any_version" := (hn.anyOs _ hk v).1 (by simp [hv])
    subst this
    exact absurd hkw (h i (by simp [pres, hk, hv]))

theorem copyOs_ok_iff {n : OsDict} {dflts : Dict String (Option String)} (hn : OsOk n) (hany : dget dflts "any_os" = none) :
    (∃ c, copyOsDict n dflts = .ok c) ↔ OsCopyable dflts n := by
  rw [copyOs_eq, updLoop_ok_iff hn.wf.1]
  constructor
  · intro h
    refine ⟨fun i hi => ?_, fun o dflt v i hd hi hkw => ?_⟩
    · cases hk : dget n "any_os" with
      | none => simp [pres, hk] at hi
      | some vd =>
        obtain ⟨o, ho⟩ := h _ _ hk
        simp only [copyOsStep, if_true] at ho
        exact (copyAny_ok_iff hn hk).1 (map_ok_iff.1 ⟨o, ho⟩) i hi
    · cases hk : dget n o with
      | none => simp [pres, hk] at hi
      | some vd =>
        have hne : o ≠ "any_os" := by rintro rfl; rw [hany] at hd; cases hd
        obtain ⟨r, hr⟩ := h _ _ hk
        simp only [copyOsStep, hne, if_false, hd] at hr
        exact (copyVer_ok_iff (hn.wf.2 _ _ hk).1).1 (map_ok_iff.1 ⟨r, hr⟩) v i (by simpa [pres, hk] using hi) hkw
  · intro h k vd hk
    unfold copyOsStep
    by_cases ha : k = "any_os"
    · subst ha
      simp only [if_true]
      exact map_ok_iff.2 ((copyAny_ok_iff hn hk).2 h.any)
    · simp only [ha, if_false]
      cases hd : dget dflts k with
      | none => exact ⟨none, rfl⟩
      | some dflt =>
        simp only
        refine map_ok_iff.2 ((copyVer_ok_iff (hn.wf.2 _ _ hk).1).2 fun v i hv hkw => ?_)
        exact h.os _ _ v i hd (by simp [pres, hk, hv]) hkw

theorem copyOs_err {n : OsDict} {dflts : Dict String (Option String)} (hn : OsOk n) {e : Exc} (h : copyOsDict n dflts = .error e) :
    e = .valueError := by
  rw [copyOs_eq] at h
  obtain ⟨k, vd, hk, h2⟩ := updLoop_error hn.wf.1 h
  unfold copyOsStep at h2
  split at h2
  · exact copyVer_err (hn.wf.2 _ _ hk).1 (map_err h2)
  · split at h2
    · exact copyVer_err (hn.wf.2 _ _ hk).1 (map_err h2)
    · cases h2

/-- the entry survives the removals for `any_os` -/
def Survives (n c : OsDict) (o : String) : Prop :=
  ∃ i, pres c o "any_version" = some i ∧
    ((pres n "any_os" "any_version").getD [] = [] ∨ ∃ inst, inst ∈ dkeys i ∧ inst ∉ dkeys ((pres n "any_os" "any_version").getD []))

theorem mergeOsHead_ok_iff {n c : OsDict} {dflts : Dict String (Option String)} (hn : OsOk n) (hc : OsInv dflts c) :
    (∃ c', mergeOsHead n c = .ok c') ↔ ∀ i, pres n "any_os" "any_version" = some i → "default_installer" ∉ dkeys i := by
  unfold mergeOsHead
  cases hv : dget n "any_os" with
  | none => simp [pres, hv, pure, Except.pure]
  | some nv =>
    simp only
    obtain ⟨ni, hni⟩ := Option.isSome_iff_exists.1 ((hn.anyOs _ hv "any_version").2 rfl)
    have hp : pres n "any_os" "any_version" = some ni := by simp [pres, hv, hni]
    simp only [hni, hp, Option.some.injEq, forall_eq']
    constructor
    · rintro ⟨c', h⟩ hk
      obtain ⟨c2, h2, _⟩ := Except_bind_ok.1 h
      obtain ⟨s, hs, _⟩ := (effLoop_ok_iff _).1 ⟨c2, h2⟩ hk
      cases hs
    · intro hkw
      obtain ⟨c2, h2⟩ := effLoop_succ (dflt := none) removeRuleForAllOs (l := ni) (fun hk => absurd hk hkw) c
      simp only [h2, bind, Except.bind]
      obtain ⟨_, a1, _⟩ := rmOsLoop hc.wf h2
      cases ho : dget c2 "any_os" with
      | some ov =>
        simp only
        obtain ⟨old, hold⟩ := Option.isSome_iff_exists.1 ((hc.anyOs ov (by rw [← a1]; exact ho) "any_version").2 rfl)
        simp only [hold]
        obtain ⟨m, hm⟩ := mergeInst_succ (new := ni) (dflt := none) (fun hk => absurd hk hkw) old
        simp only [hm]; exact ⟨_, rfl⟩
      | none =>
        simp only
        obtain ⟨m, hm⟩ := (copyAny_ok_iff hn hv).2 (fun i hi => by rw [hp] at hi; cases hi; exact hkw)
        simp only [hm]; exact ⟨_, rfl⟩

theorem mergeOsHead_pres {n c c' : OsDict} (hc : c.WF) (h : mergeOsHead n c = .ok c')
    {o : String} (ho : o ≠ "any_os") : (pres c' o "any_version").isSome ↔ Survives n c o := by
  unfold mergeOsHead at h
  unfold Survives
  cases hv : dget n "any_os" with
  | none =>
    simp only [hv, pure, Except.pure, Except.ok.injEq] at h
    subst h
    simp [pres, hv, Option.isSome_iff_exists]
  | some nv =>
    simp only [hv] at h
    cases hni : dget nv "any_version" with
    | none => simp [hni] at h
    | some ni =>
      have hp : pres n "any_os" "any_version" = some ni := by simp [pres, hv, hni]
      simp only [hni] at h
      obtain ⟨c2, h2, h3⟩ := Except_bind_ok.1 h
      have hsame : dget c' o = dget c2 o := by
        cases hov : dget c2 "any_os" with
        | some ov =>
          simp only [hov] at h3
          cases hold : dget ov "any_version" with
          | none => simp [hold] at h3
          | some old =>
            simp only [hold] at h3
            obtain ⟨m, _, h4⟩ := Except_bind_ok.1 h3
            simp only [pure, Except.pure, Except.ok.injEq] at h4
            subst h4
            simp [dget_set, Ne.symm ho]
        | none =>
          simp only [hov] at h3
          obtain ⟨m, _, h4⟩ := Except_bind_ok.1 h3
          simp only [pure, Except.pure, Except.ok.injEq] at h4
          subst h4
          simp [dget_set, Ne.symm ho]
      rw [hp, Option.getD_some]
      rw [show pres c' o "any_version" = pres c2 o "any_version" by simp [pres, hsame]]
      exact pres_rmOsLoop hc h2 ho "any_version"

theorem mergeOs_ok_iff {n c : OsDict} {dflts : Dict String (Option String)} (hn : OsOk n) (hany : dget dflts "any_os" = none)
    (hc : OsInv dflts c) :
    (∃ c', mergeOsDict n c dflts = .ok c') ↔ OsCopyable dflts n ∧
      ∀ o i, (dget dflts o).isSome → pres n o "any_version" = some i → "default_installer" ∈ dkeys i → ¬ Survives n c o := by
  have key : ∀ c1, mergeOsHead n c = .ok c1 → c1.WF → ∀ o vd dflt, dget n o = some vd → dget dflts o = some dflt →
      ((∃ r, mergeOsStep dflts o (dget c1 o) vd = .ok r) ↔
        (∀ v i, dget vd v = some i → "default_installer" ∈ dkeys i → Truthy dflt) ∧
        ∀ i, dget vd "any_version" = some i → "default_installer" ∈ dkeys i → ¬ Survives n c o) := by
    intro c1 h1 hw1 o vd dflt hk hd
    have hne : o ≠ "any_os" := by rintro rfl; rw [hany] at hd; cases hd
    have hpr := mergeOsHead_pres hc.wf h1 hne
    simp only [mergeOsStep, hd]
    cases hco : dget c1 o with
    | none =>
      simp only
      rw [map_ok_iff, copyVer_ok_iff (hn.wf.2 _ _ hk).1]
      have : ¬ Survives n c o := by rw [← hpr]; simp [pres, hco]
      simp [this]
    | some old =>
      simp only
      rw [map_ok_iff, mergeVer_ok_iff (hn.wf.2 _ _ hk) (hw1.2 _ _ hco)]
      rw [← hpr]
      simp [pres, hco]
  rw [mergeOs_eq]
  constructor
  · rintro ⟨c', h⟩
    obtain ⟨c1, h1, h2⟩ := Except_bind_ok.1 h
    have hw1 := (mergeOsHead_spec hn hc h1).1.wf
    have hs := (updLoop_ok_iff hn.wf.1).1 ⟨c', h2⟩
    refine ⟨⟨(mergeOsHead_ok_iff hn hc).1 ⟨c1, h1⟩, fun o dflt v i hd hi hkw => ?_⟩, fun o i hd hi hkw => ?_⟩
    · cases hk : dget n o with
      | none => simp [pres, hk] at hi
      | some vd => exact ((key c1 h1 hw1 o vd dflt hk hd).1 (hs _ _ hk)).1 v i (by simpa [pres, hk] using hi) hkw
    · obtain ⟨dflt, hd⟩ := Option.isSome_iff_exists.1 hd
      cases hk : dget n o with
      | none => simp [pres, hk] at hi
      | some vd => exact ((key c1 h1 hw1 o vd dflt hk hd).1 (hs _ _ hk)).2 i (by simpa [pres, hk] using hi) hkw
  · rintro ⟨hcp, hs⟩
    obtain ⟨c1, h1⟩ := (mergeOsHead_ok_iff hn hc).2 hcp.any
    have hw1 := (mergeOsHead_spec hn hc h1).1.wf
    simp only [h1, bind, Except.bind]
    apply updLoop_succeeds hn.wf.1
    intro o vd hk
    cases hd : dget dflts o with
    | none => exact ⟨none, by simp [mergeOsStep, hd]⟩
    | some dflt =>
      refine (key c1 h1 hw1 o vd dflt hk hd).2 ⟨fun v i hv hkw => hcp.os o dflt v i hd (by simp [pres, hk, hv]) hkw, fun i hi hkw => ?_⟩
      exact hs o i (by simp [hd]) (by simp [pres, hk, hi]) hkw

theorem mergeOs_err {n c : OsDict} {dflts : Dict String (Option String)} (hn : OsOk n) (hc : OsInv dflts c) {e : Exc}
    (h : mergeOsDict n c dflts = .error e) : e = .valueError := by
  rw [mergeOs_eq] at h
  cases h1 : mergeOsHead n c with
  | ok c1 =>
    simp only [h1, bind, Except.bind] at h
    obtain ⟨k, vd, hk, h2⟩ := updLoop_error hn.wf.1 h
    unfold mergeOsStep at h2
    split at h2
    · cases h2
    · split at h2
      · exact copyVer_err (hn.wf.2 _ _ hk).1 (map_err h2)
      · exact mergeVer_err (hn.wf.2 _ _ hk) (map_err h2)
  | error e' =>
    simp only [h1, bind, Except.bind, Except.error.injEq] at h
    subst h
    unfold mergeOsHead at h1
    cases hv : dget n "any_os" with
    | none => simp [hv, pure, Except.pure] at h1
    | some nv =>
      simp only [hv] at h1
      obtain ⟨ni, hni⟩ := Option.isSome_iff_exists.1 ((hn.anyOs _ hv "any_version").2 rfl)
      simp only [hni] at h1
      cases h2 : effLoop removeRuleForAllOs none ni c with
      | error e2 =>
        simp only [h2, bind, Except.bind, Except.error.injEq] at h1
        subst h1
        exact effLoop_err h2
      | ok c2 =>
        simp only [h2, bind, Except.bind] at h1
        obtain ⟨_, a1, _⟩ := rmOsLoop hc.wf h2
        cases ho : dget c2 "any_os" with
        | some ov =>
          simp only [ho] at h1
          obtain ⟨old, hold⟩ := Option.isSome_iff_exists.1 ((hc.anyOs ov (by rw [← a1]; exact ho) "any_version").2 rfl)
          simp only [hold] at h1
          cases h3 : mergeInstallerDict ni old none with
          | ok m => simp [h3, pure, Except.pure] at h1
          | error e3 => simp only [h3, Except.error.injEq] at h1; subst h1; exact mergeInst_err h3
        | none =>
          simp only [ho] at h1
          cases h3 : copyVersionDict nv none with
          | ok m => simp [h3, pure, Except.pure] at h1
          | error e3 => simp only [h3, Except.error.injEq] at h1; subst h1; exact copyVer_err (hn.wf.2 _ _ hv).1 h3

end Verif
