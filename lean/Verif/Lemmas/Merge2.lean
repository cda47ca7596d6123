import Verif.Lemmas.Merge
/-! Helper lemmas about merging rules dicts, continued: the rules level. -/
namespace Verif

theorem effLast_kw {dflt : Option String} (h : dflt ≠ some "default_installer") (d : InstDict) :
    effLast dflt "default_installer" d = none := by
  induction d with
  | nil => rfl
  | cons x t ih =>
    simp only [effLast, ih, Option.none_or]
    rw [if_neg]
    unfold effName
    split
    · rw [truthy_eq_some]; exact fun e => h e.1
    · rename_i hx; simpa using hx

theorem effLast_plain {d : InstDict} (hd : DWF d) (hk : "default_installer" ∉ dkeys d) (dflt : Option String)
    (i : String) : effLast dflt i d = dget d i := by
  induction d with
  | nil => rfl
  | cons x t ih =>
    obtain ⟨a, w⟩ := x
    simp only [DWF_cons] at hd
    simp only [dkeys_cons, List.mem_cons, not_or] at hk
    simp only [effLast, ih hd.2 hk.2, dget]
    have : effName dflt a = some a := by unfold effName; rw [if_neg (fun e => hk.1 e.symm)]
    rw [this]
    simp only [Option.some.injEq]
    split
    · subst_vars; rw [dget_eq_none.2 hd.1]; rfl
    · simp

/-! ### copy_os_dict -/

def copyOsStep (dflts : Dict String (Option String)) (os : String) (_ : Option VerDict) (vd : VerDict) :
    Except Exc (Option VerDict) :=
  if os = "any_os" then (copyVersionDict vd none).map some
  else match dget dflts os with
    | some dflt => (copyVersionDict vd dflt).map some
    | none => .ok none

theorem copyOs_eq (d : OsDict) (dflts : Dict String (Option String)) :
    copyOsDict d dflts = updLoop (copyOsStep dflts) d [] := by
  unfold copyOsDict
  generalize ([] : OsDict) = acc
  induction d generalizing acc with
  | nil => rfl
  | cons x t ih =>
    obtain ⟨a, w⟩ := x
    simp only [List.foldlM_cons, updLoop, copyOsStep]
    by_cases ha : a = "any_os"
    · simp only [ha, if_true]
      cases copyVersionDict w none with
      | error e => rfl
      | ok c => exact ih _
    · simp only [ha, if_false]
      cases dget dflts a with
      | none => exact ih _
      | some dflt =>
        simp only
        cases copyVersionDict w dflt with
        | error e => rfl
        | ok c => exact ih _

theorem Except_map_ok {α β : Type} {f : α → β} {x : Except Exc α} {y : β} (h : x.map f = .ok y) :
    ∃ a, x = .ok a ∧ f a = y := by
  cases x with
  | error e => simp [Except.map] at h
  | ok a => simp [Except.map] at h; exact ⟨a, rfl, h⟩

theorem copyVer_keys {d c : VerDict} {dflt : Option String} (hd : DWF d) (h : copyVersionDict d dflt = .ok c) (v : String) :
    (dget c v).isSome ↔ (dget d v).isSome := by
  rw [copyVer_eq] at h
  obtain ⟨k1, k2⟩ := updLoop_ok hd h v
  cases hnvv : dget d v with
  | none => rw [k1 hnvv]; simp
  | some w =>
    obtain ⟨oo, ho1, ho2⟩ := k2 _ hnvv
    obtain ⟨x, _, rfl⟩ := Except_map_ok ho1
    simp [ho2]

theorem copyOs_spec {new c : OsDict} {dflts : Dict String (Option String)} (hn : OsOk new)
    (h : copyOsDict new dflts = .ok c) :
    OsInv dflts c ∧ (∀ i v, ocell c "any_os" v i = oecell new none "any_os" v i) ∧
    ∀ o dflt, o ≠ "any_os" → dget dflts o = some dflt → ∀ v i, ocell c o v i = oecell new dflt o v i := by
  rw [copyOs_eq] at h
  have hup := fun k => updLoop_ok hn.wf.1 h k
  -- description of every entry
  have entry : ∀ o vd, dget c o = some vd → ∃ w, dget new o = some w ∧
      ((o = "any_os" ∧ copyVersionDict w none = .ok vd) ∨
       (o ≠ "any_os" ∧ ∃ dflt, dget dflts o = some dflt ∧ copyVersionDict w dflt = .ok vd)) := by
    intro o vd hov
    obtain ⟨k1, k2⟩ := hup o
    cases hno : dget new o with
    | none => rw [k1 hno] at hov; simp at hov
    | some w =>
      refine ⟨w, rfl, ?_⟩
      obtain ⟨oo, ho1, ho2⟩ := k2 _ hno
      unfold copyOsStep at ho1
      by_cases ha : o = "any_os"
      · simp only [ha, if_true] at ho1
        obtain ⟨x, hx, rfl⟩ := Except_map_ok ho1
        rw [ho2] at hov; simp at hov; subst hov
        exact .inl ⟨ha, hx⟩
      · simp only [ha, if_false] at ho1
        cases hd : dget dflts o with
        | none => simp [hd] at ho1; subst ho1; rw [ho2] at hov; simp at hov
        | some dflt =>
          simp only [hd] at ho1
          obtain ⟨x, hx, rfl⟩ := Except_map_ok ho1
          rw [ho2] at hov; simp at hov; subst hov
          exact .inr ⟨ha, dflt, rfl, hx⟩
  refine ⟨⟨⟨updLoop_DWF (by simp) h, ?_⟩, ?_, ?_⟩, ?_, ?_⟩
  · intro o vd hov
    obtain ⟨w, hw, (⟨_, hc⟩ | ⟨_, _, _, hc⟩)⟩ := entry o vd hov
    · exact copyVer_WF (hn.wf.2 _ _ hw) hc
    · exact copyVer_WF (hn.wf.2 _ _ hw) hc
  · intro o vd hov
    obtain ⟨w, hw, (⟨hc, _⟩ | ⟨_, _, hc, _⟩)⟩ := entry o vd hov
    · exact .inl hc
    · exact .inr (by simp [hc])
  · intro vd hov v
    obtain ⟨w, hw, (⟨_, hc⟩ | ⟨hc, _⟩)⟩ := entry _ vd hov
    · rw [copyVer_keys (hn.wf.2 _ _ hw).1 hc]; exact hn.anyOs _ hw v
    · exact absurd rfl hc
  · intro i v
    obtain ⟨k1, k2⟩ := hup "any_os"
    cases hno : dget new "any_os" with
    | none => simp [ocell, oecell, k1 hno, hno]
    | some w =>
      obtain ⟨oo, ho1, ho2⟩ := k2 _ hno
      simp only [copyOsStep, if_true] at ho1
      obtain ⟨x, hx, rfl⟩ := Except_map_ok ho1
      simp only [ocell, oecell, ho2, hno, Option.some_or, Option.bind_some]
      exact copyVer_cell (hn.wf.2 _ _ hno).1 hx v i
  · intro o dflt ha hd v i
    obtain ⟨k1, k2⟩ := hup o
    cases hno : dget new o with
    | none => simp [ocell, oecell, k1 hno, hno]
    | some w =>
      obtain ⟨oo, ho1, ho2⟩ := k2 _ hno
      simp only [copyOsStep, ha, if_false, hd] at ho1
      obtain ⟨x, hx, rfl⟩ := Except_map_ok ho1
      simp only [ocell, oecell, ho2, hno, Option.some_or, Option.bind_some]
      exact copyVer_cell (hn.wf.2 _ _ hno).1 hx v i

/-! ### successful merging means all names could be replaced -/

/-- All installer names of an os dict can be replaced. -/
structure EffOk (dflts : Dict String (Option String)) (n : OsDict) : Prop where
  any : ∀ vd i, dget n "any_os" = some vd → dget vd "any_version" = some i → ∀ x ∈ dkeys i, effName none x ≠ none
  os : ∀ o dflt, o ≠ "any_os" → dget dflts o = some dflt → ∀ vd v i, dget n o = some vd → dget vd v = some i →
    ∀ x ∈ dkeys i, effName dflt x ≠ none

theorem copyVer_effOk {d c : VerDict} {dflt : Option String} (hd : DWF d) (h : copyVersionDict d dflt = .ok c)
    {v : String} {i : InstDict} (hv : dget d v = some i) : ∀ x ∈ dkeys i, effName dflt x ≠ none := by
  rw [copyVer_eq] at h
  obtain ⟨o, ho, _⟩ := (updLoop_ok hd h v).2 _ hv
  obtain ⟨x, hx, _⟩ := Except_map_ok ho
  exact mergeInst_ok_iff.1 ⟨x, hx⟩

theorem mergeVer_effOk {d c c' : VerDict} {dflt : Option String} (hd : DWF d) (h : mergeVersionDict d c dflt = .ok c')
    {v : String} {i : InstDict} (hv : dget d v = some i) : ∀ x ∈ dkeys i, effName dflt x ≠ none := by
  rw [mergeVer_eq] at h
  cases h1 : mergeVerHead d c dflt with
  | error e => simp [h1, bind, Except.bind] at h
  | ok c1 =>
    simp only [h1, bind, Except.bind] at h
    obtain ⟨o, ho, _⟩ := (updLoop_ok hd h v).2 _ hv
    obtain ⟨x, hx, _⟩ := Except_map_ok ho
    exact mergeInst_ok_iff.1 ⟨x, hx⟩

theorem effLoop_effOk {γ : Type} {f : γ → String → γ} {dflt : Option String} {l : InstDict} {c c' : γ}
    (h : effLoop f dflt l c = .ok c') : ∀ x ∈ dkeys l, effName dflt x ≠ none := by
  induction l generalizing c with
  | nil => simp
  | cons x t ih =>
    simp only [effLoop] at h
    cases he : effName dflt x.1 with
    | none => simp [he] at h
    | some n =>
      simp only [he] at h
      intro y hy
      rcases List.mem_cons.1 hy with rfl | hy
      · simp [he]
      · exact ih h y hy

theorem copyOs_effOk {n c : OsDict} {dflts : Dict String (Option String)} (hn : OsOk n)
    (h : copyOsDict n dflts = .ok c) : EffOk dflts n := by
  rw [copyOs_eq] at h
  constructor
  · intro vd i hvd hi
    obtain ⟨o, ho, _⟩ := (updLoop_ok hn.wf.1 h "any_os").2 _ hvd
    simp only [copyOsStep, if_true] at ho
    obtain ⟨x, hx, _⟩ := Except_map_ok ho
    exact copyVer_effOk (hn.wf.2 _ _ hvd).1 hx hi
  · intro o dflt ha hd vd v i hvd hi
    obtain ⟨oo, ho, _⟩ := (updLoop_ok hn.wf.1 h o).2 _ hvd
    simp only [copyOsStep, ha, if_false, hd] at ho
    obtain ⟨x, hx, _⟩ := Except_map_ok ho
    exact copyVer_effOk (hn.wf.2 _ _ hvd).1 hx hi

theorem mergeOs_effOk {n c c' : OsDict} {dflts : Dict String (Option String)} (hn : OsOk n)
    (h : mergeOsDict n c dflts = .ok c') : EffOk dflts n := by
  rw [mergeOs_eq] at h
  cases h1 : mergeOsHead n c with
  | error e => simp [h1, bind, Except.bind] at h
  | ok c1 =>
    simp only [h1, bind, Except.bind] at h
    constructor
    · intro vd i hvd hi
      unfold mergeOsHead at h1
      simp only [hvd, hi, bind, Except.bind] at h1
      split at h1
      · simp at h1
      · rename_i c2 h2; exact effLoop_effOk h2
    · intro o dflt ha hd vd v i hvd hi
      obtain ⟨oo, ho, _⟩ := (updLoop_ok hn.wf.1 h o).2 _ hvd
      simp only [mergeOsStep, hd] at ho
      cases hc : dget c1 o with
      | none =>
        simp only [hc] at ho
        obtain ⟨x, hx, _⟩ := Except_map_ok ho
        exact copyVer_effOk (hn.wf.2 _ _ hvd).1 hx hi
      | some old =>
        simp only [hc] at ho
        obtain ⟨x, hx, _⟩ := Except_map_ok ho
        exact mergeVer_effOk (hn.wf.2 _ _ hvd).1 hx hi

/-! ### lookup in merged os dicts -/

/-- lookup chain of a combined os dict -/
def clook (c : OsDict) (o v i : String) : Option Rule :=
  (ocell c o v i).or ((ocell c o "any_version" i).or (ocell c "any_os" "any_version" i))
/-- lookup chain of an input os dict -/
def olook (n : OsDict) (dflt : Option String) (o v i : String) : Option Rule :=
  (oecell n dflt o v i).or ((oecell n dflt o "any_version" i).or (oecell n dflt "any_os" "any_version" i))

theorem oecell_any_dflt {n : OsDict} {dflts : Dict String (Option String)} (he : EffOk dflts n) (dflt : Option String)
    (i : String) : oecell n none "any_os" "any_version" i = oecell n dflt "any_os" "any_version" i := by
  unfold oecell ecell
  cases h1 : dget n "any_os" with
  | none => rfl
  | some vd =>
    simp only [Option.bind_some]
    cases h2 : dget vd "any_version" with
    | none => rfl
    | some d =>
      simp only [Option.bind_some]
      obtain ⟨c', hc'⟩ := (mergeInst_ok_iff (new := d) (c := []) (dflt := none)).2 (he.any _ _ h1 h2)
      exact effLast_none_dflt hc' dflt i

theorem copyOs_look {n c : OsDict} {dflts : Dict String (Option String)} (hn : OsOk n)
    (h : copyOsDict n dflts = .ok c) {o : String} {dflt : Option String} (ho : o ≠ "any_os")
    (hd : dget dflts o = some dflt) (v i : String) : clook c o v i = olook n dflt o v i := by
  obtain ⟨_, h1, h2⟩ := copyOs_spec hn h
  unfold clook olook
  rw [h2 o dflt ho hd, h2 o dflt ho hd, h1, oecell_any_dflt (copyOs_effOk hn h) dflt]

theorem mergeOs_look {n c c' : OsDict} {dflts : Dict String (Option String)} (hn : OsOk n)
    (hany : dget dflts "any_os" = none) (hc : OsInv dflts c)
    (h : mergeOsDict n c dflts = .ok c') {o : String} {dflt : Option String}
    (hd : dget dflts o = some dflt) (v i : String) :
    clook c' o v i = (olook n dflt o v i).or (clook c o v i) := by
  obtain ⟨_, h1, h2⟩ := mergeOs_spec hn hany hc h
  unfold clook olook
  rw [h2 o dflt hd, h2 o dflt hd, h1, oecell_any_dflt (mergeOs_effOk hn h) dflt]
  generalize oecell n dflt o v i = a
  generalize oecell n dflt o "any_version" i = b
  generalize oecell n dflt "any_os" "any_version" i = d
  generalize ocell c o v i = x
  generalize ocell c o "any_version" i = y
  generalize ocell c "any_os" "any_version" i = z
  cases a <;> cases b <;> cases d <;> simp

/-- no keyword left -/
def NoKw (c : OsDict) : Prop := ∀ o v, ocell c o v "default_installer" = none

theorem oecell_kw {n : OsDict} {dflt : Option String} (h : dflt ≠ some "default_installer") (o v : String) :
    oecell n dflt o v "default_installer" = none := by
  unfold oecell ecell
  cases dget n o with
  | none => rfl
  | some vd =>
    simp only [Option.bind_some]
    cases dget vd v with
    | none => rfl
    | some d => simp [effLast_kw h]

theorem ocell_unknown {c : OsDict} {dflts : Dict String (Option String)} (hc : OsInv dflts c) {o : String}
    (h1 : o ≠ "any_os") (h2 : dget dflts o = none) (v i : String) : ocell c o v i = none := by
  unfold ocell
  cases h : dget c o with
  | none => rfl
  | some vd =>
    rcases hc.known _ _ h with h3 | h3
    · exact absurd h3 h1
    · simp [h2] at h3

theorem copyOs_noKw {n c : OsDict} {dflts : Dict String (Option String)} (hn : OsOk n)
    (hkw : ∀ o, dget dflts o ≠ some (some "default_installer"))
    (h : copyOsDict n dflts = .ok c) : NoKw c := by
  intro o v
  obtain ⟨inv, h1, h2⟩ := copyOs_spec hn h
  by_cases ho : o = "any_os"
  · subst ho; rw [h1]; exact oecell_kw (by simp) _ _
  · cases hd : dget dflts o with
    | none => exact ocell_unknown inv ho hd _ _
    | some dflt =>
      rw [h2 o dflt ho hd]
      exact oecell_kw (fun e => hkw o (by rw [hd, e])) _ _

theorem mergeOs_noKw {n c c' : OsDict} {dflts : Dict String (Option String)} (hn : OsOk n)
    (hany : dget dflts "any_os" = none) (hkw : ∀ o, dget dflts o ≠ some (some "default_installer"))
    (hc : OsInv dflts c) (hk : NoKw c) (h : mergeOsDict n c dflts = .ok c') : NoKw c' := by
  intro o v
  obtain ⟨inv, h1, h2⟩ := mergeOs_spec hn hany hc h
  by_cases ho : o = "any_os"
  · subst ho; rw [h1, oecell_kw (by simp), hk]; rfl
  · cases hd : dget dflts o with
    | none => exact ocell_unknown inv ho hd _ _
    | some dflt =>
      rw [h2 o dflt hd, oecell_kw (fun e => hkw o (by rw [hd, e]))]
      simp [hk o v]

/-! ### rules level -/

def mergeRulesStep (dflts : Dict String (Option String)) (_ : String) (o : Option OsDict) (n : OsDict) :
    Except Exc (Option OsDict) :=
  match o with
  | none => (copyOsDict n dflts).map (fun c => if c.isEmpty then none else some c)
  | some old => (mergeOsDict n old dflts).map some

theorem mergeOne_eq (dflts : Dict String (Option String)) (combined rules : Rules) :
    mergeOneRules dflts combined rules = updLoop (mergeRulesStep dflts) rules combined := by
  unfold mergeOneRules
  induction rules generalizing combined with
  | nil => rfl
  | cons x t ih =>
    obtain ⟨a, w⟩ := x
    simp only [List.foldlM_cons, updLoop, mergeRulesStep]
    cases dget combined a with
    | none =>
      simp only
      cases copyOsDict w dflts with
      | error e => rfl
      | ok c =>
        simp only [bind, Except.bind, Except.map]
        by_cases hc : c.isEmpty
        · simp only [hc, if_true]; exact ih _
        · simp only [hc]; exact ih _
    | some old =>
      simp only
      cases mergeOsDict w old dflts with
      | error e => rfl
      | ok c => exact ih _

/-- lookup chain of combined rules -/
def rclook (m : Rules) (k o v i : String) : Option Rule := (dget m k).bind (fun od => clook od o v i)
/-- lookup chain of input rules -/
def rolook (n : Rules) (dflt : Option String) (k o v i : String) : Option Rule := (dget n k).bind (fun od => olook od dflt o v i)

structure RulesInv (dflts : Dict String (Option String)) (m : Rules) : Prop where
  wf : DWF m
  os : ∀ k od, dget m k = some od → OsInv dflts od ∧ NoKw od

structure RulesOk (n : Rules) : Prop where
  wf : DWF n
  os : ∀ k od, dget n k = some od → OsOk od

theorem mergeOne_spec {dflts : Dict String (Option String)} {n c c' : Rules} (hn : RulesOk n)
    (hany : dget dflts "any_os" = none) (hkw : ∀ o, dget dflts o ≠ some (some "default_installer"))
    (hc : RulesInv dflts c) (h : mergeOneRules dflts c n = .ok c') :
    RulesInv dflts c' ∧ (∀ k od, dget n k = some od → EffOk dflts od) ∧
    ∀ k o dflt, dget dflts o = some dflt → ∀ v i,
      rclook c' k o v i = (rolook n dflt k o v i).or (rclook c k o v i) := by
  rw [mergeOne_eq] at h
  have hup := fun k => updLoop_ok hn.wf h k
  refine ⟨⟨updLoop_DWF hc.wf h, ?_⟩, ?_, ?_⟩
  · intro k od hk
    obtain ⟨k1, k2⟩ := hup k
    cases hnk : dget n k with
    | none => rw [k1 hnk] at hk; exact hc.os _ _ hk
    | some w =>
      obtain ⟨oo, ho1, ho2⟩ := k2 _ hnk
      have hw := hn.os _ _ hnk
      unfold mergeRulesStep at ho1
      cases hck : dget c k with
      | none =>
        simp only [hck] at ho1
        obtain ⟨x, hx, rfl⟩ := Except_map_ok ho1
        rw [ho2, hck] at hk
        split at hk
        · simp at hk
        · simp at hk; subst hk
          exact ⟨(copyOs_spec hw hx).1, copyOs_noKw hw hkw hx⟩
      | some old =>
        simp only [hck] at ho1
        obtain ⟨x, hx, rfl⟩ := Except_map_ok ho1
        rw [ho2] at hk; simp at hk; subst hk
        obtain ⟨i1, i2⟩ := hc.os _ _ hck
        exact ⟨(mergeOs_spec hw hany i1 hx).1, mergeOs_noKw hw hany hkw i1 i2 hx⟩
  · intro k od hk
    have hw := hn.os _ _ hk
    obtain ⟨oo, ho1, ho2⟩ := (hup k).2 _ hk
    unfold mergeRulesStep at ho1
    cases hck : dget c k with
    | none =>
      simp only [hck] at ho1
      obtain ⟨x, hx, _⟩ := Except_map_ok ho1
      exact copyOs_effOk hw hx
    | some old =>
      simp only [hck] at ho1
      obtain ⟨x, hx, _⟩ := Except_map_ok ho1
      exact mergeOs_effOk hw hx
  · intro k o dflt hd v i
    obtain ⟨k1, k2⟩ := hup k
    have ho : o ≠ "any_os" := by rintro rfl; simp [hany] at hd
    unfold rclook rolook
    cases hnk : dget n k with
    | none => rw [k1 hnk]; simp
    | some w =>
      obtain ⟨oo, ho1, ho2⟩ := k2 _ hnk
      have hw := hn.os _ _ hnk
      unfold mergeRulesStep at ho1
      rw [ho2]
      cases hck : dget c k with
      | none =>
        simp only [hck] at ho1
        obtain ⟨x, hx, rfl⟩ := Except_map_ok ho1
        have hl := copyOs_look hw hx ho hd v i
        simp only [Option.bind_some, Option.bind_none, Option.or_none, ← hl]
        by_cases he : x.isEmpty = true
        · simp only [he, if_true, Option.bind_none]
          rw [List.isEmpty_iff.1 he]; simp [clook, ocell]
        · simp [he]
      | some old =>
        simp only [hck] at ho1
        obtain ⟨x, hx, rfl⟩ := Except_map_ok ho1
        simp only [Option.some_or, Option.bind_some]
        exact mergeOs_look hw hany (hc.os _ _ hck).1 hx hd v i

theorem mergeRules_cons (r : Rules) (rs : List Rules) (dflts : Dict String (Option String)) :
    mergeRules (r :: rs) dflts = (do let c ← mergeRules rs dflts; mergeOneRules dflts c r) := by
  unfold mergeRules
  simp only [List.reverse_cons, List.foldlM_append, List.foldlM_cons, List.foldlM_nil]
  cases List.foldlM (mergeOneRules dflts) [] rs.reverse with
  | error e => rfl
  | ok c =>
    simp only [bind, Except.bind, pure, Except.pure]
    cases mergeOneRules dflts c r <;> rfl

/-- first rule among the lists of rules -/
def rfirst (rs : List Rules) (dflt : Option String) (k o v i : String) : Option Rule :=
  match rs with
  | [] => none
  | r :: rs => (rolook r dflt k o v i).or (rfirst rs dflt k o v i)

theorem mergeRules_spec {dflts : Dict String (Option String)} {rs : List Rules} {m : Rules}
    (hn : ∀ r ∈ rs, RulesOk r)
    (hany : dget dflts "any_os" = none) (hkw : ∀ o, dget dflts o ≠ some (some "default_installer"))
    (h : mergeRules rs dflts = .ok m) :
    RulesInv dflts m ∧ (∀ r ∈ rs, ∀ k od, dget r k = some od → EffOk dflts od) ∧
    ∀ k o dflt, dget dflts o = some dflt → ∀ v i, rclook m k o v i = rfirst rs dflt k o v i := by
  induction rs generalizing m with
  | nil =>
    simp only [mergeRules, List.reverse_nil, List.foldlM_nil, pure, Except.pure, Except.ok.injEq] at h
    subst h
    exact ⟨⟨by simp, by simp⟩, by simp, by simp [rclook, rfirst]⟩
  | cons r rs ih =>
    rw [mergeRules_cons] at h
    cases h1 : mergeRules rs dflts with
    | error e => simp [h1, bind, Except.bind] at h
    | ok c =>
      simp only [h1, bind, Except.bind] at h
      obtain ⟨i1, e1, l1⟩ := ih (fun r hr => hn r (by simp [hr])) h1
      obtain ⟨i2, e2, l2⟩ := mergeOne_spec (hn r (by simp)) hany hkw i1 h
      refine ⟨i2, ?_, ?_⟩
      · intro r' hr'
        rcases List.mem_cons.1 hr' with rfl | hr'
        · exact e2
        · exact e1 r' hr'
      · intro k o dflt hd v i
        rw [l2 k o dflt hd, l1 k o dflt hd, rfirst]

/-! ### connection with lookupRules -/

theorem entryAt_oecell (r : Rules) (dflt : Option String) (k o v i : String) :
    effLast dflt i (entryAt r k o v) = (dget r k).bind (fun od => oecell od dflt o v i) := by
  unfold entryAt oecell ecell
  cases dget r k with
  | none => rfl
  | some od =>
    simp only [Option.bind_some]
    cases dget od o with
    | none => rfl
    | some vd =>
      simp only [Option.bind_some]
      cases dget vd v with
      | none => rfl
      | some d => rfl

theorem lookup_rolook {r : Rules} {k o v : String} {dflt : Option String} {res : InstDict}
    (h : lookupRules r k o v dflt = .ok res) (i : String) : dget res i = rolook r dflt k o v i := by
  rw [lookupRules_dget h, entryAt_oecell, entryAt_oecell, entryAt_oecell]
  unfold rolook olook
  cases dget r k <;> simp

theorem lookup_ok_of_effOk {r : Rules} {dflts : Dict String (Option String)} (_hr : RulesOk r)
    (hany : dget dflts "any_os" = none)
    (he : ∀ k od, dget r k = some od → EffOk dflts od) {k o v : String} {dflt : Option String}
    (hd : dget dflts o = some dflt) : ∃ res, lookupRules r k o v dflt = .ok res := by
  rw [lookupRules_ok_iff]
  have ho : o ≠ "any_os" := by rintro rfl; simp [hany] at hd
  have key : ∀ o' v', (o' = o ∨ (o' = "any_os" ∧ v' = "any_version")) → "default_installer" ∈ dkeys (entryAt r k o' v') →
      ∃ s, dflt = some s ∧ s ≠ "" := by
    intro o' v' ho' hm
    unfold entryAt at hm
    cases h1 : dget r k with
    | none => simp [h1] at hm
    | some od =>
      simp only [h1] at hm
      cases h2 : dget od o' with
      | none => simp [h2] at hm
      | some vd =>
        simp only [h2] at hm
        cases h3 : dget vd v' with
        | none => simp [h3] at hm
        | some d =>
          simp only [h3] at hm
          rcases ho' with rfl | ⟨rfl, rfl⟩
          · exact effName_ne_none.1 ((he _ _ h1).os _ _ ho hd _ _ _ h2 h3 _ hm) rfl
          · obtain ⟨s, hs, _⟩ := effName_ne_none.1 ((he _ _ h1).any _ _ h2 h3 _ hm) rfl
            simp at hs
  intro d hdm
  simp only [consulted, List.mem_cons, List.not_mem_nil, or_false] at hdm
  rcases hdm with rfl | rfl | rfl
  · exact key _ _ (.inl rfl)
  · exact key _ _ (.inl rfl)
  · exact key _ _ (.inr ⟨rfl, rfl⟩)

theorem RulesInv.wf' {dflts : Dict String (Option String)} {m : Rules} (h : RulesInv dflts m) : m.WF :=
  ⟨h.wf, fun k od hk => (h.os k od hk).1.wf⟩

theorem lookup_rclook {m : Rules} {dflts : Dict String (Option String)} (hm : RulesInv dflts m)
    (k o v : String) (dflt : Option String) :
    ∃ res, lookupRules m k o v dflt = .ok res ∧ ∀ i, dget res i = rclook m k o v i := by
  have nokw : ∀ o' v', "default_installer" ∉ dkeys (entryAt m k o' v') := by
    intro o' v'
    rw [← dget_eq_none]
    unfold entryAt
    cases h1 : dget m k with
    | none => rfl
    | some od =>
      simp only
      have := (hm.os _ _ h1).2 o' v'
      unfold ocell vcell at this
      cases h2 : dget od o' with
      | none => rfl
      | some vd =>
        simp only
        rw [h2] at this; simp only [Option.bind_some] at this
        cases h3 : dget vd v' with
        | none => rfl
        | some d => rw [h3] at this; simpa using this
  have plain : ∀ o' v' i, effLast dflt i (entryAt m k o' v') = (dget m k).bind (fun od => ocell od o' v' i) := by
    intro o' v' i
    rw [effLast_plain (entryAt_WF hm.wf' _ _ _) (nokw o' v')]
    unfold entryAt ocell vcell
    cases dget m k with
    | none => rfl
    | some od =>
      simp only [Option.bind_some]
      cases dget od o' with
      | none => rfl
      | some vd =>
        simp only [Option.bind_some]
        cases dget vd v' <;> rfl
  obtain ⟨res, hres⟩ := (lookupRules_ok_iff m k o v dflt).2 (by
    intro d hd hk
    simp only [consulted, List.mem_cons, List.not_mem_nil, or_false] at hd
    rcases hd with rfl | rfl | rfl <;> exact absurd hk (nokw _ _))
  refine ⟨res, hres, fun i => ?_⟩
  rw [lookupRules_dget hres, plain, plain, plain]
  unfold rclook clook
  cases dget m k <;> simp

end Verif
