import Verif.Lemmas.PyEq
import Verif.Props.Compact
/-! # Expansion, verification and lookup respect Python equality of the parsed file -/
set_option linter.unusedSimpArgs false
namespace Verif

/-- Well-formed items of a dict. -/
def ItemsWF (d : List (PKey × PVal)) : Prop := DWF d ∧ ∀ k w, (k, w) ∈ d → w.WF

theorem wf_dict {d : List (PKey × PVal)} : (PVal.dict d).WF ↔ ItemsWF d := by
  rw [PVal.WF, PVal.WFItems_iff]; rfl

/-- A function on entries that respects Python equality. -/
def Respects (f : PKey → PVal → Except Exc PVal) : Prop :=
  ∀ k v w a, v.WF → w.WF → pyEq v w = true → f k v = .ok a → ∃ b, f k w = .ok b ∧ pyEq a b = true

theorem mem_of_pyEq {d e : List (PKey × PVal)} (hd : ItemsWF d) (he : ItemsWF e) (h : pyEq (.dict d) (.dict e) = true)
    {k : PKey} {w : PVal} (hm : (k, w) ∈ e) : ∃ v, (k, v) ∈ d ∧ pyEq v w = true := by
  rw [pyEq_dict] at h
  have hk := keys_of_length hd.1 h.1 (fun k v hm => (h.2 k v hm).imp fun _ h => h.1) k (mem_dkeys_of_mem hm)
  obtain ⟨⟨k', v⟩, hv, rfl⟩ := List.mem_map.1 hk
  obtain ⟨w', hw', hp⟩ := h.2 _ _ hv
  rw [mem_dget he.1 hm] at hw'
  injection hw' with hw'
  subst hw'
  exact ⟨v, hv, hp⟩

theorem mapVals_respects {f : PKey → PVal → Except Exc PVal} (hf : Respects f) {d e d' : List (PKey × PVal)}
    (hd : ItemsWF d) (he : ItemsWF e) (h : pyEq (.dict d) (.dict e) = true) (hm : mapVals f d = .ok d') :
    ∃ e', mapVals f e = .ok e' ∧ pyEq (.dict d') (.dict e') = true := by
  have each : ∀ k v, (k, v) ∈ d → ∃ a, f k v = .ok a := fun k v hv => (mapVals_mem' hm hv).imp fun _ h => h.2
  cases hme : mapVals f e with
  | error x =>
    exfalso
    obtain ⟨k, w, hw, hx⟩ := mapVals_error hme
    obtain ⟨v, hv, hp⟩ := mem_of_pyEq hd he h hw
    obtain ⟨a, ha⟩ := each k v hv
    obtain ⟨b, hb, _⟩ := hf k v w a (hd.2 _ _ hv) (he.2 _ _ hw) hp ha
    rw [hx] at hb; simp at hb
  | ok e' =>
    refine ⟨e', rfl, ?_⟩
    rw [pyEq_dict] at h ⊢
    constructor
    · have h1 := congrArg List.length (mapVals_keys hm)
      have h2 := congrArg List.length (mapVals_keys hme)
      simp only [dkeys, List.length_map] at h1 h2
      rw [h1, h2, h.1]
    · intro k a ha
      obtain ⟨v, hv, hfa⟩ := mapVals_mem hm ha
      obtain ⟨w, hw, hp⟩ := h.2 k v hv
      obtain ⟨b, hb, hpb⟩ := hf k v w a (hd.2 _ _ hv) (he.2 _ _ (dget_some_mem hw)) hp hfa
      obtain ⟨b', hb', hfb⟩ := mapVals_mem' hme (dget_some_mem hw)
      rw [hb] at hfb; injection hfb with hfb; subst hfb
      exact ⟨b, mem_dget (mapVals_DWF hme he.1) hb', hpb⟩

theorem forItems_respects {f : PKey → PVal → Except Exc PVal} (hf : Respects f) {d e d' : List (PKey × PVal)}
    (hd : ItemsWF d) (he : ItemsWF e) (h : pyEq (.dict d) (.dict e) = true) (hm : forItems f d = .ok d') :
    ∃ e', forItems f e = .ok e' ∧ pyEq (.dict d') (.dict e') = true := by
  rw [forItems_eq _ hd.1] at hm
  rw [forItems_eq _ he.1]
  exact mapVals_respects hf hd he h hm

theorem pyEq_inv {v w : PVal} (h : pyEq v w = true) :
    (v = .none ∧ w = .none) ∨ (∃ s, v = .str s ∧ w = .str s) ∨ (∃ l m, v = .list l ∧ w = .list m ∧ pyEqList l m = true) ∨
    (∃ d e, v = .dict d ∧ w = .dict e ∧ pyEq (.dict d) (.dict e) = true) ∨
    ((∀ kw, upConvert kw v = .error .valueError) ∧ (∀ kw, upConvert kw w = .error .valueError)) := by
  cases v <;> cases w <;> simp_all [pyEq, upConvert, PVal.num?]

theorem upConvert_respects {kw : String} {v w : PVal} {d : Dict PKey PVal} (hv : v.WF) (h : pyEq v w = true)
    (hu : upConvert kw v = .ok d) : ∃ e, upConvert kw w = .ok e ∧ pyEq (.dict d) (.dict e) = true := by
  rcases pyEq_inv h with ⟨rfl, rfl⟩ | ⟨s, rfl, rfl⟩ | ⟨l, m, rfl, rfl, hl⟩ | ⟨d, e, rfl, rfl, hd⟩ | ⟨h1, _⟩
  · simp only [upConvert, Except.ok.injEq] at hu; subst hu
    exact ⟨_, rfl, pyEq_refl _ (by simp [PVal.WF, PVal.WFList, PVal.WFItems])⟩
  · simp only [upConvert, Except.ok.injEq] at hu; subst hu
    exact ⟨_, rfl, pyEq_refl _ (by simp [PVal.WF, PVal.WFList, PVal.WFItems])⟩
  · simp only [upConvert, Except.ok.injEq] at hu; subst hu
    refine ⟨_, rfl, ?_⟩
    rw [pyEq_dict]
    refine ⟨rfl, fun k v hm => ?_⟩
    simp only [List.mem_cons, List.not_mem_nil, or_false, Prod.mk.injEq] at hm
    obtain ⟨rfl, rfl⟩ := hm
    exact ⟨.list m, by simp [dget], hl⟩
  · simp only [upConvert, Except.ok.injEq] at hu; subst hu
    exact ⟨_, rfl, hd⟩
  · rw [h1] at hu; simp at hu

/-- Two optional values are both missing, or both present and equal. -/
def OptEq (a b : Option PVal) : Prop := (a = none ∧ b = none) ∨ ∃ v w, a = some v ∧ b = some w ∧ pyEq v w = true

theorem pyEq_dget {d e : List (PKey × PVal)} (hd : DWF d) (he : DWF e) :
    pyEq (.dict d) (.dict e) = true ↔ ∀ k, OptEq (dget d k) (dget e k) := by
  rw [pyEq_dict]
  constructor
  · rintro ⟨hl, h⟩ k
    cases hk : dget d k with
    | some v =>
      obtain ⟨w, hw, hp⟩ := h k v (dget_some_mem hk)
      exact .inr ⟨v, w, rfl, hw, hp⟩
    | none =>
      refine .inl ⟨rfl, ?_⟩
      rw [dget_eq_none] at hk ⊢
      exact fun hm => hk (keys_of_length hd hl (fun k v hm => (h k v hm).imp fun _ h => h.1) k hm)
  · intro h
    have keys : ∀ k, k ∈ dkeys d ↔ k ∈ dkeys e := by
      intro k
      rw [mem_dkeys_iff, mem_dkeys_iff]
      rcases h k with ⟨h1, h2⟩ | ⟨v, w, h1, h2, _⟩ <;> simp [h1, h2]
    constructor
    · have := ((List.perm_ext_iff_of_nodup hd he).2 keys).length_eq
      simpa [dkeys] using this
    · intro k v hm
      rcases h k with ⟨h1, h2⟩ | ⟨v', w, h1, h2, hp⟩
      · rw [mem_dget hd hm] at h1; simp at h1
      · rw [mem_dget hd hm] at h1; injection h1 with h1; subst h1; exact ⟨w, h2, hp⟩

theorem listify_respects {v w : PVal} (h : pyEq v w = true) : pyEq (listify v) (listify w) = true := by
  cases v <;> cases w <;> simp_all [pyEq, listify, PVal.num?, pyEqList]

theorem dget_normPackages (d : Dict PKey PVal) : dget (normPackages d) (.str "packages") = (dget d (.str "packages")).map listify := by
  unfold normPackages
  split
  · rename_i h; simp [h, listify]
  · rename_i h; simp [h, listify]
  · rename_i h1 h2
    cases h : dget d (.str "packages") with
    | none => rfl
    | some v => cases v <;> simp_all [listify]

theorem dget_normDepends (d : Dict PKey PVal) : dget (normDepends d) (.str "depends") =
    ((dget d (.str "depends")).map listify).bind fun v => if pyEq v (.list []) then none else some v := by
  unfold normDepends
  split
  · rename_i h; simp [h]
  · rename_i v h
    simp only [h, Option.map_some, Option.bind_some]
    split
    · simp [dget_del]
    · simp

theorem expandDefinition_respects : Respects fun _ v => expandDefinition v := by
  intro _ v w a hv hw hp h
  unfold expandDefinition at h ⊢
  obtain ⟨d, hd, h⟩ := Except_bind_ok.1 h
  rw [pure_ok] at h; subst h
  obtain ⟨e, he, hp'⟩ := upConvert_respects hv hp hd
  refine ⟨_, Except_bind_ok.2 ⟨e, he, rfl⟩, ?_⟩
  have wd := upConvert_WF hv hd
  have we := upConvert_WF hw he
  rw [pyEq_dget wd.1 we.1] at hp'
  rw [pyEq_dget (normDepends_DWF (normPackages_DWF wd.1)) (normDepends_DWF (normPackages_DWF we.1))]
  intro k
  by_cases hk : k = .str "depends"
  · subst hk
    rw [dget_normDepends, dget_normDepends, normPackages_dget (by simp), normPackages_dget (by simp)]
    rcases hp' (.str "depends") with ⟨h1, h2⟩ | ⟨x, y, h1, h2, hxy⟩
    · rw [h1, h2]; exact .inl ⟨rfl, rfl⟩
    · rw [h1, h2]
      simp only [Option.map_some, Option.bind_some]
      have hl := listify_respects hxy
      have hx : pyEq (listify x) (.list []) = true ↔ pyEq (listify y) (.list []) = true := by
        constructor
        · intro hh
          rw [pyEq_nil.1 hh] at hl
          cases hy : listify y with
          | list m => cases m <;> simp_all [pyEq, pyEqList]
          | _ => simp_all [pyEq]
        · exact pyEq_trans _ _ _ hl
      by_cases hn : pyEq (listify x) (.list []) = true
      · rw [if_pos hn, if_pos (hx.1 hn)]; exact .inl ⟨rfl, rfl⟩
      · rw [if_neg hn, if_neg (fun hh => hn (hx.2 hh))]; exact .inr ⟨_, _, rfl, rfl, hl⟩
  · rw [normDepends_dget hk, normDepends_dget hk]
    by_cases hk2 : k = .str "packages"
    · subst hk2
      rw [dget_normPackages, dget_normPackages]
      rcases hp' (.str "packages") with ⟨h1, h2⟩ | ⟨x, y, h1, h2, hxy⟩
      · rw [h1, h2]; exact .inl ⟨rfl, rfl⟩
      · rw [h1, h2]; exact .inr ⟨_, _, rfl, rfl, listify_respects hxy⟩
    · rw [normPackages_dget hk2, normPackages_dget hk2]
      exact hp' k

theorem expandInstaller_respects : Respects fun _ v => expandInstallerDefinition v := by
  intro _ v w a hv hw hp h
  unfold expandInstallerDefinition at h ⊢
  obtain ⟨d, hd, h⟩ := Except_bind_ok.1 h
  obtain ⟨d', hd', h⟩ := Except_bind_ok.1 h
  rw [pure_ok] at h; subst h
  obtain ⟨e, he, hp'⟩ := upConvert_respects hv hp hd
  obtain ⟨e', he', hp2⟩ := forItems_respects expandDefinition_respects (upConvert_WF hv hd) (upConvert_WF hw he) hp' hd'
  exact ⟨_, Except_bind_ok.2 ⟨e, he, Except_bind_ok.2 ⟨e', he', rfl⟩⟩, hp2⟩

theorem anyOsWrap_respects {os : PKey} {d e d' : Dict PKey PVal} (hd : ItemsWF d) (he : ItemsWF e)
    (h : pyEq (.dict d) (.dict e) = true) (hw : anyOsWrap os d = .ok d') :
    ∃ e', anyOsWrap os e = .ok e' ∧ pyEq (.dict d') (.dict e') = true := by
  unfold anyOsWrap at hw ⊢
  have hlen := (pyEq_dict.1 h).1
  have hk : dhas d (.str "any_version") = dhas e (.str "any_version") := by
    rw [pyEq_dget hd.1 he.1] at h
    unfold dhas
    rcases h (.str "any_version") with ⟨h1, h2⟩ | ⟨x, y, h1, h2, _⟩ <;> rw [h1, h2] <;> rfl
  rw [← hlen, ← hk]
  split at hw
  · split at hw
    · split at hw
      · simp at hw
      · rename_i h1 h2 h3
        rw [if_pos h1, if_pos h2, if_neg h3]
        simp only [Except.ok.injEq] at hw; subst hw
        exact ⟨e, rfl, h⟩
    · rename_i h1 h2
      rw [if_pos h1, if_neg h2]
      simp only [Except.ok.injEq] at hw; subst hw
      refine ⟨_, rfl, ?_⟩
      rw [pyEq_dict]
      refine ⟨rfl, fun k v hm => ?_⟩
      simp only [List.mem_cons, List.not_mem_nil, or_false, Prod.mk.injEq] at hm
      obtain ⟨rfl, rfl⟩ := hm
      exact ⟨.dict e, by simp [dget], h⟩
  · rename_i h1
    rw [if_neg h1]
    simp only [Except.ok.injEq] at hw; subst hw
    exact ⟨e, rfl, h⟩

theorem expandVersion_respects : Respects expandOsVersionDefinition := by
  intro os v w a hv hw hp h
  rw [expandVersion_eq] at h ⊢
  obtain ⟨d, hd, h⟩ := Except_bind_ok.1 h
  obtain ⟨d1, hd1, h⟩ := Except_bind_ok.1 h
  obtain ⟨d', hd', h⟩ := Except_bind_ok.1 h
  rw [pure_ok] at h; subst h
  obtain ⟨e, he, hp'⟩ := upConvert_respects hv hp hd
  have wd := upConvert_WF hv hd
  have we := upConvert_WF hw he
  obtain ⟨e1, he1, hp1⟩ := anyOsWrap_respects wd we hp' hd1
  obtain ⟨e', he', hp2⟩ := forItems_respects expandInstaller_respects (anyOsWrap_WF wd hd1).1 (anyOsWrap_WF we he1).1 hp1 hd'
  exact ⟨_, Except_bind_ok.2 ⟨e, he, Except_bind_ok.2 ⟨e1, he1, Except_bind_ok.2 ⟨e', he', rfl⟩⟩⟩, hp2⟩

theorem expandOs_respects : Respects fun _ v => expandOsDefinition v := by
  intro _ v w a hv hw hp h
  cases v with
  | dict d =>
    cases w with
    | dict e =>
      simp only [expandOsDefinition] at h ⊢
      obtain ⟨d', hd', h⟩ := Except_bind_ok.1 h
      rw [pure_ok] at h; subst h
      obtain ⟨e', he', hp2⟩ := forItems_respects expandVersion_respects (wf_dict.1 hv) (wf_dict.1 hw) hp hd'
      exact ⟨_, Except_bind_ok.2 ⟨e', he', rfl⟩, hp2⟩
    | _ => simp [pyEq] at hp
  | _ => simp [expandOsDefinition] at h

theorem expandKey_respects : Respects expandKey := by
  intro k v w a hv hw hp h
  rw [expandKey_ok] at h
  obtain ⟨b, hb, hp'⟩ := expandOs_respects k v w a hv hw hp h
  exact ⟨b, expandKey_ok.2 hb, hp'⟩

theorem expandRules_respects {v w a : PVal} (hv : v.WF) (hw : w.WF) (hp : pyEq v w = true) (h : expandRules v = .ok a) :
    ∃ b, expandRules w = .ok b ∧ pyEq a b = true := by
  cases v with
  | none =>
    cases w with
    | none => exact ⟨a, h, by injection h with h; subst h; rfl⟩
    | _ => simp [pyEq] at hp
  | dict d =>
    cases w with
    | dict e =>
      rw [expandRules_dict] at h ⊢
      obtain ⟨d', hd', h⟩ := Except_bind_ok.1 h
      rw [pure_ok] at h; subst h
      obtain ⟨e', he', hp2⟩ := forItems_respects expandKey_respects (wf_dict.1 hv) (wf_dict.1 hw) hp hd'
      exact ⟨_, Except_bind_ok.2 ⟨e', he', rfl⟩, hp2⟩
    | _ => simp [pyEq] at hp
  | _ => simp [expandRules] at h

/-! ## Verification -/

theorem dict_of_pyEq {d : List (PKey × PVal)} {w : PVal} (h : pyEq (.dict d) w = true) :
    ∃ e, w = .dict e := by
  cases w <;> simp [pyEq] at h
  exact ⟨_, rfl⟩

theorem validRule_respects {uni : Char → Bool} {v w : PVal} (hv : v.WF) (hw : w.WF) (hp : pyEq v w = true)
    (h : ValidRule uni v) : ValidRule uni w := by
  obtain ⟨d, rfl, h⟩ := h
  obtain ⟨e, rfl⟩ := dict_of_pyEq hp
  refine ⟨e, rfl, fun k w hm => ?_⟩
  obtain ⟨v, hm', hp'⟩ := mem_of_pyEq (wf_dict.1 hv) (wf_dict.1 hw) hp hm
  obtain ⟨h1, h2, h3⟩ := h k v hm'
  refine ⟨h1, fun hk => ?_, fun hk => ?_⟩
  · obtain ⟨l, rfl⟩ := h2 hk
    cases w <;> simp [pyEq] at hp'
    exact ⟨_, rfl⟩
  · obtain ⟨l, rfl, hl⟩ := h3 hk
    cases w <;> simp [pyEq] at hp'
    rename_i m
    refine ⟨m, rfl, ?_⟩
    clear h2 h3 hm hm' hp hv hw h
    induction l generalizing m with
    | nil => cases m <;> simp [pyEqList] at hp' ⊢
    | cons x l ih =>
      cases m with
      | nil => simp
      | cons y m =>
        simp only [pyEqList, Bool.and_eq_true] at hp'
        intro z hz
        rcases List.mem_cons.1 hz with rfl | hz
        · obtain ⟨s, rfl, hs⟩ := hl x (by simp)
          cases z <;> simp [pyEq] at hp'
          obtain ⟨rfl, _⟩ := hp'
          exact ⟨_, rfl, hs⟩
        · exact ih (fun x hx => hl x (List.mem_cons_of_mem _ hx)) m hp'.2 z hz

theorem validInst_respects {uni : Char → Bool} {P : Prop} {v w : PVal} (hv : v.WF) (hw : w.WF) (hp : pyEq v w = true)
    (h : ValidInst uni P v) : ValidInst uni P w := by
  obtain ⟨d, rfl, h⟩ := h
  obtain ⟨e, rfl⟩ := dict_of_pyEq hp
  refine ⟨e, rfl, fun k w hm => ?_⟩
  obtain ⟨v, hm', hp'⟩ := mem_of_pyEq (wf_dict.1 hv) (wf_dict.1 hw) hp hm
  obtain ⟨h1, h2, h3⟩ := h k v hm'
  exact ⟨h1, h2, validRule_respects ((wf_dict.1 hv).2 _ _ hm') ((wf_dict.1 hw).2 _ _ hm) hp' h3⟩

theorem validVer_respects {uni : Char → Bool} {P : Prop} {v w : PVal} (hv : v.WF) (hw : w.WF) (hp : pyEq v w = true)
    (h : ValidVer uni P v) : ValidVer uni P w := by
  obtain ⟨d, rfl, h⟩ := h
  obtain ⟨e, rfl⟩ := dict_of_pyEq hp
  refine ⟨e, rfl, fun k w hm => ?_⟩
  obtain ⟨v, hm', hp'⟩ := mem_of_pyEq (wf_dict.1 hv) (wf_dict.1 hw) hp hm
  obtain ⟨h1, h2⟩ := h k v hm'
  exact ⟨h1, validInst_respects ((wf_dict.1 hv).2 _ _ hm') ((wf_dict.1 hw).2 _ _ hm) hp' h2⟩

theorem validOs_respects {uni : Char → Bool} {P : Prop} {v w : PVal} (hv : v.WF) (hw : w.WF) (hp : pyEq v w = true)
    (h : ValidOs uni P v) : ValidOs uni P w := by
  obtain ⟨d, rfl, h⟩ := h
  obtain ⟨e, rfl⟩ := dict_of_pyEq hp
  refine ⟨e, rfl, fun k w hm => ?_⟩
  obtain ⟨v, hm', hp'⟩ := mem_of_pyEq (wf_dict.1 hv) (wf_dict.1 hw) hp hm
  obtain ⟨h1, h2⟩ := h k v hm'
  exact ⟨h1, validVer_respects ((wf_dict.1 hv).2 _ _ hm') ((wf_dict.1 hw).2 _ _ hm) hp' h2⟩

theorem validRules_respects {uni : Char → Bool} {P : Prop} {v w : PVal} (hv : v.WF) (hw : w.WF) (hp : pyEq v w = true)
    (h : ValidRules uni P v) : ValidRules uni P w := by
  obtain ⟨d, rfl, h⟩ := h
  obtain ⟨e, rfl⟩ := dict_of_pyEq hp
  refine ⟨e, rfl, fun k w hm => ?_⟩
  obtain ⟨v, hm', hp'⟩ := mem_of_pyEq (wf_dict.1 hv) (wf_dict.1 hw) hp hm
  obtain ⟨h1, h2⟩ := h k v hm'
  exact ⟨h1, validOs_respects ((wf_dict.1 hv).2 _ _ hm') ((wf_dict.1 hw).2 _ _ hm) hp' h2⟩

theorem loadRulesData_respects {uni : Char → Bool} {v w a : PVal} (hv : v.WF) (hw : w.WF) (hp : pyEq v w = true)
    (h : loadRulesData uni v = .ok a) : ∃ b, loadRulesData uni w = .ok b ∧ pyEq a b = true := by
  unfold loadRulesData at h ⊢
  obtain ⟨x, hx, h⟩ := Except_bind_ok.1 h
  obtain ⟨u, hver, h⟩ := Except_bind_ok.1 h
  rw [pure_ok] at h; subst h
  obtain ⟨b, hb, hp'⟩ := expandRules_respects hv hw hp hx
  have : verifyRulesDict uni true b = .ok () :=
    verifyRulesDict_iff.2 (validRules_respects (expandRules_WF hv hx) (expandRules_WF hw hb) hp' (verifyRulesDict_iff.1 hver))
  exact ⟨b, Except_bind_ok.2 ⟨b, hb, Except_bind_ok.2 ⟨(), this, rfl⟩⟩, hp'⟩

end Verif
