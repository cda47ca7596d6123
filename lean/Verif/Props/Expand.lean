import Verif.Lemmas.Expand
import Verif.Props.Verify
import Verif.Props.Merge
/-! # Properties C06, C07, C08, C09, C13, C66: expansion of rules files -/
namespace Verif

/-- **C06** A successfully expanded rules file has the canonical structure, and is again a Python value with
distinct keys in every dict. -/
theorem C06_expanded_structure (v w : PVal) (hv : v.WF) (h : expandRules v = .ok w) : ExpandedRules w ∧ w.WF :=
  ⟨expandRules_spec hv h, expandRules_WF hv h⟩

/-- A rules file using most shortcuts. -/
def exFile : PVal := .dict [
  (.str "foo", .dict [(.str "ubuntu", .str "libfoo"), (.str "debian", .none)]),
  (.str "bar", .dict [(.str "ubuntu", .dict [(.str "lucid", .str "libbar-1.2"), (.str "any_version", .str "libbar")])]),
  (.str "baz", .dict [(.str "any_os", .dict [(.str "pip", .dict [(.str "packages", .str "baz"), (.str "depends", .none)])]),
                      (.str "ubuntu", .list [.str "libbaz"])])]

example : exFile.WF := by simp [exFile, PVal.WF, PVal.WFItems, PVal.WFList]
example : expandRules exFile = .ok (.dict [
  (.str "foo", .dict [
    (.str "ubuntu", .dict [(.str "any_version", .dict [(.str "default_installer", .dict [(.str "packages", .list [.str "libfoo"])])])]),
    (.str "debian", .dict [(.str "any_version", .dict [(.str "default_installer", .dict [(.str "packages", .list [])])])])]),
  (.str "bar", .dict [(.str "ubuntu", .dict [
    (.str "lucid", .dict [(.str "default_installer", .dict [(.str "packages", .list [.str "libbar-1.2"])])]),
    (.str "any_version", .dict [(.str "default_installer", .dict [(.str "packages", .list [.str "libbar"])])])])]),
  (.str "baz", .dict [
    (.str "any_os", .dict [(.str "any_version", .dict [(.str "pip", .dict [(.str "packages", .list [.str "baz"])])])]),
    (.str "ubuntu", .dict [(.str "any_version", .dict [(.str "default_installer", .dict [(.str "packages", .list [.str "libbaz"])])])])])]) := by
  rfl

/-- **C07** Expanding an expanded rules dict returns it unchanged. -/
theorem C07_idempotent (v w : PVal) (hv : v.WF) (h : expandRules v = .ok w) : expandRules w = .ok w :=
  expandRules_id (expandRules_spec hv h) (expandRules_WF hv h)

/-- **C07** More generally every value that has the canonical structure is a fixed point of expansion. -/
theorem C07_fixed_points (w : PVal) (hw : w.WF) (h : ExpandedRules w) : expandRules w = .ok w :=
  expandRules_id h hw

/-! ## C09: expansion is entrywise -/

/-- The rules file with the single entry `key: x`. -/
def file1 (key : PKey) (x : PVal) : PVal := .dict [(key, x)]
/-- The rules file `key: {os: x}`. -/
def file2 (key os : PKey) (x : PVal) : PVal := file1 key (.dict [(os, x)])
/-- The rules file `key: {os: {version: x}}`. -/
def file3 (key os ver : PKey) (x : PVal) : PVal := file2 key os (.dict [(ver, x)])
/-- The rules file `key: {os: {version: {installer: x}}}`. -/
def file4 (key os ver inst : PKey) (x : PVal) : PVal := file3 key os ver (.dict [(inst, x)])

theorem forItems_single (f : PKey → PVal → Except Exc PVal) (k : PKey) (v : PVal) :
    forItems f [(k, v)] = (f k v).map fun w => [(k, w)] := by
  cases h : f k v <;> simp [forItems, h, bind, Except.bind, pure, Except.pure, dset, Except.map]

theorem expand_file1 {key : PKey} {x y : PVal} :
    expandRules (file1 key x) = .ok (file1 key y) ↔ expandOsDefinition x = .ok y := by
  unfold file1
  rw [expandRules_dict, forItems_single, ← expandKey_ok (k := key)]
  cases expandKey key x <;> simp [Except.map, bind, Except.bind, pure, Except.pure]

theorem expand_file2 {key os : PKey} {x y : PVal} :
    expandRules (file2 key os x) = .ok (file2 key os y) ↔ expandOsVersionDefinition os x = .ok y := by
  unfold file2
  rw [expand_file1]
  simp only [expandOsDefinition]
  rw [forItems_single]
  cases expandOsVersionDefinition os x <;> simp [Except.map, bind, Except.bind, pure, Except.pure]

theorem expand_file3 {key os ver : PKey} {x y : PVal} (ho : os ≠ .str "any_os") :
    expandRules (file3 key os ver x) = .ok (file3 key os ver y) ↔ expandInstallerDefinition x = .ok y := by
  unfold file3
  rw [expand_file2, expandVersion_eq]
  simp only [upConvert, anyOsWrap, if_neg ho, bind, Except.bind, forItems_single]
  cases expandInstallerDefinition x <;> simp [Except.map, pure, Except.pure]

theorem expand_file4 {key os ver inst : PKey} {x y : PVal} (ho : os ≠ .str "any_os") :
    expandRules (file4 key os ver inst x) = .ok (file4 key os ver inst y) ↔ expandDefinition x = .ok y := by
  unfold file4
  rw [expand_file3 ho]
  unfold expandInstallerDefinition
  simp only [upConvert, bind, Except.bind, forItems_single]
  cases expandDefinition x <;> simp [Except.map, pure, Except.pure]

/-- Two item lists with the same keys in the same order whose values are related by `R key`. -/
def Entrywise (R : PKey → PVal → PVal → Prop) : List (PKey × PVal) → List (PKey × PVal) → Prop :=
  List.Forall₂ (fun a b => a.1 = b.1 ∧ R a.1 a.2 b.2)

/-- **C09** Expanding a file expands each key on its own: the result has the same keys in the same order, and the value
of each key is what expanding the file with that entry alone gives. -/
theorem C09_per_key (d d' : List (PKey × PVal)) (hd : DWF d) :
    expandRules (.dict d) = .ok (.dict d') ↔
      Entrywise (fun k x y => expandRules (file1 k x) = .ok (file1 k y)) d d' := by
  rw [expandRules_dict, forItems_eq _ hd]
  unfold Entrywise
  have : (mapVals expandKey d >>= fun d => pure (PVal.dict d)) = .ok (.dict d') ↔ mapVals expandKey d = .ok d' := by
    cases mapVals expandKey d <;> simp [bind, Except.bind, pure, Except.pure]
  simp only [expand_file1, this, mapVals_ok_iff, expandKey_ok]

/-- **C09** The same for the operating systems of one key. -/
theorem C09_per_os (key : PKey) (d d' : List (PKey × PVal)) (hd : DWF d) :
    expandRules (file1 key (.dict d)) = .ok (file1 key (.dict d')) ↔
      Entrywise (fun os x y => expandRules (file2 key os x) = .ok (file2 key os y)) d d' := by
  rw [expand_file1]
  simp only [expandOsDefinition]
  rw [forItems_eq _ hd]
  unfold Entrywise
  have : (mapVals expandOsVersionDefinition d >>= fun d => pure (PVal.dict d)) = .ok (.dict d') ↔
      mapVals expandOsVersionDefinition d = .ok d' := by
    cases mapVals expandOsVersionDefinition d <;> simp [bind, Except.bind, pure, Except.pure]
  simp only [expand_file2, this, mapVals_ok_iff]

/-- **C09** The same for the versions of one os other than `any_os`. -/
theorem C09_per_version (key os : PKey) (ho : os ≠ .str "any_os") (d d' : List (PKey × PVal)) (hd : DWF d) :
    expandRules (file2 key os (.dict d)) = .ok (file2 key os (.dict d')) ↔
      Entrywise (fun ver x y => expandRules (file3 key os ver x) = .ok (file3 key os ver y)) d d' := by
  rw [expand_file2, expandVersion_eq]
  simp only [upConvert, anyOsWrap, if_neg ho, bind, Except.bind]
  rw [forItems_eq _ hd]
  unfold Entrywise
  simp only [expand_file3 ho]
  have := mapVals_ok_iff (f := fun (_ : PKey) v => expandInstallerDefinition v) (d := d) (d' := d')
  rw [← this]
  cases mapVals (fun _ v => expandInstallerDefinition v) d <;> simp [pure, Except.pure]

/-- **C09** The same for the installers of one version. -/
theorem C09_per_installer (key os ver : PKey) (ho : os ≠ .str "any_os") (d d' : List (PKey × PVal)) (hd : DWF d) :
    expandRules (file3 key os ver (.dict d)) = .ok (file3 key os ver (.dict d')) ↔
      Entrywise (fun inst x y => expandRules (file4 key os ver inst x) = .ok (file4 key os ver inst y)) d d' := by
  rw [expand_file3 ho]
  unfold expandInstallerDefinition
  simp only [upConvert, bind, Except.bind]
  rw [forItems_eq _ hd]
  unfold Entrywise
  simp only [expand_file4 ho]
  have := mapVals_ok_iff (f := fun (_ : PKey) v => expandDefinition v) (d := d) (d' := d')
  rw [← this]
  cases mapVals (fun _ v => expandDefinition v) d <;> simp [pure, Except.pure]

/-- **C09** A file fails to expand iff the file consisting of one of its entries fails. -/
theorem C09_fails_iff (d : List (PKey × PVal)) (hd : DWF d) :
    (∃ e, expandRules (.dict d) = .error e) ↔ ∃ k x e, (k, x) ∈ d ∧ expandRules (file1 k x) = .error e := by
  have h1 : ∀ k x, (∃ e, expandRules (file1 k x) = .error e) ↔ ∃ e, expandKey k x = .error e := by
    intro k x
    unfold file1
    rw [expandRules_dict, forItems_single]
    cases expandKey k x <;> simp [Except.map, bind, Except.bind, pure, Except.pure]
  rw [expandRules_dict, forItems_eq _ hd]
  constructor
  · rintro ⟨e, h⟩
    rcases Except_bind_err.1 h with h | ⟨a, ha, h⟩
    · obtain ⟨k, x, hm, he⟩ := mapVals_error h
      obtain ⟨e', he'⟩ := (h1 k x).2 ⟨e, he⟩
      exact ⟨k, x, e', hm, he'⟩
    · simp [pure, Except.pure] at h
  · rintro ⟨k, x, e, hm, he⟩
    obtain ⟨e', he'⟩ := (h1 k x).1 ⟨e, he⟩
    obtain ⟨e2, h2⟩ := mapVals_mem_error hm he'
    exact ⟨e2, by rw [h2]; rfl⟩

example : DWF [(PKey.str "a", PVal.none), (PKey.str "b", PVal.int 3)] := by decide
example : expandRules (.dict [(.str "a", .dict []), (.str "b", .int 3)]) = .error .typeError := rfl

/-! ## C08: shorthands -/

/-- The explicit form of a definition with package list `l`. -/
def explicitRule (l : List PVal) : PVal := .dict [(.str "packages", .list l)]

/-- The ways to write "the packages `l`" as a rule of an installer. -/
inductive RuleShorthand : List PVal → PVal → Prop
  | null : RuleShorthand [] .none
  | text (s : String) : RuleShorthand [.str s] (.str s)
  | list (l : List PVal) : RuleShorthand l (.list l)
  | packages (l : List PVal) : RuleShorthand l (explicitRule l)
  | packagesText (s : String) : RuleShorthand [.str s] (.dict [(.str "packages", .str s)])
  | packagesNull : RuleShorthand [] (.dict [(.str "packages", .none)])

/-- The ways to write "the default installer with packages `l`" as an installer dict. -/
inductive InstShorthand : List PVal → PVal → Prop
  | null : InstShorthand [] .none
  | text (s : String) : InstShorthand [.str s] (.str s)
  | list (l : List PVal) : InstShorthand l (.list l)
  | explicit (l : List PVal) (x : PVal) : RuleShorthand l x → InstShorthand l (.dict [(.str "default_installer", x)])

/-- The ways to write "every version: the default installer with packages `l`" for an os. -/
inductive VerShorthand : List PVal → PVal → Prop
  | null : VerShorthand [] .none
  | text (s : String) : VerShorthand [.str s] (.str s)
  | list (l : List PVal) : VerShorthand l (.list l)
  | explicit (l : List PVal) (x : PVal) : InstShorthand l x → VerShorthand l (.dict [(.str "any_version", x)])

theorem expand_ruleShorthand {l : List PVal} {x : PVal} (h : RuleShorthand l x) : expandDefinition x = .ok (explicitRule l) := by
  cases h <;> rfl

theorem expand_instShorthand {l : List PVal} {x : PVal} (h : InstShorthand l x) :
    expandInstallerDefinition x = .ok (.dict [(.str "default_installer", explicitRule l)]) := by
  cases h with
  | explicit l x h =>
    simp only [expandInstallerDefinition, upConvert, forItems_single, expand_ruleShorthand h, bind, Except.bind, Except.map,
      pure, Except.pure]
  | _ => rfl

/-- **C08** For every key and every os other than `any_os`, all ways to write a package list for the default installer
expand to the same explicit rules. -/
theorem C08_shorthands (key os : PKey) (ho : os ≠ .str "any_os") (l : List PVal) (x : PVal) (h : VerShorthand l x) :
    expandRules (file2 key os x) = .ok (file4 key os (.str "any_version") (.str "default_installer") (explicitRule l)) := by
  unfold file4 file3
  rw [expand_file2, expandVersion_eq]
  have aux : ∀ y, InstShorthand l y → expandOsVersionDefinition os (.dict [(.str "any_version", y)]) =
      .ok (.dict [(.str "any_version", .dict [(.str "default_installer", explicitRule l)])]) := by
    intro y hy
    rw [expandVersion_eq]
    simp only [upConvert, anyOsWrap, if_neg ho, bind, Except.bind, forItems_single, expand_instShorthand hy, Except.map,
      pure, Except.pure]
  cases h with
  | null => exact aux _ (.list [])
  | text s => exact aux _ (.list [.str s])
  | list l => exact aux _ (.list l)
  | explicit l x h => exact aux _ h

/-- **C08** The same below an explicit version. -/
theorem C08_shorthands_version (key os ver : PKey) (ho : os ≠ .str "any_os") (l : List PVal) (x : PVal)
    (h : InstShorthand l x) :
    expandRules (file3 key os ver x) = .ok (file4 key os ver (.str "default_installer") (explicitRule l)) := by
  unfold file4; rw [expand_file3 ho]; exact expand_instShorthand h

/-- **C08** The same below an explicit version and installer. -/
theorem C08_shorthands_installer (key os ver inst : PKey) (ho : os ≠ .str "any_os") (l : List PVal) (x : PVal)
    (h : RuleShorthand l x) :
    expandRules (file4 key os ver inst x) = .ok (file4 key os ver inst (explicitRule l)) := by
  rw [expand_file4 ho]; exact expand_ruleShorthand h

/-- **C08** An `any_os` entry that is a dict without `any_version` is read as an installer dict: it expands like the
entry with `any_version` written out. -/
theorem C08_any_os (key : PKey) (d : List (PKey × PVal)) (h : dget d (.str "any_version") = none) :
    expandRules (file2 key (.str "any_os") (.dict d)) =
      expandRules (file2 key (.str "any_os") (.dict [(.str "any_version", .dict d)])) := by
  have : expandOsVersionDefinition (.str "any_os") (.dict d) =
      expandOsVersionDefinition (.str "any_os") (.dict [(.str "any_version", .dict d)]) := by
    rw [expandVersion_eq, expandVersion_eq]
    simp only [upConvert, anyOsWrap, if_true, bind, Except.bind, dhas_false.2 h]
    rfl
  unfold file2 file1
  rw [expandRules_dict, expandRules_dict, forItems_single, forItems_single]
  simp only [expandKey, expandOsDefinition, forItems_single, this]

example : VerShorthand [.str "libfoo"] (.dict [(.str "any_version", .dict [(.str "default_installer",
    .dict [(.str "packages", .str "libfoo")])])]) := .explicit _ _ (.explicit _ _ (.packagesText _))
example : expandRules (file2 (.str "foo") (.str "any_os") (.dict [(.str "pip", .str "foo")])) =
    .ok (file4 (.str "foo") (.str "any_os") (.str "any_version") (.str "pip") (explicitRule [.str "foo"])) := rfl

/-! ## C13, C66 -/

/-- The values that cannot name an installer. -/
def NoInstaller (x : PVal) : Prop := x = .none ∨ (∃ s, x = .str s) ∨ (∃ l, x = .list l)

/-- **C13** A rules file in which some key has an `any_os` entry that is null, text or a list is never loaded. -/
theorem C13_any_os_shorthand_rejected (uni : Char → Bool) (d od : List (PKey × PVal)) (k : PKey) (x : PVal)
    (hd : PVal.WF (.dict d)) (hk : (k, PVal.dict od) ∈ d) (hx : (PKey.str "any_os", x) ∈ od) (hn : NoInstaller x)
    (w : PVal) : loadRulesData uni (.dict d) ≠ .ok w := by
  intro h
  unfold loadRulesData at h
  obtain ⟨w', hw', h⟩ := Except_bind_ok.1 h
  obtain ⟨_, hv, -⟩ := Except_bind_ok.1 h
  rw [verifyRulesDict_iff] at hv
  rw [expandRules_dict] at hw'
  obtain ⟨d', hd', hw⟩ := Except_bind_ok.1 hw'
  rw [pure_ok] at hw; subst hw
  rw [PVal.WF, PVal.WFItems_iff] at hd
  rw [forItems_eq _ hd.1] at hd'
  obtain ⟨o', ho', he⟩ := mapVals_mem' hd' hk
  rw [expandKey_ok] at he
  unfold expandOsDefinition at he
  obtain ⟨d2, hd2, h2⟩ := Except_bind_ok.1 he
  rw [pure_ok] at h2; subst h2
  have hod := hd.2 _ _ hk
  rw [PVal.WF] at hod
  rw [forItems_eq _ hod.1] at hd2
  obtain ⟨v', hv', he2⟩ := mapVals_mem' hd2 hx
  have : ∃ r, v' = .dict [(.str "any_version", .dict [(.str "default_installer", r)])] := by
    rcases hn with rfl | ⟨s, rfl⟩ | ⟨l, rfl⟩
    · injection he2 with he2; exact ⟨_, he2.symm⟩
    · injection he2 with he2; exact ⟨_, he2.symm⟩
    · injection he2 with he2; exact ⟨_, he2.symm⟩
  obtain ⟨r, rfl⟩ := this
  obtain ⟨d0, hd0, hv⟩ := hv
  injection hd0 with hd0; subst hd0
  obtain ⟨-, d0, hd0, hv⟩ := hv _ _ ho'
  injection hd0 with hd0; subst hd0
  obtain ⟨-, d0, hd0, hv⟩ := hv _ _ hv'
  injection hd0 with hd0; subst hd0
  obtain ⟨-, d0, hd0, hv⟩ := hv _ _ (.head _)
  injection hd0 with hd0; subst hd0
  have := (hv _ _ (.head _)).2.1 rfl
  exact this.2 rfl

example : PVal.WF (.dict [(.str "foo", .dict [(.str "any_os", .str "libfoo")])]) := by
  simp [PVal.WF, PVal.WFItems]
example : loadRulesData (fun _ => false) (.dict [(.str "foo", .dict [(.str "any_os", .str "libfoo")])])
    = .error .valueError := by rfl
example : ∃ w, loadRulesData (fun _ => false) (.dict [(.str "foo", .dict [(.str "any_os", .dict [(.str "pip", .str "foo")])])])
    = .ok w := ⟨_, rfl⟩

/-- **C66** (refuted) A malformed rules dict is never reported as SpecParsingError: every failure of expanding a dict
is a TypeError (raised while constructing that exception). A value that is not a dict or null raises ValueError. -/
theorem C66_malformed_is_typeError (v : PVal) (e : Exc) (h : expandRules v = .error e) :
    (∀ d, v = .dict d → e = .typeError) ∧ ((∀ d, v ≠ .dict d) → e = .valueError) ∧ e ≠ .specParsingError := by
  have key : (∀ d, v = .dict d → e = .typeError) ∧ ((∀ d, v ≠ .dict d) → e = .valueError) := by
    cases v with
    | none => simp [expandRules] at h
    | dict d =>
      refine ⟨fun _ _ => ?_, fun hn => absurd rfl (hn d)⟩
      rw [expandRules_dict] at h
      rcases Except_bind_err.1 h with h | ⟨a, ha, h⟩
      · exact forItems_err (fun _ _ _ h => expandKey_err h) h
      · simp [pure, Except.pure] at h
    | _ => refine ⟨fun d hd => by simp at hd, fun _ => ?_⟩; simp [expandRules] at h; exact h.symm
  refine ⟨key.1, key.2, ?_⟩
  rintro rfl
  by_cases hv : ∃ d, v = .dict d
  · obtain ⟨d, rfl⟩ := hv; have := key.1 d rfl; simp at this
  · have := key.2 (fun d hd => hv ⟨d, hd⟩); simp at this

/-- **C66** (witness) There is a malformed file, with an os definition that is no dict. -/
theorem C66_witness (key : PKey) (s : String) : expandRules (file1 key (.str s)) = .error .typeError := rfl

/-! ## Loaded data -/

theorem dget_map_str {β : Type} (f : β → PVal) (t : Dict String β) (s : String) :
    dget (t.map fun kv => (PKey.str kv.1, f kv.2)) (.str s) = (dget t s).map f := by
  induction t with
  | nil => rfl
  | cons x t ih =>
    obtain ⟨a, b⟩ := x
    simp only [List.map_cons, dget_cons, PKey.str.injEq, ih]
    split <;> rfl

/-- Everything that a rules source can load is a well-formed typed rules dict fit for lookup and merge. -/
theorem loaded_is_merge_input {uni : Char → Bool} {v w : PVal} (hv : v.WF) (h : loadRulesData uni v = .ok w) :
    ∃ r : Rules, w = r.toVal ∧ MergeInput r := by
  unfold loadRulesData at h
  obtain ⟨w', hw', h⟩ := Except_bind_ok.1 h
  obtain ⟨_, hver, h⟩ := Except_bind_ok.1 h
  rw [pure_ok] at h; subst h
  obtain ⟨r, rfl⟩ := verified_is_typed hver
  refine ⟨r, rfl, typed_WF (expandRules_WF hv hw'), ?_⟩
  obtain ⟨d, hd, h⟩ := expandRules_spec hv hw'
  injection hd with hd; subst hd
  intro k od vd hk hod
  obtain ⟨d, hd, h2⟩ := h (.str k) od.toVal (List.mem_map.2 ⟨_, dget_some_mem hk, rfl⟩)
  injection hd with hd; subst hd
  obtain ⟨-, h3⟩ := h2 (.str "any_os") vd.toVal (List.mem_map.2 ⟨_, dget_some_mem hod, rfl⟩)
  obtain ⟨i, hi⟩ := h3 rfl
  injection hi with hi
  cases vd with
  | nil => simp at hi
  | cons x t =>
    cases t with
    | nil => obtain ⟨a, b⟩ := x; simp at hi; simp [dkeys, hi.1]
    | cons y t => simp at hi

end Verif
