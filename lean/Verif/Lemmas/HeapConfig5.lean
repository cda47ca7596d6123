import Verif.Lemmas.HeapConfig4
import Verif.Props.Config
/-!
# Loading configs in memory
-/
set_option linter.unusedSimpArgs false
namespace Verif
variable {α β γ δ : Type} {h0 : Heap}

/-- Trees made of objects in `P`; see `Yields`. -/
theorem Yields.conf {P : Nat → Prop} {h : Heap} {m : HX HVal} {x : Except Exc PVal} (hy : Yields P h m x) : Ref NoFP h m x (fun w t h' => WritesOut h' w t) :=
  Ref_conseq hy fun _ _ _ _ ht => TreeAt_mono (fun _ _ _ ho => ⟨trivial, ho⟩) _ _ ht

theorem Ref_then {h : Heap} {m : HX α} {x : Except Exc β} {Q : α → β → Heap → Prop} {f : α → HX γ} {g : β → Except Exc δ}
    {Q' : γ → δ → Heap → Prop} (h1 : Ref NoFP h m x Q)
    (h2 : ∀ a b h', Q a b h' → Kept h h' → x = .ok b → Ref NoFP h' (f a) (g b) Q') : Ref NoFP h (m >>= f) (x >>= g) Q' := by
  refine Ref_bind (Ref_val h1) ?_
  rintro a b h' ⟨hq, e⟩ s
  exact ⟨NoFP, .refl _ _, h2 a b h' hq (Steps0.kept s) e⟩

/-- A new config, described from memory `h` on. -/
def Created (desc : Desc) (h : Heap) (v : HVal) (c : Config) (h' : Heap) : Prop :=
  ∃ (h1 : Heap) (S : String → Bool) (F : FP), (∀ g, g ∈ dkeys desc.groups → S g = true) ∧ ConfAt h1 S h' v c F ∧ ∀ x, F x → h.length ≤ x

theorem NewConf.created {desc : Desc} {S : String → Bool} (hS : ∀ g, g ∈ dkeys desc.groups → S g = true) {h h' : Heap} {v : HVal} {c : Config}
    (n : NewConf h0 S h v c h') : Created desc h v c h' := by
  obtain ⟨F, hf, o⟩ := n
  exact ⟨h0, S, F, hS, o, fun x hx => (hf x hx).resolve_left id⟩

theorem Created.writes {desc : Desc} {h h' : Heap} {v : HVal} {c : Config} (n : Created desc h v c h') : ConfIn h' v c := by
  obtain ⟨h1, S, F, -, o, -⟩ := n
  exact o.writes

theorem Created.mono {desc : Desc} {h h1 h' : Heap} {v : HVal} {c : Config} (n : Created desc h1 v c h') (hl : h.length ≤ h1.length) : Created desc h v c h' := by
  obtain ⟨h2, S, F, hS, o, hF⟩ := n
  exact ⟨h2, S, F, hS, o, fun x hx => Nat.le_trans hl (hF x hx)⟩

/-! ## Defaults and merging -/

theorem default_config_ref {desc : Desc} (hw : desc.Wf) {dflt : String → HVal} {h : Heap} (hd : DefaultsAt h dflt desc) :
    Ref NoFP h (xConfigFromDefaults dflt desc) (configFromDefaults desc) (fun v c h' => Created desc h v c h' ∧ ConfWf c) := by
  refine Ref_conseq (defaults_ref hw hd (.refl h)) ?_
  rintro v c h' s n
  refine ⟨n.created (fun _ _ => rfl), ?_⟩
  obtain ⟨F, _, o⟩ := n
  exact confWf_of_own o

theorem DefaultsAt.later {desc : Desc} {dflt : String → HVal} {h h' : Heap} (hd : DefaultsAt h dflt desc) (hk : Kept h h') : DefaultsAt h' dflt desc :=
  fun n i hi => hk.writesOut (hd n i hi)

theorem merge_configs_ref {desc : Desc} (hw : desc.Wf) {top : HVal} {c : Config} {h : Heap} (hwf : ConfWf c) (ht : ConfArg h desc top c) {more : List HVal} {cs : List Config}
    (hm : List.Forall₂ (ConfArg h desc) more cs) : Ref NoFP h (xMergeConfigs desc top more) (mergeConfigs desc c cs) (fun v c h' => Created desc h v c h' ∧ Fits desc c) := by
  refine Ref_conseq (mergeConfigs_ref hw hwf ht hm (.refl h)) ?_
  rintro v c' h' s ⟨n, hf⟩
  exact ⟨n.created (fun g hg => by simpa [Desc.isGroup] using hg), hf⟩

/-! ## Parsed YAML -/

theorem parsed_ref (expand : String → String) {dflt : String → HVal} (desc : Desc) {v : HVal} {e : Dict PKey PVal} {h : Heap} (hv : WritesOut h v (.dict e)) :
    Ref NoFP h (xConfigFromParsedYaml expand dflt desc v false) (configFromParsedYaml expand e desc false)
      (fun v c h' => Created desc h v c h' ∧ ConfWf c) := by
  have := fill_ref (h0 := h) (fun g s i h' hk => yamlGroupValue_ref expand hv g s i hk) (fun n i h' hk => yamlValue_ref expand hv n i hk) desc (.refl h)
  unfold xConfigFromParsedYaml configFromParsedYaml
  simp only [Bool.false_eq_true, if_false]
  have e1 : ∀ m : HX HVal, (m >>= fun c => pure c) = m := fun m => bind_pure m
  rw [e1]
  have e2 : (fillGroups (yamlGroupValue expand e) [] desc.groups >>= fun c => fillItems (yamlValue expand e) c desc.items >>= fun c => pure c) =
      fillGroups (yamlGroupValue expand e) [] desc.groups >>= fun c => fillItems (yamlValue expand e) c desc.items := by
    simp only [bind_pure]
  rw [e2]
  refine Ref_conseq this ?_
  rintro v c h' s n
  refine ⟨n.created (fun _ _ => rfl), ?_⟩
  obtain ⟨F, _, o⟩ := n
  exact confWf_of_own o

theorem parsed_true (expand : String → String) (e : Dict PKey PVal) (desc : Desc) : configFromParsedYaml expand e desc true =
    configFromParsedYaml expand e desc false >>= fun c => configFromDefaults desc >>= fun d => mergeConfigs desc c [d] := by
  simp only [configFromParsedYaml, if_true, Bool.false_eq_true, if_false, bind_assoc, pure_bind]

theorem xparsed_true (expand : String → String) (dflt : String → HVal) (v : HVal) (desc : Desc) : xConfigFromParsedYaml expand dflt desc v true =
    xConfigFromParsedYaml expand dflt desc v false >>= fun c => xConfigFromDefaults dflt desc >>= fun d => xMergeConfigs desc c [d] := by
  simp only [xConfigFromParsedYaml, xMergeWithDefaults, if_true, Bool.false_eq_true, if_false, bind_assoc, pure_bind]

theorem parsed_defaults_ref (expand : String → String) {dflt : String → HVal} {desc : Desc} (hw : desc.Wf) (hdef : ∀ n i, dget desc.items n = some i → DefaultFits i)
    {v : HVal} {e : Dict PKey PVal} {h : Heap} (hv : WritesOut h v (.dict e)) (hd : DefaultsAt h dflt desc) :
    Ref NoFP h (xConfigFromParsedYaml expand dflt desc v true) (configFromParsedYaml expand e desc true) (fun v c h' => Created desc h v c h' ∧ Fits desc c) := by
  rw [parsed_true, xparsed_true]
  refine Ref_then (parsed_ref expand desc hv) ?_
  rintro w c h1 ⟨n1, wf1⟩ k1 e1
  refine Ref_then (default_config_ref hw (hd.later k1)) ?_
  rintro wd d h2 ⟨n2, wf2⟩ k2 e2
  have f1 : Fits desc c := (parsedYaml_spec hw e1).1
  have f2 : Fits desc d := (defaults_fit hw hdef e2).1
  refine Ref_conseq (merge_configs_ref hw wf1 ⟨k2.writesOut n1.writes, f1⟩ (.cons ⟨n2.writes, f2⟩ .nil)) ?_
  rintro r c' h3 s ⟨n, hf⟩
  exact ⟨n.mono (Nat.le_trans k1.len k2.len), hf⟩

/-! ## The command line and the files -/

/-- The YAML parser makes new objects and finds what `loadYaml` tells. -/
def LoadsAs (load : String → HX HVal) (loadYaml : String → Except Exc PVal) : Prop :=
  ∀ s h, Ref NoFP h (load s) (loadYaml s) (fun v t h' => TreeAt h' (fun a => h.length ≤ a) v t)

theorem yamlToConfig_ref {F : FP} {h : Heap} {m : HX α} {x : Except Exc β} {Q : α → β → Heap → Prop} (hr : Ref F h m x Q) :
    Ref F h (xYamlToConfig m) (yamlToConfig x) Q := by
  obtain ⟨r, h', e, s, ag⟩ := hr
  refine ⟨yamlToConfig r, h', by simp only [xYamlToConfig, e], s, ?_⟩
  cases ag with
  | ok hq => exact .ok hq
  | err e1 => cases e1 <;> exact .err _

/-- New objects stand for the elements. -/
abbrev NewList (h : Heap) (l : List HVal) (ts : List PVal) (h' : Heap) : Prop := List.Forall₂ (TreeAt h' (fun a => h.length ≤ a)) l ts
/-- New objects stand for the items. -/
abbrev NewItems (h : Heap) (d : Dict PKey HVal) (e : Dict PKey PVal) (h' : Heap) : Prop :=
  List.Forall₂ (fun x y => x.1 = y.1 ∧ TreeAt h' (fun a => h.length ≤ a) x.2 y.2) d e

/-- The list, if the value is one. -/
def PVal.asList : PVal → Option (List PVal)
  | .list l => some l
  | _ => Option.none
/-- The dict, if the value is one. -/
def PVal.asDict : PVal → Option (Dict PKey PVal)
  | .dict d => some d
  | _ => Option.none

theorem listOf_tree {h : Heap} {P : Nat → Prop} {v : HVal} {t : PVal} (ht : TreeAt h P v t) :
    (hListOf h v = none ∧ t.asList = none) ∨ ∃ l ts, hListOf h v = some l ∧ t.asList = some ts ∧ List.Forall₂ (TreeAt h P) l ts := by
  rcases TreeAt_cases ht with ⟨rfl, rfl⟩ | ⟨b, rfl, rfl⟩ | ⟨b, rfl, rfl⟩ | ⟨b, rfl, rfl⟩ | ⟨b, rfl, rfl⟩ | ⟨ts, a, l, rfl, rfl, -, hg, hl⟩ | ⟨ts, a, l, rfl, rfl, -, hg, hl⟩
  · exact .inl ⟨rfl, rfl⟩
  · exact .inl ⟨rfl, rfl⟩
  · exact .inl ⟨rfl, rfl⟩
  · exact .inl ⟨rfl, rfl⟩
  · exact .inl ⟨rfl, rfl⟩
  · exact .inr ⟨l, ts, by simp only [hListOf, hg], rfl, hl⟩
  · exact .inl ⟨by simp only [hListOf, hg], rfl⟩

theorem dictOf_tree {h : Heap} {P : Nat → Prop} {v : HVal} {t : PVal} (ht : TreeAt h P v t) :
    (hDictOf h v = none ∧ t.asDict = none) ∨ ∃ d e, hDictOf h v = some d ∧ t.asDict = some e ∧ List.Forall₂ (fun x y => x.1 = y.1 ∧ TreeAt h P x.2 y.2) d e := by
  rcases TreeAt_cases ht with ⟨rfl, rfl⟩ | ⟨b, rfl, rfl⟩ | ⟨b, rfl, rfl⟩ | ⟨b, rfl, rfl⟩ | ⟨b, rfl, rfl⟩ | ⟨ts, a, l, rfl, rfl, -, hg, hl⟩ | ⟨ts, a, l, rfl, rfl, -, hg, hl⟩
  · exact .inl ⟨rfl, rfl⟩
  · exact .inl ⟨rfl, rfl⟩
  · exact .inl ⟨rfl, rfl⟩
  · exact .inl ⟨rfl, rfl⟩
  · exact .inl ⟨rfl, rfl⟩
  · exact .inl ⟨by simp only [hDictOf, hg], rfl⟩
  · exact .inr ⟨l, ts, by simp only [hDictOf, hg], rfl, hl⟩

/-- `parse_single`: `of'` tells whether the value has the right type. -/
def parseSingle {β : Type} (loadYaml : String → Except Exc PVal) (of' : PVal → Option β) (s s' : String) : Except Exc β :=
  match loadYaml s with
  | .ok t => match of' t with
    | some l => .ok l
    | none => yamlToConfig (loadYaml s') >>= fun t => (((of' t).map .ok).getD (.error .configValueError))
  | .error .yamlError => yamlToConfig (loadYaml s') >>= fun t => (((of' t).map .ok).getD (.error .configValueError))
  | .error e => .error e

theorem parseListArg_eq (loadYaml : String → Except Exc PVal) (s : String) : parseListArg loadYaml s = parseSingle loadYaml PVal.asList s ("[" ++ s ++ "]") := by
  have e : (yamlToConfig (loadYaml ("[" ++ s ++ "]")) >>= fun t => match t with
      | .list l => (.ok l : Except Exc (List PVal))
      | _ => .error .configValueError) =
      (yamlToConfig (loadYaml ("[" ++ s ++ "]")) >>= fun t => (((PVal.asList t).map .ok).getD (.error .configValueError))) := by
    congr 1
    funext t
    cases t <;> rfl
  unfold parseListArg parseSingle
  simp only
  cases loadYaml s with
  | ok t => cases t <;> first | exact e | rfl
  | error e' => cases e' <;> first | exact e | rfl

theorem parseDictArg_eq (loadYaml : String → Except Exc PVal) (s : String) : parseDictArg loadYaml s = parseSingle loadYaml PVal.asDict s ("{" ++ s ++ "}") := by
  have e : (yamlToConfig (loadYaml ("{" ++ s ++ "}")) >>= fun t => match t with
      | .dict l => (.ok l : Except Exc (List (PKey × PVal)))
      | _ => .error .configValueError) =
      (yamlToConfig (loadYaml ("{" ++ s ++ "}")) >>= fun t => (((PVal.asDict t).map .ok).getD (.error .configValueError))) := by
    congr 1
    funext t
    cases t <;> rfl
  unfold parseDictArg parseSingle
  simp only
  cases loadYaml s with
  | ok t => cases t <;> first | exact e | rfl
  | error e' => cases e' <;> first | exact e | rfl

theorem parseAgain_ref {load : String → HX HVal} {loadYaml : String → Except Exc PVal} (hl : LoadsAs load loadYaml) {of : Heap → HVal → Option α}
    {of' : PVal → Option β} {R : (Nat → Prop) → Heap → α → β → Prop}
    (hof : ∀ h P v t, TreeAt h P v t → (of h v = none ∧ of' t = none) ∨ ∃ l ts, of h v = some l ∧ of' t = some ts ∧ R P h l ts) (s : String) (h : Heap) :
    Ref NoFP h (xParseAgain load of s) (yamlToConfig (loadYaml s) >>= fun t => (((of' t).map .ok).getD (.error .configValueError)))
      (fun l ts h' => R (fun a => h.length ≤ a) h' l ts) := by
  refine Ref_then (yamlToConfig_ref (hl s h)) ?_
  rintro v t h' ht k -
  rcases hof h' _ v t ht with ⟨h1, h2⟩ | ⟨l, ts, h1, h2, h3⟩
  · rw [h2]; exact Ref_err (by simp [h1])
  · rw [h2]; exact Ref_ok (h' := h') (a := l) (by simp [h1]) (.refl _ _) h3

theorem parseSingle_ref {load : String → HX HVal} {loadYaml : String → Except Exc PVal} (hl : LoadsAs load loadYaml) {of : Heap → HVal → Option α}
    {of' : PVal → Option β} {R : (Nat → Prop) → Heap → α → β → Prop}
    (hof : ∀ h P v t, TreeAt h P v t → (of h v = none ∧ of' t = none) ∨ ∃ l ts, of h v = some l ∧ of' t = some ts ∧ R P h l ts)
    (hR : ∀ (P P' : Nat → Prop) h l ts, (∀ a, P a → P' a) → R P h l ts → R P' h l ts) (s s' : String) (h : Heap) :
    Ref NoFP h (xParseSingle load of s s') (parseSingle loadYaml of' s s') (fun l ts h' => R (fun a => h.length ≤ a) h' l ts) := by
  obtain ⟨r, h1, e, st, ag⟩ := hl s h
  have k := Steps0.kept st
  have again : ∃ r' h', xParseAgain load of s' h1 = (r', h') ∧ Steps NoFP h h' ∧
      Agree (fun l ts => R (fun a => h.length ≤ a) h' l ts) r' (yamlToConfig (loadYaml s') >>= fun t => (((of' t).map .ok).getD (.error .configValueError))) := by
    obtain ⟨r', h', e', s', ag'⟩ := parseAgain_ref hl hof s' h1
    refine ⟨r', h', e', st.trans s' (.refl _ _), ?_⟩
    revert ag'
    generalize (yamlToConfig (loadYaml _) >>= fun t => (((of' t).map .ok).getD (.error .configValueError))) = x
    intro ag'
    cases ag' with
    | ok hq => exact .ok (hR _ _ _ _ _ (fun a ha => Nat.le_trans k.len ha) hq)
    | err e => exact .err e
  unfold Ref xParseSingle parseSingle
  simp only [e]
  generalize loadYaml s = x at ag
  cases ag with
  | err e1 => cases e1 <;> first | exact again | exact ⟨_, _, rfl, st, .err _⟩
  | @ok v t ht =>
    simp only
    rcases hof h1 _ v t ht with ⟨h2, h3⟩ | ⟨l, ts, h2, h3, h4⟩
    · rw [h2, h3]; exact again
    · rw [h2, h3]; exact ⟨_, _, rfl, st, .ok h4⟩

theorem new_later {h h1 h' : Heap} (k : Kept h1 h') {v : HVal} {t : PVal} (hl : h.length ≤ h1.length) (ht : TreeAt h1 (fun a => h1.length ≤ a) v t) :
    TreeAt h' (fun a => h.length ≤ a) v t := k.tree (fun _ ha => Nat.le_trans hl ha) ht

theorem listArgs_ref {load : String → HX HVal} {loadYaml : String → Except Exc PVal} (hl : LoadsAs load loadYaml) : ∀ (l : List String) (h : Heap),
    Ref NoFP h (xParseListArgs load l) (parseListArgs loadYaml l) (NewList h)
  | [], h => Ref_pure (b := []) .nil
  | s :: l, h => by
    simp only [xParseListArgs, parseListArgs]
    rw [parseListArg_eq]
    refine Ref_then (parseSingle_ref hl (R := fun P h l ts => List.Forall₂ (TreeAt h P) l ts) (fun h P v t ht => listOf_tree ht)
      (fun P P' h l ts hp hr => hr.imp fun a b hab => TreeAt_mono (fun x o hx ho => ⟨hp x hx, ho⟩) _ _ hab) s _ h) ?_
    rintro l1 ts1 h1 hr k -
    refine Ref_then (listArgs_ref hl l h1) ?_
    rintro l2 ts2 h2 hr2 k2 -
    refine Ref_pure ?_
    exact List.rel_append (hr.imp fun a b hab => k2.tree (fun _ h => h) hab) (hr2.imp fun a b hab => TreeAt_mono (fun x o hx ho => ⟨Nat.le_trans k.len hx, ho⟩) _ _ hab)

theorem any_dhas {R : HVal → PVal → Prop} {d acc : Dict PKey HVal} {e acc' : Dict PKey PVal} (h1 : List.Forall₂ (fun x y => x.1 = y.1 ∧ R x.2 y.2) d e)
    (h2 : List.Forall₂ (fun x y => x.1 = y.1 ∧ R x.2 y.2) acc acc') : d.any (fun kv => dhas acc kv.1) = e.any (fun kv => dhas acc' kv.1) := by
  have : ∀ k, dhas acc k = dhas acc' k := by
    intro k
    rcases items_dget₂ h2 k with ⟨h3, h4⟩ | ⟨w, t, h3, h4, -⟩ <;> simp [dhas, h3, h4]
  induction h1 with
  | nil => rfl
  | cons h _ ih => rw [List.any_cons, List.any_cons, h.1, this, ih]

theorem dictArgs_ref {load : String → HX HVal} {loadYaml : String → Except Exc PVal} (hl : LoadsAs load loadYaml) (hb : Heap) : ∀ (l : List String) (h : Heap)
    (acc : Dict PKey HVal) (acc' : Dict PKey PVal), hb.length ≤ h.length → NewItems hb acc acc' h →
    Ref NoFP h (xParseDictArgs load acc l) (parseDictArgs loadYaml acc' l) (NewItems hb)
  | [], h, acc, acc', hbl, ha => Ref_pure (b := acc') ha
  | s :: l, h, acc, acc', hbl, ha => by
    simp only [xParseDictArgs, parseDictArgs]
    rw [parseDictArg_eq]
    refine Ref_then (parseSingle_ref hl (R := fun P h d e => List.Forall₂ (fun x y => x.1 = y.1 ∧ TreeAt h P x.2 y.2) d e) (fun h P v t ht => dictOf_tree ht)
      (fun P P' h l ts hp hr => hr.imp fun a b hab => ⟨hab.1, TreeAt_mono (fun x o hx ho => ⟨hp x hx, ho⟩) _ _ hab.2⟩) s _ h) ?_
    rintro d e h1 hr k -
    have hr' : NewItems hb d e h1 := hr.imp fun a b hab => ⟨hab.1, TreeAt_mono (fun x o hx ho => ⟨Nat.le_trans hbl hx, ho⟩) _ _ hab.2⟩
    have ha' : NewItems hb acc acc' h1 := ha.imp fun a b hab => ⟨hab.1, k.tree (fun _ h => h) hab.2⟩
    rw [any_dhas hr' ha']
    cases hany : e.any fun kv => dhas acc' kv.1 with
    | true => simp only [if_true]; exact Ref_err rfl
    | false =>
      simp only [Bool.false_eq_true, if_false]
      exact dictArgs_ref hl hb l h1 _ _ (Nat.le_trans hbl k.len) (forall₂_dupdate ha' hr')

/-- The result consists of new objects. -/
def MakesNew (h : Heap) (m : HX HVal) (x : Except Exc PVal) : Prop := Ref NoFP h m x (fun v t h' => TreeAt h' (fun a => h.length ≤ a) v t)

theorem MakesNew.val {h : Heap} {m : HX HVal} {x : Except Exc PVal} (hn : MakesNew h m x) (hk : Kept h0 h) : MakesVal h0 h m x :=
  makesVal_of_yields hk (P := fun _ => False) (fun _ h => h.elim) (Ref_conseq hn fun _ _ _ _ ht => TreeAt_mono (fun _ _ ha ho => ⟨.inr ha, ho⟩) _ _ ht)

/-- Converting an object made since `h`. -/
theorem fromYaml_new (expand : String → String) (ty : CType) {h h1 : Heap} (hl : h.length ≤ h1.length) {v : HVal} {t : PVal}
    (ht : TreeAt h1 (fun a => h.length ≤ a) v t) : Ref NoFP h1 (xFromYaml expand ty v) (ty.fromYaml expand t) (fun v t h' => TreeAt h' (fun a => h.length ≤ a) v t) :=
  Ref_conseq (fromYaml_ref expand ty v t h1 _ ht) fun _ _ _ _ ht => TreeAt_mono (fun _ _ ha ho => ⟨ha.elim id (Nat.le_trans hl), ho⟩) _ _ ht

theorem Ref_alloc {h : Heap} {o : HObj} {f : Nat → HX α} {x : Except Exc β} {Q : α → β → Heap → Prop} (H : Ref NoFP (h ++ [o]) (f h.length) x Q) :
    Ref NoFP h (xalloc o >>= f) x Q := by
  obtain ⟨r, h', e, s, ag⟩ := H
  exact ⟨r, h', by rw [hx_bind, alloc_ref]; exact e, (Steps.alloc _ _ _).trans s (.refl _ _), ag⟩

theorem listArg_ref {load : String → HX HVal} {loadYaml : String → Except Exc PVal} (hl : LoadsAs load loadYaml) (expand : String → String) (ty : CType)
    (l : List String) (h : Heap) :
    MakesNew h (xListArg load expand ty l) (parseListArgs loadYaml l >>= fun ts => ty.fromYaml expand (.list ts)) := by
  unfold xListArg
  refine Ref_then (listArgs_ref hl l h) ?_
  rintro l' ts h1 hr k -
  have ka := Kept.alloc h1 (.list l')
  have ht : TreeAt (h1 ++ [.list l']) (fun a => h.length ≤ a) (.ref h1.length) (.list ts) :=
    tree_list k.len (get_alloc _ _) (hr.imp fun a b hab => ka.tree (fun _ h => h) hab)
  exact Ref_alloc (fromYaml_new expand ty (Nat.le_trans k.len ka.len) ht)

theorem dictArg_ref {load : String → HX HVal} {loadYaml : String → Except Exc PVal} (hl : LoadsAs load loadYaml) (expand : String → String) (ty : CType)
    (l : List String) (h : Heap) :
    MakesNew h (xDictArg load expand ty l) (parseDictArgs loadYaml [] l >>= fun ts => ty.fromYaml expand (.dict ts)) := by
  unfold xDictArg
  refine Ref_then (dictArgs_ref hl h l h [] [] (Nat.le_refl _) .nil) ?_
  rintro l' ts h1 hr k -
  have ka := Kept.alloc h1 (.dict l')
  have ht : TreeAt (h1 ++ [.dict l']) (fun a => h.length ≤ a) (.ref h1.length) (.dict ts) :=
    tree_dict k.len (get_alloc _ _) (hr.imp fun a b hab => ⟨hab.1, ka.tree (fun _ h => h) hab.2⟩)
  exact Ref_alloc (fromYaml_new expand ty (Nat.le_trans k.len ka.len) ht)

theorem unset_new (ty : CType) (h : Heap) : MakesNew h (xUnset ty) (.ok ty.unset) := by
  cases ty <;> first
    | exact Ref_pure (by simp [TreeAt, CType.unset])
    | exact ⟨_, _, rfl, .alloc _ _ _, .ok (tree_dict (Nat.le_refl _) (get_alloc _ _) .nil)⟩

theorem loaded_new {load : String → HX HVal} {loadYaml : String → Except Exc PVal} (hl : LoadsAs load loadYaml) (expand : String → String) (ty : CType) (s : String) (h : Heap) :
    MakesNew h (xYamlToConfig (load s) >>= xFromYaml expand ty) (yamlToConfig (loadYaml s) >>= CType.fromYaml expand ty) := by
  refine Ref_then (yamlToConfig_ref (hl s h)) ?_
  rintro v t h1 ht k -
  exact fromYaml_new expand ty k.len ht

theorem fromCommandLine_ref {load : String → HX HVal} {loadYaml : String → Except Exc PVal} (hl : LoadsAs load loadYaml) (expand : String → String) (ty : CType)
    (v : CmdVal) (h : Heap) : MakesNew h (xFromCommandLine load expand ty v) (ty.fromCommandLine loadYaml expand v) := by
  have str : ∀ ty s, MakesNew h (xFromYaml expand ty (.str s)) (CType.fromYaml expand ty (.str s)) := fun ty s =>
    fromYaml_new expand ty (Nat.le_refl _) (by simp [TreeAt])
  cases v with
  | none =>
    have := unset_new ty h
    cases ty <;> exact this
  | one s =>
    cases ty with
    | any => exact loaded_new hl expand _ s h
    | boolean => exact loaded_new hl expand _ s h
    | string => exact str _ s
    | path => exact str _ s
    | list e => exact listArg_ref hl expand _ _ h
    | dict vt kt => exact dictArg_ref hl expand _ _ h
    | mergingDict vt kt => exact dictArg_ref hl expand _ _ h
  | many l =>
    cases ty with
    | any => exact Ref_err rfl
    | boolean => exact Ref_err rfl
    | string => exact Ref_err rfl
    | path => exact Ref_err rfl
    | list e => exact listArg_ref hl expand _ _ h
    | dict vt kt => exact dictArg_ref hl expand _ _ h
    | mergingDict vt kt => exact dictArg_ref hl expand _ _ h

theorem argValue_ref {load : String → HX HVal} {loadYaml : String → Except Exc PVal} (hl : LoadsAs load loadYaml) (expand : String → String)
    (args : String → Option CmdVal) (i : ConfigItem) (h : Heap) : MakesNew h (xArgValue load expand args i) (argValue loadYaml expand args i) := by
  unfold xArgValue argValue
  cases i.commandLine with
  | false => exact unset_new _ h
  | true =>
    simp only [if_true]
    cases args (String.ofList (underscorify i.argument.toList)) with
    | none => exact Ref_err rfl
    | some v => exact fromCommandLine_ref hl expand _ _ h

theorem args_ref {load : String → HX HVal} {loadYaml : String → Except Exc PVal} (hl : LoadsAs load loadYaml) (expand : String → String)
    (args : String → Option CmdVal) (desc : Desc) (h : Heap) : Ref NoFP h (xConfigFromArgs load expand args desc) (configFromArgs loadYaml expand args desc)
      (fun v c h' => Created desc h v c h' ∧ ConfWf c) := by
  refine Ref_conseq (fill_ref (h0 := h) (fun g s i h' hk => (argValue_ref hl expand args i h').val hk) (fun n i h' hk => (argValue_ref hl expand args i h').val hk) desc (.refl h)) ?_
  rintro v c h' s n
  refine ⟨n.created (fun _ _ => rfl), ?_⟩
  obtain ⟨F, _, o⟩ := n
  exact confWf_of_own o

theorem processFile_ref {v : HVal} {t : PVal} {h : Heap} (ht : WritesOut h v t) :
    Ref NoFP h (xProcessFile v) (processConfigFileYaml t) (fun w e h' => WritesOut h' w (.dict e)) := by
  rcases TreeAt_cases ht with ⟨rfl, rfl⟩ | ⟨b, rfl, rfl⟩ | ⟨b, rfl, rfl⟩ | ⟨b, rfl, rfl⟩ | ⟨b, rfl, rfl⟩ | ⟨ts, a, l, rfl, rfl, -, hg, hl⟩ | ⟨ts, a, l, rfl, rfl, -, hg, hl⟩
  · exact ⟨_, _, rfl, .alloc _ _ _, .ok (tree_dict trivial (get_alloc _ _) .nil)⟩
  · exact Ref_err rfl
  · exact Ref_err rfl
  · exact Ref_err rfl
  · exact Ref_err rfl
  · refine Ref_err ?_
    simp only [xProcessFile, hDictOf, hg]
  · have he : l.all (fun kv => match kv.1 with | .str _ => true | _ => false) = ts.all (fun kv => match kv.1 with | .str _ => true | _ => false) := by
      clear ht hg
      induction hl with
      | nil => rfl
      | cons h _ ih => rw [List.all_cons, List.all_cons, h.1, ih]
    simp only [processConfigFileYaml]
    cases hall : ts.all (fun kv => match kv.1 with | .str _ => true | _ => false) with
    | true =>
      rw [hall] at he
      refine Ref_ok (h' := h) (a := .ref a) ?_ (.refl _ _) ht
      simp only [xProcessFile, hDictOf, hg]
      exact if_pos he
    | false =>
      rw [hall] at he
      refine Ref_err ?_
      simp only [xProcessFile, hDictOf, hg]
      exact if_neg (fun hc => Bool.false_ne_true (he.symm.trans hc))

theorem loadFile_ref {load : String → HX HVal} {loadYaml : String → Except Exc PVal} (hl : LoadsAs load loadYaml) (f : FileText) (h : Heap) :
    Ref NoFP h (xLoadFile load f) (loadConfigFileYaml loadYaml f) (fun w e h' => WritesOut h' w (.dict e)) := by
  cases f with
  | missing => exact ⟨_, _, rfl, .alloc _ _ _, .ok (tree_dict trivial (get_alloc _ _) .nil)⟩
  | unreadable => exact Ref_err rfl
  | text s =>
    refine Ref_then (yamlToConfig_ref (hl s h)) ?_
    rintro v t h1 ht k -
    exact processFile_ref (TreeAt_mono (fun _ _ _ ho => ⟨trivial, ho⟩) _ _ ht)

theorem file_ref {load : String → HX HVal} {loadYaml : String → Except Exc PVal} (hl : LoadsAs load loadYaml) (expand : String → String) (dflt : String → HVal)
    (desc : Desc) (f : FileText) (h : Heap) : Ref NoFP h (xConfigFromFile load expand dflt desc f) (configFromFile loadYaml expand desc f)
      (fun v c h' => ConfIn h' v c) := by
  refine Ref_then (loadFile_ref hl f h) ?_
  rintro v e h1 hv k -
  exact Ref_conseq (parsed_ref expand desc hv) fun _ _ _ _ hc => hc.1.writes

theorem files_ref {load : String → HX HVal} {loadYaml : String → Except Exc PVal} (hl : LoadsAs load loadYaml) (expand : String → String) (dflt : String → HVal)
    (desc : Desc) : ∀ (l : List FileText) (h : Heap), Ref NoFP h (xMapM (xConfigFromFile load expand dflt desc) l) (l.mapM (configFromFile loadYaml expand desc))
      (fun vs cs h' => List.Forall₂ (ConfIn h') vs cs)
  | [], h => Ref_pure (b := []) .nil
  | f :: l, h => by
    simp only [xMapM, List.mapM_cons]
    refine Ref_then (file_ref hl expand dflt desc f h) ?_
    rintro v c h1 hv k1 -
    refine Ref_then (files_ref hl expand dflt desc l h1) ?_
    rintro vs cs h2 hvs k2 -
    exact Ref_pure (b := c :: cs) (.cons (k2.writesOut hv) hvs)

theorem load_config_ref {load : String → HX HVal} {loadYaml : String → Except Exc PVal} (hl : LoadsAs load loadYaml) (expand : String → String) {dflt : String → HVal}
    (file : String → FileText) (home tool ns : String) (a : GlobalArgs) (args : String → Option CmdVal) {desc : Desc} (hw : desc.Wf)
    (hdef : ∀ n i, dget desc.items n = some i → DefaultFits i) {h : Heap} (hd : DefaultsAt h dflt desc) :
    Ref NoFP h (xLoadConfig load expand dflt file home tool ns a args desc) (loadConfig loadYaml expand file home tool ns a args desc) (fun v c h' => Created desc h v c h' ∧ Fits desc c) := by
  unfold xLoadConfig loadConfig
  refine Ref_then (args_ref hl expand args desc h) ?_
  rintro v c h1 ⟨n1, wf1⟩ k1 e1
  refine Ref_then (files_ref hl expand dflt desc _ h1) ?_
  rintro vs cs h2 hvs k2 e2
  refine Ref_then (default_config_ref hw (hd.later (k1.trans k2))) ?_
  rintro wd d h3 ⟨n3, wf3⟩ k3 e3
  have f1 : Fits desc c := (args_spec hw e1).1
  have f2 : ∀ c ∈ cs, Fits desc c := (files_fit hw _ e2).1
  have f3 : Fits desc d := (defaults_fit hw hdef e3).1
  have hfs : List.Forall₂ (ConfArg h3 desc) vs cs := by
    clear e2
    induction hvs with
    | nil => exact .nil
    | cons h _ ih => exact .cons ⟨k3.writesOut h, f2 _ (by simp)⟩ (ih fun c hc => f2 c (by simp [hc]))
  refine Ref_conseq (merge_configs_ref hw wf1 ⟨(k2.trans k3).writesOut n1.writes, f1⟩ (List.rel_append hfs (.cons ⟨n3.writes, f3⟩ .nil))) ?_
  rintro r c' h4 s ⟨n, hf⟩
  exact ⟨n.mono ((k1.trans k2).trans k3).len, hf⟩

end Verif
