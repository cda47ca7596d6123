import Verif.Lemmas.HeapConfig2
/-!
# Configs made from parsed YAML and from the command line, and merged, in memory
-/
set_option linter.unusedSimpArgs false
namespace Verif
variable {α β γ δ : Type} {h0 : Heap}

/-! ## Filling -/

theorem fillGroup_fold (value : String → ConfigItem → Except Exc PVal) (l : List (String × ConfigItem)) (acc : Dict String PVal) :
    fillGroup value acc l = l.foldlM (fun acc si => value si.1 si.2 >>= fun v => pure (dset acc si.1 v)) acc := by
  induction l generalizing acc with
  | nil => rfl
  | cons x l ih =>
    obtain ⟨s, i⟩ := x
    simp only [fillGroup, List.foldlM_cons, bind_assoc, pure_bind, ih]

theorem fillGroups_fold (value : String → String → ConfigItem → Except Exc PVal) (l : List (String × Dict String ConfigItem)) (acc : Config) :
    fillGroups value acc l = l.foldlM (fun acc gi => fillGroup (value gi.1) [] gi.2 >>= fun d => pure (dset acc gi.1 (.grp d))) acc := by
  induction l generalizing acc with
  | nil => rfl
  | cons x l ih =>
    obtain ⟨s, i⟩ := x
    simp only [fillGroups, List.foldlM_cons, bind_assoc, pure_bind, ih]

/-- One step of `fillItems`. -/
def itemStep (value : String → ConfigItem → Except Exc PVal) (acc : Config) (ni : String × ConfigItem) : Except Exc Config :=
  match groupOf ni.1 with
  | some _ => pure acc
  | none => value ni.1 ni.2 >>= fun v => pure (dset acc ni.1 (.val v))

theorem fillItems_fold (value : String → ConfigItem → Except Exc PVal) (l : List (String × ConfigItem)) (acc : Config) :
    fillItems value acc l = l.foldlM (itemStep value) acc := by
  induction l generalizing acc with
  | nil => rfl
  | cons x l ih =>
    obtain ⟨n, i⟩ := x
    simp only [List.foldlM_cons]
    cases hg : groupOf n with
    | some p => rw [fillItems_cons_grp hg, ih]; simp only [itemStep, hg, pure_bind]
    | none => rw [fillItems_cons_top hg]; simp only [itemStep, hg, bind_assoc, pure_bind, ih]

theorem fillGroup_ref {xv : String → ConfigItem → HX HVal} {pv : String → ConfigItem → Except Exc PVal}
    (hv : ∀ s i h, Kept h0 h → MakesVal h0 h (xv s i) (pv s i)) (items : Dict String ConfigItem) {h : Heap} (hk : Kept h0 h) :
    Ref NoFP h (xFillGroup xv items) (fillGroup pv [] items)
      (fun w d h' => Owned (fun h d F => OwnDict h0 (ValOwn h0) h w d F) NoFP h d h') := by
  rw [fillGroup_fold]
  refine own_build (I := fun h v d F => OwnDict h0 (ValOwn h0) h v d F) (x0 := pure []) (f := fun d => xForEach (xFillStep xv d) items)
    (g := fun acc => items.foldlM (fun acc si => pv si.1 si.2 >>= fun v => pure (dset acc si.1 v)) acc) (own_new hk) ?_
  intro v t h' F s o
  refine forEach_ref (I := fun h d F => OwnDict h0 (ValOwn h0) h v d F) (rel := fun x y => x = y) ?_ (forall₂_self fun _ _ => rfl) o
  rintro x _ acc F h rfl o
  exact own_create ValOwn.child o x.1 (hv x.1 x.2 h o.kept)

theorem fill_ref {xg : String → String → ConfigItem → HX HVal} {pg : String → String → ConfigItem → Except Exc PVal}
    {xt : String → ConfigItem → HX HVal} {pt : String → ConfigItem → Except Exc PVal}
    (hg : ∀ g s i h, Kept h0 h → MakesVal h0 h (xg g s i) (pg g s i)) (ht : ∀ n i h, Kept h0 h → MakesVal h0 h (xt n i) (pt n i)) (desc : Desc)
    {h : Heap} (hk : Kept h0 h) :
    Ref NoFP h (xFill xg xt desc) (fillGroups pg [] desc.groups >>= fun c => fillItems pt c desc.items) (NewConf h0 (fun _ => true) h) := by
  have := own_build (I := fun h v c F => ConfAt h0 (fun _ => true) h v c F) (h := h) (m0 := xnew) (x0 := .ok [])
    (f := fun c => xForEach (xGroupStep xg c) desc.groups >>= fun _ => xForEach (xItemStep xt c) desc.items)
    (g := fun acc => fillGroups pg acc desc.groups >>= fun c => fillItems pt c desc.items)
    (conf_new hk (fun _ => true)) ?_
  · obtain ⟨r, h', e, s, ag⟩ := this
    refine ⟨r, h', ?_, s, ag⟩
    rw [← e]
    simp only [xFill, bind_assoc]
  · intro v t h1 F s o
    refine Ref_bind (Q := KeepsConf h0 (fun _ => true) v F h1) ?_ ?_
    · rw [fillGroups_fold]
      refine forEach_ref (I := fun h c F => ConfAt h0 (fun _ => true) h v c F) (rel := fun x y => x = y) ?_ (forall₂_self fun _ _ => rfl) o
      rintro x _ acc F h rfl o
      exact conf_new_grp o rfl (fillGroup_ref (hg x.1) x.2 o.kept)
    · rintro _ c h2 ⟨F2, hf2, o2⟩ s2
      refine ⟨F2, hf2, ?_⟩
      rw [fillItems_fold]
      refine Ref_conseq (forEach_ref (I := fun h c F => ConfAt h0 (fun _ => true) h v c F) (rel := fun x y => x = y) ?_ (forall₂_self fun _ _ => rfl) o2) ?_
      · rintro x _ acc F h rfl o
        unfold xItemStep itemStep
        cases groupOf x.1 with
        | some p => exact Ref_pure ⟨F, .refl _ _, o⟩
        | none => exact conf_set_top o x.1 (ht x.1 x.2 h o.kept)
      · rintro _ c3 h3 s3 ⟨F3, hf3, o3⟩
        exact ⟨F3, hf2.trans hf3 s2.len, o3⟩

/-! ## Parsed YAML -/

theorem items_dget₂ {R : HVal → PVal → Prop} {d : Dict PKey HVal} {e : Dict PKey PVal} (hl : List.Forall₂ (fun x y => x.1 = y.1 ∧ R x.2 y.2) d e) (k : PKey) :
    (dget d k = none ∧ dget e k = none) ∨ ∃ w t, dget d k = some w ∧ dget e k = some t ∧ R w t := by
  induction hl with
  | nil => exact .inl ⟨rfl, rfl⟩
  | @cons x y l l' h hl ih =>
    obtain ⟨k1, v1⟩ := x
    obtain ⟨k2, t2⟩ := y
    obtain ⟨rfl, h⟩ := h
    rw [dget_cons, dget_cons]
    split
    · exact .inr ⟨v1, t2, rfl, rfl, h⟩
    · exact ih

theorem dict_at {P : Nat → Prop} {v : HVal} {e : Dict PKey PVal} (ht : TreeAt h0 P v (.dict e)) : ∃ a d, v = .ref a ∧ P a ∧ h0[a]? = some (.dict d) ∧
    List.Forall₂ (fun x y => x.1 = y.1 ∧ TreeAt h0 P x.2 y.2) d e := by
  rw [TreeAt] at ht
  obtain ⟨a, d, rfl, hp, hg, hi⟩ := ht
  exact ⟨a, d, rfl, hp, hg, ItemsAt_iff₂.1 hi⟩

theorem makes_fromYaml (expand : String → String) (ty : CType) {h : Heap} (hk : Kept h0 h) {P : Nat → Prop} (hP : ∀ a, P a → a < h0.length ∨ h.length ≤ a) {v : HVal} {t : PVal}
    (ht : TreeAt h P v t) : MakesVal h0 h (xFromYaml expand ty v) (ty.fromYaml expand t) :=
  makesVal_of_yields hk hP (fromYaml_ref expand ty v t h P ht)

theorem old_tree {h : Heap} (hk : Kept h0 h) {v : HVal} {t : PVal} (ht : WritesOut h0 v t) : TreeAt h (fun a => a < h0.length) v t :=
  TreeAt_mono (fun _ _ _ ho => ⟨lt_of_getElem? ho, hk.get ho⟩) _ _ ht

theorem yamlValue_ref (expand : String → String) {v : HVal} {e : Dict PKey PVal} (hv : WritesOut h0 v (.dict e)) (n : String) (i : ConfigItem) {h : Heap}
    (hk : Kept h0 h) : MakesVal h0 h (xYamlValue expand v n i) (yamlValue expand e n i) := by
  obtain ⟨a, d, rfl, -, hg, hi⟩ := dict_at hv
  unfold xYamlValue yamlValue
  refine Ref_read (a := d) (by simp only [xdict, hk.get hg]) ?_
  rcases items_dget₂ hi (.str n) with ⟨h1, h2⟩ | ⟨w, t, h1, h2, h3⟩
  · rw [h1, h2]
    exact makes_fromYaml expand i.type hk (P := fun _ => False) (fun _ h => h.elim) (by simp [TreeAt])
  · rw [h1, h2]
    exact makes_fromYaml expand i.type hk (fun _ h => .inl h) (old_tree hk h3)

/-- Nothing that exists is changed before the run: the result is also one for the memory before. -/
theorem MakesVal.after {h h1 : Heap} {m : HX α} {a : α} {f : α → HX HVal} {x : Except Exc PVal} (hm : m h = (.ok a, h1)) (hk : Kept h h1)
    (h2 : MakesVal h0 h1 (f a) x) : MakesVal h0 h (m >>= f) x := by
  refine ref_after hm hk (Ref_conseq h2 ?_)
  rintro w t h' s ⟨G, hf, o⟩ _
  refine ⟨G, fun x hx => ?_, o⟩
  rcases hf x hx with h | h
  · exact h.elim
  · exact .inr (Nat.le_trans hk.len h)

theorem yamlGroupValue_ref (expand : String → String) {v : HVal} {e : Dict PKey PVal} (hv : WritesOut h0 v (.dict e)) (g s : String) (i : ConfigItem) {h : Heap}
    (hk : Kept h0 h) : MakesVal h0 h (xYamlGroupValue expand v g s i) (yamlGroupValue expand e g s i) := by
  obtain ⟨a, d, rfl, -, hg, hi⟩ := dict_at hv
  have ka := Kept.alloc h (.dict [])
  have hka := hk.trans ka
  have hx : xget (.ref a) (.str g) h = (.ok ((dget d (.str g)).getD (.ref h.length)), h ++ [.dict []]) := by
    simp only [xget, xnew]
    rw [hx_bind, hx_bind]
    simp only [xalloc, hx_pure]
    rw [hx_bind]
    have : xdict .attributeError (.ref a) (h ++ [.dict []]) = (.ok d, h ++ [.dict []]) := by simp only [xdict, hka.get hg]
    rw [this]
    rfl
  unfold xYamlGroupValue yamlGroupValue
  refine MakesVal.after hx ka ?_
  rcases items_dget₂ hi (.str g) with ⟨h1, h2⟩ | ⟨w, t, h1, h2, h3⟩
  · rw [h1, h2]
    simp only [Option.getD_none]
    unfold xYamlValue yamlValue
    refine Ref_read (a := []) (by simp only [xdict, get_alloc]) ?_
    exact makes_fromYaml expand i.type hka (P := fun _ => False) (fun _ h => h.elim) (by simp [TreeAt])
  · rw [h1, h2]
    simp only [Option.getD_some]
    cases t with
    | dict e' => exact yamlValue_ref expand h3 s i hka
    | list ts =>
      have h4 := h3
      rw [TreeAt] at h4
      obtain ⟨b, l, rfl, -, hb, -⟩ := h4
      exact Ref_fail (by simp only [xdict, hka.get hb])
    | _ => rw [TreeAt] at h3; subst h3; exact Ref_fail rfl

end Verif
