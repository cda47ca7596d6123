import Verif.Lemmas.Heap
/-!
# Expansion steps on trees: replacing a part of a tree by its expansion does not change the expansion of the whole
-/
namespace Verif

/-- The expansion function of each role (rules.py:350-447); `k` is the key under which the value stands. -/
def Ex : Nat → PKey → PVal → Except Exc PVal
  | 0, _, t => .ok t
  | 1, _, t => expandDefinition t
  | 2, _, t => expandInstallerDefinition t
  | 3, k, t => expandOsVersionDefinition k t
  | 4, k, t => expandKey k t
  | _, _, t => expandRules t

/-- `t'` has the same expansion as `t`, and is `t` if `t` is fully expanded. -/
def StepE (n : Nat) (k : PKey) (t t' : PVal) : Prop :=
  Ex n k t' = Ex n k t ∧ (Ex n k t = .ok t → t' = t)

/-- See `StepE`; in addition the question whether `any_version` is present is answered in the same way. -/
def HStep (n : Nat) (k : PKey) (t t' : PVal) : Prop := StepE n k t t' ∧ instLike t' = instLike t

theorem HStep_refl (n : Nat) (k : PKey) (t : PVal) : HStep n k t t := ⟨⟨rfl, fun _ => rfl⟩, rfl⟩

theorem StepE_trans {n : Nat} {k : PKey} {t u v : PVal} (h1 : StepE n k t u) (h2 : StepE n k u v) : StepE n k t v := by
  refine ⟨h2.1.trans h1.1, fun h => ?_⟩
  have h3 := h1.2 h
  subst h3
  exact h2.2 h

theorem HStep_trans {n : Nat} {k : PKey} {t u v : PVal} (h1 : HStep n k t u) (h2 : HStep n k u v) : HStep n k t v :=
  ⟨StepE_trans h1.1 h2.1, h2.2.trans h1.2⟩

theorem HStep_zero {k : PKey} {t t' : PVal} (h : HStep 0 k t t') : t' = t := h.1.2 rfl

/-- Expanding twice is expanding once. -/
theorem Ex_idem {n : Nat} (hn : n ≤ 4) {k : PKey} {t t' : PVal} (hw : t.WF) (h : Ex n k t = .ok t') : Ex n k t' = .ok t' := by
  match n, hn with
  | 0, _ => rfl
  | 1, _ => exact expandDefinition_id (expandDefinition_spec hw h)
  | 2, _ => exact expandInstaller_id (expandInstaller_spec hw h) (expandInstaller_WF hw h)
  | 3, _ => exact expandVersion_id (expandVersion_spec hw h).1 (expandVersion_spec hw h).2 (expandVersion_WF hw h)
  | 4, _ =>
    have h' := (expandKey_ok (k := k)).1 h
    exact (expandKey_ok (k := k)).2 (expandOs_id (expandOs_spec hw h') (expandOs_WF hw h'))

/-- The expansion is a step. -/
theorem StepE_of_Ex {n : Nat} (hn : n ≤ 4) {k : PKey} {t t' : PVal} (hw : t.WF) (h : Ex n k t = .ok t') : StepE n k t t' :=
  ⟨by rw [h, Ex_idem hn hw h], fun h' => by rw [h] at h'; injection h'⟩

/-- What `any_os` demands of a version dict that has `any_version`. -/
def anyOsBad (n : Nat) (k : PKey) (e : Dict PKey PVal) : Prop := n = 2 ∧ k = .str "any_os" ∧ e.length ≠ 1

instance (n : Nat) (k : PKey) (e : Dict PKey PVal) : Decidable (anyOsBad n k e) :=
  inferInstanceAs (Decidable (_ ∧ _ ∧ _))

/-- The expansion of a dict is the expansion of its entries. -/
theorem Ex_dict {n : Nat} (h1 : 1 ≤ n) (h2 : n ≤ 4) {k : PKey} {e : Dict PKey PVal} (he : DWF e)
    (hc : ¬ (n = 2 ∧ k = .str "any_os" ∧ instLike (.dict e) = true)) :
    (n ≤ 2 ∨ n = 4 → Ex (n + 1) k (.dict e) = if anyOsBad n k e then .error .valueError else
      (mapVals (Ex n) e).map PVal.dict) ∧
    (n = 3 → Ex 4 k (.dict e) = match mapVals (Ex 3) e with
      | .ok d => .ok (.dict d)
      | .error .valueError => .error raiseSpecParsingError
      | .error x => .error x) := by
  match n, h1, h2 with
  | 1, _, _ =>
    refine ⟨fun _ => ?_, fun h => by omega⟩
    rw [if_neg (by simp [anyOsBad])]
    show expandInstallerDefinition (.dict e) = _
    simp only [expandInstallerDefinition, upConvert, bind, Except.bind, pure, Except.pure]
    rw [forItems_eq _ he]
    rfl
  | 2, _, _ =>
    refine ⟨fun _ => ?_, fun h => by omega⟩
    show expandOsVersionDefinition k (.dict e) = _
    rw [expandVersion_eq]
    simp only [upConvert, bind, Except.bind, pure, Except.pure]
    by_cases hk : k = .str "any_os"
    · have hi : dhas e (.str "any_version") = true := by
        by_contra hne
        exact hc ⟨rfl, hk, by simpa [instLike] using hne⟩
      unfold anyOsWrap
      rw [if_pos hk, if_pos hi]
      by_cases hl : e.length = 1
      · have hb : (e.length != 1) = false := by simp [hl]
        rw [if_neg (show ¬ anyOsBad 2 k e by simp [anyOsBad, hl])]
        simp only [hb, Bool.false_eq_true, if_false]
        rw [forItems_eq _ he]
        rfl
      · have hb : (e.length != 1) = true := by simp [hl]
        rw [if_pos (show anyOsBad 2 k e from ⟨rfl, hk, hl⟩)]
        simp only [hb, if_true]
    · unfold anyOsWrap
      rw [if_neg hk, if_neg (show ¬ anyOsBad 2 k e by simp [anyOsBad, hk])]
      simp only
      rw [forItems_eq _ he]
      rfl
  | 3, _, _ =>
    refine ⟨fun h => by omega, fun _ => ?_⟩
    show expandKey k (.dict e) = _
    unfold expandKey expandOsDefinition
    simp only [bind, Except.bind, pure, Except.pure]
    rw [forItems_eq _ he]
    have h3 : Ex 3 = expandOsVersionDefinition := rfl
    rw [h3]
    cases hm : mapVals expandOsVersionDefinition e with
    | ok d => rfl
    | error x => cases x <;> rfl
  | 4, _, _ =>
    refine ⟨fun _ => ?_, fun h => by omega⟩
    rw [if_neg (by simp [anyOsBad])]
    show expandRules (.dict e) = _
    rw [expandRules_dict]
    simp only [bind, Except.bind, pure, Except.pure]
    rw [forItems_eq _ he]
    rfl

/-- Entries of two trees are related by steps. -/
def StepItems (n : Nat) (e e' : Dict PKey PVal) : Prop :=
  List.Forall₂ (fun x y => x.1 = y.1 ∧ StepE n x.1 x.2 y.2) e e'

theorem StepItems_keys {n : Nat} {e e' : Dict PKey PVal} (H : StepItems n e e') : dkeys e' = dkeys e := by
  induction H with
  | nil => rfl
  | cons a b ih => simp only [dkeys, List.map_cons] at ih ⊢; rw [a.1, ih]

theorem StepItems_mapVals {n : Nat} {e e' : Dict PKey PVal} (H : StepItems n e e') :
    mapVals (Ex n) e' = mapVals (Ex n) e := by
  induction H with
  | nil => rfl
  | @cons x y e e' a b ih =>
    obtain ⟨k, t⟩ := x
    obtain ⟨k', t'⟩ := y
    simp only at a
    obtain ⟨rfl, a⟩ := a
    simp only [mapVals, ih, a.1]

theorem StepItems_fix {n : Nat} {e e' : Dict PKey PVal} (H : StepItems n e e') (hf : mapVals (Ex n) e = .ok e) : e' = e := by
  rw [mapVals_ok_iff] at hf
  induction H with
  | nil => rfl
  | @cons x y e e' a b ih =>
    obtain ⟨k, t⟩ := x
    obtain ⟨k', t'⟩ := y
    simp only at a
    obtain ⟨rfl, a⟩ := a
    cases hf with
    | cons c d =>
      rw [ih d, a.2 c.2]

theorem StepItems_refl {n : Nat} (e : Dict PKey PVal) : StepItems n e e :=
  List.forall₂_same.2 fun _ _ => ⟨rfl, rfl, fun _ => rfl⟩

theorem instLike_keys {e e' : Dict PKey PVal} (hk : dkeys e' = dkeys e) : instLike (.dict e') = instLike (.dict e) := by
  simp only [instLike]
  congr 1
  rw [Bool.eq_iff_iff, dhas_iff, dhas_iff, hk]

/-- Steps on the entries of a dict are a step of the dict. -/
theorem HStep_lift {n : Nat} (h1 : 1 ≤ n) (h2 : n ≤ 4) {k : PKey} {e e' : Dict PKey PVal} (he : DWF e)
    (hc : ¬ (n = 2 ∧ k = .str "any_os" ∧ instLike (.dict e) = true)) (H : StepItems n e e') :
    HStep (n + 1) k (.dict e) (.dict e') := by
  have hk := StepItems_keys H
  have he' : DWF e' := by unfold DWF; rw [hk]; exact he
  have hi := instLike_keys hk
  have hc' : ¬ (n = 2 ∧ k = .str "any_os" ∧ instLike (.dict e') = true) := by rw [hi]; exact hc
  have E1 := Ex_dict h1 h2 he hc
  have E2 := Ex_dict h1 h2 he' hc'
  have hl : e'.length = e.length := by
    have := congrArg List.length hk
    simpa [dkeys] using this
  have hb : anyOsBad n k e' ↔ anyOsBad n k e := by simp only [anyOsBad, hl]
  have hm := StepItems_mapVals H
  refine ⟨⟨?_, fun hf => ?_⟩, hi⟩
  · by_cases hn : n = 3
    · subst hn
      rw [E1.2 rfl, E2.2 rfl, hm]
    · have hn' : n ≤ 2 ∨ n = 4 := by omega
      rw [E1.1 hn', E2.1 hn', hm]
      by_cases hx : anyOsBad n k e
      · rw [if_pos hx, if_pos (hb.2 hx)]
      · rw [if_neg hx, if_neg (fun h => hx (hb.1 h))]
  · have hf' : mapVals (Ex n) e = .ok e := by
      by_cases hn : n = 3
      · subst hn
        rw [E1.2 rfl] at hf
        cases hm' : mapVals (Ex 3) e with
        | ok d => rw [hm'] at hf; simp only [Except.ok.injEq, PVal.dict.injEq] at hf; rw [hf]
        | error x =>
          rw [hm'] at hf
          cases x <;> simp at hf
      · have hn' : n ≤ 2 ∨ n = 4 := by omega
        rw [E1.1 hn'] at hf
        by_cases hx : anyOsBad n k e
        · rw [if_pos hx] at hf; simp at hf
        · rw [if_neg hx] at hf
          cases hm' : mapVals (Ex n) e with
          | ok d => rw [hm'] at hf; simp only [Except.map, Except.ok.injEq, PVal.dict.injEq] at hf; rw [hf]
          | error x => rw [hm'] at hf; simp [Except.map] at hf
    rw [StepItems_fix H hf']

/-- A step of an installer dict is a step of the version dict it stands for under `any_os`. -/
theorem HStep_anyos {k : PKey} {t t' : PVal} (hi : instLike t = true) (H : HStep 2 k t t') :
    HStep 3 (.str "any_os") t t' := by
  have hi' := H.2
  rw [hi] at hi'
  have hd : ∀ u : PVal, instLike u = true → expandOsVersionDefinition (.str "any_os") u =
      (expandInstallerDefinition u).map fun r => .dict [(.str "any_version", r)] := by
    intro u hu
    cases u with
    | dict e =>
      simp only [instLike, Bool.not_eq_true'] at hu
      rw [expandVersion_eq]
      have hw : anyOsWrap (.str "any_os") e = .ok [(.str "any_version", .dict e)] := by
        unfold anyOsWrap
        rw [if_pos rfl, if_neg (by simp [hu])]
      simp only [upConvert, bind, Except.bind, pure, Except.pure, hw]
      rw [forItems_eq _ (by simp [DWF, dkeys])]
      simp only [mapVals]
      cases expandInstallerDefinition (.dict e) <;> rfl
    | _ => simp [instLike] at hu
  refine ⟨⟨?_, fun hf => ?_⟩, H.2⟩
  · show expandOsVersionDefinition _ _ = expandOsVersionDefinition _ _
    rw [hd t hi, hd t' hi']
    have : expandInstallerDefinition t' = expandInstallerDefinition t := H.1.1
    rw [this]
  · exfalso
    have hf' : expandOsVersionDefinition (.str "any_os") t = .ok t := hf
    rw [hd t hi] at hf'
    cases hx : expandInstallerDefinition t with
    | error x => rw [hx] at hf'; simp [Except.map] at hf'
    | ok r =>
      rw [hx] at hf'
      simp only [Except.map, Except.ok.injEq] at hf'
      rw [← hf'] at hi
      simp [instLike, dhas, dget] at hi

end Verif
