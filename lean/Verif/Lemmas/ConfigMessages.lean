import Verif.Spec.ConfigMessages
import Verif.Lemmas.Config4
/-! Helper lemmas about the messages of refused configuration values. -/
namespace Verif

theorem any_bind_ok {ε α β : Type} {x : Except ε α} {f : α → Except ε β} {b : β} : (x >>= f) = .ok b ↔ ∃ a, x = .ok a ∧ f a = .ok b := by
  cases x <;> simp [bind, Except.bind]

theorem any_bind_err {ε α β : Type} {x : Except ε α} {f : α → Except ε β} {e : ε} :
    (x >>= f) = .error e ↔ x = .error e ∨ ∃ a, x = .ok a ∧ f a = .error e := by
  cases x <;> simp [bind, Except.bind]

theorem wrapping_ok {α : Type} {m : String} {x : Except Refusal α} {a : α} : wrapping m x = .ok a ↔ x = .ok a := by
  rcases x with r | b
  · cases r <;> simp [wrapping]
  · simp [wrapping]

theorem refuse_blaming {α : Type} (shows : PVal → Except Exc String) (tname : PVal → String) (T : String) (v : PVal) :
    (refuse shows tname T v : Except Refusal α) = .error (blaming shows tname T v) := by
  unfold refuse typeErrorMsg blaming
  cases shows v <;> rfl

theorem verifyElemsSaying_ok {f : PVal → Except Refusal PVal} {l : List PVal} :
    verifyElemsSaying f l = .ok () ↔ ∀ x ∈ l, ∃ w, f x = .ok w := by
  induction l with
  | nil => simp [verifyElemsSaying]
  | cons x l ih =>
    rw [verifyElemsSaying, any_bind_ok]
    simp only [ih, List.forall_mem_cons]
    constructor
    · rintro ⟨w, h, h2⟩; exact ⟨⟨w, h⟩, h2⟩
    · rintro ⟨⟨w, h⟩, h2⟩; exact ⟨w, h, h2⟩

theorem verifyItemsSaying_ok {fk fv : PVal → Except Refusal PVal} {d : List (PKey × PVal)} :
    verifyItemsSaying fk fv d = .ok () ↔ ∀ y ∈ d, (∃ w, fk y.1.toVal = .ok w) ∧ ∃ w, fv y.2 = .ok w := by
  induction d with
  | nil => simp [verifyItemsSaying]
  | cons x l ih =>
    rw [verifyItemsSaying, any_bind_ok]
    simp only [any_bind_ok, ih, List.forall_mem_cons]
    constructor
    · rintro ⟨w, h, w2, h2, h3⟩; exact ⟨⟨⟨w, h⟩, w2, h2⟩, h3⟩
    · rintro ⟨⟨⟨w, h⟩, w2, h2⟩, h3⟩; exact ⟨w, h, w2, h2, h3⟩

theorem unit_says_ok {x : Except Refusal Unit} {v w : PVal} : (x >>= fun _ => Except.ok v) = .ok w ↔ w = v ∧ x = .ok () := by
  cases x with
  | error e => simp [bind, Except.bind]
  | ok u => simp [bind, Except.bind, eq_comm]

variable {shows : PVal → Except Exc String} {tname : PVal → String}

theorem verifySaying_ok {t : CType} {v w : PVal} : t.verifySaying shows tname v = .ok w ↔ w = v ∧ Valid t v := by
  induction t generalizing v w with
  | any => simp [CType.verifySaying, Valid, eq_comm]
  | string => cases v <;> simp [CType.verifySaying, Valid, refuse_blaming, eq_comm]
  | path => cases v <;> simp [CType.verifySaying, Valid, refuse_blaming, eq_comm]
  | boolean => cases v <;> simp [CType.verifySaying, Valid, refuse_blaming, eq_comm]
  | list e ih =>
    cases v with
    | list l => simp [CType.verifySaying, unit_says_ok, wrapping_ok, verifyElemsSaying_ok, ih, Valid]
    | _ => simp [CType.verifySaying, Valid, refuse_blaming, eq_comm]
  | dict vt kt ihv ihk =>
    cases v with
    | dict d => simp [CType.verifySaying, unit_says_ok, wrapping_ok, verifyItemsSaying_ok, ihv, ihk, Valid]
    | _ => simp [CType.verifySaying, Valid, refuse_blaming, eq_comm]
  | mergingDict vt kt ihv ihk =>
    cases v with
    | dict d => simp [CType.verifySaying, unit_says_ok, wrapping_ok, verifyItemsSaying_ok, ihv, ihk, Valid]
    | _ => simp [CType.verifySaying, Valid, refuse_blaming]

theorem verifySaying_same {t : CType} {v w : PVal} : t.verifySaying shows tname v = .ok w ↔ t.verify v = .ok w := by
  rw [verifySaying_ok, verify_iff]

theorem readElemsSaying_ok {f : PVal → Except Refusal PVal} {g : PVal → Except Exc PVal} (hfg : ∀ v w, f v = .ok w ↔ g v = .ok w)
    {l r : List PVal} : readElemsSaying f l = .ok r ↔ l.mapM g = .ok r := by
  induction l generalizing r with
  | nil => simp [readElemsSaying, pure, Except.pure]
  | cons x l ih =>
    rw [readElemsSaying, any_bind_ok, List.mapM_cons, Except_bind_ok]
    simp only [any_bind_ok, ih, hfg, pure, Except.pure, Except.ok.injEq]

theorem crashing_ok {α : Type} {x : Except Exc α} {a : α} : crashing x = .ok a ↔ x = .ok a := by
  cases x <;> simp [crashing]

theorem readItemsSaying_ok {fk fv : PVal → Except Refusal PVal} {gk gv : PVal → Except Exc PVal} (hk : ∀ v w, fk v = .ok w ↔ gk v = .ok w)
    (hv : ∀ v w, fv v = .ok w ↔ gv v = .ok w) {l : List (PKey × PVal)} {acc d : Dict PKey PVal} :
    readItemsSaying fk fv acc l = .ok d ↔ convertItems gk gv acc l = .ok d := by
  induction l generalizing acc d with
  | nil => simp [readItemsSaying, convertItems]
  | cons x l ih =>
    obtain ⟨k, v⟩ := x
    rw [readItemsSaying, any_bind_ok, convertItems, Except_bind_ok]
    simp only [any_bind_ok, crashing_ok, ih, hk, hv]

theorem fromYamlSaying_ok {expand : String → String} {t : CType} {v w : PVal} :
    t.fromYamlSaying shows tname expand v = .ok w ↔ t.fromYaml expand v = .ok w := by
  induction t generalizing v w with
  | any => simp [CType.fromYamlSaying, CType.fromYaml]
  | string => exact verifySaying_same
  | boolean => exact verifySaying_same
  | path => cases v <;> simp [CType.fromYamlSaying, CType.fromYaml, refuse_blaming]
  | list e ih =>
    cases v with
    | list l =>
      simp only [CType.fromYamlSaying, CType.fromYaml, any_bind_ok, verifySaying_same,
        readElemsSaying_ok (fun v w => ih (v := v) (w := w))]
    | _ => simp [CType.fromYamlSaying, CType.fromYaml, refuse_blaming]
  | dict vt kt ihv ihk =>
    cases v with
    | dict l =>
      simp only [CType.fromYamlSaying, CType.fromYaml, any_bind_ok, verifySaying_same,
        readItemsSaying_ok (fun v w => ihk (v := v) (w := w)) (fun v w => ihv (v := v) (w := w))]
    | _ => simp [CType.fromYamlSaying, CType.fromYaml, refuse_blaming]
  | mergingDict vt kt ihv ihk =>
    cases v with
    | dict l =>
      simp only [CType.fromYamlSaying, CType.fromYaml, any_bind_ok, verifySaying_same,
        readItemsSaying_ok (fun v w => ihk (v := v) (w := w)) (fun v w => ihv (v := v) (w := w))]
    | _ => simp [CType.fromYamlSaying, CType.fromYaml, refuse_blaming]

theorem readElemsSaying_at {f : PVal → Except Refusal PVal} {pre post : List PVal} {x : PVal} {r : Refusal}
    (hpre : ∀ y ∈ pre, ∃ w, f y = .ok w) (hx : f x = .error r) : readElemsSaying f (pre ++ x :: post) = .error r := by
  induction pre with
  | nil => show readElemsSaying f (x :: post) = _; rw [readElemsSaying, hx]; rfl
  | cons y pre ih =>
    obtain ⟨w, hw⟩ := hpre y (by simp)
    show readElemsSaying f (y :: (pre ++ x :: post)) = _
    rw [readElemsSaying, hw]
    show (readElemsSaying f (pre ++ x :: post) >>= fun r => Except.ok (w :: r)) = _
    rw [ih fun z hz => hpre z (by simp [hz])]; rfl

theorem readElemsSaying_err {f : PVal → Except Refusal PVal} {l : List PVal} {r : Refusal} (h : readElemsSaying f l = .error r) :
    ∃ pre x post, l = pre ++ x :: post ∧ (∀ y ∈ pre, ∃ w, f y = .ok w) ∧ f x = .error r := by
  induction l with
  | nil => cases h
  | cons x l ih =>
    rcases any_bind_err.1 h with h | ⟨w, hw, h⟩
    · exact ⟨[], x, l, rfl, by simp, h⟩
    · rcases any_bind_err.1 h with h | ⟨_, -, h⟩
      · obtain ⟨pre, y, post, rfl, hpre, hy⟩ := ih h
        refine ⟨x :: pre, y, post, rfl, ?_, hy⟩
        intro z hz
        rcases List.mem_cons.1 hz with rfl | hz
        · exact ⟨w, hw⟩
        · exact hpre z hz
      · cases h

/-- What makes an item of a dict fail: its value, or (if the value is read) its key. -/
def ItemFails (fk fv : PVal → Except Refusal PVal) (x : PKey × PVal) (r : Refusal) : Prop :=
  fv x.2 = .error r ∨ (∃ w, fv x.2 = .ok w) ∧ fk x.1.toVal = .error r

theorem readItemsSaying_at {fk fv : PVal → Except Refusal PVal} (hkey : ∀ (k : PKey) w, fk k.toVal = .ok w → ∃ k', keyOfVal w = .ok k')
    {pre post : List (PKey × PVal)} {x : PKey × PVal} {r : Refusal}
    (hpre : ∀ y ∈ pre, (∃ w, fk y.1.toVal = .ok w) ∧ ∃ w, fv y.2 = .ok w) (hx : ItemFails fk fv x r) (acc : Dict PKey PVal) :
    readItemsSaying fk fv acc (pre ++ x :: post) = .error r := by
  induction pre generalizing acc with
  | nil =>
    show readItemsSaying fk fv acc (x :: post) = _
    rw [readItemsSaying]
    rcases hx with hx | ⟨⟨w, hw⟩, hx⟩
    · rw [hx]; rfl
    · rw [hw]
      show (fk x.1.toVal >>= _) = _
      rw [hx]; rfl
  | cons y pre ih =>
    obtain ⟨⟨k, hk⟩, v, hv⟩ := hpre y (by simp)
    obtain ⟨k', hk'⟩ := hkey _ _ hk
    show readItemsSaying fk fv acc (y :: (pre ++ x :: post)) = _
    rw [readItemsSaying, hv]
    show (fk y.1.toVal >>= _) = _
    rw [hk]
    show (crashing (keyOfVal k) >>= _) = _
    rw [hk']
    exact ih (fun z hz => hpre z (by simp [hz])) _

theorem readItemsSaying_err {fk fv : PVal → Except Refusal PVal} (hkey : ∀ (k : PKey) w, fk k.toVal = .ok w → ∃ k', keyOfVal w = .ok k')
    {l : List (PKey × PVal)} {acc : Dict PKey PVal} {r : Refusal} (h : readItemsSaying fk fv acc l = .error r) :
    ∃ pre x post, l = pre ++ x :: post ∧ (∀ y ∈ pre, (∃ w, fk y.1.toVal = .ok w) ∧ ∃ w, fv y.2 = .ok w) ∧ ItemFails fk fv x r := by
  induction l generalizing acc with
  | nil => cases h
  | cons x l ih =>
    rw [readItemsSaying] at h
    rcases any_bind_err.1 h with h | ⟨v, hv, h⟩
    · exact ⟨[], x, l, rfl, by simp, .inl h⟩
    · rcases any_bind_err.1 h with h | ⟨k, hk, h⟩
      · exact ⟨[], x, l, rfl, by simp, .inr ⟨⟨v, hv⟩, h⟩⟩
      · obtain ⟨k', hk'⟩ := hkey _ _ hk
        rw [hk'] at h
        obtain ⟨pre, y, post, rfl, hpre, hy⟩ := ih h
        refine ⟨x :: pre, y, post, rfl, ?_, hy⟩
        intro z hz
        rcases List.mem_cons.1 hz with rfl | hz
        · exact ⟨⟨k, hk⟩, v, hv⟩
        · exact hpre z hz

theorem fromYamlSaying_key {expand : String → String} {kt : CType} (hk : ∀ a b, kt ≠ .mergingDict a b) (k : PKey) (w : PVal)
    (h : kt.fromYamlSaying shows tname expand k.toVal = .ok w) : ∃ k', keyOfVal w = .ok k' := by
  obtain ⟨k', rfl⟩ := fromYaml_key hk (fromYamlSaying_ok.1 h)
  exact ⟨k', PKey.keyOfVal_toVal k'⟩

theorem fromYamlSaying_readable {expand : String → String} {t : CType} (ht : t.KeysOk) {v : PVal} :
    (∃ w, t.fromYamlSaying shows tname expand v = .ok w) ↔ Readable t v := by
  simp only [fromYamlSaying_ok]
  exact fromYaml_ok_iff ht

/-- The verification at the end of reading a list never fails. -/
theorem readElems_verified {expand : String → String} {e : CType} {l l' : List PVal}
    (h : readElemsSaying (e.fromYamlSaying shows tname expand) l = .ok l') : Valid (.list e) (.list l') := by
  have hfa := mapM_ok_iff.1 ((readElemsSaying_ok fun _ _ => fromYamlSaying_ok).1 h)
  refine .inr ⟨l', rfl, ?_⟩
  clear h
  induction hfa with
  | nil => simp
  | cons h _ ih =>
    intro y hy
    rcases List.mem_cons.1 hy with rfl | hy
    · exact fromYaml_valid h
    · exact ih y hy

/-- The verification at the end of reading a dict never fails. -/
theorem readItems_verified {expand : String → String} {vt kt : CType} (hkt : ∀ a b, kt ≠ .mergingDict a b) {d d' : Dict PKey PVal}
    (h : readItemsSaying (kt.fromYamlSaying shows tname expand) (vt.fromYamlSaying shows tname expand) [] d = .ok d') :
    ∀ k x, (k, x) ∈ d' → Valid kt k.toVal ∧ Valid vt x :=
  convertItems_verified hkt ((readItemsSaying_ok (fun _ _ => fromYamlSaying_ok) (fun _ _ => fromYamlSaying_ok)).1 h)

end Verif
