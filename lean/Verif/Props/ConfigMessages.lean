import Verif.Lemmas.ConfigMessages
/-!
# C146: the message about a value of the configuration that is not accepted

`CType.fromYamlSaying` is the model of `from_yaml` with the texts of the exceptions; `shows` is how python shows a value in a text, which raises for some values.
-/
namespace Verif
variable {shows : PVal → Except Exc String} {tname : PVal → String} {expand : String → String}

/-- **C146** What is accepted, and with what value, does not depend on how values are shown. -/
theorem C146_same_verdict {t : CType} {v w : PVal} : t.fromYamlSaying shows tname expand v = .ok w ↔ t.fromYaml expand v = .ok w :=
  fromYamlSaying_ok

private theorem plain {T : String} {x : PVal} {r : Refusal} (h : (refuse shows tname T x : Except Refusal PVal) = .error r) :
    r = blaming shows tname T x := by
  rw [refuse_blaming] at h
  exact (Except.error.inj h).symm

private theorem blamed {t : CType} (ht : t.KeysOk) {v : PVal} {r : Refusal} (h : t.fromYamlSaying shows tname expand v = .error r) :
    ∃ T u, Misfit t v T u ∧ r = blaming shows tname T u := by
  induction t generalizing v r with
  | any => cases h
  | string =>
    cases v with
    | none => cases h
    | str s => cases h
    | _ => exact ⟨_, _, .string (by simp [Readable]), plain h⟩
  | path =>
    cases v with
    | none => cases h
    | str s => cases h
    | _ => exact ⟨_, _, .path (by simp [Readable]), plain h⟩
  | boolean =>
    cases v with
    | none => cases h
    | bool s => cases h
    | _ => exact ⟨_, _, .boolean (by simp [Readable]), plain h⟩
  | list e ih =>
    cases v with
    | none => cases h
    | list l =>
      rcases any_bind_err.1 h with h1 | ⟨l', hl', h1⟩
      · obtain ⟨pre, x, post, rfl, hpre, hx⟩ := readElemsSaying_err h1
        obtain ⟨T, u, hm, hr⟩ := ih ht hx
        exact ⟨T, u, .element (fun y hy => (fromYamlSaying_readable (t := e) ht).1 (hpre y hy)) hm, hr⟩
      · rw [verifySaying_ok.2 ⟨rfl, readElems_verified hl'⟩] at h1
        cases h1
    | _ => exact ⟨_, _, .list (by simp) (by simp), plain h⟩
  | dict vt kt ihv ihk =>
    cases v with
    | none => cases h
    | dict l =>
      rcases any_bind_err.1 h with h1 | ⟨l', hl', h1⟩
      · obtain ⟨pre, ⟨k, x⟩, post, rfl, hpre, hx⟩ := readItemsSaying_err (fromYamlSaying_key ht.2.2) h1
        have hp : ∀ y ∈ pre, Readable kt y.1.toVal ∧ Readable vt y.2 := fun y hy =>
          ⟨(fromYamlSaying_readable ht.2.1).1 (hpre y hy).1, (fromYamlSaying_readable ht.1).1 (hpre y hy).2⟩
        rcases hx with hx | ⟨hw, hx⟩
        · obtain ⟨T, u, hm, hr⟩ := ihv ht.1 hx
          exact ⟨T, u, .value hp hm, hr⟩
        · obtain ⟨T, u, hm, hr⟩ := ihk ht.2.1 hx
          exact ⟨T, u, .key hp ((fromYamlSaying_readable ht.1).1 hw) hm, hr⟩
      · rw [verifySaying_ok.2 ⟨rfl, show Valid (.dict vt kt) (.dict l') from .inr ⟨l', rfl, readItems_verified ht.2.2 hl'⟩⟩] at h1
        cases h1
    | _ => exact ⟨_, _, .dict (by simp) (by simp), plain h⟩
  | mergingDict vt kt ihv ihk =>
    cases v with
    | none => cases h
    | dict l =>
      rcases any_bind_err.1 h with h1 | ⟨l', hl', h1⟩
      · obtain ⟨pre, ⟨k, x⟩, post, rfl, hpre, hx⟩ := readItemsSaying_err (fromYamlSaying_key ht.2.2) h1
        have hp : ∀ y ∈ pre, Readable kt y.1.toVal ∧ Readable vt y.2 := fun y hy =>
          ⟨(fromYamlSaying_readable ht.2.1).1 (hpre y hy).1, (fromYamlSaying_readable ht.1).1 (hpre y hy).2⟩
        rcases hx with hx | ⟨hw, hx⟩
        · obtain ⟨T, u, hm, hr⟩ := ihv ht.1 hx
          exact ⟨T, u, .mergingValue hp hm, hr⟩
        · obtain ⟨T, u, hm, hr⟩ := ihk ht.2.1 hx
          exact ⟨T, u, .mergingKey hp ((fromYamlSaying_readable ht.1).1 hw) hm, hr⟩
      · rw [verifySaying_ok.2 ⟨rfl, show Valid (.mergingDict vt kt) (.dict l') from ⟨l', rfl, readItems_verified ht.2.2 hl'⟩⟩] at h1
        cases h1
    | _ => exact ⟨_, _, .merging (by simp) (by simp), plain h⟩

private theorem misfit_refused {t : CType} (ht : t.KeysOk) {v : PVal} {T : String} {u : PVal} (h : Misfit t v T u) :
    t.fromYamlSaying shows tname expand v = .error (blaming shows tname T u) := by
  induction h with
  | @string v h =>
    cases v with
    | none => exact absurd (.inl rfl) h
    | str s => exact absurd (.inr ⟨s, rfl⟩) h
    | _ => exact refuse_blaming ..
  | @path v h =>
    cases v with
    | none => exact absurd (.inl rfl) h
    | str s => exact absurd (.inr ⟨s, rfl⟩) h
    | _ => exact refuse_blaming ..
  | @boolean v h =>
    cases v with
    | none => exact absurd (.inl rfl) h
    | bool s => exact absurd (.inr ⟨s, rfl⟩) h
    | _ => exact refuse_blaming ..
  | @list e v h1 h2 =>
    cases v with
    | none => exact absurd rfl h1
    | list l => exact absurd rfl (h2 l)
    | _ => exact refuse_blaming ..
  | @element e _ _ _ _ _ hpre _ ih =>
    exact any_bind_err.2 (.inl (readElemsSaying_at (fun y hy => (fromYamlSaying_readable (t := e) ht).2 (hpre y hy)) (ih ht)))
  | @dict vt kt v h1 h2 =>
    cases v with
    | none => exact absurd rfl h1
    | dict l => exact absurd rfl (h2 l)
    | _ => exact refuse_blaming ..
  | value hpre _ ih =>
    exact any_bind_err.2 (.inl (readItemsSaying_at (fromYamlSaying_key ht.2.2) (fun y hy =>
      ⟨(fromYamlSaying_readable ht.2.1).2 (hpre y hy).1, (fromYamlSaying_readable ht.1).2 (hpre y hy).2⟩) (.inl (ih ht.1)) []))
  | key hpre hx _ ih =>
    exact any_bind_err.2 (.inl (readItemsSaying_at (fromYamlSaying_key ht.2.2) (fun y hy =>
      ⟨(fromYamlSaying_readable ht.2.1).2 (hpre y hy).1, (fromYamlSaying_readable ht.1).2 (hpre y hy).2⟩)
      (.inr ⟨(fromYamlSaying_readable ht.1).2 hx, ih ht.2.1⟩) []))
  | @merging vt kt v h1 h2 =>
    cases v with
    | none => exact absurd rfl h1
    | dict l => exact absurd rfl (h2 l)
    | _ => exact refuse_blaming ..
  | mergingValue hpre _ ih =>
    exact any_bind_err.2 (.inl (readItemsSaying_at (fromYamlSaying_key ht.2.2) (fun y hy =>
      ⟨(fromYamlSaying_readable ht.2.1).2 (hpre y hy).1, (fromYamlSaying_readable ht.1).2 (hpre y hy).2⟩) (.inl (ih ht.1)) []))
  | mergingKey hpre hx _ ih =>
    exact any_bind_err.2 (.inl (readItemsSaying_at (fromYamlSaying_key ht.2.2) (fun y hy =>
      ⟨(fromYamlSaying_readable ht.2.1).2 (hpre y hy).1, (fromYamlSaying_readable ht.1).2 (hpre y hy).2⟩)
      (.inr ⟨(fromYamlSaying_readable ht.1).2 hx, ih ht.2.1⟩) []))

/-- **C146** A value that is not accepted is refused for the first thing inside it that does not have its type, and nothing else: the message names that thing, its type
and the type it should have. -/
theorem C146_blames_first {t : CType} (ht : t.KeysOk) {v : PVal} {r : Refusal} :
    t.fromYamlSaying shows tname expand v = .error r ↔ ∃ T u, Misfit t v T u ∧ r = blaming shows tname T u := by
  constructor
  · exact blamed ht
  · rintro ⟨T, u, hm, rfl⟩
    exact misfit_refused ht hm

/-- **C146** There is something to blame exactly in the values that a config file may not give for an option of the type. -/
theorem C146_something_to_blame {t : CType} (ht : t.KeysOk) {v : PVal} : (∃ T u, Misfit t v T u) ↔ ¬Readable t v := by
  let sh : PVal → Except Exc String := fun _ => .ok ""
  let ty : PVal → String := fun _ => ""
  rw [← fromYamlSaying_readable (shows := sh) (tname := ty) (expand := id) ht]
  constructor
  · rintro ⟨T, u, hm⟩ ⟨w, hw⟩
    rw [misfit_refused ht hm] at hw
    cases hw
  · intro h
    rcases hv : t.fromYamlSaying sh ty id v with r | w
    · obtain ⟨T, u, hm, -⟩ := blamed ht hv
      exact ⟨T, u, hm⟩
    · exact absurd ⟨w, hv⟩ h

/-- **C146** (the part that holds) If every value can be shown, a value that is not accepted is refused with a `ConfigValueError` with one message, and nothing else is raised. -/
theorem C146_message_partial {t : CType} (ht : t.KeysOk) (hshow : ∀ u, ∃ text, shows u = .ok text) {v : PVal} (hv : ¬Readable t v) :
    ∃ T u text, Misfit t v T u ∧ shows u = .ok text ∧ t.fromYamlSaying shows tname expand v =
      .error (.message ["Expected type '" ++ T ++ "', but got '" ++ text ++ "' of type '" ++ tname u ++ "'."]) := by
  obtain ⟨T, u, hm⟩ := (C146_something_to_blame ht).2 hv
  obtain ⟨text, hu⟩ := hshow u
  refine ⟨T, u, text, hm, hu, ?_⟩
  rw [misfit_refused ht hm]
  simp [blaming, hu]

/-- **C146** (refuted) A byte string (`!!binary` in YAML) that is not ASCII is not refused for an option that is a text, a path, a boolean, a list or a dict: the message
cannot be formed, and the `UnicodeDecodeError` (a `ValueError`) of that is raised instead of a `ConfigValueError`. -/
theorem C146_binary_refuted (tname : PVal → String) (expand : String → String) {t : CType} (ht : t ≠ .any) {b : Bytes} (hb : ∃ x ∈ b, 128 ≤ x) {n : Nat}
    (hn : shows (.other n) = showBytes b) : t.fromYamlSaying shows tname expand (.other n) = .error (.crash .valueError) := by
  have hs : shows (.other n) = .error .valueError := by
    obtain ⟨x, hx, h128⟩ := hb
    have : isAscii b = false := by
      unfold isAscii
      rw [List.all_eq_false]
      exact ⟨x, hx, by simpa using h128⟩
    rw [hn, showBytes, decodeAscii, this]; rfl
  have hbl : ∀ T, (refuse shows tname T (.other n) : Except Refusal PVal) = .error (.crash .valueError) := by
    intro T
    rw [refuse_blaming]
    simp [blaming, hs]
  cases t with
  | any => exact absurd rfl ht
  | _ => exact hbl _

/-- **C146** Refused by `verify` for something deep inside, the message says so for every list and dict around it, and in the end names it. -/
theorem C146_verify_chain {t : CType} {v : PVal} {r : Refusal} (h : t.verifySaying shows tname v = .error r) :
    ∃ chain T u, Within t v chain T u ∧ r = (blaming shows tname T u).inside chain := by
  have nil : ∀ r : Refusal, r.inside [] = r := fun r => by cases r <;> rfl
  have wrapped : ∀ {m : String} {x : Except Refusal Unit} {w : PVal} {r : Refusal}, (wrapping m x >>= fun _ => Except.ok w) = .error r →
      ∃ r', x = .error r' ∧ r = r'.inside [m] := by
    intro m x w r h
    rcases x with r' | u
    · cases r' with
      | message l => cases h; exact ⟨_, rfl, rfl⟩
      | crash e => cases h; exact ⟨_, rfl, rfl⟩
    · cases h
  have inside : ∀ (r : Refusal) (m : String) (l : List String), (r.inside l).inside [m] = r.inside (m :: l) := fun r m l => by
    cases r <;> rfl
  have elems : ∀ {f : PVal → Except Refusal PVal} {l : List PVal} {r : Refusal}, verifyElemsSaying f l = .error r → ∃ x ∈ l, f x = .error r := by
    intro f l r h
    induction l with
    | nil => cases h
    | cons x l ih =>
      rcases any_bind_err.1 h with h | ⟨_, -, h⟩
      · exact ⟨x, by simp, h⟩
      · obtain ⟨y, hy, he⟩ := ih h
        exact ⟨y, by simp [hy], he⟩
  have items : ∀ {fk fv : PVal → Except Refusal PVal} {l : List (PKey × PVal)} {r : Refusal}, verifyItemsSaying fk fv l = .error r →
      ∃ y ∈ l, fk y.1.toVal = .error r ∨ fv y.2 = .error r := by
    intro fk fv l r h
    induction l with
    | nil => cases h
    | cons x l ih =>
      rcases any_bind_err.1 h with h | ⟨_, -, h⟩
      · exact ⟨x, by simp, .inl h⟩
      · rcases any_bind_err.1 h with h | ⟨_, -, h⟩
        · exact ⟨x, by simp, .inr h⟩
        · obtain ⟨y, hy, he⟩ := ih h
          exact ⟨y, by simp [hy], he⟩
  induction t generalizing v r with
  | any => cases h
  | string =>
    cases v with
    | none => cases h
    | str s => cases h
    | _ => exact ⟨_, _, _, .string (by simp [Valid]), by rw [nil]; exact plain h⟩
  | path =>
    cases v with
    | none => cases h
    | str s => cases h
    | _ => exact ⟨_, _, _, .path (by simp [Valid]), by rw [nil]; exact plain h⟩
  | boolean =>
    cases v with
    | none => cases h
    | bool s => cases h
    | _ => exact ⟨_, _, _, .boolean (by simp [Valid]), by rw [nil]; exact plain h⟩
  | list e ih =>
    cases v with
    | none => cases h
    | list l =>
      obtain ⟨r', h1, rfl⟩ := wrapped h
      obtain ⟨x, hx, h2⟩ := elems h1
      obtain ⟨chain, T, u, hw, rfl⟩ := ih h2
      exact ⟨_, T, u, .element hx hw, inside ..⟩
    | _ => exact ⟨_, _, _, .list (by simp) (by simp), by rw [nil]; exact plain h⟩
  | dict vt kt ihv ihk =>
    cases v with
    | none => cases h
    | dict l =>
      obtain ⟨r', h1, rfl⟩ := wrapped h
      obtain ⟨y, hy, h2 | h2⟩ := items h1
      · obtain ⟨chain, T, u, hw, rfl⟩ := ihk h2
        exact ⟨_, T, u, .key hy hw, inside ..⟩
      · obtain ⟨chain, T, u, hw, rfl⟩ := ihv h2
        exact ⟨_, T, u, .value hy hw, inside ..⟩
    | _ => exact ⟨_, _, _, .dict (by simp) (by simp), by rw [nil]; exact plain h⟩
  | mergingDict vt kt ihv ihk =>
    cases v with
    | dict l =>
      obtain ⟨r', h1, rfl⟩ := wrapped h
      obtain ⟨y, hy, h2 | h2⟩ := items h1
      · obtain ⟨chain, T, u, hw, rfl⟩ := ihk h2
        exact ⟨_, T, u, .mergingKey hy hw, inside ..⟩
      · obtain ⟨chain, T, u, hw, rfl⟩ := ihv h2
        exact ⟨_, T, u, .mergingValue hy hw, inside ..⟩
    | _ => exact ⟨_, _, _, .merging (by simp), by rw [nil]; exact plain h⟩

/-- **C146** `verify` accepts exactly the valid values, whatever can be shown. -/
theorem C146_verify_accepts {t : CType} {v w : PVal} : t.verifySaying shows tname v = .ok w ↔ w = v ∧ Valid t v := verifySaying_ok

/-! ## Not vacuous -/

/-- How values are shown in the examples: `other 0` is the byte string `\xff`. -/
def exShows : PVal → Except Exc String
  | .str s => .ok s
  | .int i => .ok (toString i)
  | .bool b => .ok (if b then "True" else "False")
  | .other 0 => showBytes [0xff]
  | _ => .ok "?"

/-- Names of types in the examples. -/
def exTname : PVal → String
  | .str _ => "unicode"
  | .int _ => "int"
  | .bool _ => "bool"
  | .list _ => "list"
  | .other _ => "str"
  | _ => "?"

example : (CType.mergingDict (.list .string) .string).fromYamlSaying exShows exTname id
    (.dict [(.str "a", .list [.str "apt"]), (.str "b", .list [.str "pip", .int 3, .bool true])]) =
    .error (.message ["Expected type 'string', but got '3' of type 'int'."]) := by rfl

example : Misfit (.mergingDict (.list .string) .string)
    (.dict [(.str "a", .list [.str "apt"]), (.str "b", .list [.str "pip", .int 3, .bool true])]) "string" (.int 3) :=
  .mergingValue (pre := [(.str "a", .list [.str "apt"])]) (post := []) (by simp [Readable, PKey.toVal])
    (.element (pre := [.str "pip"]) (post := [.bool true]) (by simp [Readable]) (.string (by simp [Readable])))

example : (CType.list (.list .boolean)).verifySaying exShows exTname (.list [.none, .list [.str "x"]]) =
    .error (.message ["invalid list element", "invalid list element", "Expected type 'bool', but got 'x' of type 'unicode'."]) := by rfl

example : (CType.list .string).fromYamlSaying exShows exTname id (.list [.str "a", .other 0]) = .error (.crash .valueError) := by rfl

end Verif
