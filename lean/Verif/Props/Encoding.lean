import Verif.Spec.Encoding
import Verif.Lemmas.Encoding
import Verif.Props.ConfigNames
import Verif.Props.Text
/-! # C113, C114: text, bytes and the text of exceptions -/
namespace Verif

theorem validUtf8_iff (b : Bytes) : ValidUtf8 b ↔ ∃ t, b = encodeUtf8 t := by
  constructor
  · rintro ⟨t, h⟩
    refine ⟨t, ?_⟩
    have := congrArg (fun x => x.data.toList) h
    simpa [List.utf8Encode, encodeUtf8] using this
  · rintro ⟨t, rfl⟩
    exact ⟨t, rfl⟩

/-- **C113** Text that is encoded and decoded again is the same text. -/
theorem C113_text_survives (skip : Bytes → Nat) (strOf : PyObj → Bytes) (t : List Char) :
    ∃ b, toBytes strOf (.text t) = .ok (some b) ∧ ValidUtf8 b ∧ toStr skip (.bytes b) = .ok t :=
  ⟨encodeUtf8 t, rfl, (validUtf8_iff _).2 ⟨t, rfl⟩, congrArg Except.ok (decode_encode skip t)⟩

/-- **C113** Bytes that are decoded and encoded again are the same bytes exactly if they are valid UTF-8. -/
theorem C113_bytes_survive_iff (skip : Bytes → Nat) (strOf : PyObj → Bytes) (b : Bytes) :
    (∃ t, toStr skip (.bytes b) = .ok t ∧ toBytes strOf (.text t) = .ok (some b)) ↔ ValidUtf8 b := by
  rw [validUtf8_iff]
  constructor
  · rintro ⟨t, -, h⟩
    exact ⟨t, by injection h with h; injection h with h; exact h.symm⟩
  · rintro ⟨t, rfl⟩
    exact ⟨t, congrArg Except.ok (decode_encode skip t), rfl⟩

/-- **C113** The valid beginning of a byte string is decoded as it is, and if the rest is not empty and begins with no character, U+FFFD stands in its place: a text
decoded from bytes that are not valid UTF-8 contains U+FFFD. -/
theorem C113_valid_part_kept (skip : Bytes → Nat) (t : List Char) (b : Bytes) :
    ∃ r, toStr skip (.bytes (encodeUtf8 t ++ b)) = .ok (t ++ r) ∧ toStr skip (.bytes b) = .ok r :=
  ⟨decodeUtf8 skip b, congrArg Except.ok (decode_encode_append skip t b), rfl⟩

/-- **C113** Damage is visible: decoding bytes that are not valid UTF-8 gives a text with U+FFFD, after the longest valid beginning. -/
theorem C113_damage_visible (skip : Bytes → Nat) (b : Bytes) (h : ¬ ValidUtf8 b) :
    ∃ t r u, b = encodeUtf8 t ++ r ∧ toStr skip (.bytes b) = .ok (t ++ '\uFFFD' :: u) := by
  rw [validUtf8_iff] at h
  rcases split_valid b with hv | ⟨t, r, e, h1, h2⟩
  · exact absurd hv h
  · refine ⟨t, r, decodeUtf8 skip (r.drop (1 + skip r)), e, ?_⟩
    show Except.ok (decodeUtf8 skip b) = _
    rw [e, decode_encode_append, decode_step_none skip h1 h2]

/-- **C113** Converting twice is converting once. -/
theorem C113_idempotent (skip : Bytes → Nat) (strOf : PyObj → Bytes) (x : PyObj) :
    (∀ t, toStr skip x = .ok t → toStr skip (.text t) = .ok t) ∧
    (∀ b, toBytes strOf x = .ok (some b) → toBytes strOf (.bytes b) = .ok (some b)) :=
  ⟨fun _ _ => rfl, fun _ _ => rfl⟩

/-- **C113** Texts, byte strings, classes and lists of texts are converted without an exception. -/
theorem C113_total (skip : Bytes → Nat) (x : PyObj) (h : (∃ t, x = .text t) ∨ (∃ b, x = .bytes b) ∨ (∃ n, x = .cls n) ∨ ∃ l, x = .textList l) :
    ∃ t, toStr skip x = .ok t := by
  rcases h with ⟨t, rfl⟩ | ⟨b, rfl⟩ | ⟨n, rfl⟩ | ⟨l, rfl⟩ <;> exact ⟨_, rfl⟩

/-- **C113** The name of a class with an ordinary name. -/
theorem C113_type_name (skip : Bytes → Nat) (name : List Char) : typeName skip (encodeUtf8 name) = .ok name :=
  congrArg Except.ok (decode_encode skip name)

/-- The first text or byte string among what `str(obj)`, `obj.__str__()` and `obj.__unicode__()` give, each asked only if those before could not answer. -/
def FirstAnswer (uni str dunderStr r : MethodResult) : Prop :=
  let silent := fun x : MethodResult => x = .attributeError ∨ x = .unicodeError
  str = r ∨ (str = .unicodeError ∧ (dunderStr = r ∨ (silent dunderStr ∧ uni = r)))

/-- **C113** Other objects as byte strings: a byte string is returned as it is, a text is encoded (decoding gives it back); if no method can answer the result is
empty. -/
theorem C113_bytes_of_objects (skip : Bytes → Nat) (strOf : PyObj → Bytes) (uni str dunderStr : MethodResult) :
    (∀ b, FirstAnswer uni str dunderStr (.bytes b) → toBytes strOf (.other uni str dunderStr) = .ok (some b)) ∧
    (∀ t, FirstAnswer uni str dunderStr (.text t) → ∃ b, toBytes strOf (.other uni str dunderStr) = .ok (some b) ∧ ValidUtf8 b ∧
      toStr skip (.bytes b) = .ok t) ∧
    (str = .unicodeError → (dunderStr = .attributeError ∨ dunderStr = .unicodeError) → (uni = .attributeError ∨ uni = .unicodeError) →
      toBytes strOf (.other uni str dunderStr) = .ok (some [])) := by
  refine ⟨?_, ?_, ?_⟩
  · rintro b (rfl | ⟨rfl, rfl | ⟨rfl | rfl, rfl⟩⟩) <;> rfl
  · intro t h
    refine ⟨encodeUtf8 t, ?_, (validUtf8_iff _).2 ⟨t, rfl⟩, congrArg Except.ok (decode_encode skip t)⟩
    rcases h with rfl | ⟨rfl, rfl | ⟨rfl | rfl, rfl⟩⟩ <;> rfl
  · rintro rfl (rfl | rfl) (rfl | rfl) <;> rfl

example : FirstAnswer (.text ['é']) .unicodeError .unicodeError (.text ['é']) := .inr ⟨rfl, .inr ⟨.inr rfl, rfl⟩⟩

/-- **C113** Other objects: if their methods give texts or byte strings, or raise `UnicodeError` (or, `__unicode__`, `AttributeError` or `TypeError`), there is no
exception. Missing from the full claim: see `C113_objects_refuted`. -/
theorem C113_objects_partial (skip : Bytes → Nat) (uni str dunderStr : MethodResult)
    (hu : Tame uni ∨ uni = .attributeError ∨ uni = .typeError ∨ uni = .none) (hs : Tame str) (hd : Tame dunderStr ∨ dunderStr = .attributeError) :
    ∃ t, toStr skip (.other uni str dunderStr) = .ok t := by
  have key : ∃ t, ensureText skip (strOrDunder str dunderStr) = .ok t := by
    cases str <;> simp only [Tame] at hs <;> try exact hs.elim
    · exact ⟨_, rfl⟩
    · exact ⟨_, rfl⟩
    · cases dunderStr <;> simp only [Tame, reduceCtorEq, or_false, or_true] at hd <;> try exact hd.elim
      all_goals exact ⟨_, rfl⟩
  show ∃ t, toStrOther skip uni str dunderStr = .ok t
  cases uni <;> simp only [Tame, reduceCtorEq, or_false, or_true] at hu <;> first | exact key | exact ⟨_, rfl⟩

/-- **C113, refutation** An object whose `__str__` (or `__unicode__`) raises anything else makes `to_str`, and with it every log function, raise the same;
one whose methods give something that is no text makes it raise a TypeError. -/
theorem C113_objects_refuted (skip : Bytes → Nat) (before after : List Char) (str dunderStr : MethodResult) (e : Exc) :
    toStr skip (.other (.raises e) str dunderStr) = .error e ∧
    toStr skip (.other .attributeError (.raises e) dunderStr) = .error e ∧
    printed skip before after (.other .attributeError (.raises e) dunderStr) = .error e ∧
    toStr skip (.other .object str dunderStr) = .error .typeError ∧
    toStr skip (.other .attributeError .unicodeError .none) = .error .typeError :=
  ⟨rfl, rfl, rfl, rfl, rfl⟩

/-- **C113** What the log functions print for a text: decoding the output gives the escape sequences and exactly the text. -/
theorem C113_printed_text (skip : Bytes → Nat) (before after t : List Char) :
    ∃ b, printed skip before after (.text t) = .ok b ∧ ValidUtf8 b ∧ decodeUtf8 skip b = before ++ t ++ after :=
  ⟨encodeUtf8 (before ++ t ++ after), rfl, (validUtf8_iff _).2 ⟨_, rfl⟩, decode_encode skip _⟩

/-- **C113** Different texts are printed differently. -/
theorem C113_printed_injective (skip : Bytes → Nat) (before after s t : List Char)
    (h : printed skip before after (.text s) = printed skip before after (.text t)) : s = t := by
  have e : encodeUtf8 (before ++ s ++ after) = encodeUtf8 (before ++ t ++ after) := by
    have h' : (Except.ok (encodeUtf8 (before ++ s ++ after)) : Except Exc Bytes) = .ok (encodeUtf8 (before ++ t ++ after)) := h
    injection h'
  exact List.append_cancel_left (List.append_cancel_right (encode_injective e))

/-! ### Lists -/

/-- **C113, refutation** Different lists of texts can look the same. -/
theorem C113_lists_look_alike_refuted (skip : Bytes → Nat) :
    toStr skip (.textList ["a".toList, "b".toList]) = toStr skip (.textList ["a, b".toList]) ∧
    toStr skip (.textList []) = toStr skip (.textList [[]]) := by
  constructor <;> rfl

theorem pyJoin_comma : ∀ l : List (List Char), l ≠ [] → pyJoin [',', ' '] l = joinWith ',' (l.head! :: l.tail.map (fun x => ' ' :: x))
  | [], h => absurd rfl h
  | [x], _ => by simp [pyJoin, joinWith]
  | x :: y :: t, _ => by
    rw [pyJoin, pyJoin_comma (y :: t) (by simp)]
    cases t <;> simp [joinWith]

/-- **C113** Lists that are not empty and have no item with a comma are told apart. -/
theorem C113_lists_partial (skip : Bytes → Nat) (l m : List (List Char)) (hl : l ≠ []) (hm : m ≠ [])
    (cl : ∀ x ∈ l, ',' ∉ x) (cm : ∀ x ∈ m, ',' ∉ x)
    (h : toStr skip (.textList l) = toStr skip (.textList m)) : l = m := by
  have e : pyJoin [',', ' '] l = pyJoin [',', ' '] m := by
    have h' : (Except.ok (bracketed l) : Except Exc (List Char)) = .ok (bracketed m) := h
    injection h' with h'
    unfold bracketed at h'
    injection h' with _ h'
    exact List.append_cancel_right h'
  rw [pyJoin_comma l hl, pyJoin_comma m hm] at e
  cases l with
  | nil => exact absurd rfl hl
  | cons a l =>
    cases m with
    | nil => exact absurd rfl hm
    | cons b m =>
      have e2 := congrArg (pySplit ',') e
      have fl : ∀ (x : List Char) (k : List (List Char)), (∀ y ∈ x :: k, ',' ∉ y) → ∀ y ∈ x :: k.map (fun z => ' ' :: z), ',' ∉ y := by
        intro x k hk y hy
        rcases List.mem_cons.1 hy with rfl | hy
        · exact hk _ (by simp)
        · obtain ⟨z, hz, rfl⟩ := List.mem_map.1 hy
          have := hk z (List.mem_cons_of_mem _ hz)
          simp [this]
      simp only [List.head!_cons, List.tail_cons] at e2
      rw [pySplit_join (by simp) (fl a l cl), pySplit_join (by simp) (fl b m cm)] at e2
      injection e2 with e2 e3
      subst e2
      have : l = m := by
        have := congrArg (List.map List.tail) e3
        simpa [Function.comp_def] using this
      rw [this]

/-! ## C114 -/

theorem isAscii_iff (b : Bytes) : isAscii b = true ↔ AsciiBytes b := by
  simp [isAscii, AsciiBytes, UInt8.lt_iff_toNat_lt]

theorem decodeAscii_ok {b : Bytes} (h : AsciiBytes b) : decodeAscii b = .ok (asciiChars b) := by
  simp [decodeAscii, (isAscii_iff b).2 h, asciiChars]

theorem decodeAscii_error {b : Bytes} (h : ¬ AsciiBytes b) : decodeAscii b = .error .valueError := by
  have : isAscii b = false := by
    cases hb : isAscii b with
    | false => rfl
    | true => exact absurd ((isAscii_iff b).1 hb) h
  simp [decodeAscii, this]

theorem ascii_append (a b : Bytes) : AsciiBytes (a ++ b) ↔ AsciiBytes a ∧ AsciiBytes b := by
  simp only [AsciiBytes, List.mem_append]
  exact ⟨fun h => ⟨fun x hx => h x (.inl hx), fun x hx => h x (.inr hx)⟩, fun h x hx => hx.elim (h.1 x) (h.2 x)⟩

theorem hexDigit_ascii (n : Nat) : (hexDigit n).toNat < 128 := by
  unfold hexDigit
  have : n % 16 < 16 := Nat.mod_lt _ (by omega)
  by_cases h : n % 16 < 10 <;> simp [h] <;> omega

theorem hexDigits_ascii (k n : Nat) : AsciiBytes (hexDigits k n) := by
  induction k generalizing n with
  | zero => intro x hx; cases hx
  | succ k ih =>
    rw [hexDigits, ascii_append]
    exact ⟨ih _, fun x hx => by rw [List.mem_singleton.1 hx]; exact hexDigit_ascii n⟩

theorem escapeChar_ascii (c : Char) : AsciiBytes (escapeChar c) := by
  unfold escapeChar
  by_cases h1 : c.toNat < 128
  · rw [if_pos h1]
    intro x hx
    rw [List.mem_singleton.1 hx]
    simp; omega
  · rw [if_neg h1]
    have h92 : ∀ (y : UInt8) (l : Bytes), y.toNat < 128 → AsciiBytes l → AsciiBytes (92 :: y :: l) := by
      intro y l hy hl x hx
      rcases List.mem_cons.1 hx with rfl | hx
      · decide
      · rcases List.mem_cons.1 hx with rfl | hx
        · exact hy
        · exact hl x hx
    by_cases h2 : c.toNat < 256
    · rw [if_pos h2]; exact h92 _ _ (by decide) (hexDigits_ascii _ _)
    · rw [if_neg h2]
      by_cases h3 : c.toNat < 65536
      · rw [if_pos h3]; exact h92 _ _ (by decide) (hexDigits_ascii _ _)
      · rw [if_neg h3]; exact h92 _ _ (by decide) (hexDigits_ascii _ _)

theorem someStr_ascii (m : ExcMsg) : AsciiBytes (someStr m) ↔ PrintableMsg m := by
  cases m with
  | text t =>
    refine ⟨fun _ => trivial, fun _ x hx => ?_⟩
    obtain ⟨c, _, hx⟩ := List.mem_flatMap.1 hx
    exact escapeChar_ascii c x hx
  | bytes b => exact Iff.rfl

theorem finalLine_ascii (e : ExcObj) : AsciiBytes (finalLine e) ↔ Printable e := by
  have h10 : AsciiBytes [10] := by intro x hx; rw [List.mem_singleton.1 hx]; decide
  have h58 : AsciiBytes [58, 32] := by
    intro x hx
    rcases List.mem_cons.1 hx with rfl | hx
    · decide
    · rw [List.mem_singleton.1 hx]; decide
  unfold finalLine Printable
  rw [← someStr_ascii]
  by_cases h : someStr e.msg = []
  · rw [if_pos h, ascii_append, h]
    exact ⟨fun x => ⟨x.1, fun y hy => by cases hy⟩, fun x => ⟨x.1, h10⟩⟩
  · rw [if_neg h, ascii_append, ascii_append, ascii_append]
    exact ⟨fun x => ⟨x.1.1.1, x.1.2⟩, fun x => ⟨⟨⟨x.1, h58⟩, x.2⟩, h10⟩⟩

/-- **C114** Making text of an exception raises exactly if a byte of its name or message is not ASCII, and then it raises a
`UnicodeDecodeError`. -/
theorem C114_raises_iff (skip : Bytes → Nat) (e : ExcObj) :
    ((∃ t, toStr skip (.exc e) = .ok t) ↔ Printable e) ∧ (¬ Printable e → toStr skip (.exc e) = .error .valueError) := by
  have hn : ¬ Printable e → toStr skip (.exc e) = .error .valueError := by
    intro h
    show toStrExc e = _
    unfold toStrExc
    rw [decodeAscii_error (fun h' => h ((finalLine_ascii e).1 h'))]
    rfl
  refine ⟨⟨fun ⟨t, ht⟩ => ?_, fun h => ?_⟩, hn⟩
  · apply Classical.byContradiction
    intro h
    rw [hn h] at ht
    cases ht
  · refine ⟨dropNewline (asciiChars (finalLine e)), ?_⟩
    show toStrExc e = _
    unfold toStrExc
    rw [decodeAscii_ok ((finalLine_ascii e).2 h)]
    rfl

theorem asciiChars_append (a b : Bytes) : asciiChars (a ++ b) = asciiChars a ++ asciiChars b := by simp [asciiChars]

theorem escape_ascii_text {t : List Char} (h : AsciiText t) : asciiChars (t.flatMap escapeChar) = t := by
  induction t with
  | nil => rfl
  | cons c t ih =>
    have hc : c.toNat < 128 := h c (by simp)
    rw [List.flatMap_cons, asciiChars_append, ih (fun x hx => h x (List.mem_cons_of_mem _ hx))]
    have : asciiChars (escapeChar c) = [c] := by
      unfold escapeChar
      rw [if_pos hc]
      have hm : c.toNat % 256 = c.toNat := Nat.mod_eq_of_lt (by omega)
      simp [asciiChars, hm]
    rw [this]; rfl

theorem dropNewline_snoc (s : List Char) : dropNewline (s ++ ['\n']) = s := by simp [dropNewline]

/-- **C114** An exception with an ASCII message: name, colon, message. -/
theorem C114_ascii_message_partial (skip : Bytes → Nat) (cls : Bytes) (t : List Char) (hc : AsciiBytes cls) (ht : AsciiText t) (hne : t ≠ []) :
    toStr skip (.exc ⟨cls, .text t⟩) = .ok (asciiChars cls ++ ": ".toList ++ t) := by
  have hp : Printable ⟨cls, .text t⟩ := ⟨hc, trivial⟩
  show toStrExc _ = _
  unfold toStrExc
  rw [decodeAscii_ok ((finalLine_ascii _).2 hp)]
  have hs : someStr (.text t) ≠ [] := by
    intro h
    have := escape_ascii_text ht
    rw [show someStr (.text t) = t.flatMap escapeChar from rfl] at h
    rw [h] at this
    exact hne this.symm
  show Except.ok (dropNewline (asciiChars (finalLine ⟨cls, .text t⟩))) = _
  unfold finalLine
  rw [if_neg hs]
  have e : asciiChars (cls ++ [58, 32] ++ someStr (.text t) ++ [10]) = (asciiChars cls ++ ": ".toList ++ t) ++ ['\n'] := by
    rw [asciiChars_append, asciiChars_append, asciiChars_append]
    rw [show asciiChars (someStr (.text t)) = t from escape_ascii_text ht]
    rfl
  rw [e, dropNewline_snoc]

theorem asciiChars_ascii {b : Bytes} (h : AsciiBytes b) : AsciiText (asciiChars b) := by
  intro c hc
  obtain ⟨x, hx, rfl⟩ := List.mem_map.1 hc
  have := h x hx
  have hv : x.toNat.isValidChar := .inl (by omega)
  have e : (Char.ofNat x.toNat).toNat = x.toNat := by
    unfold Char.ofNat
    rw [dif_pos hv]
    rfl
  rw [e]
  exact this

/-- **C114, refutation** A message with a character that is not ASCII is never shown: whatever text is made of the exception has only ASCII characters, so the
message is not part of it. -/
theorem C114_other_message_refuted (skip : Bytes → Nat) (e : ExcObj) (t s : List Char) (h : toStr skip (.exc e) = .ok s) (ht : ¬ AsciiText t) :
    ¬ ∃ a b, s = a ++ t ++ b := by
  have hp := (C114_raises_iff skip e).1.1 ⟨s, h⟩
  have hs : AsciiText s := by
    have h' : toStrExc e = .ok s := h
    unfold toStrExc at h'
    rw [decodeAscii_ok ((finalLine_ascii e).2 hp)] at h'
    have h'' : dropNewline (asciiChars (finalLine e)) = s := by injection h'
    rw [← h'']
    intro c hc
    refine asciiChars_ascii ((finalLine_ascii e).2 hp) c ?_
    unfold dropNewline at hc
    split at hc
    · exact (List.dropLast_sublist _).subset hc
    · exact hc
  rintro ⟨a, b, rfl⟩
  exact ht fun c hc => hs c (by simp [hc])

/-- **C114** `exc_to_str` of a chain of exceptions: no exception exactly if no part of the chain has a byte that is not ASCII, and then the text of C63. -/
theorem C114_chain (e : ExcObj) (causes : List ExcObj) :
    ((∀ x ∈ e :: causes, Printable x) → excObjToStr e causes =
        .ok (excToStr false false true ⟨asciiChars (finalLine e), [], false⟩ (causes.map fun x => ⟨asciiChars (finalLine x), [], false⟩))) ∧
    ((∃ x ∈ e :: causes, ¬ Printable x) → excObjToStr e causes = .error .valueError) := by
  have hm : ∀ l : List ExcObj, (∀ x ∈ l, Printable x) → l.mapM formatNoChain = .ok (l.map fun x => asciiChars (finalLine x)) := by
    intro l
    induction l with
    | nil => intro _; rfl
    | cons x l ih =>
      intro h
      rw [List.mapM_cons, ih (fun y hy => h y (List.mem_cons_of_mem _ hy))]
      unfold formatNoChain
      rw [decodeAscii_ok ((finalLine_ascii x).2 (h x (by simp)))]
      rfl
  have hr : ∀ l : List ExcObj, (∃ x ∈ l, ¬ Printable x) → l.mapM formatNoChain = .error .valueError := by
    intro l
    induction l with
    | nil => rintro ⟨x, hx, _⟩; cases hx
    | cons x l ih =>
      intro h
      rw [List.mapM_cons]
      by_cases hx : Printable x
      · obtain ⟨y, hy, hp⟩ := h
        rcases List.mem_cons.1 hy with rfl | hy
        · exact absurd hx hp
        · rw [ih ⟨y, hy, hp⟩]
          unfold formatNoChain
          rw [decodeAscii_ok ((finalLine_ascii x).2 hx)]
          rfl
      · unfold formatNoChain
        rw [decodeAscii_error (fun h' => hx ((finalLine_ascii x).1 h'))]
        rfl
  constructor
  · intro h
    unfold excObjToStr
    rw [hm _ h]
    simp [List.map_cons, pure, Except.pure, bind, Except.bind, Function.comp_def]
  · intro h
    unfold excObjToStr
    rw [hr _ h]
    rfl

/-! ### Examples -/

/-- `ü` is encoded as two bytes. -/
example : encodeUtf8 "ü".toList = [0xc3, 0xbc] := by decide +kernel

example : ¬ ValidUtf8 [0xc3] := by
  intro h
  obtain ⟨t, ht⟩ := (C113_bytes_survive_iff (fun _ => 0) (fun _ => []) [0xc3]).2 h
  have e : decodeUtf8 (fun _ => 0) [0xc3] = ['\uFFFD'] := by decide +kernel
  have h1 : t = ['\uFFFD'] := by
    have : (Except.ok (decodeUtf8 (fun _ => 0) [0xc3]) : Except Exc _) = .ok t := ht.1
    rw [e] at this
    injection this with this
    exact this.symm
  rw [h1] at ht
  have h2 : (Except.ok (some (encodeUtf8 ['\uFFFD'])) : Except Exc _) = .ok (some [0xc3]) := ht.2
  injection h2 with h2
  injection h2 with h2
  exact absurd h2 (by decide +kernel)

example : ValidUtf8 (encodeUtf8 "grün".toList) := (validUtf8_iff _).2 ⟨_, rfl⟩

example : ∃ t, toStr (fun _ => 0) (.other .attributeError .unicodeError (.text "x".toList)) = .ok t :=
  C113_objects_partial (fun _ => 0) _ _ _ (.inr (.inl rfl)) trivial (.inl trivial)

example (l : List (List Char)) (hl : l ≠ []) (hc : ∀ x ∈ l, ',' ∉ x)
    (h : toStr (fun _ => 0) (.textList l) = toStr (fun _ => 0) (.textList ["apt".toList, "pip".toList])) : l = ["apt".toList, "pip".toList] :=
  C113_lists_partial _ _ _ hl (by simp) hc (by decide) h

/-- An error of PyYAML about a line with `ü`: its text is a byte string. -/
def exYamlError : ExcObj := ⟨encodeUtf8 "ScannerError".toList, .bytes (encodeUtf8 "in \"ü\"".toList)⟩

theorem exYamlError_not : ¬ PrintableMsg exYamlError.msg := by
  intro h
  exact absurd ((isAscii_iff _).2 h) (by decide +kernel)

example : toStr (fun _ => 0) (.exc exYamlError) = .error .valueError :=
  (C114_raises_iff _ _).2 fun h => exYamlError_not h.2

example : toStr (fun _ => 0) (.exc ⟨encodeUtf8 "ValueError".toList, .text "bad".toList⟩) = .ok "ValueError: bad".toList :=
  C114_ascii_message_partial _ _ _ ((isAscii_iff _).1 (by decide +kernel)) (by unfold AsciiText; decide) (by decide)

/-- An exception of xylem about a key `ü`. -/
example : toStr (fun _ => 0) (.exc ⟨encodeUtf8 "ValueError".toList, .text "no ü".toList⟩) = .ok "ValueError: no \\xfc".toList := by decide +kernel

example : excObjToStr ⟨encodeUtf8 "ValueError".toList, .text "bad".toList⟩ [exYamlError] = .error .valueError :=
  (C114_chain _ _).2 ⟨exYamlError, by simp, fun h => exYamlError_not h.2⟩

end Verif
