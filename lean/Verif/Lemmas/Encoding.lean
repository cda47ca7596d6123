import Verif.Model.Encoding
/-! # Lemmas about encoding and decoding -/
namespace Verif

theorem toByteArray_append (a b : Bytes) : (a ++ b).toByteArray = a.toByteArray ++ b.toByteArray := by
  simp

/-- The encoding of a character is found. -/
theorem firstChar_encode (c : Char) (b : Bytes) : firstChar (String.utf8EncodeChar c ++ b) = some c := by
  unfold firstChar
  rw [toByteArray_append]
  exact ByteArray.utf8DecodeChar?_utf8EncodeChar_append

/-- Only the encoding of a character is found. -/
theorem firstChar_some {b : Bytes} {c : Char} (h : firstChar b = some c) :
    b = String.utf8EncodeChar c ++ b.drop c.utf8Size := by
  unfold firstChar at h
  have h' := String.toByteArray_utf8EncodeChar_of_utf8DecodeChar?_eq_some h
  have h2 := congrArg (fun x => x.data.toList) h'
  have h3 : String.utf8EncodeChar c = b.take c.utf8Size := by
    simpa using h2
  conv => lhs; rw [← List.take_append_drop c.utf8Size b]
  rw [h3]

theorem encode_length (c : Char) : (String.utf8EncodeChar c).length = c.utf8Size := String.length_utf8EncodeChar c

theorem encode_ne_nil (c : Char) : String.utf8EncodeChar c ≠ [] := by
  intro h
  have := encode_length c
  rw [h] at this
  have := c.utf8Size_pos
  simp_all

theorem firstChar_nil : firstChar [] = none := by
  cases h : firstChar [] with
  | none => rfl
  | some c =>
    have := firstChar_some h
    exact absurd (List.append_eq_nil_iff.1 this.symm).1 (encode_ne_nil c)

/-- More steps than bytes change nothing. -/
theorem decodeGo_enough (skip : Bytes → Nat) (n m : Nat) (b : Bytes) (hn : b.length ≤ n) (hm : b.length ≤ m) :
    decodeGo skip n b = decodeGo skip m b := by
  induction n generalizing m b with
  | zero =>
    have : b = [] := List.length_eq_zero_iff.1 (Nat.le_zero.1 hn)
    subst this
    cases m <;> simp [decodeGo]
  | succ n ih =>
    cases b with
    | nil => cases m <;> simp [decodeGo]
    | cons x t =>
      cases m with
      | zero => simp at hm
      | succ m =>
        simp only [decodeGo]
        cases h : firstChar (x :: t) with
        | none =>
          simp only
          rw [ih m ((x :: t).drop (1 + skip (x :: t))) (by simp at *; omega) (by simp at *; omega)]
        | some c =>
          have := c.utf8Size_pos
          simp only
          rw [ih m ((x :: t).drop c.utf8Size) (by simp at *; omega) (by simp at *; omega)]

theorem decode_nil (skip : Bytes → Nat) : decodeUtf8 skip [] = [] := rfl

theorem decode_step_some (skip : Bytes → Nat) {b : Bytes} {c : Char} (h : firstChar b = some c) :
    decodeUtf8 skip b = c :: decodeUtf8 skip (b.drop c.utf8Size) := by
  cases b with
  | nil => rw [firstChar_nil] at h; cases h
  | cons x t =>
    have hs := c.utf8Size_pos
    unfold decodeUtf8
    rw [show (x :: t).length = t.length + 1 from rfl]
    simp only [decodeGo, h]
    rw [decodeGo_enough skip t.length _ ((x :: t).drop c.utf8Size) (by simp; omega) (Nat.le_refl _)]

theorem decode_step_none (skip : Bytes → Nat) {b : Bytes} (hb : b ≠ []) (h : firstChar b = none) :
    decodeUtf8 skip b = '\uFFFD' :: decodeUtf8 skip (b.drop (1 + skip b)) := by
  cases b with
  | nil => exact absurd rfl hb
  | cons x t =>
    unfold decodeUtf8
    rw [show (x :: t).length = t.length + 1 from rfl]
    simp only [decodeGo, h]
    rw [decodeGo_enough skip t.length _ ((x :: t).drop (1 + skip (x :: t))) (by simp) (Nat.le_refl _)]

/-- Text that has been encoded is decoded, whatever follows. -/
theorem decode_encode_append (skip : Bytes → Nat) (t : List Char) (b : Bytes) :
    decodeUtf8 skip (encodeUtf8 t ++ b) = t ++ decodeUtf8 skip b := by
  induction t with
  | nil => simp [encodeUtf8]
  | cons c t ih =>
    have e : encodeUtf8 (c :: t) ++ b = String.utf8EncodeChar c ++ (encodeUtf8 t ++ b) := by simp [encodeUtf8]
    rw [e, decode_step_some skip (firstChar_encode c _), ← encode_length c, List.drop_left, ih]
    rfl

theorem decode_encode (skip : Bytes → Nat) (t : List Char) : decodeUtf8 skip (encodeUtf8 t) = t := by
  have := decode_encode_append skip t []
  simpa [decode_nil] using this

theorem encode_append (s t : List Char) : encodeUtf8 (s ++ t) = encodeUtf8 s ++ encodeUtf8 t := by simp [encodeUtf8]

theorem encode_injective {s t : List Char} (h : encodeUtf8 s = encodeUtf8 t) : s = t := by
  have := congrArg (decodeUtf8 (fun _ => 0)) h
  rwa [decode_encode, decode_encode] at this

/-- What is not the encoding of a text begins with the encoding of a text after which no character begins. -/
theorem split_valid (b : Bytes) : (∃ t, b = encodeUtf8 t) ∨
    ∃ t r, b = encodeUtf8 t ++ r ∧ r ≠ [] ∧ firstChar r = none := by
  generalize hn : b.length = n
  induction n using Nat.strongRecOn generalizing b with
  | _ n ih =>
    by_cases hb : b = []
    · exact .inl ⟨[], by simp [hb, encodeUtf8]⟩
    cases hc : firstChar b with
    | none => exact .inr ⟨[], b, by simp [encodeUtf8], hb, hc⟩
    | some c =>
      have e := firstChar_some hc
      have hp := c.utf8Size_pos
      have hl : (b.drop c.utf8Size).length < n := by
        have : 0 < b.length := List.length_pos_iff.2 hb
        simp; omega
      rcases ih _ hl (b.drop c.utf8Size) rfl with ⟨t, ht⟩ | ⟨t, r, ht, h1, h2⟩
      · exact .inl ⟨c :: t, by rw [e, ht]; simp [encodeUtf8]⟩
      · exact .inr ⟨c :: t, r, by rw [e, ht]; simp [encodeUtf8], h1, h2⟩

end Verif
