import Verif.Spec.ArgBytes
import Verif.Props.Encoding
import Verif.Lemmas.Config4
/-!
# C147: words of the command line that are not ASCII

`CType.fromBytes` is `from_command_line` on the byte strings python 2 finds in `sys.argv`; `CType.fromCommandLine` what the words mean as texts.
-/
namespace Verif
variable {skip : Bytes → Nat} {loadBytes : Bytes → Except Exc PVal} {loadText : String → Except Exc PVal} {expand : String → String}

private theorem char_ascii {c : Char} (h : c.toNat < 128) : String.utf8EncodeChar c = [UInt8.ofNat c.toNat] := by
  have hv : c.val.toNat = c.toNat := rfl
  unfold String.utf8EncodeChar
  rw [if_pos (by rw [hv]; omega)]
  rfl

private theorem char_not_ascii {c : Char} (h : ¬c.toNat < 128) : ∃ x ∈ String.utf8EncodeChar c, 128 ≤ x.toNat := by
  have hv : c.val.toNat = c.toNat := rfl
  unfold String.utf8EncodeChar
  rw [if_neg (by rw [hv]; omega)]
  split
  · refine ⟨_, List.mem_cons_self, ?_⟩
    simp only [UInt8.toNat_ofNat', Nat.reducePow]
    omega
  · split
    · refine ⟨_, List.mem_cons_self, ?_⟩
      simp only [UInt8.toNat_ofNat', Nat.reducePow]
      omega
    · refine ⟨_, List.mem_cons_self, ?_⟩
      simp only [UInt8.toNat_ofNat', Nat.reducePow]
      omega

theorem ascii_bytes {t : List Char} (h : AsciiText t) : AsciiBytes (encodeUtf8 t) ∧ asciiChars (encodeUtf8 t) = t := by
  induction t with
  | nil => exact ⟨by simp [encodeUtf8, AsciiBytes], rfl⟩
  | cons c t ih =>
    have hc : c.toNat < 128 := h c (by simp)
    obtain ⟨h1, h2⟩ := ih fun x hx => h x (by simp [hx])
    have e : encodeUtf8 (c :: t) = UInt8.ofNat c.toNat :: encodeUtf8 t := by
      show String.utf8EncodeChar c ++ encodeUtf8 t = _
      rw [char_ascii hc]; rfl
    have hm : (UInt8.ofNat c.toNat).toNat = c.toNat := by
      simp only [UInt8.toNat_ofNat', Nat.reducePow]
      omega
    rw [e]
    constructor
    · intro x hx
      rcases List.mem_cons.1 hx with rfl | hx
      · rw [hm]; exact hc
      · exact h1 x hx
    · show Char.ofNat (UInt8.ofNat c.toNat).toNat :: asciiChars (encodeUtf8 t) = _
      rw [hm, h2, Char.ofNat_toNat]

theorem not_ascii_bytes {t : List Char} (h : ¬AsciiText t) : ¬AsciiBytes (encodeUtf8 t) := by
  intro hb
  refine h fun c hc => ?_
  by_cases hlt : c.toNat < 128
  · exact hlt
  · exfalso
    obtain ⟨x, hx, hge⟩ := char_not_ascii hlt
    have := hb x (List.mem_flatMap.2 ⟨c, hc, hx⟩)
    omega

private theorem bracket_ascii {s : String} (h : AsciiText s.toList) (op cl : String) : bracketBytes op cl (bytesOf s) = .ok (op ++ s ++ cl) := by
  obtain ⟨h1, h2⟩ := ascii_bytes h
  simp [bracketBytes, bytesOf, decodeAscii_ok h1, h2, bind, Except.bind]

private theorem bracket_other {s : String} (h : ¬AsciiText s.toList) (op cl : String) : bracketBytes op cl (bytesOf s) = .error .valueError := by
  simp [bracketBytes, bytesOf, decodeAscii_error (not_ascii_bytes h), bind, Except.bind]

private theorem list_word (hu : ReadsUtf8 loadBytes loadText) {s : String} (h : AsciiText s.toList ∨ ∃ l, loadText s = .ok (.list l)) :
    parseListBytes loadBytes loadText (bytesOf s) = parseListArg loadText s := by
  unfold parseListBytes parseListArg
  rw [hu s]
  rcases h with h | ⟨l, h⟩
  · have e : listAgain loadText (bytesOf s) = (yamlToConfig (loadText ("[" ++ s ++ "]")) >>= fun
        | .list l => .ok l
        | _ => .error .configValueError) := by
      unfold listAgain; rw [bracket_ascii h]; rfl
    rw [e]
    rcases loadText s with e | v
    · cases e <;> rfl
    · cases v <;> rfl
  · rw [h]

private theorem dict_word (hu : ReadsUtf8 loadBytes loadText) {s : String} (h : AsciiText s.toList ∨ ∃ l, loadText s = .ok (.dict l)) :
    parseDictBytes loadBytes loadText (bytesOf s) = parseDictArg loadText s := by
  unfold parseDictBytes parseDictArg
  rw [hu s]
  rcases h with h | ⟨l, h⟩
  · have e : dictAgain loadText (bytesOf s) = (yamlToConfig (loadText ("{" ++ s ++ "}")) >>= fun
        | .dict l => .ok l
        | _ => .error .configValueError) := by
      unfold dictAgain; rw [bracket_ascii h]; rfl
    rw [e]
    rcases loadText s with e | v
    · cases e <;> rfl
    · cases v <;> rfl
  · rw [h]

private theorem list_bad (hu : ReadsUtf8 loadBytes loadText) (hl : ∀ s e, loadText s = .error e → e = .yamlError) {s : String}
    (h : ¬(AsciiText s.toList ∨ ∃ l, loadText s = .ok (.list l))) : parseListBytes loadBytes loadText (bytesOf s) = .error .valueError := by
  have ha : listAgain loadText (bytesOf s) = .error .valueError := by
    unfold listAgain; rw [bracket_other fun h' => h (.inl h')]; rfl
  unfold parseListBytes
  rw [hu s]
  rcases hs : loadText s with e | v
  · rw [hl s e hs]; exact ha
  · cases v with
    | list l => exact absurd (.inr ⟨l, hs⟩) h
    | _ => exact ha

private theorem dict_bad (hu : ReadsUtf8 loadBytes loadText) (hl : ∀ s e, loadText s = .error e → e = .yamlError) {s : String}
    (h : ¬(AsciiText s.toList ∨ ∃ l, loadText s = .ok (.dict l))) : parseDictBytes loadBytes loadText (bytesOf s) = .error .valueError := by
  have ha : dictAgain loadText (bytesOf s) = .error .valueError := by
    unfold dictAgain; rw [bracket_other fun h' => h (.inl h')]; rfl
  unfold parseDictBytes
  rw [hu s]
  rcases hs : loadText s with e | v
  · rw [hl s e hs]; exact ha
  · cases v with
    | dict l => exact absurd (.inr ⟨l, hs⟩) h
    | _ => exact ha

private theorem list_words (hu : ReadsUtf8 loadBytes loadText) {ws : List String}
    (h : ∀ s ∈ ws, AsciiText s.toList ∨ ∃ l, loadText s = .ok (.list l)) :
    parseListsBytes loadBytes loadText (ws.map bytesOf) = parseListArgs loadText ws := by
  induction ws with
  | nil => rfl
  | cons s ws ih =>
    show (parseListBytes loadBytes loadText (bytesOf s) >>= _) = _
    rw [list_word hu (h s (by simp)), ih fun x hx => h x (by simp [hx])]
    rfl

private theorem dict_words (hu : ReadsUtf8 loadBytes loadText) {ws : List String}
    (h : ∀ s ∈ ws, AsciiText s.toList ∨ ∃ l, loadText s = .ok (.dict l)) (acc : Dict PKey PVal) :
    parseDictsBytes loadBytes loadText acc (ws.map bytesOf) = parseDictArgs loadText acc ws := by
  induction ws generalizing acc with
  | nil => rfl
  | cons s ws ih =>
    show (parseDictBytes loadBytes loadText (bytesOf s) >>= _) = _
    rw [dict_word hu (h s (by simp))]
    rw [parseDictArgs]
    congr 1
    funext d
    split
    · rfl
    · exact ih (fun x hx => h x (by simp [hx])) _

private theorem words_asBytes (v : CmdVal) : v.asBytes.words = v.strings.map bytesOf := by
  cases v <;> rfl

/-- **C147** (the part that holds) If every word is ASCII, or is a list (a dict) with its brackets, or the option is neither a list nor a dict, the setting is what the words, as texts, mean. -/
theorem C147_words_mean_their_text_partial (hu : ReadsUtf8 loadBytes loadText) {t : CType} {v : CmdVal} (hv : ∀ s ∈ v.strings, SafeWord loadText t s) :
    t.fromBytes skip loadBytes loadText expand v.asBytes = t.fromCommandLine loadText expand v := by
  have text : ∀ s, wordText skip (bytesOf s) = .str s := by
    intro s
    unfold wordText bytesOf
    rw [decode_encode]; simp
  cases v with
  | none => cases t <;> rfl
  | one s =>
    cases t with
    | any => show (yamlToConfig (loadBytes (bytesOf s)) >>= _) = _; rw [hu s]; rfl
    | boolean => show (yamlToConfig (loadBytes (bytesOf s)) >>= _) = _; rw [hu s]; rfl
    | string => show CType.fromYaml expand .string (wordText skip (bytesOf s)) = _; rw [text]; rfl
    | path => show CType.fromYaml expand .path (wordText skip (bytesOf s)) = _; rw [text]; rfl
    | list e =>
      show (parseListsBytes loadBytes loadText ([s].map bytesOf) >>= _) = _
      rw [list_words (ws := [s]) hu hv]; rfl
    | dict vt kt =>
      show (parseDictsBytes loadBytes loadText [] ([s].map bytesOf) >>= _) = _
      rw [dict_words (ws := [s]) hu hv]; rfl
    | mergingDict vt kt =>
      show (parseDictsBytes loadBytes loadText [] ([s].map bytesOf) >>= _) = _
      rw [dict_words (ws := [s]) hu hv]; rfl
  | many l =>
    cases t with
    | list e =>
      show (parseListsBytes loadBytes loadText (l.map bytesOf) >>= _) = _
      rw [list_words (ws := l) hu hv]; rfl
    | dict vt kt =>
      show (parseDictsBytes loadBytes loadText [] (l.map bytesOf) >>= _) = _
      rw [dict_words (ws := l) hu hv]; rfl
    | mergingDict vt kt =>
      show (parseDictsBytes loadBytes loadText [] (l.map bytesOf) >>= _) = _
      rw [dict_words (ws := l) hu hv]; rfl
    | _ => rfl

private theorem onlyConfig_err {α : Type} {x : Except Exc α} (hx : ∀ e, x = .error e → e = .yamlError) {e : Exc} (h : yamlToConfig x = .error e) :
    e = .configValueError := by
  rcases x with e' | a
  · have := hx e' rfl
    subst this
    cases h; rfl
  · cases h

private theorem listArg_err (hl : ∀ s e, loadText s = .error e → e = .yamlError) {s : String} {e : Exc} (h : parseListArg loadText s = .error e) :
    e = .configValueError := by
  have ha : ∀ e, (yamlToConfig (loadText ("[" ++ s ++ "]")) >>= fun
      | .list l => (.ok l : Except Exc (List PVal))
      | _ => .error .configValueError) = .error e → e = .configValueError := by
    intro e h
    rcases Except_bind_err.1 h with h | ⟨v, -, h⟩
    · exact onlyConfig_err (hl _) h
    · cases v <;> cases h <;> rfl
  unfold parseListArg at h
  rcases hs : loadText s with e' | v
  · have := hl s e' hs
    subst this
    rw [hs] at h; exact ha e h
  · rw [hs] at h
    cases v with
    | list l => cases h
    | _ => exact ha e h

private theorem dictArg_err (hl : ∀ s e, loadText s = .error e → e = .yamlError) {s : String} {e : Exc} (h : parseDictArg loadText s = .error e) :
    e = .configValueError := by
  have ha : ∀ e, (yamlToConfig (loadText ("{" ++ s ++ "}")) >>= fun
      | .dict l => (.ok l : Except Exc (List (PKey × PVal)))
      | _ => .error .configValueError) = .error e → e = .configValueError := by
    intro e h
    rcases Except_bind_err.1 h with h | ⟨v, -, h⟩
    · exact onlyConfig_err (hl _) h
    · cases v <;> cases h <;> rfl
  unfold parseDictArg at h
  rcases hs : loadText s with e' | v
  · have := hl s e' hs
    subst this
    rw [hs] at h; exact ha e h
  · rw [hs] at h
    cases v with
    | dict l => cases h
    | _ => exact ha e h

private theorem lists_crash (hu : ReadsUtf8 loadBytes loadText) (hl : ∀ s e, loadText s = .error e → e = .yamlError) {ws : List String} :
    parseListsBytes loadBytes loadText (ws.map bytesOf) = .error .valueError ↔ ∃ pre s post, ws = pre ++ s :: post ∧
      (∀ x ∈ pre, AsciiText x.toList ∨ ∃ l, loadText x = .ok (.list l)) ∧ (∃ l, parseListArgs loadText pre = .ok l) ∧
      ¬(AsciiText s.toList ∨ ∃ l, loadText s = .ok (.list l)) := by
  constructor
  · intro h
    induction ws with
    | nil => cases h
    | cons s ws ih =>
      by_cases hs : AsciiText s.toList ∨ ∃ l, loadText s = .ok (.list l)
      · have h2 : (parseListBytes loadBytes loadText (bytesOf s) >>= fun l => parseListsBytes loadBytes loadText (ws.map bytesOf) >>= fun r =>
          .ok (l ++ r)) = .error .valueError := h
        rw [list_word hu hs] at h2
        rcases Except_bind_err.1 h2 with h3 | ⟨l, hl1, h3⟩
        · cases listArg_err hl h3
        · rcases Except_bind_err.1 h3 with h4 | ⟨_, -, h4⟩
          · obtain ⟨pre, s', post, rfl, hsafe, ⟨l2, hl2⟩, hbad⟩ := ih h4
            refine ⟨s :: pre, s', post, rfl, ?_, ⟨l ++ l2, ?_⟩, hbad⟩
            · intro x hx
              rcases List.mem_cons.1 hx with rfl | hx
              · exact hs
              · exact hsafe x hx
            · rw [parseListArgs, hl1, hl2]; rfl
          · cases h4
      · exact ⟨[], s, ws, rfl, by simp, ⟨[], rfl⟩, hs⟩
  · rintro ⟨pre, s, post, rfl, hsafe, ⟨l, hl1⟩, hbad⟩
    induction pre generalizing l with
    | nil =>
      show (parseListBytes loadBytes loadText (bytesOf s) >>= _) = _
      rw [list_bad hu hl hbad]; rfl
    | cons x pre ih =>
      show (parseListBytes loadBytes loadText (bytesOf x) >>= fun l => parseListsBytes loadBytes loadText ((pre ++ s :: post).map bytesOf) >>= fun r =>
          .ok (l ++ r)) = _
      rw [parseListArgs] at hl1
      obtain ⟨l1, h1, h2⟩ := Except_bind_ok.1 hl1
      obtain ⟨l2, h3, -⟩ := Except_bind_ok.1 h2
      rw [list_word hu (hsafe x (by simp)), h1, ih (fun y hy => hsafe y (by simp [hy])) l2 h3]
      rfl

private theorem dicts_crash (hu : ReadsUtf8 loadBytes loadText) (hl : ∀ s e, loadText s = .error e → e = .yamlError) {ws : List String} (acc : Dict PKey PVal) :
    parseDictsBytes loadBytes loadText acc (ws.map bytesOf) = .error .valueError ↔ ∃ pre s post, ws = pre ++ s :: post ∧
      (∀ x ∈ pre, AsciiText x.toList ∨ ∃ l, loadText x = .ok (.dict l)) ∧ (∃ l, parseDictArgs loadText acc pre = .ok l) ∧
      ¬(AsciiText s.toList ∨ ∃ l, loadText s = .ok (.dict l)) := by
  constructor
  · intro h
    induction ws generalizing acc with
    | nil => cases h
    | cons s ws ih =>
      by_cases hs : AsciiText s.toList ∨ ∃ l, loadText s = .ok (.dict l)
      · have h2 : (parseDictBytes loadBytes loadText (bytesOf s) >>= fun d =>
          if d.any (fun kv => dhas acc kv.1) then .error .configValueError
          else parseDictsBytes loadBytes loadText (dupdate acc d) (ws.map bytesOf)) = .error .valueError := h
        rw [dict_word hu hs] at h2
        rcases Except_bind_err.1 h2 with h3 | ⟨d, hd, h3⟩
        · cases dictArg_err hl h3
        · split at h3
          · cases h3
          · rename_i hnew
            obtain ⟨pre, s', post, rfl, hsafe, ⟨l2, hl2⟩, hbad⟩ := ih _ h3
            refine ⟨s :: pre, s', post, rfl, ?_, ⟨l2, ?_⟩, hbad⟩
            · intro x hx
              rcases List.mem_cons.1 hx with rfl | hx
              · exact hs
              · exact hsafe x hx
            · rw [parseDictArgs, hd]
              show (if d.any (fun kv => dhas acc kv.1) then .error .configValueError else parseDictArgs loadText (dupdate acc d) pre) = _
              rw [if_neg hnew, hl2]
      · exact ⟨[], s, ws, rfl, by simp, ⟨acc, rfl⟩, hs⟩
  · rintro ⟨pre, s, post, rfl, hsafe, ⟨l, hl1⟩, hbad⟩
    induction pre generalizing l acc with
    | nil =>
      show (parseDictBytes loadBytes loadText (bytesOf s) >>= _) = _
      rw [dict_bad hu hl hbad]; rfl
    | cons x pre ih =>
      show (parseDictBytes loadBytes loadText (bytesOf x) >>= fun d =>
          if d.any (fun kv => dhas acc kv.1) then .error .configValueError
          else parseDictsBytes loadBytes loadText (dupdate acc d) ((pre ++ s :: post).map bytesOf)) = _
      rw [parseDictArgs] at hl1
      obtain ⟨d, h1, h2⟩ := Except_bind_ok.1 hl1
      split at h2
      · cases h2
      · rename_i hnew
        rw [dict_word hu (hsafe x (by simp)), h1]
        show (if d.any (fun kv => dhas acc kv.1) then .error .configValueError
          else parseDictsBytes loadBytes loadText (dupdate acc d) ((pre ++ s :: post).map bytesOf)) = _
        rw [if_neg hnew]
        exact ih _ (fun y hy => hsafe y (by simp [hy])) l h2

private theorem together_list {ws : List String} : GoTogether loadText (.list .any) ws ↔ ∃ l, parseListArgs loadText ws = .ok l := by
  show (∃ w, (parseListArgs loadText ws >>= fun l => CType.fromYaml id (.list .any) (.list l)) = .ok w) ↔ _
  constructor
  · rintro ⟨w, h⟩
    obtain ⟨l, h, -⟩ := Except_bind_ok.1 h
    exact ⟨l, h⟩
  · rintro ⟨l, h⟩
    obtain ⟨w, hw⟩ := (fromYaml_ok_iff (expand := id) (t := .list .any) (v := .list l) trivial).2
      (show Readable (.list .any) (.list l) from .inr ⟨l, rfl, fun _ _ => trivial⟩)
    exact ⟨w, Except_bind_ok.2 ⟨l, h, hw⟩⟩

private theorem together_dict {vt kt : CType} {ws : List String} : GoTogether loadText (.dict vt kt) ws ↔ ∃ l, parseDictArgs loadText [] ws = .ok l := by
  show (∃ w, (parseDictArgs loadText [] ws >>= fun l => CType.fromYaml id (.dict .any .any) (.dict l)) = .ok w) ↔ _
  constructor
  · rintro ⟨w, h⟩
    obtain ⟨l, h, -⟩ := Except_bind_ok.1 h
    exact ⟨l, h⟩
  · rintro ⟨l, h⟩
    obtain ⟨w, hw⟩ := (fromYaml_ok_iff (expand := id) (t := .dict .any .any) (v := .dict l) ⟨trivial, trivial, by simp⟩).2
      (show Readable (.dict .any .any) (.dict l) from .inr ⟨l, rfl, fun _ _ _ => ⟨trivial, trivial⟩⟩)
    exact ⟨w, Except_bind_ok.2 ⟨l, h, hw⟩⟩

private theorem then_read {α : Type} {t : CType} (ht : t.KeysOk) {x : Except Exc α} {f : α → PVal} :
    (x >>= fun a => t.fromYaml expand (f a)) = .error .valueError ↔ x = .error .valueError := by
  constructor
  · intro h
    rcases Except_bind_err.1 h with h | ⟨a, -, h⟩
    · exact h
    · cases fromYaml_err ht h
  · intro h
    rw [h]; rfl

/-- **C147** (refuted) An option that is a list or a dict ends the program with a `UnicodeDecodeError` (a `ValueError`, and no `ConfigValueError`) exactly if one of its words is not ASCII
and is not a list (a dict) with its brackets, and the words before it can be put together. -/
theorem C147_words_refuted (hu : ReadsUtf8 loadBytes loadText) (hl : ∀ s e, loadText s = .error e → e = .yamlError) {t : CType} (ht : t.KeysOk) (hc : t.Compound)
    {ws : List String} : t.fromBytes skip loadBytes loadText expand (CmdVal.many ws).asBytes = .error .valueError ↔
      ∃ pre s post, ws = pre ++ s :: post ∧ (∀ x ∈ pre, SafeWord loadText t x) ∧ GoTogether loadText t pre ∧ ¬SafeWord loadText t s := by
  cases t with
  | list e =>
    show (parseListsBytes loadBytes loadText (ws.map bytesOf) >>= fun l => CType.fromYaml expand (.list e) (.list l)) = _ ↔ _
    rw [then_read ht, lists_crash hu hl]
    simp only [← together_list]
    rfl
  | dict vt kt =>
    show (parseDictsBytes loadBytes loadText [] (ws.map bytesOf) >>= fun l => CType.fromYaml expand (.dict vt kt) (.dict l)) = _ ↔ _
    rw [then_read ht, dicts_crash hu hl]
    simp only [← together_dict (vt := vt) (kt := kt)]
    rfl
  | mergingDict vt kt =>
    show (parseDictsBytes loadBytes loadText [] (ws.map bytesOf) >>= fun l => CType.fromYaml expand (.mergingDict vt kt) (.dict l)) = _ ↔ _
    rw [then_read ht, dicts_crash hu hl]
    simp only [← together_dict (vt := vt) (kt := kt)]
    rfl
  | _ => exact absurd hc id

/-- **C147** With its brackets a list can be given with any characters: the option has the value a config file would give it. -/
theorem C147_brackets (hu : ReadsUtf8 loadBytes loadText) {e : CType} {s : String} {l : List PVal} (hs : loadText ("[" ++ s ++ "]") = .ok (.list l)) :
    (CType.list e).fromBytes skip loadBytes loadText expand (.one (bytesOf ("[" ++ s ++ "]"))) = (CType.list e).fromYaml expand (.list l) := by
  show (parseListsBytes loadBytes loadText ([bytesOf ("[" ++ s ++ "]")]) >>= _) = _
  have : parseListBytes loadBytes loadText (bytesOf ("[" ++ s ++ "]")) = .ok l := by
    unfold parseListBytes
    rw [hu, hs]
  rw [parseListsBytes, this]
  show (CType.list e).fromYaml expand (.list (l ++ [])) = _
  rw [List.append_nil]

/-- **C147** A text or a path can be given with any bytes: what is not UTF-8 is replaced, nothing is raised, and what is valid UTF-8 is kept. -/
theorem C147_texts (b : Bytes) : ∃ s, CType.string.fromBytes skip loadBytes loadText expand (.one b) = .ok (.str s) ∧
    CType.path.fromBytes skip loadBytes loadText expand (.one b) = .ok (.str (expand s)) ∧ (ValidUtf8 b → bytesOf s = b) := by
  refine ⟨String.ofList (decodeUtf8 skip b), rfl, rfl, fun h => ?_⟩
  obtain ⟨t, rfl⟩ := (validUtf8_iff b).1 h
  rw [decode_encode, bytesOf, String.toList_ofList]

/-! ## Not vacuous -/

/-- A YAML reader that knows four documents. -/
def exLoadText (s : String) : Except Exc PVal :=
  if s = "é" then .ok (.str "é") else if s = "[é]" then .ok (.list [.str "é"]) else if s = "a" then .ok (.str "a")
  else if s = "[a]" then .ok (.list [.str "a"]) else .error .yamlError

/-- The same for bytes. -/
def exLoadBytes (b : Bytes) : Except Exc PVal := exLoadText (String.ofList (decodeUtf8 (fun _ => 0) b))

example : ReadsUtf8 exLoadBytes exLoadText := fun s => by
  unfold exLoadBytes bytesOf
  rw [decode_encode, String.ofList_toList]

example : (CType.list .string).fromBytes (fun _ => 0) exLoadBytes exLoadText id (.many [bytesOf "a", bytesOf "é"]) = .error .valueError := by rfl
example : (CType.list .string).fromCommandLine exLoadText id (.many ["a", "é"]) = .ok (.list [.str "a", .str "é"]) := by rfl
example : (CType.list .string).fromBytes (fun _ => 0) exLoadBytes exLoadText id (.many [bytesOf "a", bytesOf "[é]"]) =
    .ok (.list [.str "a", .str "é"]) := by rfl

example : ¬SafeWord exLoadText (.list .string) "é" := by
  rintro (h | ⟨l, h⟩)
  · have := h 'é' (by decide)
    revert this; decide
  · cases h

end Verif
