import Verif.Spec.KeyBytes
import Verif.Props.ArgBytes
import Verif.Props.Resolve
/-!
# C148: keys that are not ASCII

`resolveWords` is `resolve` on the byte strings python 2 finds in `sys.argv`, `resolve` what it does with texts. `lookupRaw` is what the databases do with a key that
is equal to no text: anything.
-/
namespace Verif
variable {σ : Type} {ic : InstallerCtx σ} {db : Database} {lookupRaw : Bytes → Except Exc InstDict} {installFrom : Dict String (List String)}

private theorem showBytes_other {b : Bytes} (h : ¬AsciiBytes b) : showBytes b = .error .valueError := by
  rw [showBytes, decodeAscii_error h]; rfl

private theorem keyObj_text {s : String} (h : AsciiText s.toList) : keyObj (bytesOf s) = .text s := by
  obtain ⟨h1, h2⟩ := ascii_bytes h
  unfold keyObj bytesOf
  rw [decodeAscii_ok h1, h2]
  simp

private theorem keyObj_raw {b : Bytes} (h : ¬AsciiBytes b) : keyObj b = .raw b := by
  unfold keyObj
  rw [decodeAscii_error h]

private theorem removeDuplicatesGo_map {α β : Type} [DecidableEq α] [DecidableEq β] {f : α → β} (hf : ∀ a b, f a = f b → a = b) (items l : List α) :
    removeDuplicatesGo (items.map f) (l.map f) = (removeDuplicatesGo items l).map f := by
  induction l generalizing items with
  | nil => rfl
  | cons x l ih =>
    have hm : f x ∈ items.map f ↔ x ∈ items := by
      rw [List.mem_map]
      exact ⟨fun ⟨y, hy, e⟩ => hf _ _ e ▸ hy, fun h => ⟨x, h, rfl⟩⟩
    show (if f x ∈ items.map f then removeDuplicatesGo (items.map f) (l.map f) else f x :: removeDuplicatesGo ((x :: items).map f) (l.map f)) =
      (if x ∈ items then removeDuplicatesGo items l else x :: removeDuplicatesGo (x :: items) l).map f
    by_cases hx : x ∈ items
    · rw [if_pos (hm.2 hx), if_pos hx, ih]
    · rw [if_neg fun h => hx (hm.1 h), if_neg hx, ih]; rfl

private theorem removeDuplicatesGo_split {α : Type} [DecidableEq α] (items a post : List α) {x : α} (hi : x ∉ items) (ha : x ∉ a) :
    ∃ rest, removeDuplicatesGo items (a ++ x :: post) = removeDuplicatesGo items a ++ x :: rest := by
  induction a generalizing items with
  | nil =>
    refine ⟨removeDuplicatesGo (x :: items) post, ?_⟩
    show (if x ∈ items then _ else _) = _
    rw [if_neg hi]; rfl
  | cons y a ih =>
    show ∃ rest, (if y ∈ items then removeDuplicatesGo items (a ++ x :: post) else y :: removeDuplicatesGo (y :: items) (a ++ x :: post)) =
      (if y ∈ items then removeDuplicatesGo items a else y :: removeDuplicatesGo (y :: items) a) ++ x :: rest
    split
    · exact ih items hi fun h => ha (by simp [h])
    · obtain ⟨rest, h⟩ := ih (y :: items) (by
        intro h
        rcases List.mem_cons.1 h with h | h
        · exact ha (by simp [h])
        · exact hi h) fun h => ha (by simp [h])
      exact ⟨rest, by rw [h]; rfl⟩

private theorem resolveObj_text (lookup : String → Except Exc InstDict) (ifm : Dict String String) (s : String) :
    resolveObj ic (lookupObj lookup lookupRaw) ifm (.text s) = resolveKey ic lookup ifm s := by
  unfold resolveObj resolveKey
  show (match lookup s with
    | .error e => _
    | .ok [] => _
    | .ok (x :: d) => _) = _
  rcases lookup s with e | _ | ⟨x, d⟩
  · rfl
  · rfl
  · rfl

private theorem resolveObjs_texts (lookup : String → Except Exc InstDict) (ifm : Dict String String) (acc : Resolved) (ks : List String) :
    resolveObjs ic (lookupObj lookup lookupRaw) ifm acc.asObjs (ks.map .text) = (resolveLoop ic lookup ifm acc ks).map Resolved.asObjs := by
  induction ks generalizing acc with
  | nil => rfl
  | cons k ks ih =>
    show resolveObjs ic (lookupObj lookup lookupRaw) ifm acc.asObjs (.text k :: ks.map .text) = _
    rw [resolveObjs, resolveObj_text, resolveLoop]
    rcases resolveKey ic lookup ifm k with e | (err | r)
    · rfl
    · show resolveObjs ic (lookupObj lookup lookupRaw) ifm _ (ks.map .text) = _
      rw [← ih]
      congr 1
      simp [Resolved.asObjs]
    · show resolveObjs ic (lookupObj lookup lookupRaw) ifm _ (ks.map .text) = _
      rw [← ih]
      congr 1
      simp [Resolved.asObjs]

private theorem words_text {ts : List String} (h : ∀ t ∈ ts, AsciiText t.toList) : (ts.map bytesOf).map keyObj = ts.map .text := by
  rw [List.map_map]
  exact List.map_congr_left fun t ht => keyObj_text (h t ht)

/-- **C148** (the part that holds) Keys that are ASCII are resolved as their texts, also together with `--all`. -/
theorem C148_ascii_keys_partial {ts : List String} (h : ∀ t ∈ ts, AsciiText t.toList) (all : Bool) :
    resolveWords ic db lookupRaw installFrom (ts.map bytesOf) all = (resolve ic db installFrom ts all).map Resolved.asObjs := by
  have inj : ∀ a b : String, KeyObj.text a = KeyObj.text b → a = b := fun a b e => by injection e
  have dup : ∀ l : List String, removeDuplicates (l.map KeyObj.text) = (removeDuplicates l).map .text := fun l =>
    removeDuplicatesGo_map inj [] l
  unfold resolveWords resolve keyObjs lookupKeys
  rw [words_text h]
  cases all with
  | false =>
    rw [if_neg (by simp), if_neg (by simp), dup]
    exact resolveObjs_texts db.lookup _ ⟨[], []⟩ _
  | true =>
    rw [if_pos rfl, if_pos rfl]
    rcases hk : db.keys with e | ks
    · rfl
    · show resolveObjs ic _ _ ⟨[], []⟩ (removeDuplicates (ts.map KeyObj.text ++ (ks.mergeSort _).map KeyObj.text)) = _
      rw [← List.map_append, dup]
      exact resolveObjs_texts db.lookup _ ⟨[], []⟩ _

private theorem resolveObj_raw {b : Bytes} (h : ¬AsciiBytes b) (lookup : KeyObj → Except Exc InstDict) (ifm : Dict String String) :
    ∃ e, resolveObj ic lookup ifm (.raw b) = .error e ∧
      ((∃ d, lookup (.raw b) = .ok d) → (∃ o, ic.osTuple = .ok o) → e = .valueError) := by
  have hs : showKey (.raw b) = .error .valueError := showBytes_other h
  unfold resolveObj
  rcases lookup (.raw b) with e | _ | ⟨x, d⟩
  · by_cases he : e.isLookupError = true
    · exact ⟨.valueError, by simp [he, hs, bind, Except.bind], by simp⟩
    · exact ⟨e, by simp [he], by simp⟩
  · rcases ho : ic.osTuple with e | o
    · by_cases he : e.isLookupError = true
      · exact ⟨.valueError, by simp [he, hs, bind, Except.bind], by simp⟩
      · exact ⟨e, by simp [he], by simp⟩
    · exact ⟨.valueError, by simp [hs, bind, Except.bind], by simp⟩
  · exact ⟨.valueError, by simp [hs, bind, Except.bind], by simp⟩

private theorem resolveObjs_raises {lookup : KeyObj → Except Exc InstDict} {ifm : Dict String String} {ks : List KeyObj} {k : KeyObj} (hk : k ∈ ks) {e : Exc}
    (he : resolveObj ic lookup ifm k = .error e) (acc : ResolvedObjs) : ∃ e', resolveObjs ic lookup ifm acc ks = .error e' := by
  induction ks generalizing acc with
  | nil => cases hk
  | cons x ks ih =>
    rw [resolveObjs]
    rcases hx : resolveObj ic lookup ifm x with e' | (err | r)
    · exact ⟨e', rfl⟩
    · rcases List.mem_cons.1 hk with rfl | hk
      · rw [he] at hx; cases hx
      · exact ih hk _
    · rcases List.mem_cons.1 hk with rfl | hk
      · rw [he] at hx; cases hx
      · exact ih hk _

/-- **C148** (refuted) With a key that is not ASCII, `resolve` raises, whatever databases, plugins and config are: there are no results and no list of errors, not even for the other keys. -/
theorem C148_other_keys_refuted {words : List Bytes} {w : Bytes} (hw : w ∈ words) (h : ¬AsciiBytes w) (all : Bool) :
    ∃ e, resolveWords ic db lookupRaw installFrom words all = .error e := by
  obtain ⟨e, he, -⟩ := resolveObj_raw (ic := ic) h (lookupObj db.lookup lookupRaw) (installFromMap installFrom)
  have hm : KeyObj.raw w ∈ words.map keyObj := List.mem_map.2 ⟨w, hw, keyObj_raw h⟩
  unfold resolveWords keyObjs
  cases all with
  | false =>
    rw [if_neg (by simp)]
    exact resolveObjs_raises (((C41_remove_duplicates _).1 _).2 hm) he _
  | true =>
    rw [if_pos rfl]
    rcases db.keys with e' | ks
    · exact ⟨e', rfl⟩
    · exact resolveObjs_raises (((C41_remove_duplicates _).1 _).2 (List.mem_append_left _ hm)) he _

private theorem resolveObjs_append {lookup : KeyObj → Except Exc InstDict} {ifm : Dict String String} {k : KeyObj} {e : Exc}
    (he : resolveObj ic lookup ifm k = .error e) (rest : List KeyObj) {ks : List KeyObj} {acc r : ResolvedObjs}
    (h : resolveObjs ic lookup ifm acc ks = .ok r) : resolveObjs ic lookup ifm acc (ks ++ k :: rest) = .error e := by
  induction ks generalizing acc with
  | nil =>
    show resolveObjs ic lookup ifm acc (k :: rest) = _
    rw [resolveObjs, he]
  | cons x ks ih =>
    show resolveObjs ic lookup ifm acc (x :: (ks ++ k :: rest)) = _
    rw [resolveObjs] at h ⊢
    rcases hx : resolveObj ic lookup ifm x with e' | (err | r')
    · rw [hx] at h; cases h
    · rw [hx] at h; exact ih h
    · rw [hx] at h; exact ih h

/-- **C148** (refuted) What is raised is a `UnicodeDecodeError` (a `ValueError`), if nothing else is: the keys before can be resolved, the databases have nothing against the key, and the os is known. -/
theorem C148_decode_error_refuted {ts : List String} (hts : ∀ t ∈ ts, AsciiText t.toList) {r : Resolved} (hr : resolve ic db installFrom ts false = .ok r)
    {w : Bytes} (h : ¬AsciiBytes w) (hraw : ∃ d, lookupRaw w = .ok d) (hos : ∃ o, ic.osTuple = .ok o) (post : List Bytes) :
    resolveWords ic db lookupRaw installFrom (ts.map bytesOf ++ w :: post) false = .error .valueError := by
  obtain ⟨e, he, hv⟩ := resolveObj_raw (ic := ic) h (lookupObj db.lookup lookupRaw) (installFromMap installFrom)
  have hve := hv hraw hos
  subst hve
  have hpre := C148_ascii_keys_partial (ic := ic) (db := db) (lookupRaw := lookupRaw) (installFrom := installFrom) hts false
  rw [hr] at hpre
  have hpre2 : resolveObjs ic (lookupObj db.lookup lookupRaw) (installFromMap installFrom) ⟨[], []⟩ (removeDuplicates ((ts.map bytesOf).map keyObj)) =
      .ok r.asObjs := hpre
  show resolveObjs ic _ _ ⟨[], []⟩ (removeDuplicates ((ts.map bytesOf ++ w :: post).map keyObj)) = _
  rw [List.map_append, List.map_cons, keyObj_raw h]
  obtain ⟨rest, hsplit⟩ := removeDuplicatesGo_split [] ((ts.map bytesOf).map keyObj) (post.map keyObj) (x := KeyObj.raw w) (by simp) (by
    rw [words_text hts]
    intro hmem
    obtain ⟨t, -, ht⟩ := List.mem_map.1 hmem
    cases ht)
  have : removeDuplicates ((ts.map bytesOf).map keyObj ++ KeyObj.raw w :: post.map keyObj) =
      removeDuplicates ((ts.map bytesOf).map keyObj) ++ KeyObj.raw w :: rest := hsplit
  rw [this]
  exact resolveObjs_append he rest hpre2

/-! ## `xylem lookup` -/

variable {on : Bool} {dump : PVal → Except Exc (List Char)} {lookup : String → Except Exc PVal} {rawLookup : Bytes → Except Exc PVal}
  {osString : Except Exc (List Char)}

private theorem lift_ok {α β : Type} (a : α) (f : α → Run β) : (Run.lift (.ok a) >>= f) = f a := by
  show (⟨[] ++ (f a).lines, (f a).res⟩ : Run β) = _
  rw [List.nil_append]

private theorem lift_err {α β : Type} (e : Exc) (f : α → Run β) : (Run.lift (.error e : Except Exc α) >>= f) = ⟨[], .error e⟩ := rfl

private theorem lookupWords_step {s : String} (h : AsciiText s.toList) (ws : List Bytes) :
    lookupWords on dump lookup rawLookup osString (bytesOf s :: ws) = (do
      let v ← Run.lift (lookup s)
      let os ← Run.lift osString
      let d ← Run.lift (dump v)
      info on ("Rules for '".toList ++ (ansi on "cyanf" ++ s.toList ++ ansi on "reset") ++ "' on '".toList ++
        (ansi on "cyanf" ++ os ++ ansi on "reset") ++ "':\n".toList ++ (ansi on "yellowf" ++ dropLast d))
      lookupWords on dump lookup rawLookup osString ws) := by
  rw [lookupWords, keyObj_text h]
  show (Run.lift (lookup s) >>= _) = _
  rcases lookup s with e | v
  · rfl
  · rw [lift_ok, lift_ok]
    show (Run.lift (.ok s) >>= _) = _
    rw [lift_ok]
    rcases osString with e | os
    · rfl
    · rw [lift_ok, lift_ok]
      rcases dump v with e | d
      · rfl
      · rw [lift_ok, lift_ok]
        exact lift_ok _ _

/-- **C148** (the part that holds) `xylem lookup` on keys that are ASCII is `xylem lookup` on their texts. -/
theorem C148_lookup_ascii_partial {ts : List String} (h : ∀ t ∈ ts, AsciiText t.toList) :
    lookupWords on dump lookup rawLookup osString (ts.map bytesOf) = lookupLoop on dump lookup osString ts := by
  induction ts with
  | nil => rfl
  | cons t ts ih =>
    show lookupWords on dump lookup rawLookup osString (bytesOf t :: ts.map bytesOf) = _
    rw [lookupWords_step (h t (by simp)), ih fun x hx => h x (by simp [hx])]
    rfl

/-- **C148** (refuted) `xylem lookup` prints the rules of the keys before one that is not ASCII, and then ends with a `UnicodeDecodeError` (a `ValueError`): nothing is printed about this
key and those behind it. -/
theorem C148_lookup_refuted {ts : List String} (hts : ∀ t ∈ ts, AsciiText t.toList) (hok : (lookupLoop on dump lookup osString ts).res = .ok ())
    {w : Bytes} (h : ¬AsciiBytes w) (hraw : ∃ v, rawLookup w = .ok v) (post : List Bytes) :
    (lookupWords on dump lookup rawLookup osString (ts.map bytesOf ++ w :: post)).res = .error .valueError ∧
      (lookupWords on dump lookup rawLookup osString (ts.map bytesOf ++ w :: post)).lines = (lookupLoop on dump lookup osString ts).lines := by
  induction ts with
  | nil =>
    obtain ⟨v, hv⟩ := hraw
    have : lookupWords on dump lookup rawLookup osString (w :: post) = ⟨[], .error .valueError⟩ := by
      rw [lookupWords, keyObj_raw h]
      show (Run.lift (rawLookup w) >>= _) = _
      rw [hv, lift_ok]
      show (Run.lift (showBytes w) >>= _) = _
      rw [showBytes_other h, lift_err]
    show (lookupWords on dump lookup rawLookup osString (w :: post)).res = _ ∧ (lookupWords on dump lookup rawLookup osString (w :: post)).lines = _
    rw [this]
    exact ⟨rfl, rfl⟩
  | cons t ts ih =>
    show (lookupWords on dump lookup rawLookup osString (bytesOf t :: (ts.map bytesOf ++ w :: post))).res = _ ∧
      (lookupWords on dump lookup rawLookup osString (bytesOf t :: (ts.map bytesOf ++ w :: post))).lines = _
    rw [lookupWords_step (hts t (by simp))]
    rw [lookupLoop] at hok ⊢
    rcases hl : lookup t with e | v
    · rw [hl] at hok; cases hok
    rw [hl, lift_ok] at hok
    rcases ho : osString with e | os
    · rw [ho] at hok; cases hok
    rw [ho, lift_ok] at hok
    rcases hd : dump v with e | d
    · rw [hd] at hok; cases hok
    rw [hd, lift_ok] at hok
    rw [ho] at ih
    obtain ⟨h1, h2⟩ := ih (fun x hx => hts x (by simp [hx])) hok
    rw [lift_ok, lift_ok, lift_ok, hd, lift_ok, lift_ok]
    refine ⟨h1, ?_⟩
    show _ ++ (lookupWords on dump lookup rawLookup (.ok os) (ts.map bytesOf ++ w :: post)).lines =
      _ ++ (lookupLoop on dump lookup (.ok os) ts).lines
    rw [h2]

/-! ## Examples -/

/-- A database with a rule for a key that is not ASCII. -/
def exAccents : Database where
  lookup k := if k = "é" ∨ k = "core" then .ok [("apt", [])] else .ok []
  keys := .ok ["core", "é"]

/-- As texts the keys resolve … -/
example : resolve exIc exAccents [] ["core", "é"] false = .ok ⟨[("core", ("apt", [[]])), ("é", ("apt", [[]]))], []⟩ := by rfl

private theorem core_ascii : ∀ t ∈ ["core", "nope"], AsciiText t.toList := by
  intro t ht
  rcases List.mem_cons.1 ht with rfl | ht
  · unfold AsciiText; decide
  · rcases List.mem_cons.1 ht with rfl | ht
    · unfold AsciiText; decide
    · cases ht

private theorem accent_other : ¬AsciiBytes (bytesOf "é") := by
  intro h
  have := h 195 (by decide +kernel)
  revert this; decide

/-- … as words they do not. -/
example : resolveWords exIc exAccents (fun _ => .ok []) [] [bytesOf "core", bytesOf "é"] false = .error .valueError :=
  C148_decode_error_refuted (ts := ["core"]) (r := ⟨[("core", ("apt", [[]]))], []⟩) (fun t ht => core_ascii t (by simp at ht; simp [ht])) (by rfl) accent_other ⟨_, rfl⟩ ⟨_, rfl⟩ []

/-- ASCII words do. -/
example : resolveWords exIc exAccents (fun _ => .error .typeError) [] (["core", "nope", "core"].map bytesOf) false =
    (resolve exIc exAccents [] ["core", "nope", "core"] false).map Resolved.asObjs := C148_ascii_keys_partial (fun t ht => core_ascii t (by simp at ht; simp; tauto)) false

/-- `xylem lookup core é`: one message, then the exception. -/
example : (lookupWords false (fun _ => .ok "x\n".toList) (fun _ => .ok .none) (fun _ => .ok .none) (.ok "ubuntu".toList) [bytesOf "core", bytesOf "é"]).res =
      .error .valueError ∧
    (lookupWords false (fun _ => .ok "x\n".toList) (fun _ => .ok .none) (fun _ => .ok .none) (.ok "ubuntu".toList) [bytesOf "core", bytesOf "é"]).lines =
      [.out "Rules for 'core' on 'ubuntu':\nx".toList] := by
  obtain ⟨h1, h2⟩ := C148_lookup_refuted (on := false) (dump := fun _ => .ok "x\n".toList) (lookup := fun _ => .ok .none) (rawLookup := fun _ => .ok .none)
    (osString := .ok "ubuntu".toList) (ts := ["core"]) (fun t ht => core_ascii t (by simp at ht; simp [ht])) (by rfl) accent_other ⟨_, rfl⟩ []
  exact ⟨h1, h2.trans (by decide +kernel)⟩

end Verif
