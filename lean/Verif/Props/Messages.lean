import Verif.Props.Encoding
import Verif.Props.Cache
/-! # C115: messages about failing sources -/
namespace Verif

theorem sayFormat_none_iff (m : ExcMsg) : sayFormat m = none ↔ PrintableMsg m := by
  cases m with
  | text t => exact ⟨fun _ => trivial, fun _ => rfl⟩
  | bytes b =>
    by_cases h : AsciiBytes b
    · exact ⟨fun _ => h, fun _ => by simp [sayFormat, formatExc, decodeAscii_ok h]⟩
    · exact ⟨fun h' => by simp [sayFormat, formatExc, decodeAscii_error h] at h', fun h' => absurd h' h⟩

theorem sayFormat_some {m : ExcMsg} (h : ¬ PrintableMsg m) : sayFormat m = some .valueError := by
  cases m with
  | text t => exact absurd trivial h
  | bytes b =>
    have h' : ¬ AsciiBytes b := h
    simp [sayFormat, formatExc, decodeAscii_error h']

theorem sayToStr_none {e : ExcObj} (h : Printable e) : sayToStr e = none := by
  obtain ⟨t, ht⟩ := (C114_raises_iff (fun _ => 0) e).1.2 h
  have ht' : toStrExc e = .ok t := ht
  simp [sayToStr, ht']

theorem sayToStr_some {e : ExcObj} (h : ¬ Printable e) : sayToStr e = some .valueError := by
  have ht' : toStrExc e = .error .valueError := (C114_raises_iff (fun _ => 0) e).2 h
  simp [sayToStr, ht']

/-- The message about the failure of one source raises. -/
def srcSays (obj : Source → Exc → ExcObj) (so : Source × Outcome) (e : Exc) : Option Exc :=
  match so.1.loadFromSource so.2.net so.2.now with
  | .error _ => sayFormat (obj so.1 e).msg
  | .ok _ => sayToStr (obj so.1 e)

theorem saying_cons (env : CacheEnv) (obj : Source → Exc → ExcObj) (b : Bool) (so : Source × Outcome) (t : List (Source × Outcome))
    (h : ∀ e, srcErr env so = some e → reraises b e = false → srcSays obj so e = none) :
    dbUpdateSaying env obj b (so :: t) =
      match (srcErr env so).filter (reraises b) with
      | some e => ⟨srcAfter so :: t.map Prod.fst, srcSteps env so, some e⟩
      | none => ⟨srcAfter so :: (dbUpdateSaying env obj b t).sources, srcSteps env so ++ (dbUpdateSaying env obj b t).steps,
          (dbUpdateSaying env obj b t).raised⟩ := by
  obtain ⟨s, o⟩ := so
  simp only [srcErr, srcSays] at h
  simp only [dbUpdateSaying, srcAfter, srcSteps, srcErr]
  cases hl : s.loadFromSource o.net o.now with
  | error e =>
    simp only [hl] at h
    cases hr : reraises b e with
    | true => simp [hr, Option.filter]
    | false => simp [hr, Option.filter, h e rfl hr]
  | ok s' =>
    simp only [hl] at h
    simp only
    cases h2 : (s'.saveToCache env o.write).2 with
    | none => simp
    | some e =>
      cases hr : reraises b e with
      | true => simp [hr, Option.filter]
      | false => simp [hr, Option.filter, h e h2 hr]

theorem srcSays_none {obj : Source → Exc → ExcObj} {so : Source × Outcome} {e : Exc} (h : Printable (obj so.1 e)) : srcSays obj so e = none := by
  unfold srcSays
  cases so.1.loadFromSource so.2.net so.2.now with
  | error _ => exact (sayFormat_none_iff _).2 h.2
  | ok _ => exact sayToStr_none h

/-- **C115** If the exceptions of failing sources have no bytes that are not ASCII in name and message, forming the messages changes nothing: the update is the one of
C19–C23. Missing from the full claim: `C115_update_refuted`. -/
theorem C115_update_partial (env : CacheEnv) (obj : Source → Exc → ExcObj) (b : Bool) (l : List (Source × Outcome))
    (h : ∀ so ∈ l, ∀ e, Printable (obj so.1 e)) : dbUpdateSaying env obj b l = dbUpdate env b l := by
  induction l with
  | nil => rfl
  | cons so t ih =>
    rw [saying_cons env obj b so t (fun e _ _ => srcSays_none (h so (by simp) e)), dbUpdate_cons,
      ih (fun x hx => h x (List.mem_cons_of_mem _ hx))]
    cases (srcErr env so).filter (reraises b) <;> rfl

theorem saying_append (env : CacheEnv) (obj : Source → Exc → ExcObj) (pre rest : List (Source × Outcome))
    (h : ∀ so ∈ pre, ∀ e, Printable (obj so.1 e)) (hn : ∀ so ∈ pre, NotInterrupted env so) :
    dbUpdateSaying env obj false (pre ++ rest) =
      ⟨pre.map srcAfter ++ (dbUpdateSaying env obj false rest).sources,
       pre.flatMap (srcSteps env) ++ (dbUpdateSaying env obj false rest).steps, (dbUpdateSaying env obj false rest).raised⟩ := by
  induction pre with
  | nil => simp
  | cons so t ih =>
    have hf : (srcErr env so).filter (reraises false) = none := by
      cases he : srcErr env so with
      | none => rfl
      | some e => simp [Option.filter, reraises, srcErr_isException (hn so (by simp)) he]
    rw [List.cons_append, saying_cons env obj false so _ (fun e _ _ => srcSays_none (h so (by simp) e)), hf,
      ih (fun x hx => h x (List.mem_cons_of_mem _ hx)) (fun x hx => hn x (List.mem_cons_of_mem _ hx))]
    simp

/-- **C115, refutation** With `raise_on_error` off: as soon as a source cannot be loaded and the message of the exception has a byte that is not ASCII, the update raises
`UnicodeDecodeError`; the sources before it have been processed, those after it are neither loaded nor saved, whatever the network would have given. -/
theorem C115_update_refuted (env : CacheEnv) (obj : Source → Exc → ExcObj) (pre post : List (Source × Outcome)) (s : Source) (o : Outcome) (e : Exc)
    (h : ∀ so ∈ pre, ∀ e, Printable (obj so.1 e)) (hn : ∀ so ∈ pre, NotInterrupted env so)
    (hl : s.loadFromSource o.net o.now = .error e) (he : e.isException = true) (hm : ¬ PrintableMsg (obj s e).msg) :
    (dbUpdateSaying env obj false (pre ++ (s, o) :: post)).raised = some .valueError ∧
    (dbUpdateSaying env obj false (pre ++ (s, o) :: post)).sources =
      (dbUpdate env false pre).sources ++ s :: post.map Prod.fst ∧
    (dbUpdateSaying env obj false (pre ++ (s, o) :: post)).steps = (dbUpdate env false pre).steps := by
  have key : dbUpdateSaying env obj false ((s, o) :: post) = ⟨s :: post.map Prod.fst, [], some .valueError⟩ := by
    simp [dbUpdateSaying, hl, reraises, he, sayFormat_some hm]
  rw [saying_append env obj pre _ h hn, key, dbUpdate_false env pre hn]
  exact ⟨rfl, rfl, by simp⟩

/-- **C115** Loading from the cache: the same. -/
theorem C115_load_from_cache_partial (env : CacheEnv) (obj : Source → Exc → ExcObj) (fs : FileSys) (b : Bool) (l : List Source)
    (h : ∀ s ∈ l, ∀ e, PrintableMsg (obj s e).msg) : dbLoadFromCacheSaying env obj fs b l = dbLoadFromCache env fs b l := by
  induction l with
  | nil => rfl
  | cons s t ih =>
    simp only [dbLoadFromCacheSaying, dbLoadFromCache, ih (fun x hx => h x (List.mem_cons_of_mem _ hx))]
    cases hl : s.loadFromCache env fs with
    | ok s' => rfl
    | error e =>
      simp only
      cases hr : reraises b e with
      | true => rfl
      | false => simp only [(sayFormat_none_iff _).2 (h s (by simp) e)]

/-- **C115, refutation** A source that cannot be loaded from the cache for such a reason stops the loading of all later ones. -/
theorem C115_load_from_cache_refuted (env : CacheEnv) (obj : Source → Exc → ExcObj) (fs : FileSys) (s : Source) (rest : List Source) (e : Exc)
    (hl : s.loadFromCache env fs = .error e) (he : e.isException = true) (hm : ¬ PrintableMsg (obj s e).msg) :
    dbLoadFromCacheSaying env obj fs false (s :: rest) = ⟨s :: rest, [], some .valueError⟩ := by
  simp [dbLoadFromCacheSaying, hl, reraises, he, sayFormat_some hm]

/-- **C115** A source list file that is not YAML: a message and no sources, if the error has no bytes that are not ASCII. -/
theorem C115_source_list_partial (e : ExcObj) (parsed : Except Exc PVal) (h : Printable e) :
    parseDescriptionsSaying e parsed = parseSourceDescriptions parsed := by
  cases parsed with
  | ok v => rfl
  | error x => simp [parseDescriptionsSaying, parseSourceDescriptions, sayToStr_none h]

/-- **C115, refutation** Otherwise the error leaves the function, as `UnicodeDecodeError`. -/
theorem C115_source_list_refuted (e : ExcObj) (h : ¬ Printable e) : parseDescriptionsSaying e (.error .yamlError) = .error .valueError := by
  simp [parseDescriptionsSaying, sayToStr_some h]

example : parseDescriptionsSaying exYamlError (.error .yamlError) = .error .valueError :=
  C115_source_list_refuted _ fun h => exYamlError_not h.2

/-! ### Example: the first of two sources is no YAML, at a line with `ü` -/

/-- The network: `u1` is not YAML, `u2` gives rules. -/
def exYamlNet : PVal → Except Exc PVal
  | .str "u1" => .error .yamlError
  | v => exNet v

/-- YAML errors have the text of `exYamlError`. -/
def exObj (_ : Source) (e : Exc) : ExcObj := if e = .yamlError then exYamlError else ⟨[], .text []⟩

example : (dbUpdateSaying exEnv exObj false [(exS "u1", ⟨exYamlNet, .other 7, .ok⟩), (exS "u2", ⟨exYamlNet, .other 7, .ok⟩)]).raised = some .valueError ∧
    (dbUpdateSaying exEnv exObj false [(exS "u1", ⟨exYamlNet, .other 7, .ok⟩), (exS "u2", ⟨exYamlNet, .other 7, .ok⟩)]).steps = [] :=
  have h := C115_update_refuted exEnv exObj [] [(exS "u2", ⟨exYamlNet, .other 7, .ok⟩)] (exS "u1") ⟨exYamlNet, .other 7, .ok⟩ .yamlError
    (by simp) (by simp) rfl rfl exYamlError_not
  ⟨h.1, h.2.2⟩

example : (dbUpdateSaying exEnv (fun _ _ => ⟨[], .text "no ü".toList⟩) false [(exS "u1", ⟨exYamlNet, .other 7, .ok⟩), (exS "u2", exO)]) =
    dbUpdate exEnv false [(exS "u1", ⟨exYamlNet, .other 7, .ok⟩), (exS "u2", exO)] :=
  C115_update_partial _ _ _ _ fun _ _ _ => ⟨fun x hx => (by cases hx), trivial⟩

end Verif
