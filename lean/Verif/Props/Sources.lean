import Verif.Spec.Sources
import Verif.Props.Cache
import Verif.Props.Compact
/-! # Properties C26, C58, C59, C64, C65: downloads, source lists, update and lookup API -/
namespace Verif

/-! ## C26 -/

theorem loadUrlLoop_spec (resp : Nat → Response) (retry i : Nat) :
    i + 1 ≤ (loadUrlLoop resp retry i).2 ∧ (loadUrlLoop resp retry i).2 ≤ i + retry + 1 ∧
    (∀ j, i ≤ j → j + 1 < (loadUrlLoop resp retry i).2 → Transient (resp j)) ∧
    (loadUrlLoop resp retry i).1 = finalAnswer (resp ((loadUrlLoop resp retry i).2 - 1)) ∧
    ((loadUrlLoop resp retry i).2 < i + retry + 1 → ¬ Transient (resp ((loadUrlLoop resp retry i).2 - 1))) := by
  induction retry generalizing i with
  | zero =>
    unfold loadUrlLoop
    cases h : resp i with
    | success b => simp [h, finalAnswer, Transient]; omega
    | raises e => simp [h, finalAnswer, Transient]; omega
    | httpError c => by_cases hc : c = 503 <;> simp [hc, h, finalAnswer] <;> omega
    | urlError t => by_cases hc : t = true <;> simp [hc, h, finalAnswer] <;> omega
  | succ r ih =>
    obtain ⟨h1, h2, h3, h4, h5⟩ := ih (i + 1)
    unfold loadUrlLoop
    cases h : resp i with
    | success b => simp [h, finalAnswer, Transient]; omega
    | raises e => simp [h, finalAnswer, Transient]; omega
    | httpError c =>
      by_cases hc : c = 503
      · simp only [hc, if_true]
        refine ⟨by omega, by omega, ?_, h4, fun hh => h5 (by omega)⟩
        intro j hj hj2
        by_cases hij : j = i
        · subst hij; rw [h]; exact hc
        · exact h3 j (by omega) hj2
      · simp only [if_neg hc]
        refine ⟨by simp, by simp, fun j hj hj2 => by simp at hj2; omega, ?_, fun _ => ?_⟩
        · simp [h, finalAnswer]
        · simp only [Nat.add_sub_cancel, h, Transient]; exact hc
    | urlError t =>
      by_cases hc : t = true
      · simp only [hc, if_true]
        refine ⟨by omega, by omega, ?_, h4, fun hh => h5 (by omega)⟩
        intro j hj hj2
        by_cases hij : j = i
        · subst hij; rw [h]; exact hc
        · exact h3 j (by omega) hj2
      · simp only [if_neg hc]
        refine ⟨by simp, by simp, fun j hj hj2 => by simp at hj2; omega, ?_, fun _ => ?_⟩
        · simp [h, finalAnswer]
        · simp only [Nat.add_sub_cancel, h, Transient]; exact hc

/-- **C26** For every sequence of server responses and every retry count (also negative): at least one and at most
`retry + 1` requests are made; every request but the last met HTTP 503 or a timeout; the result is what the last
response gives (its body, DownloadFailure for an HTTP/URL error, other exceptions unchanged); and the attempts end before
the limit only at a response that is neither 503 nor a timeout. -/
theorem C26_bounded_retries (resp : Nat → Response) (retry : Int) :
    1 ≤ (loadUrl resp retry).2 ∧ (loadUrl resp retry).2 ≤ (max retry 0).toNat + 1 ∧
    (∀ j, j + 1 < (loadUrl resp retry).2 → Transient (resp j)) ∧
    (loadUrl resp retry).1 = finalAnswer (resp ((loadUrl resp retry).2 - 1)) ∧
    ((loadUrl resp retry).2 < (max retry 0).toNat + 1 → ¬ Transient (resp ((loadUrl resp retry).2 - 1))) := by
  obtain ⟨h1, h2, h3, h4, h5⟩ := loadUrlLoop_spec resp (max retry 0).toNat 0
  have e : loadUrl resp retry = loadUrlLoop resp (max retry 0).toNat 0 := rfl
  rw [e]
  exact ⟨by simpa using h1, by simpa using h2, fun j hj => h3 j (Nat.zero_le _) hj, h4, fun h => h5 (by simpa using h)⟩

/-- **C26** Consequence: a good answer after at most `retry` transient failures is returned. -/
theorem C26_recovers (resp : Nat → Response) (retry : Int) (n : Nat) (body : String)
    (hn : n ≤ (max retry 0).toNat) (ht : ∀ j < n, Transient (resp j)) (hs : resp n = .success (.ok body)) :
    loadUrl resp retry = (.ok body, n + 1) := by
  obtain ⟨h1, h2, h3, h4, h5⟩ := C26_bounded_retries resp retry
  have e : (loadUrl resp retry).2 = n + 1 := by
    rcases Nat.lt_trichotomy (loadUrl resp retry).2 (n + 1) with h | h | h
    · exact absurd (ht _ (by omega)) (h5 (by omega))
    · exact h
    · have := h3 n (by omega); rw [hs] at this; exact this.elim
  rw [e] at h4
  simp only [Nat.add_sub_cancel, hs, finalAnswer] at h4
  exact Prod.ext h4 e

/-- **C26** Consequence: if every attempt allowed fails transiently, DownloadFailure is raised after `retry + 1` requests. -/
theorem C26_gives_up (resp : Nat → Response) (retry : Int)
    (ht : ∀ j ≤ (max retry 0).toNat, Transient (resp j)) :
    loadUrl resp retry = (.error .downloadFailure, (max retry 0).toNat + 1) := by
  obtain ⟨h1, h2, h3, h4, h5⟩ := C26_bounded_retries resp retry
  have e : (loadUrl resp retry).2 = (max retry 0).toNat + 1 := by
    by_contra hne
    exact h5 (by omega) (ht _ (by omega))
  have ht' := ht (max retry 0).toNat (Nat.le_refl _)
  rw [e, Nat.add_sub_cancel] at h4
  refine Prod.ext ?_ e
  rw [h4]
  cases hr : resp (max retry 0).toNat <;> rw [hr] at ht' <;> simp_all [Transient, finalAnswer]

example : loadUrl (fun n => if n < 2 then .httpError 503 else .success (.ok "data")) 2 = (.ok "data", 3) := by rfl
example : loadUrl (fun _ => .urlError true) (-5) = (.error .downloadFailure, 1) := by rfl
example : loadUrl (fun n => if n = 0 then .httpError 503 else .httpError 404) 2 = (.error .downloadFailure, 2) := by rfl

/-! ## C58 -/

theorem pathJoin_plain {a b : String} (hb : b.toList.head? ≠ some '/') (ha : a ≠ "") :
    ∃ pre, (pathJoin a b).toList = pre ++ '/' :: b.toList ∧ (pre = a.toList ∨ pre ++ ['/'] = a.toList) := by
  unfold pathJoin
  rw [if_neg hb]
  have hne : a.toList ≠ [] := by
    intro h; apply ha; exact String.toList_inj.1 (by simpa using h)
  by_cases hl : a.toList.getLast? = some '/'
  · rw [if_pos (Or.inr hl)]
    obtain ⟨l, hl'⟩ := List.getLast?_eq_some_iff.1 hl
    exact ⟨l, by simp [String.toList_append, hl'], Or.inr hl'.symm⟩
  · rw [if_neg (by simp [hne, hl])]
    exact ⟨a.toList, by simp [String.toList_append], Or.inl rfl⟩

theorem suffix_after_slash {pre b s : List Char} (hs : '/' ∉ s) : s <:+ pre ++ '/' :: b ↔ s <:+ b := by
  constructor
  · rintro ⟨t, ht⟩
    rcases List.append_eq_append_iff.1 ht with ⟨l, h1, h2⟩ | ⟨l, h1, h2⟩
    · exfalso; apply hs; rw [h2]; simp
    · cases l with
      | nil => exfalso; apply hs; simp at h2; rw [← h2]; simp
      | cons c l => simp at h2; exact ⟨l, h2.2.symm⟩
  · rintro ⟨t, rfl⟩; exact ⟨pre ++ '/' :: t, by simp⟩

theorem startsWith_join {a b : String} (hb : b.toList.head? ≠ some '/') (ha : a ≠ "") :
    startsWith (pathJoin a b) "." = startsWith a "." := by
  obtain ⟨pre, h1, h2⟩ := pathJoin_plain hb ha
  unfold startsWith
  rw [h1]
  have : ".".toList = ['.'] := rfl
  rw [this]
  have hne : a.toList ≠ [] := by
    intro h; apply ha; exact String.toList_inj.1 (by simpa using h)
  rcases h2 with h2 | h2
  · subst h2
    cases hc : a.toList with
    | nil => exact absurd hc hne
    | cons c t => simp [List.isPrefixOf]
  · rw [← h2]
    cases pre <;> simp [List.isPrefixOf]

theorem endsWith_join {a b : String} (hb : b.toList.head? ≠ some '/') (ha : a ≠ "") :
    endsWith (pathJoin a b) ".yaml" = endsWith b ".yaml" := by
  obtain ⟨pre, h1, _⟩ := pathJoin_plain hb ha
  unfold endsWith
  rw [h1, Bool.eq_iff_iff, List.isSuffixOf_iff_suffix, List.isSuffixOf_iff_suffix]
  exact suffix_after_slash (by decide)

/-- **C58 (partial)** Exactly which files of a directory are parsed, and in which order: if the directory's path does not
start with a dot, the regular files whose name ends in `.yaml`, in listing order — *including hidden ones*. Missing for the
full claim: hidden files are to be ignored, and directories starting with a dot are to be read (both refuted below). -/
theorem C58_source_files_partial (isfile : String → Bool) (listing : List String) (path : String) (hp : path ≠ "")
    (hdot : ¬ startsWith path ".") (hl : ∀ n ∈ listing, n.toList.head? ≠ some '/') :
    loadSourcesFromPath isfile listing path =
      (listing.filter fun n => endsWith n ".yaml" && isfile (pathJoin path n)).map (pathJoin path) := by
  unfold loadSourcesFromPath
  rw [List.filter_map]
  congr 1
  apply List.filter_congr
  intro n hn
  simp only [Function.comp, isSourceFile, startsWith_join (hl n hn) hp, endsWith_join (hl n hn) hp]
  simp [hdot]

/-- **C58** Part of the claim that holds for every directory: whatever is read is a regular file of the listing with the
extension `.yaml`. -/
theorem C58_only_yaml_files (isfile : String → Bool) (listing : List String) (path : String) (p : String)
    (h : p ∈ loadSourcesFromPath isfile listing path) :
    isfile p = true ∧ endsWith p ".yaml" = true ∧ ∃ n ∈ listing, p = pathJoin path n := by
  unfold loadSourcesFromPath at h
  obtain ⟨h1, h2⟩ := List.mem_filter.1 h
  obtain ⟨n, hn, rfl⟩ := List.mem_map.1 h1
  simp [isSourceFile] at h2
  exact ⟨h2.2, h2.1.2, n, hn, rfl⟩

/-- **C58 refuted** Every hidden regular file `.….yaml` is read (unless the directory's path starts with a dot). -/
theorem C58_hidden_files_are_read (isfile : String → Bool) (listing : List String) (path n : String) (hp : path ≠ "")
    (hdot : ¬ startsWith path ".") (hl : ∀ n ∈ listing, n.toList.head? ≠ some '/') (hn : n ∈ listing)
    (_hidden : startsWith n ".") (hy : endsWith n ".yaml") (hf : isfile (pathJoin path n)) :
    pathJoin path n ∈ loadSourcesFromPath isfile listing path := by
  rw [C58_source_files_partial isfile listing path hp hdot hl]
  exact List.mem_map.2 ⟨n, List.mem_filter.2 ⟨hn, by simp [hy, hf]⟩, rfl⟩

/-- **C58 refuted** From a directory whose path starts with a dot (e.g. `./sources.d`) nothing is ever read. -/
theorem C58_dot_directory_reads_nothing (isfile : String → Bool) (listing : List String) (path : String)
    (hdot : startsWith path ".") (hl : ∀ n ∈ listing, n.toList.head? ≠ some '/') :
    loadSourcesFromPath isfile listing path = [] := by
  have hp : path ≠ "" := by rintro rfl; exact absurd hdot (by decide)
  unfold loadSourcesFromPath
  rw [List.filter_eq_nil_iff]
  intro p hm
  obtain ⟨n, hn, rfl⟩ := List.mem_map.1 hm
  simp [isSourceFile, startsWith_join (hl n hn) hp, hdot]

example : loadSourcesFromPath (fun _ => true) ["a.yaml", ".b.yaml", "c.txt"] "/etc/xylem/sources.d"
    = ["/etc/xylem/sources.d/a.yaml", "/etc/xylem/sources.d/.b.yaml"] := by decide
example : loadSourcesFromPath (fun _ => true) ["a.yaml"] "./sources.d" = [] := by decide

/-! ## C59 -/

theorem verifySourceDescription_iff (v : PVal) :
    (verifySourceDescription v = .ok () ∧ ValidDescr v) ∨
    (verifySourceDescription v = .error .valueError ∧ ¬ ValidDescr v) ∨
    (verifySourceDescription v = .error .typeError ∧ ¬ ValidDescr v) := by
  unfold ValidDescr
  cases v with
  | dict d =>
    match d with
    | [] => simp [verifySourceDescription]
    | [(k, w)] => cases k <;> simp [verifySourceDescription, verifySpecName]
    | _ :: _ :: _ => simp [verifySourceDescription]
  | _ => simp [verifySourceDescription]

theorem verifyDescrs_iff (l : List PVal) :
    (verifyDescrs l = .ok () ∧ ∀ v ∈ l, ValidDescr v) ∨
    ((verifyDescrs l = .error .valueError ∨ verifyDescrs l = .error .typeError) ∧ ¬ ∀ v ∈ l, ValidDescr v) := by
  induction l with
  | nil => simp [verifyDescrs]
  | cons v t ih =>
    rcases verifySourceDescription_iff v with ⟨h, hv⟩ | ⟨h, hv⟩ | ⟨h, hv⟩
    · simpa [verifyDescrs, h, hv, bind, Except.bind] using ih
    · simp [verifyDescrs, h, hv, bind, Except.bind]
    · simp [verifyDescrs, h, hv, bind, Except.bind]

/-- **C59** A parsed source list is accepted iff it is a list of well-formed descriptions, or an empty dict or empty text
(which iterate to nothing); everything else raises ValueError and nothing else. -/
theorem C59_accepts_iff (v : PVal) :
    (verifySourceDescriptionList v = .ok () ↔
      (∃ l, v = .list l ∧ ∀ d ∈ l, ValidDescr d) ∨ v = .dict [] ∨ v = .str "") ∧
    ∀ e, verifySourceDescriptionList v = .error e → e = .valueError := by
  have key : ∀ l : List PVal, iterVal v = .ok l →
      (verifySourceDescriptionList v = .ok () ↔ ∀ d ∈ l, ValidDescr d) ∧
      ∀ e, verifySourceDescriptionList v = .error e → e = .valueError := by
    intro l hl
    unfold verifySourceDescriptionList
    simp only [hl, bind, Except.bind]
    rcases verifyDescrs_iff l with ⟨h, hv⟩ | ⟨h | h, hv⟩
    · simp only [h]; simpa using hv
    · rw [h]; simp only [or_true, if_true]; exact ⟨by simpa using hv, by simp [eq_comm]⟩
    · rw [h]; simp only [true_or, if_true]; exact ⟨by simpa using hv, by simp [eq_comm]⟩
  have bad : iterVal v = .error .typeError → verifySourceDescriptionList v = .error .valueError := by
    intro h; unfold verifySourceDescriptionList; simp [h, bind, Except.bind]
  cases v with
  | list l =>
    obtain ⟨h1, h2⟩ := key l rfl
    refine ⟨?_, h2⟩
    rw [h1]; simp
  | dict d =>
    obtain ⟨h1, h2⟩ := key _ rfl
    refine ⟨?_, h2⟩
    rw [h1]
    cases d with
    | nil => simp
    | cons x d =>
      simp only [reduceCtorEq, false_and, exists_false, false_or, PVal.dict.injEq, or_false, iff_false]
      intro h
      obtain ⟨n, a, h⟩ := h x.1.toVal (by simp)
      cases hx : x.1 <;> simp [hx, PKey.toVal] at h
  | str s =>
    obtain ⟨h1, h2⟩ := key _ rfl
    refine ⟨?_, h2⟩
    rw [h1]
    constructor
    · intro h
      right; right
      cases hs : s.toList with
      | nil => rw [show s = "" from String.toList_inj.1 (by simpa using hs)]
      | cons c t =>
        obtain ⟨n, a, h⟩ := h (.str (String.singleton c)) (by simp [hs])
        simp at h
    · rintro (⟨l, h, _⟩ | h | h)
      · simp at h
      · simp at h
      · simp only [PVal.str.injEq] at h; subst h; simp
  | _ => rw [bad rfl]; simp [eq_comm]

/-- **C59** The check of a single description: accepted iff well-formed; it raises ValueError, except that a non-text spec name
raises TypeError (the chained error is constructed with a missing argument). -/
theorem C59_single_description (v : PVal) :
    (verifySourceDescription v = .ok () ↔ ValidDescr v) ∧
    (verifySourceDescription v = .error .typeError ↔ ∃ k w, v = .dict [(k, w)] ∧ ∀ s, k ≠ .str s) := by
  constructor
  · rcases verifySourceDescription_iff v with ⟨h, hv⟩ | ⟨h, hv⟩ | ⟨h, hv⟩ <;> simp [h, hv]
  · cases v with
    | dict d =>
      match d with
      | [] => simp [verifySourceDescription]
      | [(k, w)] => cases k <;> simp [verifySourceDescription, verifySpecName]
      | _ :: _ :: _ => simp [verifySourceDescription]
    | _ => simp [verifySourceDescription]

theorem mkSourceOfDescr_ok_iff {plugins : List Spec} {file : String} {name : String} {args : PVal} {s : Source} :
    mkSourceOfDescr plugins file (.dict [(.str name, args)]) = .ok s ↔
      DescribedBy plugins file (.dict [(.str name, args)]) s := by
  unfold mkSourceOfDescr getSpec
  simp only [PKey.str.injEq]
  constructor
  · intro h
    obtain ⟨sp, h1, h2⟩ := Except_bind_ok.1 h
    unfold mkSource at h2
    obtain ⟨u, h3, h4⟩ := Except_bind_ok.1 h2
    rw [pure_ok] at h4
    cases hf : plugins.find? (fun s => decide (s.name = name)) with
    | none => rw [hf] at h1; simp at h1
    | some sp' =>
      rw [hf] at h1; simp only [Except.ok.injEq] at h1; subst h1
      obtain ⟨hp, as, bs, e, hb⟩ := List.find?_eq_some_iff_append.1 hf
      subst h4
      refine ⟨name, args, rfl, rfl, rfl, rfl, rfl, by cases u; exact h3, as, bs, e, by simpa using hp, ?_⟩
      intro q hq; simpa using hb q hq
  · rintro ⟨n, a, h, h1, h2, h3, h4, h5, before, after, h6, h7, h8⟩
    simp only [PVal.dict.injEq, List.cons.injEq, Prod.mk.injEq, PKey.str.injEq, and_true] at h
    obtain ⟨rfl, rfl⟩ := h
    have hf : plugins.find? (fun s => decide (s.name = name)) = some s.spec :=
      List.find?_eq_some_iff_append.2 ⟨by simpa using h7, before, after, h6, fun q hq => by simpa using h8 q hq⟩
    rw [hf]
    simp only [bind, Except.bind, mkSource, h5, pure, Except.pure]
    obtain ⟨sp, ar, og, da, ti⟩ := s
    simp only at h1 h2 h3 h4; subst h1 h2 h3 h4; rfl

theorem mkSourceOfDescr_error {plugins : List Spec} {file : String} {v : PVal} {e : Exc} (hv : ValidDescr v)
    (h : mkSourceOfDescr plugins file v = .error e) :
    ∃ name arguments, v = .dict [(.str name, arguments)] ∧
      ((e = .unknownSpecError ∧ ∀ q ∈ plugins, q.name ≠ name) ∨
        ∃ q ∈ plugins, q.name = name ∧ q.verifyArguments arguments = .error e) := by
  obtain ⟨name, args, rfl⟩ := hv
  refine ⟨name, args, rfl, ?_⟩
  unfold mkSourceOfDescr getSpec at h
  simp only [PKey.str.injEq] at h
  cases hf : plugins.find? (fun s => decide (s.name = name)) with
  | none =>
    rw [hf] at h
    simp only [bind, Except.bind, Except.error.injEq] at h
    exact Or.inl ⟨h.symm, by simpa using hf⟩
  | some sp =>
    rw [hf] at h
    simp only [bind, Except.bind, mkSource] at h
    refine Or.inr ⟨sp, List.mem_of_find?_eq_some hf, by simpa using List.find?_some hf, ?_⟩
    cases hv : sp.verifyArguments args with
    | error e' => rw [hv] at h; simpa using h
    | ok u => rw [hv] at h; simp [pure, Except.pure] at h

/-- Accepted files give the elements the specification `descrsOf` names. -/
theorem parse_ok_iter {parsed : Except Exc PVal} {v : PVal} (h : parseSourceDescriptions parsed = .ok v) :
    iterVal v = .ok (descrsOf parsed) ∧ ∀ d ∈ descrsOf parsed, ValidDescr d := by
  unfold parseSourceDescriptions at h
  cases parsed with
  | error e =>
    simp only at h
    split at h
    · simp only [Except.ok.injEq] at h; subst h; exact ⟨rfl, by simp [descrsOf]⟩
    · simp at h
  | ok w =>
    obtain ⟨u, h1, h2⟩ := Except_bind_ok.1 h
    rw [pure_ok] at h2; subst h2
    have h1 : verifySourceDescriptionList w = .ok () := by cases u; exact h1
    rcases (C59_accepts_iff w).1.1 h1 with ⟨l, rfl, hl⟩ | rfl | rfl
    · exact ⟨rfl, hl⟩
    · exact ⟨rfl, by simp [descrsOf]⟩
    · exact ⟨rfl, by simp [descrsOf]⟩

theorem except_mapM_nil {α β : Type} (f : α → Except Exc β) : ([] : List α).mapM f = .ok [] := rfl

/-- **C59** If the database opens, every file was accepted (or was no YAML, which contributes nothing), and there is exactly
one source per description, in file and description order, with the first spec plugin of the description's name. -/
theorem C59_one_source_per_description (plugins : List Spec) (files : List (String × Except Exc PVal)) (sources : List Source)
    (h : initFromFiles plugins files = .ok sources) :
    List.Forall₂ (fun fd s => DescribedBy plugins fd.1 fd.2 s)
      (files.flatMap fun f => (descrsOf f.2).map fun d => (f.1, d)) sources := by
  induction files generalizing sources with
  | nil => simp only [initFromFiles, Except.ok.injEq] at h; subst h; exact .nil
  | cons f rest ih =>
    obtain ⟨file, parsed⟩ := f
    unfold initFromFiles at h
    obtain ⟨v, h1, h⟩ := Except_bind_ok.1 h
    obtain ⟨ds, h2, h⟩ := Except_bind_ok.1 h
    obtain ⟨l, h3, h⟩ := Except_bind_ok.1 h
    obtain ⟨r, h4, h⟩ := Except_bind_ok.1 h
    rw [pure_ok] at h; subst h
    obtain ⟨h5, h6⟩ := parse_ok_iter h1
    rw [h2] at h5; simp only [Except.ok.injEq] at h5; subst h5
    simp only [List.flatMap_cons]
    refine List.rel_append ?_ (ih r h4)
    have key : ∀ (ds : List PVal) (l : List Source), List.Forall₂ (fun d s => mkSourceOfDescr plugins file d = .ok s) ds l →
        (∀ d ∈ ds, ValidDescr d) → List.Forall₂ (fun fd s => DescribedBy plugins fd.1 fd.2 s) (ds.map fun d => (file, d)) l := by
      intro ds l hf hv
      induction hf with
      | nil => exact .nil
      | cons hd _ ih2 =>
        refine .cons ?_ (ih2 (fun d hd => hv d (by simp [hd])))
        obtain ⟨n, a, rfl⟩ := hv _ (List.mem_cons_self ..)
        exact mkSourceOfDescr_ok_iff.1 hd
    exact key _ _ (mapM_ok_iff.1 h3) h6

/-- **C59** If opening fails, the error is a ValueError of a malformed file, an error of reading a file that is not a YAML
error, UnknownSpecError for a name without plugin, or the spec plugin's rejection of the arguments. -/
theorem C59_errors (plugins : List Spec) (files : List (String × Except Exc PVal)) (e : Exc)
    (h : initFromFiles plugins files = .error e) :
    ∃ f ∈ files,
      (f.2 = .error e ∧ e ≠ .yamlError) ∨
      (∃ v, f.2 = .ok v ∧ verifySourceDescriptionList v = .error .valueError ∧ e = .valueError) ∨
      (∃ name arguments, .dict [(.str name, arguments)] ∈ descrsOf f.2 ∧
        ((e = .unknownSpecError ∧ ∀ q ∈ plugins, q.name ≠ name) ∨
          ∃ q ∈ plugins, q.name = name ∧ q.verifyArguments arguments = .error e)) := by
  induction files with
  | nil => simp [initFromFiles] at h
  | cons f rest ih =>
    obtain ⟨file, parsed⟩ := f
    unfold initFromFiles at h
    rcases Except_bind_err.1 h with h1 | ⟨v, h1, h⟩
    · refine ⟨(file, parsed), by simp, ?_⟩
      unfold parseSourceDescriptions at h1
      cases parsed with
      | error e' =>
        simp only at h1
        split at h1
        · simp at h1
        · next hne => simp only [Except.error.injEq] at h1; subst h1; exact Or.inl ⟨rfl, hne⟩
      | ok w =>
        right; left
        rcases Except_bind_err.1 h1 with h2 | ⟨_, _, h2⟩
        · have := (C59_accepts_iff w).2 e h2; subst this; exact ⟨w, rfl, h2, rfl⟩
        · simp [pure, Except.pure] at h2
    · obtain ⟨h5, h6⟩ := parse_ok_iter h1
      rcases Except_bind_err.1 h with h2 | ⟨ds, h2, h⟩
      · rw [h5] at h2; simp at h2
      · rw [h5] at h2; simp only [Except.ok.injEq] at h2; subst h2
        rcases Except_bind_err.1 h with h3 | ⟨l, h3, h⟩
        · obtain ⟨d, hd, he⟩ := mapM_error h3
          obtain ⟨n, a, rfl, hh⟩ := mkSourceOfDescr_error (h6 d hd) he
          exact ⟨(file, parsed), by simp, Or.inr (Or.inr ⟨n, a, hd, hh⟩)⟩
        · rcases Except_bind_err.1 h with h4 | ⟨r, h4, h⟩
          · obtain ⟨f, hf, hh⟩ := ih h4
            exact ⟨f, by simp [hf], hh⟩
          · simp [pure, Except.pure] at h

example : (initFromFiles [rulesSpec fun _ => false]
    [("a.yaml", .ok (.list [.dict [(.str "rules", .str "u1")], .dict [(.str "rules", .str "u2")]])), ("b.yaml", .error .yamlError)]).map
      (fun l => l.map (fun s => (s.spec.name, match s.arguments with | .str t => t | _ => ""))) =
    .ok [("rules", "u1"), ("rules", "u2")] := by rfl
example : (initFromFiles [rulesSpec fun _ => false] [("a.yaml", .ok (.list [.dict [(.str "rosdistro", .none)]]))]).map (fun l => l.length) =
    .error .unknownSpecError := by rfl
example : verifySourceDescriptionList (.list [.dict [(.str "rules", .str "u"), (.str "b", .none)]]) = .error .valueError := by rfl

end Verif
