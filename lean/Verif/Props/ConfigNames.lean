import Verif.Props.ConfigFiles
/-!
# Directories, the os argument, names

C53 (directories), C54 (`--os` syntax), C55 (names), C72 (command line arguments do not share values), C73 (dicts as config).
-/
namespace Verif

/-! ## C53 -/

/-- The directories config files are read from, after the global arguments were handled: command line over environment over default; a given
directory excludes all others; else user before system, or the system directory alone. -/
theorem C53_config_directories (expand : String → String) (home tool : String) (envDir envPrefix : Option String) (a : GlobalArgs) :
    (∀ d, a.configDir = some d → configDirs home tool (handleGlobalConfigArguments expand envDir envPrefix a) = [expand d]) ∧
    (∀ d, a.configDir = none → envDir = some d → configDirs home tool (handleGlobalConfigArguments expand envDir envPrefix a) = [expand d]) ∧
    (a.configDir = none → envDir = none → a.noUserConfig = true →
      configDirs home tool (handleGlobalConfigArguments expand envDir envPrefix a)
        = [pathJoin (pathJoin (expand ((a.prefix_.or envPrefix).getD "/")) "etc") tool]) ∧
    (a.configDir = none → envDir = none → a.noUserConfig = false →
      configDirs home tool (handleGlobalConfigArguments expand envDir envPrefix a)
        = [pathJoin home tool, pathJoin (pathJoin (expand ((a.prefix_.or envPrefix).getD "/")) "etc") tool]) := by
  refine ⟨?_, ?_, ?_, ?_⟩
  · intro d h; simp [configDirs, handleGlobalConfigArguments, h]
  · intro d h h2; simp [configDirs, handleGlobalConfigArguments, h, h2]
  · intro h h2 h3; simp [configDirs, handleGlobalConfigArguments, h, h2, h3, systemConfigDir]
  · intro h h2 h3; simp [configDirs, handleGlobalConfigArguments, h, h2, h3, systemConfigDir, userConfigDir]

/-- The cache directory and the directory of sources: the configured one; else inside the given directory; else the user's if user sources are
enabled; else the system's below the prefix. -/
theorem C53_cache_and_sources {expand : String → String} (hexp : ∀ s, expand s ≠ "") (ws : Char → Bool) (home : String) (envDir envPrefix : Option String)
    (a : GlobalArgs) (cache sources : Option String) (user : Bool) (os : Option (List Char)) (fs : Option (List (List Char))) :
    let p := processConfig ws home (handleGlobalConfigArguments expand envDir envPrefix a) cache sources user os fs
    (∀ d, cache = some d → p.cacheDir = d) ∧ (∀ d, sources = some d → p.sourcesDir = d) ∧
    (∀ d, a.configDir.or envDir = some d →
      (cache = none → p.cacheDir = pathJoin (expand d) "cache") ∧ (sources = none → p.sourcesDir = pathJoin (expand d) "sources.d")) ∧
    (a.configDir.or envDir = none → user = true →
      (cache = none → p.cacheDir = pathJoin (pathJoin home "xylem") "cache") ∧
      (sources = none → p.sourcesDir = pathJoin (pathJoin home "xylem") "sources.d")) ∧
    (a.configDir.or envDir = none → user = false →
      (cache = none → p.cacheDir = pathJoin (pathJoin (expand ((a.prefix_.or envPrefix).getD "/")) "var/cache") "xylem") ∧
      (sources = none → p.sourcesDir = pathJoin (pathJoin (pathJoin (expand ((a.prefix_.or envPrefix).getD "/")) "etc") "xylem") "sources.d")) := by
  intro p
  refine ⟨?_, ?_, ?_, ?_, ?_⟩
  · rintro d rfl; rfl
  · rintro d rfl; rfl
  · intro d hd
    have := hexp d
    constructor <;> rintro rfl <;>
      simp [p, processConfig, handleGlobalConfigArguments, chooseDir, hd, this, userCacheDir, sourcesDirOf]
  · rintro hd rfl
    constructor <;> rintro rfl <;>
      simp [p, processConfig, handleGlobalConfigArguments, chooseDir, hd, userCacheDir, userConfigDir, sourcesDirOf]
  · rintro hd rfl
    constructor <;> rintro rfl <;>
      simp [p, processConfig, handleGlobalConfigArguments, chooseDir, hd, systemCacheDir, systemConfigDir, sourcesDirOf]

/-- The directory of sources is inside a directory config files are read from, unless it is configured explicitly or user sources are
requested although the user's config is disabled. -/
theorem C53_sources_beside_config {expand : String → String} (hexp : ∀ s, expand s ≠ "") (ws : Char → Bool) (home : String) (envDir envPrefix : Option String)
    (a : GlobalArgs) (cache : Option String) (user : Bool) (os : Option (List Char)) (fs : Option (List (List Char)))
    (hu : user = true → a.noUserConfig = false) :
    let g := handleGlobalConfigArguments expand envDir envPrefix a
    ∃ d ∈ configDirs home "xylem" g, (processConfig ws home g cache none user os fs).sourcesDir = pathJoin d "sources.d" := by
  intro g
  obtain ⟨-, -, h3, h4, h5⟩ := C53_cache_and_sources hexp ws home envDir envPrefix a cache none user os fs
  obtain ⟨c1, c2, c3, c4⟩ := C53_config_directories expand home "xylem" envDir envPrefix a
  cases hd : a.configDir with
  | some d => exact ⟨expand d, by simp [g, c1 d hd], (h3 d (by simp [hd])).2 rfl⟩
  | none =>
    cases he : envDir with
    | some d => subst he; exact ⟨expand d, by simp [g, c2 d hd rfl], (h3 d (by simp [hd])).2 rfl⟩
    | none =>
      subst he
      cases hb : user with
      | true =>
        refine ⟨pathJoin home "xylem", ?_, hb ▸ (h4 (by simp [hd]) hb).2 rfl⟩
        simp [g, c4 hd rfl (hu hb)]
      | false =>
        refine ⟨pathJoin (pathJoin (expand ((a.prefix_.or envPrefix).getD "/")) "etc") "xylem", ?_, hb ▸ (h5 (by simp [hd]) hb).2 rfl⟩
        cases hn : a.noUserConfig with
        | true => simp [g, c3 hd rfl hn]
        | false => simp [g, c4 hd rfl hn]

example : configDirs "/home/u/.config" "xylem" (handleGlobalConfigArguments id none (some "/opt") { configDir := none, prefix_ := none, noUserConfig := false })
    = ["/home/u/.config/xylem", "/opt/etc/xylem"] := by rfl

/-! ## C54 -/

section
variable {ws : Char → Bool}

theorem dropWhile_append_stop {c : Char} {a b : List Char} (hc : ws c = false) : (a ++ c :: b).dropWhile ws = a.dropWhile ws ++ c :: b := by
  induction a with
  | nil => simp [hc]
  | cons x a ih =>
    simp only [List.cons_append, List.dropWhile_cons]
    split
    · exact ih
    · rfl

theorem dropWhile_idem (a : List Char) : (a.dropWhile ws).dropWhile ws = a.dropWhile ws := by
  induction a with
  | nil => rfl
  | cons x a ih =>
    simp only [List.dropWhile_cons]
    split
    · exact ih
    · next h => simp [h]

theorem dropWhile_all (a : List Char) (h : ∀ c ∈ a, ws c = true) : a.dropWhile ws = [] := by
  induction a with
  | nil => rfl
  | cons x a ih => simp [h x (by simp), ih (fun c hc => h c (List.mem_cons_of_mem _ hc))]

/-- White space removed on the left. -/
def lstrip (ws : Char → Bool) (s : List Char) : List Char := s.dropWhile ws
/-- White space removed on the right. -/
def rstrip (ws : Char → Bool) (s : List Char) : List Char := (s.reverse.dropWhile ws).reverse

theorem pyStrip_eq (s : List Char) : pyStrip ws s = rstrip ws (lstrip ws s) := rfl

theorem lstrip_sep {c : Char} {a b : List Char} (hc : ws c = false) : lstrip ws (a ++ c :: b) = lstrip ws a ++ c :: b := dropWhile_append_stop hc

theorem rstrip_sep {c : Char} {a b : List Char} (hc : ws c = false) : rstrip ws (a ++ c :: b) = a ++ c :: rstrip ws b := by
  unfold rstrip
  have : (a ++ c :: b).reverse = b.reverse ++ c :: a.reverse := by simp
  rw [this, dropWhile_append_stop hc]; simp

theorem pyStrip_sep {c : Char} {a b : List Char} (hc : ws c = false) : pyStrip ws (a ++ c :: b) = lstrip ws a ++ c :: rstrip ws b := by
  rw [pyStrip_eq, lstrip_sep hc, rstrip_sep hc]

theorem rstrip_idem (s : List Char) : rstrip ws (rstrip ws s) = rstrip ws s := by
  unfold rstrip; rw [List.reverse_reverse, dropWhile_idem]

theorem lstrip_idem (s : List Char) : lstrip ws (lstrip ws s) = lstrip ws s := dropWhile_idem s

theorem rstrip_cons_stop {x : Char} {s : List Char} (hx : ws x = false) : rstrip ws (x :: s) = x :: rstrip ws s := by
  have := rstrip_sep (ws := ws) (a := []) (b := s) hx
  simpa using this

theorem strip_comm (s : List Char) : rstrip ws (lstrip ws s) = lstrip ws (rstrip ws s) := by
  induction s with
  | nil => rfl
  | cons x s ih =>
    cases hx : ws x with
    | true =>
      have e1 : lstrip ws (x :: s) = lstrip ws s := by simp [lstrip, hx]
      rw [e1, ih]
      by_cases hall : ∀ c ∈ s, ws c = true
      · have h1 : rstrip ws s = [] := by
          unfold rstrip
          rw [dropWhile_all _ (by simpa using hall)]; rfl
        have h2 : rstrip ws (x :: s) = [] := by
          unfold rstrip
          rw [dropWhile_all _ (by intro c hc; simp at hc; rcases hc with hc | rfl; exacts [hall c hc, hx])]; rfl
        rw [h1, h2]
      · have : ∃ a c b, s = a ++ c :: b ∧ ws c = false := by
          have : ∃ c ∈ s, ws c = false := by
            refine Classical.byContradiction fun hn => hall fun c hc => ?_
            cases h : ws c with
            | true => rfl
            | false => exact absurd ⟨c, hc, h⟩ hn
          obtain ⟨c, hc, hw⟩ := this
          obtain ⟨a, b, rfl⟩ := List.append_of_mem hc
          exact ⟨a, c, b, rfl, hw⟩
        obtain ⟨a, c, b, rfl, hw⟩ := this
        rw [rstrip_sep hw, ← List.cons_append, rstrip_sep hw, lstrip_sep hw, lstrip_sep hw]
        simp [lstrip, hx]
    | false =>
      have e1 : lstrip ws (x :: s) = x :: s := by simp [lstrip, hx]
      rw [e1, rstrip_cons_stop hx]
      simp [lstrip, hx]

theorem strip_lstrip (s : List Char) : pyStrip ws (lstrip ws s) = pyStrip ws s := by rw [pyStrip_eq, pyStrip_eq, lstrip_idem]
theorem strip_rstrip (s : List Char) : pyStrip ws (rstrip ws s) = pyStrip ws s := by
  rw [pyStrip_eq, pyStrip_eq, ← strip_comm, rstrip_idem, strip_comm]
theorem strip_idem (s : List Char) : pyStrip ws (pyStrip ws s) = pyStrip ws s := by
  rw [pyStrip_eq (s := s), strip_rstrip, strip_lstrip]; rfl

theorem mem_lstrip {c : Char} {s : List Char} (h : c ∈ lstrip ws s) : c ∈ s := (List.dropWhile_suffix _).subset h
theorem mem_rstrip {c : Char} {s : List Char} (h : c ∈ rstrip ws s) : c ∈ s := by
  unfold rstrip at h
  have := (List.dropWhile_suffix ws).subset (List.mem_reverse.1 h)
  simpa using this
theorem mem_strip {c : Char} {s : List Char} (h : c ∈ pyStrip ws s) : c ∈ s := mem_lstrip (mem_rstrip h)

/-- Joining with a separator. -/
def joinWith (c : Char) : List (List Char) → List Char
  | [] => []
  | [x] => x
  | x :: t => x ++ c :: joinWith c t

theorem pySplit_free {c : Char} {s : List Char} (h : c ∉ s) : pySplit c s = [s] := by
  induction s with
  | nil => rfl
  | cons x s ih =>
    simp only [List.mem_cons, not_or] at h
    rw [pySplit, if_neg (Ne.symm h.1), ih h.2]

theorem pySplit_append {c : Char} {a b : List Char} (h : c ∉ a) : pySplit c (a ++ c :: b) = a :: pySplit c b := by
  induction a with
  | nil => simp [pySplit]
  | cons x a ih =>
    simp only [List.mem_cons, not_or] at h
    rw [List.cons_append, pySplit, if_neg (Ne.symm h.1), ih h.2]

theorem pySplit_join {c : Char} {fs : List (List Char)} (hne : fs ≠ []) (h : ∀ f ∈ fs, c ∉ f) : pySplit c (joinWith c fs) = fs := by
  induction fs with
  | nil => exact absurd rfl hne
  | cons x t ih =>
    cases t with
    | nil => exact pySplit_free (h x (by simp))
    | cons y t =>
      rw [joinWith, pySplit_append (h x (by simp)), ih (by simp) (fun f hf => h f (List.mem_cons_of_mem _ hf))]
      simp

/-- Splitting after removing white space on the right, then stripping the parts, is stripping the parts. -/
theorem split_rstrip {c : Char} (hc : ws c = false) {fs : List (List Char)} (hne : fs ≠ []) (h : ∀ f ∈ fs, c ∉ f) :
    (pySplit c (rstrip ws (joinWith c fs))).map (pyStrip ws) = fs.map (pyStrip ws) := by
  induction fs with
  | nil => exact absurd rfl hne
  | cons x t ih =>
    cases t with
    | nil =>
      rw [joinWith, pySplit_free (fun hm => h x (by simp) (mem_rstrip hm))]
      simp [strip_rstrip]
    | cons y t =>
      rw [joinWith, rstrip_sep hc, pySplit_append (h x (by simp))]
      · simp only [List.map_cons]
        rw [ih (by simp) (fun f hf => h f (List.mem_cons_of_mem _ hf))]
        simp
      · simp

theorem split_strip {c : Char} (hc : ws c = false) {fs : List (List Char)} (hne : fs ≠ []) (h : ∀ f ∈ fs, c ∉ f) :
    (pySplit c (pyStrip ws (joinWith c fs))).map (pyStrip ws) = fs.map (pyStrip ws) := by
  cases fs with
  | nil => exact absurd rfl hne
  | cons x t =>
    cases t with
    | nil =>
      rw [joinWith, pySplit_free (fun hm => h x (by simp) (mem_strip hm))]
      simp [strip_idem]
    | cons y t =>
      rw [joinWith, pyStrip_sep hc, pySplit_append (fun hm => h x (by simp) (mem_lstrip hm))]
      · simp only [List.map_cons]
        rw [split_rstrip hc (by simp) (fun f hf => h f (List.mem_cons_of_mem _ hf))]
        simp [strip_lstrip]
      · simp

theorem strip_join_empty {c : Char} (hc : ws c = false) {fs : List (List Char)} (hne : fs ≠ []) :
    pyStrip ws (joinWith c fs) = [] ↔ fs.map (pyStrip ws) = [[]] := by
  cases fs with
  | nil => exact absurd rfl hne
  | cons x t =>
    cases t with
    | nil => simp [joinWith]
    | cons y t =>
      rw [joinWith, pyStrip_sep hc]
      · simp
      · simp

/-- The features written in an os argument: the parts stripped, and none if there is only blank space. -/
def featuresOf (ws : Char → Bool) (fs : List (List Char)) : List (List Char) :=
  if fs.map (pyStrip ws) = [[]] then [] else fs.map (pyStrip ws)

theorem features_parse (hcomma : ws ',' = false) {fs : List (List Char)} (hne : fs ≠ []) (h : ∀ f ∈ fs, ',' ∉ f) :
    (if pyStrip ws (joinWith ',' fs) = [] then [] else (pySplit ',' (pyStrip ws (joinWith ',' fs))).map (pyStrip ws)) = featuresOf ws fs := by
  unfold featuresOf
  by_cases he : fs.map (pyStrip ws) = [[]]
  · rw [if_pos ((strip_join_empty hcomma hne).2 he), if_pos he]
  · rw [if_neg (fun hh => he ((strip_join_empty hcomma hne).1 hh)), if_neg he, split_strip hcomma hne h]

/-- `name`. -/
theorem C54_name {n : List Char} (hn : ':' ∉ n) (hn2 : '&' ∉ n) : parseOsOverride ws n = (pyStrip ws n, none, none) := by
  unfold parseOsOverride
  simp [splitOnce_free hn2, splitOnce_free hn]

/-- `name:version`. -/
theorem C54_name_version {n v : List Char} (hn : ':' ∉ n) (hn2 : '&' ∉ n) (hv : '&' ∉ v) :
    parseOsOverride ws (n ++ ':' :: v) = (pyStrip ws n, some (pyStrip ws v), none) := by
  have : '&' ∉ n ++ ':' :: v := by simp [hn2, hv]
  unfold parseOsOverride
  simp [splitOnce_free this, splitOnce_append hn]

/-- `name&feature1,feature2,...` -/
theorem C54_name_features (hcomma : ws ',' = false) {n : List Char} (hn : ':' ∉ n) (hn2 : '&' ∉ n) {fs : List (List Char)} (hne : fs ≠ [])
    (hf : ∀ f ∈ fs, ',' ∉ f) :
    parseOsOverride ws (n ++ '&' :: joinWith ',' fs) = (pyStrip ws n, none, some (featuresOf ws fs)) := by
  unfold parseOsOverride
  simp only [splitOnce_append hn2, features_parse hcomma hne hf]
  simp [splitOnce_free (fun h => hn (mem_strip h)), strip_idem]

/-- `name:version&feature1,feature2,...` -/
theorem C54_name_version_features (hcomma : ws ',' = false) (hcolon : ws ':' = false) {n v : List Char} (hn : ':' ∉ n) (hn2 : '&' ∉ n) (hv : '&' ∉ v)
    {fs : List (List Char)} (hne : fs ≠ []) (hf : ∀ f ∈ fs, ',' ∉ f) :
    parseOsOverride ws (n ++ ':' :: v ++ '&' :: joinWith ',' fs) = (pyStrip ws n, some (pyStrip ws v), some (featuresOf ws fs)) := by
  have : '&' ∉ n ++ ':' :: v := by simp [hn2, hv]
  unfold parseOsOverride
  simp only [splitOnce_append this, features_parse hcomma hne hf]
  rw [pyStrip_sep hcolon]
  simp only [splitOnce_append (fun h => hn (mem_lstrip h))]
  simp [strip_lstrip, strip_rstrip]

/-- Stripped non-empty parts are given back exactly. -/
theorem C54_exact (hcomma : ws ',' = false) (hcolon : ws ':' = false) {n v : List Char} (hn : ':' ∉ n) (hn2 : '&' ∉ n) (hv : '&' ∉ v)
    {fs : List (List Char)} (hne : fs ≠ []) (hf : ∀ f ∈ fs, ',' ∉ f) (sn : pyStrip ws n = n) (sv : pyStrip ws v = v)
    (sf : ∀ f ∈ fs, pyStrip ws f = f ∧ f ≠ []) : parseOsOverride ws (n ++ ':' :: v ++ '&' :: joinWith ',' fs) = (n, some v, some fs) := by
  rw [C54_name_version_features hcomma hcolon hn hn2 hv hne hf, sn, sv]
  have : fs.map (pyStrip ws) = fs := by
    have : fs.map (pyStrip ws) = fs.map id := List.map_congr_left (fun f hf => (sf f hf).1)
    simpa using this
  unfold featuresOf
  rw [this, if_neg]
  rintro rfl
  exact (sf [] (by simp)).2 rfl

end

example : parseOsOverride (· == ' ') " ubuntu : trusty & a , b".toList = ("ubuntu".toList, some "trusty".toList, some ["a".toList, "b".toList]) := by rfl
example : parseOsOverride (· == ' ') "ubuntu& ".toList = ("ubuntu".toList, none, some []) := by rfl

/-! ## C55 -/

theorem dashify_eq (s : List Char) : dashify s = s.map fun c => if c = '_' ∨ c = '/' then '-' else c := by
  unfold dashify
  rw [pyReplace_single, pyReplace_single]
  induction s with
  | nil => rfl
  | cons c s ih =>
    simp only [List.flatMap_cons, List.map_cons, List.flatMap_append, ih]
    by_cases h1 : c = '_' <;> by_cases h2 : c = '/' <;> simp [h1, h2]

theorem underscorify_eq (s : List Char) : underscorify s = s.map fun c => if c = '-' ∨ c = '/' then '_' else c := by
  unfold underscorify
  rw [pyReplace_single, pyReplace_single]
  induction s with
  | nil => rfl
  | cons c s ih =>
    simp only [List.flatMap_cons, List.map_cons, List.flatMap_append, ih]
    by_cases h1 : c = '-' <;> by_cases h2 : c = '/' <;> simp [h1, h2]

/-- For names without dashes and slashes, going to the command line form and back is the identity; and the other way round. -/
theorem C55_mangling_inverse (s : List Char) :
    ('-' ∉ s → '/' ∉ s → underscorify (dashify s) = s) ∧ ('_' ∉ s → '/' ∉ s → dashify (underscorify s) = s) := by
  constructor
  · intro h1 h2
    rw [underscorify_eq, dashify_eq, List.map_map]
    have : s.map id = s := by simp
    conv => rhs; rw [← this]
    apply List.map_congr_left
    intro c hc
    have n1 : c ≠ '-' := fun e => h1 (e ▸ hc)
    have n2 : c ≠ '/' := fun e => h2 (e ▸ hc)
    by_cases h3 : c = '_' <;> simp [n1, n2, h3]
  · intro h1 h2
    rw [underscorify_eq, dashify_eq, List.map_map]
    have : s.map id = s := by simp
    conv => rhs; rw [← this]
    apply List.map_congr_left
    intro c hc
    have n1 : c ≠ '_' := fun e => h1 (e ▸ hc)
    have n2 : c ≠ '/' := fun e => h2 (e ▸ hc)
    by_cases h3 : c = '-' <;> simp [n1, n2, h3]

/-- The results have none of the replaced characters and the same length; everything else is kept. -/
theorem C55_mangling_form (s : List Char) :
    ('_' ∉ dashify s ∧ '/' ∉ dashify s ∧ (dashify s).length = s.length) ∧
      ('-' ∉ underscorify s ∧ '/' ∉ underscorify s ∧ (underscorify s).length = s.length) := by
  rw [dashify_eq, underscorify_eq]
  refine ⟨⟨?_, ?_, by simp⟩, ?_, ?_, by simp⟩ <;>
  · simp only [List.mem_map, not_exists, not_and]
    intro c _
    split
    · simp
    · next h => intro e; subst e; simp at h

/-- Splitting is inverse to joining: the part after the last slash is the name, the rest the group. -/
theorem C55_split_group (n g s : String) : groupOf n = some (g, s) ↔ n = g ++ "/" ++ s ∧ '/' ∉ s.toList := groupOf_some

/-- Names without a slash have no group. -/
theorem C55_no_group (n : String) : groupOf n = none ↔ '/' ∉ n.toList := groupOf_none

/-- A leading `--` is removed, once; anything else is kept. -/
theorem C55_dashdash (s : List Char) :
    stripLeadingDashdash ('-' :: '-' :: s) = s ∧ (¬ ['-', '-'] <+: s → stripLeadingDashdash s = s) := by
  refine ⟨rfl, fun h => ?_⟩
  unfold stripLeadingDashdash
  split
  · next t => exact absurd ⟨t, rfl⟩ h
  · rfl

example : groupOf "a/b/c" = some ("a/b", "c") := by rfl

/-! ## C72 -/

/-- The place in the parsed arguments the value of an option is taken from. -/
def destOf (i : ConfigItem) : List Char := underscorify i.argument.toList

/-- Arguments written without underscores and slashes have different places. -/
theorem C72_distinct_destinations_partial {desc : Desc} {l : List ItemSpec} (h : addAll l = .ok desc) {i j : ConfigItem} (hi : i ∈ desc.itemlist) (hj : j ∈ desc.itemlist)
    (ci : i.commandLine = true) (cj : j.commandLine = true) (ni : '_' ∉ i.argument.toList ∧ '/' ∉ i.argument.toList)
    (nj : '_' ∉ j.argument.toList ∧ '/' ∉ j.argument.toList) (hd : destOf i = destOf j) : i = j := by
  have e : i.argument = j.argument := by
    apply String.toList_inj.1
    rw [← (C55_mangling_inverse i.argument.toList).2 ni.1 ni.2, ← (C55_mangling_inverse j.argument.toList).2 nj.1 nj.2]
    exact congrArg dashify hd
  have hnd := (C52_arguments_partial h).2
  have hmi : i ∈ desc.itemlist.filter ConfigItem.commandLine := List.mem_filter.2 ⟨hi, ci⟩
  have hmj : j ∈ desc.itemlist.filter ConfigItem.commandLine := List.mem_filter.2 ⟨hj, cj⟩
  exact List.inj_on_of_nodup_map hnd hmi hmj e

/-- Refutation in general: `--a-b` and `--a_b` are accepted as different arguments but share their value. -/
theorem C72_shared_destination_refuted : ∃ l desc i j, addAll l = .ok desc ∧ i ∈ desc.itemlist ∧ j ∈ desc.itemlist ∧ i.name ≠ j.name ∧
    i.argument ≠ j.argument ∧ ∀ loadYaml expand args, argValue loadYaml expand args i = argValue loadYaml expand args j := by
  refine ⟨[{ name := "x", argument := some "a-b" }, { name := "y", argument := some "a_b" }], _, mkItem { name := "x", argument := some "a-b" },
    mkItem { name := "y", argument := some "a_b" }, rfl, ?_, ?_, by decide, by decide, ?_⟩
  · exact List.mem_cons_self ..
  · exact List.mem_cons_of_mem _ (List.mem_cons_self ..)
  · intro loadYaml expand args; rfl

/-- In xylem's own description all places are different. -/
theorem C72_xylem_destinations {i j : ConfigItem} (hi : i ∈ xylemDescription.itemlist) (hj : j ∈ xylemDescription.itemlist)
    (ci : i.commandLine = true) (cj : j.commandLine = true) (hd : destOf i = destOf j) : i = j := by
  have e : xylemDescription.itemlist = xylemItems.map mkItem := by rfl
  have key : ∀ i ∈ xylemItems.map mkItem, '_' ∉ i.argument.toList ∧ '/' ∉ i.argument.toList := by decide
  exact C72_distinct_destinations_partial C52_xylem_description hi hj ci cj (key i (e ▸ hi)) (key j (e ▸ hj)) hd

/-! ## C73 -/

/-- Passing `None` or a config gives that config; passing something that is neither a dict nor a config raises ValueError. -/
theorem C73_config_argument (expand : String → String) (desc : Desc) (g c : Config) :
    ensureConfig expand desc g .none = .ok g ∧ ensureConfig expand desc g (.configDict c) = .ok c ∧
      ensureConfig expand desc g .other = .error .valueError := ⟨rfl, rfl, rfl⟩

/-- A dict passed as config gives every option the value in the dict, else its default. -/
theorem C73_dict_config {expand : String → String} {g c : Config} {data : Dict PKey PVal}
    (h : ensureConfig expand xylemDescription g (.dict data) = .ok c) {n : String} {i : ConfigItem} (hi : xylemDescription.Has n i) :
    ∃ v w, i.type.fromYaml expand ((fileEntry data n).getD .none) = .ok v ∧ readOpt c n = .ok w ∧ Effective i.type [v, i.default] w :=
  C51_every_option_with_defaults xylem_built (fun _ _ hi => (xylem_defaults hi).1) h hi

/-- Refutation: such a config is not the one a config file with the same contents gives. The default directories are not filled in and the os
override is not parsed, so `sources_dir` and `cache_dir` are None unless the dict has them. -/
theorem C73_dict_config_unprocessed_refuted {expand : String → String} {g c : Config} {data : Dict PKey PVal}
    (h : ensureConfig expand xylemDescription g (.dict data) = .ok c) :
    (dget data (.str "sources_dir") = none → readOpt c "sources_dir" = .ok .none) ∧
      (dget data (.str "cache_dir") = none → readOpt c "cache_dir" = .ok .none) ∧
      ∀ s, dget data (.str "os_override") = some (.str s) → readOpt c "os_override" = .ok (.str s) := by
  have e : xylemDescription.itemlist = xylemItems.map mkItem := by rfl
  have key : ∀ (s : ItemSpec), s ∈ xylemItems → groupOf s.name = none → s.default = .none → (s.type = .path ∨ s.type = .string) →
      ∃ w, readOpt c s.name = .ok w ∧ s.type.fromYaml expand ((dget data (.str s.name)).getD .none) = .ok w := by
    intro s hs hg hdef ht
    have hh : xylemDescription.Has s.name (mkItem s) := ⟨by rw [e]; exact List.mem_map_of_mem hs, rfl⟩
    obtain ⟨v, w, h1, h2, h3⟩ := C73_dict_config h hh
    have hfe : fileEntry data s.name = dget data (.str s.name) := by simp [fileEntry, hg]
    rw [hfe] at h1
    refine ⟨w, h2, ?_⟩
    have hty : (mkItem s).type = s.type := rfl
    have hd : (mkItem s).default = .none := by
      rcases ht with ht | ht <;> simp [mkItem, hdef, PVal.isNone, ht, CType.unset]
    rw [hty] at h1 h3
    rw [hd] at h3
    have hw : w = v := by
      rcases ht with ht | ht <;> rw [ht] at h3 <;> simp only [Effective] at h3 <;> rw [h3] <;> cases v <;> rfl
    rw [hw]; exact h1
  refine ⟨?_, ?_, ?_⟩
  · intro hn
    obtain ⟨w, h1, h2⟩ := key { name := "sources_dir", type := .path, commandLine := some true } (by simp [xylemItems]) (by rfl) rfl (.inl rfl)
    rw [hn] at h2; simp only [Option.getD_none] at h2; cases h2; exact h1
  · intro hn
    obtain ⟨w, h1, h2⟩ := key { name := "cache_dir", type := .path, commandLine := some true } (by simp [xylemItems]) (by rfl) rfl (.inl rfl)
    rw [hn] at h2; simp only [Option.getD_none] at h2; cases h2; exact h1
  · intro s hn
    obtain ⟨w, h1, h2⟩ := key { name := "os_override", type := .string, argument := some "os", metavar := some "name:version" } (by simp [xylemItems])
      (by rfl) rfl (.inr rfl)
    rw [hn] at h2; simp only [Option.getD_some] at h2; cases h2; exact h1

/-- The case is not vacuous: the empty dict is accepted. -/
example (g : Config) : ∃ c, ensureConfig id xylemDescription g (.dict []) = .ok c := ⟨_, rfl⟩

/-! ## A loaded config -/

/-- Two config files and a command line for xylem's description: the first set value wins, merging dicts are merged key by key. -/
example : ∃ r, loadConfig (fun s => if s = "u" then .ok (.dict [(.str "core_installers", .list [.str "apt"]), (.str "install_from", .dict [(.str "a", .list [])])])
      else if s = "s" then .ok (.dict [(.str "core_installers", .list []), (.str "install_from", .dict [(.str "a", .none), (.str "b", .none)])]) else .error .yamlError)
    id (fun p => if p = "/h/xylem/config.yaml" then .text "u" else if p = "/etc/xylem/config.yaml" then .text "s" else .missing) "/h" "xylem" "config.yaml"
    { configDir := none, prefix_ := some "/", noUserConfig := false } (fun d => if d = "os" then some (.one "debian") else some .none) xylemDescription = .ok r ∧
    readOpt r "os_override" = .ok (.str "debian") ∧ readOpt r "core_installers" = .ok (.list [.str "apt"]) ∧
    readOpt r "install_from" = .ok (.dict [(.str "a", .list []), (.str "b", .none)]) ∧ readOpt r "use_additional_installers" = .ok (.bool true) := by
  refine ⟨_, rfl, rfl, rfl, rfl, rfl⟩

/-! ## C138: `ceorce_config_dict` -/

/-- **C138** (what holds) Values other than dicts, and config dicts that are not to be copied, are returned as they are. -/
theorem C138_unchanged_partial (copy isConfig : Bool) (v : PVal) (h : v.isDict = false ∨ (copy = false ∧ isConfig = true)) :
    coerceConfigDict copy isConfig v = v := by
  cases v with
  | dict d =>
    rcases h with h | ⟨rfl, rfl⟩
    · cases h
    · rfl
  | _ => rfl

/-- **C138** (refuted) Of every plain dict, and of every config dict that is to be copied, the result is lost: None is returned. -/
theorem C138_result_lost_refuted (d : Dict PKey PVal) :
    (∀ copy, coerceConfigDict copy false (.dict d) = .none) ∧ ∀ isConfig, coerceConfigDict true isConfig (.dict d) = .none := by
  constructor
  · intro copy; cases copy <;> rfl
  · intro isConfig; rfl

end Verif
