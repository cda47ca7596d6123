import Verif.Spec.Paths
import Verif.Props.ConfigNames
import Verif.Lemmas.Startup
/-! # Lemmas on paths -/
namespace Verif

theorem slashed_eq (l : List (List Char)) : slashed l = pyJoin ['/'] l := by
  induction l with
  | nil => rfl
  | cons a t ih =>
    cases t with
    | nil => rfl
    | cons b t => rw [slashed, pyJoin, ih]; simp

theorem pySplit_ne (c : Char) (s : List Char) : pySplit c s ≠ [] := by
  cases s with
  | nil => simp [pySplit]
  | cons x t =>
    rw [pySplit]
    split
    · simp
    · split <;> simp

theorem splitOn_eq (c : Char) (s : List Char) : s.splitOn c = pySplit c s := by
  induction s with
  | nil => rfl
  | cons x t ih =>
    rw [List.splitOn_cons_eq_if_modifyHead, pySplit, ih]
    by_cases h : x = c
    · simp [h]
    · have h' : (x == c) = false := by simp [h]
      simp only [h', h, if_false, Bool.false_eq_true]
      cases hs : pySplit c t with
      | nil => exact absurd hs (pySplit_ne c t)
      | cons a b => rfl

/-- In an absolute path the loop of `normpath` follows the components. -/
theorem normStep_follow {k : Nat} (hk : k ≠ 0) {acc : List (List Char)} (ha : ['.', '.'] ∉ acc) (c : List Char) : normStep k acc c = follow acc c := by
  have hl : acc.getLast? ≠ some ['.', '.'] := fun h => ha (List.mem_of_getLast? h)
  unfold normStep follow
  split
  · rfl
  · by_cases hc : c = ['.', '.']
    · rw [if_neg (by simp [hc, hk, hl]), if_pos hc]
    · rw [if_pos (.inl hc), if_neg hc]

theorem follow_plain {dir : List (List Char)} (h : ∀ c ∈ dir, PlainName c) {c : List Char} (hc : '/' ∉ c) : ∀ d ∈ follow dir c, PlainName d := by
  unfold follow
  split
  · exact h
  · rename_i h1
    split
    · intro d hd; exact h d (List.dropLast_subset _ hd)
    · rename_i h2
      intro d hd
      rcases List.mem_append.1 hd with hd | hd
      · exact h d hd
      · rw [List.mem_singleton] at hd
        subst hd
        exact ⟨fun e => h1 (.inl e), fun e => h1 (.inr e), h2, hc⟩

theorem plain_nodots {dir : List (List Char)} (h : ∀ c ∈ dir, PlainName c) : ['.', '.'] ∉ dir := fun hm => (h _ hm).2.2.1 rfl

theorem fold_follow {k : Nat} (hk : k ≠ 0) (l : List (List Char)) (hl : ∀ c ∈ l, '/' ∉ c) : ∀ {acc : List (List Char)}, (∀ c ∈ acc, PlainName c) →
    l.foldl (normStep k) acc = l.foldl follow acc ∧ ∀ c ∈ l.foldl follow acc, PlainName c := by
  induction l with
  | nil => intro acc h; exact ⟨rfl, h⟩
  | cons x l ih =>
    intro acc h
    rw [List.foldl_cons, List.foldl_cons, normStep_follow hk (plain_nodots h)]
    exact ih (fun c hc => hl c (List.mem_cons_of_mem _ hc)) (follow_plain h (hl x (List.mem_cons_self ..)))

theorem pySplit_noSlash (s : List Char) : ∀ c ∈ pySplit '/' s, '/' ∉ c := by
  induction s with
  | nil => simp [pySplit]
  | cons x t ih =>
    intro c hc
    rw [pySplit] at hc
    by_cases h : x = '/'
    · rw [if_pos h] at hc
      rcases List.mem_cons.1 hc with rfl | hc
      · simp
      · exact ih c hc
    · rw [if_neg h] at hc
      cases hs : pySplit '/' t with
      | nil => exact absurd hs (pySplit_ne '/' t)
      | cons a b =>
        rw [hs] at hc ih
        simp only at hc
        rcases List.mem_cons.1 hc with rfl | hc
        · intro hm
          rcases List.mem_cons.1 hm with e | hm
          · exact h e.symm
          · exact ih a (List.mem_cons_self ..) hm
        · exact ih c (List.mem_cons_of_mem _ hc)

theorem initialSlashes_pos {p : List Char} (h : p.head? = some '/') : initialSlashes p = 1 ∨ initialSlashes p = 2 := by
  cases p with
  | nil => cases h
  | cons x t =>
    simp only [List.head?_cons, Option.some.injEq] at h
    subst h
    unfold initialSlashes
    split
    · exact .inl rfl
    · split
      · exact .inr rfl
      · rw [if_pos (by simp [List.isPrefixOf])]; exact .inl rfl

/-- `normpath` of an absolute path. -/
theorem normPath_abs {p : List Char} (h : p.head? = some '/') :
    normPath p = List.replicate (initialSlashes p) '/' ++ slashed (walk [] p) ∧ ∀ c ∈ walk [] p, PlainName c := by
  have hk : initialSlashes p ≠ 0 := by rcases initialSlashes_pos h with e | e <;> rw [e] <;> decide
  obtain ⟨h1, h2⟩ := fold_follow hk (pySplit '/' p) (pySplit_noSlash p) (acc := []) (by simp)
  have hw : walk [] p = (pySplit '/' p).foldl follow [] := by unfold walk; rw [splitOn_eq, if_pos h]
  rw [hw]
  refine ⟨?_, h2⟩
  unfold normPath
  simp only [h1, slashed_eq]
  rw [if_neg]
  intro e
  have := congrArg List.length e
  simp only [List.length_append, List.length_replicate, List.length_nil] at this
  omega

theorem normPath_normal {p : List Char} (h : p.head? = some '/') : NormalPath (normPath p) := by
  obtain ⟨h1, h2⟩ := normPath_abs h
  refine ⟨walk [] p, h2, ?_⟩
  rw [h1]
  rcases initialSlashes_pos h with e | e <;> rw [e]
  · exact .inl rfl
  · exact .inr rfl

theorem joinWith_slashed (l : List (List Char)) : slashed l = joinWith '/' l := by
  induction l with
  | nil => rfl
  | cons a t ih =>
    cases t with
    | nil => rfl
    | cons b t => rw [slashed, joinWith, ih]; simp

theorem split_slashed {l : List (List Char)} (hne : l ≠ []) (h : ∀ c ∈ l, PlainName c) : pySplit '/' (slashed l) = l := by
  rw [joinWith_slashed]
  exact pySplit_join hne fun f hf => (h f hf).2.2.2

/-- Following plain names. -/
theorem fold_plain {l : List (List Char)} (h : ∀ c ∈ l, PlainName c) : ∀ acc, l.foldl follow acc = acc ++ l := by
  induction l with
  | nil => simp
  | cons x l ih =>
    intro acc
    have hx := h x (List.mem_cons_self ..)
    rw [List.foldl_cons, ih (fun c hc => h c (List.mem_cons_of_mem _ hc))]
    unfold follow
    rw [if_neg (by rintro (e | e); exact hx.1 e; exact hx.2.1 e), if_neg hx.2.2.1]
    simp

theorem follow_nil (dir : List (List Char)) : follow dir [] = dir := by simp [follow]

theorem walk_names {l : List (List Char)} (h : ∀ c ∈ l, PlainName c) (acc : List (List Char)) : (pySplit '/' (slashed l)).foldl follow acc = acc ++ l := by
  by_cases hne : l = []
  · subst hne; simp [slashed, pySplit, follow]
  · rw [split_slashed hne h, fold_plain h]

theorem slashed_head {l : List (List Char)} (h : ∀ c ∈ l, PlainName c) : (slashed l).head? ≠ some '/' := by
  cases l with
  | nil => simp [slashed]
  | cons a t =>
    have ha := h a (List.mem_cons_self ..)
    have : (slashed (a :: t)).head? = a.head? := by
      cases t with
      | nil => rfl
      | cons b t =>
        rw [slashed]
        cases a with
        | nil => exact absurd rfl ha.1
        | cons x a => rfl
    rw [this]
    intro e
    exact ha.2.2.2 (List.mem_of_head? e)

theorem normal_walk {p : List Char} {names : List (List Char)} (h : ∀ c ∈ names, PlainName c)
    (hp : p = '/' :: slashed names ∨ p = '/' :: '/' :: slashed names) (dir : List (List Char)) : walk dir p = names := by
  unfold walk
  rw [splitOn_eq]
  rcases hp with rfl | rfl
  · rw [List.head?_cons, if_pos rfl, pySplit, if_pos rfl, List.foldl_cons, follow_nil, walk_names h]; simp
  · rw [List.head?_cons, if_pos rfl, pySplit, if_pos rfl, pySplit, if_pos rfl, List.foldl_cons, List.foldl_cons, follow_nil, follow_nil, walk_names h]; simp

theorem normPath_fixed {p : List Char} (h : NormalPath p) : normPath p = p := by
  obtain ⟨names, hn, hp⟩ := h
  have hw := normal_walk hn hp []
  have hh : p.head? = some '/' := by rcases hp with rfl | rfl <;> rfl
  rw [(normPath_abs hh).1, hw]
  have hs := slashed_head hn
  rcases hp with rfl | rfl
  · have : initialSlashes ('/' :: slashed names) = 1 := by
      unfold initialSlashes
      cases hc : slashed names with
      | nil => rfl
      | cons x t =>
        rw [hc] at hs
        have hx : ¬ ('/' = x) := fun e => hs (by rw [← e]; rfl)
        simp [List.isPrefixOf, hx]
    rw [this]; rfl
  · have : initialSlashes ('/' :: '/' :: slashed names) = 2 := by
      unfold initialSlashes
      cases hc : slashed names with
      | nil => rfl
      | cons x t =>
        rw [hc] at hs
        have hx : ¬ ('/' = x) := fun e => hs (by rw [← e]; rfl)
        simp [List.isPrefixOf, hx]
    rw [this]; rfl

theorem normal_head {p : List Char} (h : NormalPath p) : p.head? = some '/' := by
  obtain ⟨_, -, rfl | rfl⟩ := h <;> rfl

theorem expandUser_abs {e : PathEnv} {p : List Char} (h : p.head? = some '/') : expandUser e p = p := by
  cases p with
  | nil => cases h
  | cons x t =>
    simp only [List.head?_cons, Option.some.injEq] at h
    subst h
    rfl

/-- The argument of `normpath` in `abspath` is absolute. -/
theorem joined_abs {e : PathEnv} (hc : e.cwd.head? = some '/') {p : List Char} (hp : p.head? ≠ some '/') :
    (pathJoin (String.ofList e.cwd) (String.ofList p)).toList = (if e.cwd.getLast? = some '/' then e.cwd ++ p else e.cwd ++ '/' :: p) := by
  have hne : e.cwd ≠ [] := by intro h; rw [h] at hc; cases hc
  unfold pathJoin
  rw [String.toList_ofList, String.toList_ofList, if_neg hp]
  by_cases hl : e.cwd.getLast? = some '/'
  · rw [if_pos (.inr hl), if_pos hl]; simp
  · rw [if_neg (by simp [hne, hl]), if_neg hl]; simp

theorem joined_head {e : PathEnv} (hc : e.cwd.head? = some '/') {p : List Char} (hp : p.head? ≠ some '/') :
    (pathJoin (String.ofList e.cwd) (String.ofList p)).toList.head? = some '/' := by
  rw [joined_abs hc hp]
  cases h : e.cwd with
  | nil => rw [h] at hc; cases hc
  | cons x t => rw [h] at hc; split <;> exact hc

theorem abs_normal {e : PathEnv} (hc : e.cwd.head? = some '/') (p : List Char) : NormalPath (absPath e p) := by
  unfold absPath
  split
  · rename_i h; exact normPath_normal h
  · rename_i h; exact normPath_normal (joined_head hc h)

theorem abs_fixed {e : PathEnv} {p : List Char} (h : NormalPath p) : absPath e p = p := by
  unfold absPath
  rw [if_pos (normal_head h), normPath_fixed h]

theorem pySplit_snoc (s : List Char) : pySplit '/' (s ++ ['/']) = pySplit '/' s ++ [[]] := by
  induction s with
  | nil => rfl
  | cons x t ih =>
    rw [List.cons_append, pySplit, pySplit, ih]
    by_cases h : x = '/'
    · rw [if_pos h, if_pos h]; rfl
    · rw [if_neg h, if_neg h]
      cases hs : pySplit '/' t with
      | nil => exact absurd hs (pySplit_ne '/' t)
      | cons a b => rfl

theorem pySplit_two (s t : List Char) : pySplit '/' (s ++ '/' :: t) = pySplit '/' s ++ pySplit '/' t := by
  induction s with
  | nil => simp [pySplit]
  | cons x s ih =>
    rw [List.cons_append, pySplit, pySplit, ih]
    by_cases h : x = '/'
    · rw [if_pos h, if_pos h]; rfl
    · rw [if_neg h, if_neg h]
      cases hs : pySplit '/' s with
      | nil => exact absurd hs (pySplit_ne '/' s)
      | cons a b => rfl

/-- Where the joined path leads. -/
theorem walk_joined {e : PathEnv} (hc : e.cwd.head? = some '/') {p : List Char} (hp : p.head? ≠ some '/') (dir : List (List Char)) :
    walk dir (pathJoin (String.ofList e.cwd) (String.ofList p)).toList = walk (walk [] e.cwd) p := by
  have e1 : walk dir (pathJoin (String.ofList e.cwd) (String.ofList p)).toList = (pySplit '/' (pathJoin (String.ofList e.cwd) (String.ofList p)).toList).foldl follow [] := by
    unfold walk; rw [splitOn_eq, if_pos (joined_head hc hp)]
  have e2 : walk (walk [] e.cwd) p = (pySplit '/' p).foldl follow ((pySplit '/' e.cwd).foldl follow []) := by
    unfold walk; rw [splitOn_eq, splitOn_eq, if_neg hp, if_pos hc]
  rw [e1, e2, joined_abs hc hp]
  by_cases hl : e.cwd.getLast? = some '/'
  · rw [if_pos hl]
    obtain ⟨s, hs⟩ : ∃ s, e.cwd = s ++ ['/'] := by
      have hne : e.cwd ≠ [] := by intro h; rw [h] at hc; cases hc
      refine ⟨e.cwd.dropLast, ?_⟩
      have := List.dropLast_append_getLast hne
      rw [List.getLast?_eq_some_getLast hne] at hl
      injection hl with hl
      rw [hl] at this
      exact this.symm
    rw [hs, List.append_assoc, List.singleton_append, pySplit_two, pySplit_snoc, List.foldl_append, List.foldl_append]
    simp [follow_nil]
  · rw [if_neg hl, pySplit_two, List.foldl_append]

/-- Joining names to a path in its shortest form. -/
theorem join_normal {p : List Char} (h : NormalPath p) {l : List (List Char)} (hl : ∀ c ∈ l, PlainName c) (hne : l ≠ []) :
    NormalPath (pathJoin (String.ofList p) (String.ofList (slashed l))).toList := by
  have hp : p ≠ [] := by intro e; have := normal_head h; rw [e] at this; cases this
  obtain ⟨names, hn, hp'⟩ := h
  unfold pathJoin
  rw [String.toList_ofList, String.toList_ofList, if_neg (slashed_head hl)]
  have two : ∀ names : List (List Char), names ≠ [] → slashed (names ++ l) = slashed names ++ '/' :: slashed l := by
    intro names
    induction names with
    | nil => intro h; exact absurd rfl h
    | cons a t ih =>
      intro _
      cases t with
      | nil =>
        cases l with
        | nil => exact absurd rfl hne
        | cons b l => rfl
      | cons b t =>
        have e := ih (by simp)
        rw [List.cons_append] at e ⊢
        rw [List.cons_append, slashed, slashed, e]
        simp
  have hall : ∀ c ∈ names ++ l, PlainName c := fun c hc => (List.mem_append.1 hc).elim (hn c) (hl c)
  by_cases hnames : names = []
  · subst hnames
    have hlast : p.getLast? = some '/' := by rcases hp' with rfl | rfl <;> rfl
    rw [if_pos (.inr hlast)]
    refine ⟨l, hl, ?_⟩
    rcases hp' with rfl | rfl
    · left; simp [slashed]
    · right; simp [slashed]
  · have hlast : p.getLast? ≠ some '/' := by
      have key : ∀ names : List (List Char), names ≠ [] → (∀ c ∈ names, PlainName c) → ∃ x, (slashed names).getLast? = some x ∧ x ≠ '/' := by
        intro names
        induction names with
        | nil => intro h; exact absurd rfl h
        | cons a t ih =>
          intro _ hall
          cases t with
          | nil =>
            have ha := hall a (by simp)
            refine ⟨a.getLast ha.1, List.getLast?_eq_some_getLast ha.1, fun e => ha.2.2.2 (e ▸ List.getLast_mem ha.1)⟩
          | cons b t =>
            obtain ⟨x, hx, hxne⟩ := ih (by simp) (fun c hc => hall c (List.mem_cons_of_mem _ hc))
            refine ⟨x, ?_, hxne⟩
            rw [slashed]
            have hne' : slashed (b :: t) ≠ [] := by intro e; rw [e] at hx; cases hx
            rw [List.getLast?_append, List.getLast?_cons]
            simp [hx]
      obtain ⟨x, hx, hxne⟩ := key names hnames hn
      have hne' : slashed names ≠ [] := by intro e; rw [e] at hx; cases hx
      rcases hp' with rfl | rfl
      · rw [List.getLast?_cons]; simp [hx, hxne]
      · rw [List.getLast?_cons, List.getLast?_cons]; simp [hx, hxne]
    rw [if_neg (by rintro (e | e); exact hp e; exact hlast e)]
    refine ⟨names ++ l, hall, ?_⟩
    rw [two names hnames]
    rcases hp' with rfl | rfl
    · left; simp
    · right; simp

end Verif
