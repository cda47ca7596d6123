import Verif.Lemmas.Paths
import Verif.Props.Startup
/-! # Paths in the configuration (C100), and `--print-config` with the real path expansion (C98) -/
namespace Verif

/-- **C100** Whatever is given as a path, what is used is an absolute path in its shortest form, and expanding it again changes nothing. -/
theorem C100_expansion {e : PathEnv} (hc : e.cwd.head? = some '/') (p : String) :
    NormalPath (expandInputPath e p).toList ∧ expandInputPath e (expandInputPath e p) = expandInputPath e p := by
  have h : NormalPath (expandInputPath e p).toList := by
    unfold expandInputPath
    rw [String.toList_ofList]
    exact abs_normal hc _
  refine ⟨h, ?_⟩
  show String.ofList (absPath e (expandUser e (expandInputPath e p).toList)) = _
  rw [expandUser_abs (normal_head h), abs_fixed h, String.ofList_toList]

/-- Absolute paths in their shortest form are left alone. -/
theorem C100_normal_unchanged (e : PathEnv) {p : String} (h : NormalPath p.toList) : expandInputPath e p = p := by
  unfold expandInputPath
  rw [expandUser_abs (normal_head h), abs_fixed h, String.ofList_toList]

theorem unexpanded_place {e : PathEnv} (hc : e.cwd.head? = some '/') {p : String} (he : expandUser e p.toList = p.toList) (dir : List (List Char)) :
    walk dir (expandInputPath e p).toList = walk (walk [] e.cwd) p.toList := by
  unfold expandInputPath
  rw [he, String.toList_ofList]
  have key : ∀ q : List Char, q.head? = some '/' → walk dir (normPath q) = walk dir q := by
    intro q hq
    obtain ⟨h1, h2⟩ := normPath_abs hq
    rw [h1, normal_walk h2 (by rcases initialSlashes_pos hq with e | e <;> rw [e] <;> simp [List.replicate])]
    unfold walk
    rw [if_pos hq, if_pos hq]
  unfold absPath
  by_cases h : p.toList.head? = some '/'
  · rw [if_pos h, key _ h]
    unfold walk
    rw [if_pos h, if_pos h]
  · rw [if_neg h, key _ (joined_head hc h), walk_joined hc h]

/-- **C100** Expansion does not change where a path leads: a path that does not start with a tilde leads, after expansion and from any directory, to the
place it leads to from the working directory (in a file system without symbolic links). -/
theorem C100_same_place {e : PathEnv} (hc : e.cwd.head? = some '/') {p : String} (hp : p.toList.head? ≠ some '~') (dir : List (List Char)) :
    walk dir (expandInputPath e p).toList = walk (walk [] e.cwd) p.toList := by
  have he : expandUser e p.toList = p.toList := by
    cases h : p.toList with
    | nil => rfl
    | cons x t =>
      rw [h] at hp
      unfold expandUser
      split
      · rename_i h2; injection h2 with h2 _; subst h2; exact absurd rfl hp
      · rfl
  exact unexpanded_place hc he dir

theorem rstrip_normal {h : List Char} (hn : NormalPath h) : rstripSlash h = [] ∧ walk [] h = [] ∨ rstripSlash h = h := by
  obtain ⟨names, hp, he⟩ := hn
  by_cases hnames : names = []
  · subst hnames
    left
    rcases he with rfl | rfl <;> exact ⟨by decide, by decide⟩
  · right
    have hl : ∃ s x, h = s ++ [x] ∧ x ≠ '/' := by
      have key : ∀ names : List (List Char), names ≠ [] → (∀ c ∈ names, PlainName c) → ∃ s x, slashed names = s ++ [x] ∧ x ≠ '/' := by
        intro names
        induction names with
        | nil => intro h; exact absurd rfl h
        | cons a t ih =>
          intro _ hall
          cases t with
          | nil =>
            have ha := hall a (by simp)
            exact ⟨a.dropLast, a.getLast ha.1, (List.dropLast_append_getLast ha.1).symm, fun e => ha.2.2.2 (e ▸ List.getLast_mem ha.1)⟩
          | cons b t =>
            obtain ⟨s, x, e, hx⟩ := ih (by simp) (fun c hc => hall c (List.mem_cons_of_mem _ hc))
            exact ⟨a ++ '/' :: s, x, by rw [slashed, e]; simp, hx⟩
      obtain ⟨s, x, e, hx⟩ := key names hnames hp
      rcases he with rfl | rfl
      · exact ⟨'/' :: s, x, by rw [e]; rfl, hx⟩
      · exact ⟨'/' :: '/' :: s, x, by rw [e]; rfl, hx⟩
    obtain ⟨s, x, rfl, hx⟩ := hl
    unfold rstripSlash
    rw [List.reverse_append, List.reverse_singleton, List.singleton_append, List.dropWhile_cons]
    simp [hx]

/-- The path below the home directory, for a home directory in its shortest form. -/
theorem home_joined {e : PathEnv} (hn : NormalPath e.home) (t : List Char) : ∃ q, expandUser e ('~' :: '/' :: t) = q ∧ q.head? = some '/' ∧
    ∀ dir, walk dir q = (t.splitOn '/').foldl follow (walk [] e.home) := by
  refine ⟨_, rfl, ?_, fun dir => ?_⟩
  all_goals
    have h1 : (('/' :: t).takeWhile (· != '/')) = [] := rfl
    have h2 : (('/' :: t).dropWhile (· != '/')) = '/' :: t := rfl
    unfold expandUser
    simp only [h1, h2, if_true]
    rw [if_neg (by simp)]
    have hh := normal_head hn
    rcases rstrip_normal hn with ⟨e1, e2⟩ | e1
  · rw [e1]; rfl
  · rw [e1]
    cases h : e.home with
    | nil => rw [h] at hh; cases hh
    | cons x u => rw [h] at hh; exact hh
  · rw [e1, e2, List.nil_append]
    unfold walk
    rw [List.head?_cons, if_pos rfl, splitOn_eq, splitOn_eq, pySplit, if_pos rfl, List.foldl_cons, follow_nil]
  · rw [e1]
    have hx : (e.home ++ '/' :: t).head? = some '/' := by
      cases h : e.home with
      | nil => rw [h] at hh; cases hh
      | cons x u => rw [h] at hh; exact hh
    unfold walk
    rw [if_pos hx, if_pos hh, splitOn_eq, splitOn_eq, splitOn_eq, pySplit_two, List.foldl_append]

/-- **C100** `~/..` leads to the place below the home directory (given in its shortest form, as usual). -/
theorem C100_home {e : PathEnv} (hn : NormalPath e.home) (t : List Char) (dir : List (List Char)) :
    walk dir (expandInputPath e (String.ofList ('~' :: '/' :: t))).toList = (t.splitOn '/').foldl follow (walk [] e.home) := by
  obtain ⟨q, h1, h2, h3⟩ := home_joined hn t
  unfold expandInputPath
  rw [String.toList_ofList, String.toList_ofList, h1]
  unfold absPath
  rw [if_pos h2]
  obtain ⟨k1, k2⟩ := normPath_abs h2
  rw [k1, normal_walk k2 (by rcases initialSlashes_pos h2 with e | e <;> rw [e] <;> simp [List.replicate]), h3]

theorem takeWhile_name {u r : List Char} (hu : '/' ∉ u) (hr : r = [] ∨ r.head? = some '/') :
    (u ++ r).takeWhile (· != '/') = u ∧ (u ++ r).dropWhile (· != '/') = r := by
  induction u with
  | nil =>
    cases r with
    | nil => exact ⟨rfl, rfl⟩
    | cons x t =>
      have : x = '/' := by simpa using hr
      subst this
      exact ⟨rfl, rfl⟩
  | cons c u ih =>
    simp only [List.mem_cons, not_or] at hu
    obtain ⟨h1, h2⟩ := ih hu.2
    have hc : (c != '/') = true := by simpa using fun e => hu.1 e.symm
    rw [List.cons_append, List.takeWhile_cons, List.dropWhile_cons, hc]
    exact ⟨by rw [if_pos rfl, h1], by rw [if_pos rfl, h2]⟩

/-- **C100** `~`, `~/..`, `~user` and `~user/..` lead to the place below the home directory of the user (given in its shortest form, as usual); with an
unknown user the path is taken literally. -/
theorem C100_user_home {e : PathEnv} (u r : List Char) (hu : '/' ∉ u) (hr : r = [] ∨ r.head? = some '/') (dir : List (List Char)) :
    (∀ h, (if u = [] then some e.home else e.homeOf u) = some h → NormalPath h →
      walk dir (expandInputPath e (String.ofList ('~' :: (u ++ r)))).toList = (r.splitOn '/').foldl follow (walk [] h)) ∧
    (e.cwd.head? = some '/' → u ≠ [] → e.homeOf u = none →
      walk dir (expandInputPath e (String.ofList ('~' :: (u ++ r)))).toList = walk (walk [] e.cwd) ('~' :: (u ++ r))) := by
  obtain ⟨t1, t2⟩ := takeWhile_name hu hr
  constructor
  · intro h hh hn
    have hhead := normal_head hn
    have hex : expandUser e ('~' :: (u ++ r)) = if rstripSlash h ++ r = [] then ['/'] else rstripSlash h ++ r := by
      show (match if (u ++ r).takeWhile (· != '/') = [] then some e.home else e.homeOf ((u ++ r).takeWhile (· != '/')) with
        | none => '~' :: (u ++ r)
        | some h => if rstripSlash h ++ (u ++ r).dropWhile (· != '/') = [] then ['/'] else rstripSlash h ++ (u ++ r).dropWhile (· != '/')) = _
      rw [t1, t2, hh]
    have hq : (expandUser e ('~' :: (u ++ r))).head? = some '/' ∧
        ∀ d, walk d (expandUser e ('~' :: (u ++ r))) = (r.splitOn '/').foldl follow (walk [] h) := by
      rw [hex]
      rcases rstrip_normal hn with ⟨e1, e2⟩ | e1
      · rw [e1, List.nil_append, e2]
        rcases hr with rfl | hr
        · rw [if_pos rfl]
          exact ⟨rfl, fun d => by unfold walk; simp [splitOn_eq, pySplit, follow]⟩
        · rw [if_neg (by rintro rfl; cases hr)]
          refine ⟨hr, fun d => ?_⟩
          unfold walk
          rw [if_pos hr]
      · rw [e1]
        have hne : h ≠ [] := by rintro rfl; cases hhead
        rw [if_neg (by simp [hne])]
        have hx : (h ++ r).head? = some '/' := by
          cases h with
          | nil => cases hhead
          | cons x u => exact hhead
        refine ⟨hx, fun d => ?_⟩
        rcases hr with rfl | hr
        · rw [List.append_nil]
          show _ = ([] :: []).foldl follow _
          rw [List.foldl_cons, follow_nil, List.foldl_nil]
          unfold walk
          rw [if_pos hhead, if_pos hhead]
        · cases r with
          | nil => cases hr
          | cons y t =>
            have : y = '/' := by simpa using hr
            subst this
            unfold walk
            rw [if_pos hx, if_pos hhead, splitOn_eq, splitOn_eq, splitOn_eq, pySplit_two, List.foldl_append, pySplit, if_pos rfl, List.foldl_cons, follow_nil]
    unfold expandInputPath
    rw [String.toList_ofList, String.toList_ofList]
    unfold absPath
    rw [if_pos hq.1]
    obtain ⟨k1, k2⟩ := normPath_abs hq.1
    rw [k1, normal_walk k2 (by rcases initialSlashes_pos hq.1 with e | e <;> rw [e] <;> simp [List.replicate]), hq.2]
  · intro hcwd hne hnone
    have he : expandUser e (String.ofList ('~' :: (u ++ r))).toList = (String.ofList ('~' :: (u ++ r))).toList := by
      rw [String.toList_ofList]
      show (match if (u ++ r).takeWhile (· != '/') = [] then some e.home else e.homeOf ((u ++ r).takeWhile (· != '/')) with
        | none => '~' :: (u ++ r)
        | some h => if rstripSlash h ++ (u ++ r).dropWhile (· != '/') = [] then ['/'] else rstripSlash h ++ (u ++ r).dropWhile (· != '/')) = _
      rw [t1, if_neg hne, hnone]
    rw [unexpanded_place hcwd he dir, String.toList_ofList]

theorem plain_literal {s : String} (h : PlainName s.toList) : ∀ c ∈ [s.toList], PlainName c := by simpa using h

theorem join_name {p : String} (h : NormalPath p.toList) {s : String} (hs : PlainName s.toList) : NormalPath (pathJoin p s).toList := by
  have := join_normal h (l := [s.toList]) (by simpa using hs) (by simp)
  simpa [slashed] using this

theorem join_two {p : String} (h : NormalPath p.toList) : NormalPath (pathJoin p "var/cache").toList := by
  have := join_normal h (l := ["var".toList, "cache".toList]) (by
    intro c hc
    simp only [List.mem_cons, List.not_mem_nil, or_false] at hc
    rcases hc with rfl | rfl <;> refine ⟨by decide, by decide, by decide, by decide⟩) (by simp)
  rw [String.ofList_toList] at this
  exact this

theorem user_dir_normal {e : PathEnv} (hn : NormalPath e.home) : NormalPath (defaultUserConfigDir e).toList := by
  unfold defaultUserConfigDir
  rw [String.toList_ofList]
  have h0 : ("~/.config".toList : List Char) = '~' :: '/' :: ".config".toList := by decide
  rw [h0]
  have h1 : (('/' :: ".config".toList).takeWhile (· != '/')) = [] := rfl
  have h2 : (('/' :: ".config".toList).dropWhile (· != '/')) = '/' :: ".config".toList := rfl
  have hc : PlainName ".config".toList := ⟨by decide, by decide, by decide, by decide⟩
  unfold expandUser
  simp only [h1, h2, if_true]
  rw [if_neg (by simp)]
  rcases rstrip_normal hn with ⟨e1, -⟩ | e1
  · rw [e1]
    exact ⟨[".config".toList], by simpa using hc, .inl rfl⟩
  · rw [e1]
    by_cases hl : e.home.getLast? = some '/'
    · exfalso
      obtain ⟨s, hs⟩ : ∃ s, e.home = s ++ ['/'] := by
        have hne : e.home ≠ [] := by intro h; rw [h] at hl; cases hl
        refine ⟨e.home.dropLast, ?_⟩
        have := List.dropLast_append_getLast hne
        rw [List.getLast?_eq_some_getLast hne] at hl
        injection hl with hl
        rw [hl] at this
        exact this.symm
      rw [hs] at e1
      have := congrArg List.length e1
      unfold rstripSlash at this
      rw [List.reverse_append, List.reverse_singleton, List.singleton_append, List.dropWhile_cons] at this
      simp only [beq_self_eq_true, if_true, List.length_reverse, List.length_append, List.length_singleton] at this
      have h4 := (List.dropWhile_sublist (p := (· == '/')) (l := s.reverse)).length_le
      rw [List.length_reverse] at h4
      omega
    · have := join_normal hn (l := [".config".toList]) (by simpa using hc) (by simp)
      have hne : e.home ≠ [] := by intro h; have := normal_head hn; rw [h] at this; cases this
      unfold pathJoin at this
      rw [if_neg (by rw [String.toList_ofList]; exact slashed_head (by simpa using hc)), String.toList_ofList, if_neg (by simp [hne, hl])] at this
      simpa [slashed] using this

theorem chosen_normal {env : StartEnv} {e : PathEnv} (hr : RealPaths env e) (ns : ArgSpace) (user : Bool) {x y z : String}
    (hx : ∀ d, (handleGlobalConfigArguments env.expand env.dirVar env.prefixVar (globalArgs ns)).configDir = some d → NormalPath d.toList → NormalPath x.toList)
    (hy : NormalPath y.toList) (hz : NormalPath z.toList) :
    NormalPath (chooseDir (handleGlobalConfigArguments env.expand env.dirVar env.prefixVar (globalArgs ns)).configDir user x y z).toList := by
  unfold chooseDir
  split
  · rename_i h
    cases hd : (handleGlobalConfigArguments env.expand env.dirVar env.prefixVar (globalArgs ns)).configDir with
    | none => rw [hd] at h; exact absurd rfl h
    | some d =>
      refine hx d hd ?_
      have hd' : ((textArg ns "config_dir").or env.dirVar).map env.expand = some d := hd
      obtain ⟨q, -, rfl⟩ := Option.map_eq_some_iff.1 hd'
      rw [hr.expand]
      exact (C100_expansion hr.cwd q).1
  · split
    · exact hy
    · exact hz

/-- **C100** The directories of the effective config are absolute paths in their shortest form, whether they are given, in a config file, or chosen. -/
theorem C100_directories {env : StartEnv} {e : PathEnv} (hr : RealPaths env e) {ns : ArgSpace} {c : Config}
    (h : effectiveConfig env xylemDescription ns = .ok c) :
    (∃ s, readOpt c "cache_dir" = .ok (.str s) ∧ NormalPath s.toList) ∧ ∃ s, readOpt c "sources_dir" = .ok (.str s) ∧ NormalPath s.toList := by
  have hexp : ∀ s, env.expand (env.expand s) = env.expand s := by
    intro s; rw [hr.expand]; exact (C100_expansion hr.cwd s).2
  have hfix : ∀ s, env.expand s = s → NormalPath s.toList := by
    intro s hs; rw [← hs, hr.expand]; exact (C100_expansion hr.cwd s).1
  unfold effectiveConfig at h
  obtain ⟨cL, hL, hP⟩ := Except_bind_ok.1 h
  obtain ⟨cache, sources, user, os, fs, r1, r2, r3, r4, r5, x1, x2⟩ := xylem_loaded hexp hL
  obtain ⟨c0, e0, q1, q2, -⟩ := C53_processed_config env _ r1 r2 r3 r4 r5
  have := Except.ok.inj (e0.symm.trans hP)
  subst this
  have hhome : NormalPath env.home.toList := by rw [hr.home]; exact user_dir_normal hr.homeNormal
  have hpre : NormalPath (((handleGlobalConfigArguments env.expand env.dirVar env.prefixVar (globalArgs ns)).prefix_).getD "/").toList := by
    show NormalPath (env.expand _).toList
    rw [hr.expand]
    exact (C100_expansion hr.cwd _).1
  have n1 : PlainName "xylem".toList := ⟨by decide, by decide, by decide, by decide⟩
  have n2 : PlainName "cache".toList := ⟨by decide, by decide, by decide, by decide⟩
  have n3 : PlainName "sources.d".toList := ⟨by decide, by decide, by decide, by decide⟩
  have n4 : PlainName "etc".toList := ⟨by decide, by decide, by decide, by decide⟩
  refine ⟨⟨_, q1, ?_⟩, ⟨_, q2, ?_⟩⟩
  · cases cache with
    | some s => exact hfix s (x1 s rfl)
    | none =>
      refine chosen_normal hr ns user (fun d hd hn => ?_) (join_name (join_name hhome n1) n2) (join_name (join_two hpre) n1)
      rw [hd]
      exact join_name hn n2
  · cases sources with
    | some s => exact hfix s (x2 s rfl)
    | none =>
      refine chosen_normal hr ns user (fun d hd hn => ?_) (join_name (join_name hhome n1) n3) (join_name (join_name (join_name hpre n4) n1) n3)
      rw [hd]
      exact join_name hn n3

/-- **C98** with the real path expansion: no hypothesis on path expansion is left. -/
theorem C98_reread_real_paths_partial {env env' : StartEnv} {e : PathEnv} (hr : RealPaths env e) {ns ns' : ArgSpace} {c : Config}
    (h : effectiveConfig env xylemDescription ns = .ok c) (hos : readOpt c "os_override" = .ok .none) (hf : PrintedAsFile env c env' ns') :
    ∃ c', effectiveConfig env' xylemDescription ns' = .ok c' ∧ SameOptions xylemDescription c c' := by
  obtain ⟨⟨s, h1, h2⟩, ⟨t, h3, h4⟩⟩ := C100_directories hr h
  refine C98_reread_partial (fun s => by rw [hr.expand]; exact (C100_expansion hr.cwd s).2) h hos ?_ ?_ hf
  · intro x hx
    rw [h1] at hx
    cases hx
    rw [hr.expand]; exact C100_normal_unchanged e h2
  · intro x hx
    rw [h3] at hx
    cases hx
    rw [hr.expand]; exact C100_normal_unchanged e h4

/-! ## Concrete cases -/

/-- Working in `/home/u/work`. -/
def exPaths : PathEnv where
  cwd := "/home/u/work".toList
  home := "/home/u".toList
  homeOf := fun n => if n = "root".toList then some "/root".toList else none

example : expandInputPath exPaths "../x/./y//z/.." = "/home/u/x/y" ∧ expandInputPath exPaths "~/.xylem" = "/home/u/.xylem" ∧
    expandInputPath exPaths "~root/a" = "/root/a" ∧ expandInputPath exPaths "~who" = "/home/u/work/~who" ∧ expandInputPath exPaths "" = "/home/u/work" ∧
    expandInputPath exPaths "//srv/../x" = "//x" ∧ expandInputPath exPaths "/.." = "/" := by
  refine ⟨?_, ?_, ?_, ?_, ?_, ?_, ?_⟩ <;> decide +kernel

example : RealPaths { exStart with expand := expandInputPath exPaths, home := defaultUserConfigDir exPaths } exPaths where
  expand := rfl
  home := rfl
  cwd := rfl
  homeNormal := ⟨["home".toList, "u".toList], by
    intro c hc
    simp only [List.mem_cons, List.not_mem_nil, or_false] at hc
    rcases hc with rfl | rfl <;> exact ⟨by decide, by decide, by decide, by decide⟩, .inl (by decide)⟩

end Verif
