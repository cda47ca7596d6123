import Verif.Spec.PackageNames
import Verif.Props.Announce
import Verif.Props.Fake
import Verif.Model.Installers
/-!
# C149: packages with any name
-/
namespace Verif
variable {σ : Type}

private theorem rep_head (x : Char) (rep s : List Char) : (pyReplace s ['@', x] ('@' :: rep)).head? = s.head? := by
  cases s with
  | nil => rfl
  | cons e s =>
    by_cases h : ['@', x] <+: e :: s
    · obtain ⟨t, ht⟩ := h
      rw [← ht, pyReplace_match (by simp)]
      rfl
    · rw [pyReplace_step _ h]; rfl

private theorem rep_line {x c : Char} (rep : List Char) {X name r : List Char} (hX : '@' ∉ X) (hx : x ≠ c) (hc : c ≠ '@') (hn : '@' ∉ name) :
    ∃ r', pyReplace (X ++ '@' :: c :: (name ++ r)) ['@', x] ('@' :: rep) = X ++ '@' :: c :: (name ++ r') ∧ r'.head? = r.head? := by
  refine ⟨pyReplace r ['@', x] ('@' :: rep), ?_, rep_head x rep r⟩
  rw [pyReplace_at_free _ _ _ _ hX, pyReplace_step _ (by simp [List.prefix_cons_iff]; exact hx), pyReplace_step _ (by
    simp [List.prefix_cons_iff]; exact fun h => absurd h.symm hc), pyReplace_at_free _ _ _ _ hn]

/-- The markup at the beginning of the line is replaced; the first `@` of the command stays. -/
private theorem fmtReplace_line {c : Char} {X name r : List Char} (hX : '@' ∉ X) (hc : c ∉ ['!', '/', '_', '|', '@']) (hn : '@' ∉ name) :
    ∃ r', fmtReplace ("@!".toList ++ (X ++ '@' :: c :: (name ++ r))) = "@{boldon}".toList ++ (X ++ '@' :: c :: (name ++ r')) ∧ r'.head? = r.head? := by
  simp only [List.mem_cons, not_or, List.not_mem_nil, not_false_eq_true, and_true] at hc
  obtain ⟨c1, c2, c3, c4, c5⟩ := hc
  obtain ⟨r1, e1, h1⟩ := rep_line (x := '!') "{boldon}".toList (r := r) hX (Ne.symm c1) c5 hn
  have hB : '@' ∉ "oldon}".toList ++ X := by
    rw [List.mem_append, not_or]; exact ⟨by decide, hX⟩
  have stp : ∀ (x : Char) (rep r : List Char), x ≠ '{' → x ≠ c →
      ∃ r', pyReplace ("@{boldon}".toList ++ (X ++ '@' :: c :: (name ++ r))) ['@', x] ('@' :: rep) =
        "@{boldon}".toList ++ (X ++ '@' :: c :: (name ++ r')) ∧ r'.head? = r.head? := by
    intro x rep r hx hxc
    obtain ⟨r', e', h'⟩ := rep_line rep (X := "{boldon}".toList ++ X) (r := r) (by
      rw [List.mem_append, not_or]; exact ⟨by decide, hX⟩) hxc c5 hn
    refine ⟨r', ?_, h'⟩
    have e0 : ∀ l : List Char, "@{boldon}".toList ++ (X ++ l) = '@' :: (("{boldon}".toList ++ X) ++ l) := fun l => by
      rw [List.append_assoc]; rfl
    rw [e0, e0, pyReplace_step _ (by
      rw [show "{boldon}".toList = '{' :: "boldon}".toList from rfl]
      simp [List.prefix_cons_iff]; exact hx), e']
  obtain ⟨r2, e2, h2⟩ := stp '/' "{italicson}".toList r1 (by decide) (Ne.symm c2)
  obtain ⟨r3, e3, h3⟩ := stp '_' "{ulon}".toList r2 (by decide) (Ne.symm c3)
  obtain ⟨r4, e4, h4⟩ := stp '|' "{reset}".toList r3 (by decide) (Ne.symm c4)
  refine ⟨r4, ?_, by rw [h4, h3, h2, h1]⟩
  unfold fmtReplace
  simp only [show "@!".toList = ['@', '!'] from rfl, show "@/".toList = ['@', '/'] from rfl, show "@_".toList = ['@', '_'] from rfl,
    show "@|".toList = ['@', '|'] from rfl]
  rw [pyReplace_match (by simp)]
  rw [show "@{boldon}".toList = '@' :: "{boldon}".toList from rfl] at e2 e3 e4 ⊢
  rw [e1]
  rw [show "@{italicson}".toList = '@' :: "{italicson}".toList from rfl, show "@{ulon}".toList = '@' :: "{ulon}".toList from rfl,
    show "@{reset}".toList = '@' :: "{reset}".toList from rfl, e2, e3, e4]

/-- What becomes of a line whose first `@` after the beginning is followed by `c`, `name` and `r`. -/
private theorem fmt_line {a : AnsiTable} (hb : ∃ b, a "boldon".toList = some b) {c : Char} {X name r : List Char} (hX : '@' ∉ X)
    (hc : c ∉ ['!', '/', '_', '|', '@']) (hn : '@' ∉ name) {e : Exc}
    (h : ∀ r', r'.head? = r.head? → ∀ n, 0 < n → substGo a n ('@' :: c :: (name ++ r')) = .error e) :
    fmt a ("@!".toList ++ (X ++ '@' :: c :: (name ++ r))) = .error e := by
  obtain ⟨r', e1, h1⟩ := fmtReplace_line (r := r) hX hc hn
  obtain ⟨b, hb⟩ := hb
  unfold fmt subst
  have hlen : ("@{boldon}".toList ++ (X ++ '@' :: c :: (name ++ r'))).length = (8 + X.length + 2 + (name ++ r').length) + 1 := by
    rw [List.length_append, List.length_append, show "@{boldon}".toList.length = 9 from rfl]
    simp only [List.length_cons]
    omega
  rw [e1, hlen, show "@{boldon}".toList ++ (X ++ '@' :: c :: (name ++ r')) = '@' :: '{' :: 'b' :: "oldon".toList ++ '}' :: (X ++ '@' :: c :: (name ++ r')) from rfl,
    substGo_braced (e := 'b') (w := "oldon".toList) (v := b) (by decide) (by decide) hb, substGo_plain a X _ hX _ (by omega), h r' h1 _ (by omega)]
  rfl

private theorem joinCmd_words (words : List String) : joinCmd (words.map some) = .ok (pyJoin [' '] (words.map String.toList)) := by
  have : cmdWords (words.map some) = .ok (words.map String.toList) := by
    induction words with
    | nil => rfl
    | cons w t ih => simp [cmdWords, ih, bind, Except.bind, pure, Except.pure]
  unfold joinCmd
  rw [this]; rfl

private theorem announce_words (a : AnsiTable) (words : List String) {u v : List Char} (h : Typed words (u ++ '@' :: v)) :
    announce a (words.map some) = fmt a ("@!".toList ++ (("executing command: ".toList ++ u) ++ '@' :: (v ++ "@|".toList))) := by
  unfold announce
  rw [joinCmd_words, ← h]
  show fmt a _ = _
  congr 1
  rw [show "@!executing command: ".toList = "@!".toList ++ "executing command: ".toList from rfl]
  simp only [List.append_assoc, List.cons_append]

private theorem announce_noMark {a : AnsiTable} (hb : ∃ b, a "boldon".toList = some b) {words : List String} {u v : List Char}
    (h : Typed words (u ++ '@' :: v)) (hu : '@' ∉ u) (hv : NoMark v) : announce a (words.map some) = .error .valueError := by
  obtain ⟨c, t, rfl, hal, hc⟩ := hv
  simp only [List.mem_cons, not_or, List.not_mem_nil, not_false_eq_true, and_true] at hc
  obtain ⟨c1, c2, c3, c4, c5, c6⟩ := hc
  rw [announce_words a words h]
  refine fmt_line hb (name := []) (c := c) (r := t ++ "@|".toList) (by rw [List.mem_append, not_or]; exact ⟨by decide, hu⟩)
    (by simp [c1, c3, c4, c5, c6]) (by simp) fun r' _ n hn => ?_
  cases n with
  | zero => omega
  | succ n =>
    have hid : idStart c = false := by
      cases hs : idStart c with
      | false => rfl
      | true =>
        rcases (idStart_eq c).1 hs with h | h
        · rw [hal] at h; cases h
        · exact absurd h c1
    simp only [substGo, if_true, if_neg c6, hid, if_neg c2, Bool.false_eq_true, if_false]

private theorem announce_named {a : AnsiTable} (hb : ∃ b, a "boldon".toList = some b) {words : List String} {u v name : List Char}
    (h : Typed words (u ++ '@' :: v)) (hu : '@' ∉ u) (hv : MarkNamed name v) (hno : a name = none) :
    announce a (words.map some) = .error .keyError := by
  obtain ⟨r, rfl, ⟨c, hc, hal⟩, hall, hr⟩ := hv
  cases name with
  | nil => cases hc
  | cons c' w =>
    injection hc with hc
    subst hc
    have hs := (idStart_eq c').2 (.inl hal)
    have hid : ∀ d ∈ c' :: w, idChar d = true := fun d hd => (idChar_eq d).2 (hall d hd)
    have hat : ∀ d ∈ c' :: w, d ≠ '@' := by
      rintro d hd rfl
      have := hid _ hd
      revert this; decide
    have hcs : c' ∉ ['!', '/', '_', '|', '@'] := by
      intro hm
      have : ∀ d ∈ ['!', '/', '_', '|', '@'], d.isAlpha = false := by decide
      rw [this c' hm] at hal; cases hal
    rw [announce_words a words h]
    have e : (("executing command: ".toList ++ u) ++ '@' :: (((c' :: w) ++ r) ++ "@|".toList)) =
        ("executing command: ".toList ++ u) ++ '@' :: c' :: (w ++ (r ++ "@|".toList)) := by simp
    rw [e]
    refine fmt_line hb (by rw [List.mem_append, not_or]; exact ⟨by decide, hu⟩) hcs (fun h => hat _ (List.mem_cons_of_mem _ h) rfl) fun r' hr' n hn => ?_
    have hr'' : ∀ d, r'.head? = some d → idChar d = false := by
      intro d hd
      rw [hr'] at hd
      cases r with
      | nil =>
        injection hd with hd
        rw [← hd]; decide
      | cons x r =>
        exact idChar_false (hr d hd)
    cases n with
    | zero => omega
    | succ n =>
      have hw : ∀ d ∈ w, idChar d = true := fun d h => hid d (List.mem_cons_of_mem _ h)
      have t1 : (w ++ r').takeWhile idChar = w := by
        rw [List.takeWhile_append_of_pos hw]
        cases r' with
        | nil => simp
        | cons d t => simp [hr'' d rfl]
      simp only [substGo, if_true, if_neg (hat c' (by simp)), hs, t1, ansiGet, hno, bind, Except.bind]

variable {m : Machine σ} {ic : InstallerCtx σ} {o : InstallOpts} {n : String} {inst : Installer σ} {rs : List Resolution} {s s1 : σ}

/-- Commands without `@` that succeed are all run, whatever comes after them. -/
private theorem runCommands_prefix (ha : (∃ b, m.ansi "boldon".toList = some b) ∧ ∃ r, m.ansi "reset".toList = some r) (cont : Bool) {pre : List Cmd}
    (hpre : ∀ c ∈ pre, Plain c ∧ ∀ s, (m.call c s).1 = .ok 0) (errs : List InstErr) (rest : List Cmd) (s : σ) :
    runCommands m n cont errs (pre ++ rest) s =
      (runCommands m n cont errs rest (pre.foldl (fun s c => (m.call c s).2) s)).prepend (pre.map fun c => .exec n c (.ok 0)) := by
  induction pre generalizing s with
  | nil => rfl
  | cons c t ih =>
    obtain ⟨h1, h2⟩ := hpre c (by simp)
    rw [List.cons_append, runCommands_cons]
    obtain ⟨x, hx⟩ := announce_ok ha h1
    obtain ⟨y, hy⟩ := fmt_message ha (s := "command return code: ".toList) (t := codeText 0) (by decide) (codeText_at 0)
    rw [hx]
    simp only [h2]
    rw [show "@!command return code: ".toList ++ codeText 0 ++ "@|".toList = ('@' :: '!' :: "command return code: ".toList) ++ codeText 0 ++ "@|".toList from rfl, hy]
    simp only [ne_eq, not_true_eq_false, if_false]
    rw [ih fun c hc => hpre c (List.mem_cons_of_mem _ hc)]
    rfl

private theorem installResolutions_run_pre (ha : (∃ b, m.ansi "boldon".toList = some b) ∧ ∃ r, m.ansi "reset".toList = some r)
    (hinst : lookupInstaller ic n = some inst) (hsim : o.simulate = false) {pre post : List Cmd} {c : Cmd}
    (hplan : inst.getInstallCommands rs o.interactive o.reinstall s = (.ok (pre ++ c :: post), s1))
    (hpre : ∀ c ∈ pre, Plain c ∧ ∀ s, (m.call c s).1 = .ok 0) :
    ∃ s2, installResolutions m ic o n rs s =
      ((runCommands m n o.continueOnError [] (c :: post) >>= fun r => if r.2 then Prog.ret r.1 else verifyItems inst n r.1 rs) s2).prepend
        (.plan n rs (.ok (pre ++ c :: post)) :: pre.map fun c => .exec n c (.ok 0)) := by
  refine ⟨pre.foldl (fun s c => (m.call c s).2) s1, ?_⟩
  rw [installResolutions_run, hinst]
  simp only [hplan, hsim]
  rw [if_neg (by simp)]
  simp only [Bool.false_eq_true, if_false]
  rw [bind_run, bind_run, runCommands_prefix ha _ hpre]
  simp only [Out.prepend_res, Out.prepend_st, Out.prepend_ev]
  cases (runCommands m n o.continueOnError [] (c :: post) (pre.foldl (fun s c => (m.call c s).2) s1)).res with
  | error e => simp [Out.prepend]
  | ok a => simp [Out.prepend, List.append_assoc]

private theorem not_announced (ha : (∃ b, m.ansi "boldon".toList = some b) ∧ ∃ r, m.ansi "reset".toList = some r)
    (hinst : lookupInstaller ic n = some inst) (hsim : o.simulate = false) {pre post : List Cmd} {c : Cmd}
    (hplan : inst.getInstallCommands rs o.interactive o.reinstall s = (.ok (pre ++ c :: post), s1))
    (hpre : ∀ c ∈ pre, Plain c ∧ ∀ s, (m.call c s).1 = .ok 0) {e : Exc} (hc : announce m.ansi c = .error e) :
    (installResolutions m ic o n rs s).res = .error e ∧
      (installResolutions m ic o n rs s).ev = .plan n rs (.ok (pre ++ c :: post)) :: pre.map fun c => .exec n c (.ok 0) := by
  obtain ⟨s2, h⟩ := installResolutions_run_pre ha hinst hsim hplan hpre
  have hrun : runCommands m n o.continueOnError [] (c :: post) s2 = ⟨.error e, s2, []⟩ := by rw [runCommands_cons, hc]
  rw [h, bind_error (e := e) (by rw [hrun]), hrun]
  exact ⟨rfl, by simp⟩

/-- **C149** (refuted) The command of a package whose name has an `@` that is no mark (like `openssl@1.1`) is never run: after the commands before it, xylem fails with a ValueError,
and nothing after it is run or checked. This is so for all installers, with `continue_on_error` too. -/
theorem C149_not_run_refuted (ha : (∃ b, m.ansi "boldon".toList = some b) ∧ ∃ r, m.ansi "reset".toList = some r)
    (hinst : lookupInstaller ic n = some inst) (hsim : o.simulate = false) {pre post : List Cmd} {words : List String}
    (hplan : inst.getInstallCommands rs o.interactive o.reinstall s = (.ok (pre ++ words.map some :: post), s1))
    (hpre : ∀ c ∈ pre, Plain c ∧ ∀ s, (m.call c s).1 = .ok 0) {u v : List Char} (h : Typed words (u ++ '@' :: v)) (hu : '@' ∉ u) (hv : NoMark v) :
    (installResolutions m ic o n rs s).res = .error .valueError ∧
      (installResolutions m ic o n rs s).ev = .plan n rs (.ok (pre ++ words.map some :: post)) :: pre.map fun c => .exec n c (.ok 0) :=
  not_announced ha hinst hsim hplan hpre (announce_noMark ha.1 h hu hv)

/-- **C149** (refuted) If the `@` is followed by a name that is no colour (like `git@github.com`), it is a KeyError. -/
theorem C149_no_colour_refuted (ha : (∃ b, m.ansi "boldon".toList = some b) ∧ ∃ r, m.ansi "reset".toList = some r)
    (hinst : lookupInstaller ic n = some inst) (hsim : o.simulate = false) {pre post : List Cmd} {words : List String}
    (hplan : inst.getInstallCommands rs o.interactive o.reinstall s = (.ok (pre ++ words.map some :: post), s1))
    (hpre : ∀ c ∈ pre, Plain c ∧ ∀ s, (m.call c s).1 = .ok 0) {u v name : List Char} (h : Typed words (u ++ '@' :: v)) (hu : '@' ∉ u)
    (hv : MarkNamed name v) (hno : m.ansi name = none) :
    (installResolutions m ic o n rs s).res = .error .keyError ∧
      (installResolutions m ic o n rs s).ev = .plan n rs (.ok (pre ++ words.map some :: post)) :: pre.map fun c => .exec n c (.ok 0) :=
  not_announced ha hinst hsim hplan hpre (announce_named ha.1 h hu hv hno)

/-- **C149** (refuted) The exception ends the whole installation: nothing of the other installers is installed. -/
theorem C149_whole_installation_refuted {resolved more : List (String × List Resolution)} (hsq : squashResolutions resolved = (n, rs) :: more) {e : Exc}
    (h : (installResolutions m ic o n rs s).res = .error e) :
    (installResolved m ic o resolved s).res = .error e ∧ (installResolved m ic o resolved s).ev = (installResolutions m ic o n rs s).ev := by
  unfold installResolved
  rw [hsq, installLoop, bind_error h]
  exact ⟨rfl, rfl⟩

/-- **C149** (refuted) Yet a simulation shows the command, without any error. -/
theorem C149_simulated_refuted (hinst : lookupInstaller ic n = some inst) (hsim : o.simulate = true) {cmds : List (List String)} (hne : cmds ≠ [])
    (hplan : inst.getInstallCommands rs o.interactive o.reinstall s = (.ok (cmds.map fun ws => ws.map some), s1)) :
    (installResolutions m ic o n rs s).res = .ok [] ∧
      (installResolutions m ic o n rs s).ev = .plan n rs (.ok (cmds.map fun ws => ws.map some)) :: .heading n :: cmds.map fun ws => .shown n (ws.map some) := by
  have hshow : ∀ (t : List (List String)) (s : σ), showCommands n (t.map fun ws => ws.map some) s = ⟨.ok (), s, t.map fun ws => .shown n (ws.map some)⟩ := by
    intro t
    induction t with
    | nil => intro s; rfl
    | cons c t ih =>
      intro s
      rw [List.map_cons, showCommands, joinCmd_words, lift_ok_run, bind_ok (a := ()) rfl]
      show ((showCommands n _) s).prepend _ = _
      rw [ih]; rfl
  rw [installResolutions_run, hinst]
  simp only [hplan, hsim]
  rw [if_neg (by simpa using hne)]
  simp only [if_true]
  rw [bind_ok (a := ()) rfl]
  have h2 : (showCommands n (cmds.map fun ws => ws.map some) >>= fun _ => (Prog.ret [] : Prog σ (List InstErr))) s1 =
      ⟨.ok [], s1, cmds.map fun ws => .shown n (ws.map some)⟩ := by
    rw [bind_ok (a := ()) (by rw [hshow cmds]), hshow cmds]
    simp [Prog.ret, Out.prepend]
  show ((((showCommands n (cmds.map fun ws => ws.map some) >>= fun _ => (Prog.ret [] : Prog σ (List InstErr))) s1).prepend [.heading n]).prepend _).res = _ ∧
    ((((showCommands n (cmds.map fun ws => ws.map some) >>= fun _ => (Prog.ret [] : Prog σ (List InstErr))) s1).prepend [.heading n]).prepend _).ev = _
  rw [h2]
  exact ⟨rfl, rfl⟩

/-- A command that can be announced is run. -/
private theorem run_of_announce (ha : (∃ b, m.ansi "boldon".toList = some b) ∧ ∃ r, m.ansi "reset".toList = some r)
    (hinst : lookupInstaller ic n = some inst) (hsim : o.simulate = false) {pre post : List Cmd} {words : List String}
    (hplan : inst.getInstallCommands rs o.interactive o.reinstall s = (.ok (pre ++ words.map some :: post), s1))
    (hpre : ∀ c ∈ pre, Plain c ∧ ∀ s, (m.call c s).1 = .ok 0) {x : List Char} (hx : announce m.ansi (words.map some) = .ok x) :
    ∃ code more, (installResolutions m ic o n rs s).ev =
      .plan n rs (.ok (pre ++ words.map some :: post)) :: (pre.map fun c => .exec n c (.ok 0)) ++ .exec n (words.map some) code :: more := by
  obtain ⟨s2, h⟩ := installResolutions_run_pre ha hinst hsim hplan hpre
  have hrun : ∃ code more, (runCommands m n o.continueOnError [] (words.map some :: post) s2).ev = .exec n (words.map some) code :: more := by
    rw [runCommands_cons, hx]
    cases (m.call (words.map some) s2).1 with
    | error e => exact ⟨_, _, rfl⟩
    | ok code =>
      simp only
      cases fmt m.ansi ("@!command return code: ".toList ++ codeText code ++ "@|".toList) with
      | error e => exact ⟨_, _, rfl⟩
      | ok y =>
        simp only
        split
        · split
          · exact ⟨_, _, rfl⟩
          · exact ⟨_, _, rfl⟩
        · exact ⟨_, _, rfl⟩
  obtain ⟨code, more, hm⟩ := hrun
  rw [h]
  cases hr : (runCommands m n o.continueOnError [] (words.map some :: post) s2).res with
  | error e =>
    rw [bind_error hr]
    exact ⟨code, more, by rw [Out.prepend_ev]; show _ ++ (runCommands m n o.continueOnError [] (words.map some :: post) s2).ev = _; rw [hm]⟩
  | ok a =>
    rw [bind_ok hr]
    exact ⟨code, more ++ ((if a.2 then Prog.ret a.1 else verifyItems inst n a.1 rs) _).ev, by
      rw [Out.prepend_ev, Out.prepend_ev, hm]; rfl⟩

/-- **C149** (the part that holds) If the commands before it succeed and neither they nor it contain an `@`, a command is run, whatever else its words contain. -/
theorem C149_run_partial (ha : (∃ b, m.ansi "boldon".toList = some b) ∧ ∃ r, m.ansi "reset".toList = some r)
    (hinst : lookupInstaller ic n = some inst) (hsim : o.simulate = false) {pre post : List Cmd} {words : List String}
    (hplan : inst.getInstallCommands rs o.interactive o.reinstall s = (.ok (pre ++ words.map some :: post), s1))
    (hpre : ∀ c ∈ pre, Plain c ∧ ∀ s, (m.call c s).1 = .ok 0) (hw : ∀ w ∈ words, '@' ∉ w.toList) :
    ∃ code more, (installResolutions m ic o n rs s).ev =
      .plan n rs (.ok (pre ++ words.map some :: post)) :: (pre.map fun c => .exec n c (.ok 0)) ++ .exec n (words.map some) code :: more := by
  have hp : Plain (words.map some) := by
    intro w h
    obtain ⟨t, ht, rfl⟩ := List.mem_map.1 h
    exact ⟨t, rfl, hw t ht⟩
  obtain ⟨x, hx⟩ := announce_ok ha hp
  exact run_of_announce ha hinst hsim hplan hpre hx

/-! ### lines with one `@` -/

/-- What a replacement of `fmt` does after an `@`. -/
private def pass (x : Char) (r : List Char) : List Char → List Char
  | [] => []
  | c :: t => if c = x then r ++ t else c :: t

private theorem pass_free {x : Char} {r w : List Char} (hr : '@' ∉ r) (hw : '@' ∉ w) : '@' ∉ pass x r w := by
  cases w with
  | nil => exact hw
  | cons c t =>
    simp only [List.mem_cons, not_or] at hw
    by_cases hc : c = x
    · simp [pass, hc, hr, hw.2]
    · simp [pass, hc, hw.1, hw.2]

private theorem rep_seg {x : Char} {w s : List Char} (r : List Char) (hx : x ≠ '@') (hw : '@' ∉ w) (hs : s = [] ∨ s.head? = some '@') :
    pyReplace ('@' :: (w ++ s)) ['@', x] ('@' :: r) = '@' :: (pass x r w ++ pyReplace s ['@', x] ('@' :: r)) := by
  cases w with
  | nil =>
    rw [List.nil_append, pyReplace_step _ (by
      rcases hs with rfl | hs
      · simp [List.prefix_cons_iff]
      · cases s with
        | nil => cases hs
        | cons d s =>
          injection hs with hs
          subst hs
          simp [List.prefix_cons_iff]; exact hx)]
    rfl
  | cons c t =>
    simp only [List.mem_cons, not_or] at hw
    by_cases hc : c = x
    · subst hc
      rw [show '@' :: (c :: t ++ s) = ['@', c] ++ (t ++ s) from rfl, pyReplace_match (by simp), pyReplace_at_free _ _ _ _ hw.2]
      simp [pass]
    · rw [pyReplace_step _ (by simp [List.prefix_cons_iff]; exact fun h => absurd h.symm hc), pyReplace_at_free _ _ _ _ (by simp; exact hw)]
      simp [pass, hc]

private theorem rep_three {x : Char} {r w1 w2 w3 : List Char} (hx : x ≠ '@') (h1 : '@' ∉ w1) (h2 : '@' ∉ w2) (h3 : '@' ∉ w3) :
    pyReplace ('@' :: (w1 ++ '@' :: (w2 ++ '@' :: w3))) ['@', x] ('@' :: r) =
      '@' :: (pass x r w1 ++ '@' :: (pass x r w2 ++ '@' :: pass x r w3)) := by
  rw [rep_seg r hx h1 (.inr rfl), rep_seg r hx h2 (.inr rfl)]
  have := rep_seg (s := []) r hx h3 (.inl rfl)
  rw [List.append_nil, pyReplace_nil, List.append_nil] at this
  rw [this]

/-- All four replacements after an `@`. -/
private def passes (w : List Char) : List Char :=
  pass '|' "{reset}".toList (pass '_' "{ulon}".toList (pass '/' "{italicson}".toList (pass '!' "{boldon}".toList w)))

private theorem fmtReplace_three {X v : List Char} (hX : '@' ∉ X) (hv : '@' ∉ v) :
    fmtReplace ("@!".toList ++ (X ++ '@' :: (v ++ "@|".toList))) = '@' :: (("{boldon}".toList ++ X) ++ '@' :: (passes v ++ '@' :: "{reset}".toList)) := by
  unfold fmtReplace
  simp only [show "@!".toList = ['@', '!'] from rfl, show "@/".toList = ['@', '/'] from rfl, show "@_".toList = ['@', '_'] from rfl,
    show "@|".toList = ['@', '|'] from rfl, show "@{boldon}".toList = '@' :: "{boldon}".toList from rfl,
    show "@{italicson}".toList = '@' :: "{italicson}".toList from rfl, show "@{ulon}".toList = '@' :: "{ulon}".toList from rfl,
    show "@{reset}".toList = '@' :: "{reset}".toList from rfl]
  have b1 : '@' ∉ "{boldon}".toList := by decide
  have b2 : '@' ∉ "{italicson}".toList := by decide
  have b3 : '@' ∉ "{ulon}".toList := by decide
  have hX' : '@' ∉ '!' :: X := by simp only [List.mem_cons, not_or]; exact ⟨by decide, hX⟩
  have h3 : '@' ∉ ['|'] := by decide
  rw [show ['@', '!'] ++ (X ++ '@' :: (v ++ ['@', '|'])) = '@' :: (('!' :: X) ++ '@' :: (v ++ '@' :: ['|'])) from rfl,
    rep_three (by decide) hX' hv h3,
    rep_three (by decide) (pass_free b1 hX') (pass_free b1 hv) (pass_free b1 h3),
    rep_three (by decide) (pass_free b2 (pass_free b1 hX')) (pass_free b2 (pass_free b1 hv)) (pass_free b2 (pass_free b1 h3)),
    rep_three (by decide) (pass_free b3 (pass_free b2 (pass_free b1 hX'))) (pass_free b3 (pass_free b2 (pass_free b1 hv)))
      (pass_free b3 (pass_free b2 (pass_free b1 h3)))]
  rfl

/-- The rest of the line after the mark. -/
private theorem rest_ok {a : AnsiTable} (hr : ∃ r, a "reset".toList = some r) {t : List Char} (ht : '@' ∉ t) {n : Nat} (hn : t.length < n) :
    ∃ y, substGo a n (t ++ '@' :: "{reset}".toList) = .ok y := by
  obtain ⟨r, hr⟩ := hr
  rw [substGo_plain a t _ ht n (by omega)]
  obtain ⟨k, hk⟩ : ∃ k, n - t.length = k + 1 := ⟨n - t.length - 1, by omega⟩
  rw [hk, show '@' :: "{reset}".toList = '@' :: '{' :: 'r' :: "eset".toList ++ '}' :: [] from rfl,
    substGo_braced (e := 'r') (w := "eset".toList) (v := r) (by decide) (by decide) hr]
  cases k <;> exact ⟨_, rfl⟩

/-- Whether the line of a command with one `@` can be formatted. -/
private theorem fmt_one {a : AnsiTable} (hb : ∃ b, a "boldon".toList = some b) (hr : ∃ r, a "reset".toList = some r) {X v : List Char}
    (hX : '@' ∉ X) (hv : '@' ∉ v) :
    ∃ k, (passes v).length + 9 < k ∧ ((∃ y, fmt a ("@!".toList ++ (X ++ '@' :: (v ++ "@|".toList))) = .ok y) ↔
      ∃ y, substGo a k ('@' :: (passes v ++ '@' :: "{reset}".toList)) = .ok y) := by
  obtain ⟨b, hb⟩ := hb
  obtain ⟨r, hr⟩ := hr
  refine ⟨(passes v).length + 17, by omega, ?_⟩
  unfold fmt subst
  rw [fmtReplace_three hX hv]
  have hlen : ('@' :: (("{boldon}".toList ++ X) ++ '@' :: (passes v ++ '@' :: "{reset}".toList))).length = ((passes v).length + 17 + X.length) + 1 := by
    simp only [List.length_cons, List.length_append, show "{boldon}".toList.length = 8 from rfl, show "{reset}".toList.length = 7 from rfl]
    omega
  rw [hlen, show '@' :: (("{boldon}".toList ++ X) ++ '@' :: (passes v ++ '@' :: "{reset}".toList)) =
      '@' :: '{' :: 'b' :: "oldon".toList ++ '}' :: (X ++ '@' :: (passes v ++ '@' :: "{reset}".toList)) from rfl,
    substGo_braced (e := 'b') (w := "oldon".toList) (v := b) (by decide) (by decide) hb, substGo_plain a X _ hX _ (by omega),
    show (passes v).length + 17 + X.length - X.length = (passes v).length + 17 by omega]
  cases substGo a ((passes v).length + 17) ('@' :: (passes v ++ '@' :: "{reset}".toList)) with
  | error e => simp [Except.map, bind, Except.bind]
  | ok y =>
    refine ⟨fun _ => ⟨_, rfl⟩, fun _ => ⟨b ++ (X ++ y) ++ r, ?_⟩⟩
    simp only [Except.map, bind, Except.bind, ansiGet, hr, pure, Except.pure]

private theorem braced_iff {a : AnsiTable} (hr : ∃ r, a "reset".toList = some r) {e : Char} {w t : List Char} (he : idStart e = true)
    (hw : ∀ c ∈ w, idChar c = true) (ht : '@' ∉ t) {k : Nat} (hk : t.length + 1 < k) :
    (∃ y, substGo a k ('@' :: (('{' :: e :: w ++ '}' :: t) ++ '@' :: "{reset}".toList)) = .ok y) ↔ ∃ code, a (e :: w) = some code := by
  obtain ⟨k, rfl⟩ : ∃ j, k = j + 1 := ⟨k - 1, by omega⟩
  rw [show '@' :: (('{' :: e :: w ++ '}' :: t) ++ '@' :: "{reset}".toList) = '@' :: '{' :: e :: (w ++ '}' :: (t ++ '@' :: "{reset}".toList)) by simp]
  cases ha : a (e :: w) with
  | some code =>
    obtain ⟨y, hy⟩ := rest_ok hr ht (n := k) (by omega)
    have := substGo_braced (a := a) (n := k) (s := t ++ '@' :: "{reset}".toList) he hw ha
    rw [hy] at this
    exact ⟨fun _ => ⟨_, rfl⟩, fun _ => ⟨_, this⟩⟩
  | none =>
    have h1 : idChar '}' = false := by decide
    have t1 : (w ++ '}' :: (t ++ '@' :: "{reset}".toList)).takeWhile idChar = w := by
      rw [List.takeWhile_append_of_pos hw]; simp [h1]
    have t2 : (w ++ '}' :: (t ++ '@' :: "{reset}".toList)).dropWhile idChar = '}' :: (t ++ '@' :: "{reset}".toList) := by
      rw [List.dropWhile_append_of_pos hw]; simp [h1]
    refine ⟨?_, fun ⟨_, h⟩ => nomatch h⟩
    rintro ⟨y, hy⟩
    simp only [substGo, if_true, show ('{' = '@') = False by decide, if_false, show idStart '{' = false by decide, Bool.false_eq_true, he, t1, t2, ansiGet, ha,
      bind, Except.bind] at hy
    cases hy

private theorem short_iff {a : AnsiTable} (hr : ∃ r, a "reset".toList = some r) {e : Char} {w t : List Char} (he : idStart e = true)
    (hw : ∀ c ∈ w, idChar c = true) (ht : '@' ∉ t) {k : Nat} {p : List Char} (hp : p = '{' :: e :: w ++ '}' :: t) (hk : p.length + 9 < k) :
    (∃ y, substGo a k ('@' :: (p ++ '@' :: "{reset}".toList)) = .ok y) ↔ ∃ code, a (e :: w) = some code := by
  subst hp
  exact braced_iff hr he hw ht (by simp only [List.length_append, List.length_cons] at hk; omega)

private theorem passes_other {c : Char} {t : List Char} (hc : c ∉ ['!', '/', '_', '|']) : passes (c :: t) = c :: t := by
  simp only [List.mem_cons, not_or, List.not_mem_nil, not_false_eq_true, and_true] at hc
  obtain ⟨c1, c2, c3, c4⟩ := hc
  simp [passes, pass, c1, c2, c3, c4]

private theorem short_known {a : AnsiTable} {c : Char} {name : String} {t : List Char}
    (h : (c, name) ∈ [('!', "boldon"), ('/', "italicson"), ('_', "ulon"), ('|', "reset")]) :
    KnownMark a (c :: t) ↔ ∃ code, a name.toList = some code := by
  constructor
  · rintro (h1 | ⟨c', name', t', h1, h2, h3⟩ | ⟨name', t', h1, -⟩ | ⟨name', ⟨r, h1, ⟨d, h2, h3⟩, -⟩, -⟩)
    · cases h1
    · injection h1 with h1
      subst h1
      simp only [List.mem_cons, List.not_mem_nil, or_false, Prod.mk.injEq] at h h2
      rcases h with ⟨rfl, rfl⟩ | ⟨rfl, rfl⟩ | ⟨rfl, rfl⟩ | ⟨rfl, rfl⟩ <;> simp at h2 <;> rw [h2] at h3 <;> exact h3
    · injection h1 with h1
      subst h1
      simp at h
    · cases name' with
      | nil => cases h2
      | cons x w =>
        injection h2 with h2
        injection h1 with h1
        subst h2 h1
        simp only [List.mem_cons, List.not_mem_nil, or_false, Prod.mk.injEq] at h
        rcases h with ⟨rfl, -⟩ | ⟨rfl, -⟩ | ⟨rfl, -⟩ | ⟨rfl, -⟩ <;> exact absurd h3 (by decide)
  · intro h3
    exact .inr (.inl ⟨c, name, t, rfl, h, h3⟩)

private theorem not_short {c : Char} {t : List Char} (hc : c ∉ ['!', '/', '_', '|']) {a : AnsiTable} :
    KnownMark a (c :: t) ↔ (∃ name t', c :: t = '{' :: (name ++ '}' :: t') ∧ (∃ c, name.head? = some c ∧ (c.isAlpha = true ∨ c = '_')) ∧
      (∀ c ∈ name, MarkupChar c) ∧ ∃ code, a name = some code) ∨ ∃ name, MarkNamed name (c :: t) ∧ ∃ code, a name = some code := by
  constructor
  · rintro (h1 | ⟨c', name', t', h1, h2, h3⟩ | h | h)
    · cases h1
    · injection h1 with h1
      subst h1
      exfalso
      apply hc
      simp only [List.mem_cons, List.not_mem_nil, or_false, Prod.mk.injEq] at h2
      rcases h2 with ⟨rfl, -⟩ | ⟨rfl, -⟩ | ⟨rfl, -⟩ | ⟨rfl, -⟩ <;> simp
    · exact .inl h
    · exact .inr h
  · rintro (h | h)
    · exact .inr (.inr (.inl h))
    · exact .inr (.inr (.inr h))

private theorem named_head {c : Char} {t name : List Char} (h : MarkNamed name (c :: t)) : c.isAlpha = true := by
  obtain ⟨r, h1, ⟨d, h2, h3⟩, -⟩ := h
  cases name with
  | nil => cases h2
  | cons x w =>
    injection h2 with h2
    injection h1 with h1
    rw [h1, h2]; exact h3

private theorem named_eq {c : Char} {t name : List Char} (h : MarkNamed name (c :: t)) : name = c :: t.takeWhile idChar := by
  obtain ⟨r, h1, ⟨d, h2, -⟩, h4, h5⟩ := h
  cases name with
  | nil => cases h2
  | cons x w =>
    rw [List.cons_append] at h1
    injection h1 with h1 h1'
    subst h1 h1'
    rw [List.takeWhile_append_of_pos fun d hd => (idChar_eq d).2 (h4 d (List.mem_cons_of_mem _ hd))]
    cases r with
    | nil => simp
    | cons y r => simp [idChar_false (h5 y rfl)]

private theorem known_iff {a : AnsiTable} (hr : ∃ r, a "reset".toList = some r) {v : List Char} (hv : '@' ∉ v) {k : Nat} (hk : (passes v).length + 9 < k) :
    (∃ y, substGo a k ('@' :: (passes v ++ '@' :: "{reset}".toList)) = .ok y) ↔ KnownMark a v := by
  have hat : idChar '@' = false := by decide
  cases v with
  | nil =>
    refine ⟨fun _ => .inl rfl, fun _ => ?_⟩
    obtain ⟨k, rfl⟩ : ∃ j, k = j + 1 := ⟨k - 1, by omega⟩
    have h7 : "{reset}".toList.length = 7 := rfl
    have hk' : 9 < k + 1 := by have : (passes []).length = 0 := rfl; omega
    have := substGo_plain a "{reset}".toList [] (by decide) k (by omega)
    rw [List.append_nil] at this
    obtain ⟨j, hj⟩ : ∃ j, k - "{reset}".toList.length = j + 1 := ⟨k - 8, by omega⟩
    rw [hj] at this
    refine ⟨'@' :: "{reset}".toList, ?_⟩
    show substGo a (k + 1) ('@' :: '@' :: "{reset}".toList) = _
    simp only [substGo, if_true]
    rw [this]
    rfl
  | cons c t =>
    simp only [List.mem_cons, not_or] at hv
    obtain ⟨hc, ht⟩ := hv
    by_cases h1 : c = '!'
    · subst h1
      rw [short_iff (e := 'b') (w := "oldon".toList) (t := t) (p := passes ('!' :: t)) hr (by decide) (by decide) ht rfl hk, short_known (name := "boldon") (by simp)]
      exact Iff.rfl
    by_cases h2 : c = '/'
    · subst h2
      rw [short_iff (e := 'i') (w := "talicson".toList) (t := t) (p := passes ('/' :: t)) hr (by decide) (by decide) ht rfl hk, short_known (name := "italicson") (by simp)]
      exact Iff.rfl
    by_cases h3 : c = '_'
    · subst h3
      rw [short_iff (e := 'u') (w := "lon".toList) (t := t) (p := passes ('_' :: t)) hr (by decide) (by decide) ht rfl hk, short_known (name := "ulon") (by simp)]
      exact Iff.rfl
    by_cases h4 : c = '|'
    · subst h4
      rw [short_iff (e := 'r') (w := "eset".toList) (t := t) (p := passes ('|' :: t)) hr (by decide) (by decide) ht rfl hk, short_known (name := "reset") (by simp)]
      exact Iff.rfl
    have hs : c ∉ ['!', '/', '_', '|'] := by simp [h1, h2, h3, h4]
    rw [passes_other hs] at hk ⊢
    rw [not_short hs]
    simp only [List.length_cons] at hk
    obtain ⟨k, rfl⟩ : ∃ j, k = j + 1 := ⟨k - 1, by omega⟩
    by_cases h5 : c = '{'
    · subst h5
      have hno : ∀ name, ¬MarkNamed name ('{' :: t) := fun name h => absurd (named_head h) (by decide)
      simp only [hno, false_and, exists_false, or_false]
      cases t with
      | nil =>
        constructor
        · rintro ⟨y, hy⟩
          exfalso
          simp only [List.cons_append, List.nil_append, substGo, if_true, show ('{' = '@') = False by decide, if_false, show idStart '{' = false by decide,
            Bool.false_eq_true, show idStart '@' = false by decide] at hy
          cases hy
        · rintro ⟨name, t', h, -⟩
          exfalso
          injection h with _ h
          cases name <;> cases h
      | cons e t =>
        simp only [List.mem_cons, not_or] at ht
        cases he : idStart e with
        | false =>
          constructor
          · rintro ⟨y, hy⟩
            exfalso
            simp only [List.cons_append, List.nil_append, substGo, if_true, show ('{' = '@') = False by decide, if_false, show idStart '{' = false by decide,
              Bool.false_eq_true, he] at hy
            cases hy
          · rintro ⟨name, t', h, ⟨d, hd, hd'⟩, -⟩
            exfalso
            cases name with
            | nil => cases hd
            | cons x w =>
              injection h with _ h
              injection h with h
              injection hd with hd
              rw [← hd, ← h, ← idStart_eq, he] at hd'
              cases hd'
        | true =>
          by_cases hd : ∃ t', t.dropWhile idChar = '}' :: t'
          · obtain ⟨t', hd⟩ := hd
            have hw : ∀ c ∈ t.takeWhile idChar, idChar c = true := List.all_eq_true.1 List.all_takeWhile
            have hsplit : t = t.takeWhile idChar ++ '}' :: t' := by rw [← hd, List.takeWhile_append_dropWhile]
            have ht' : '@' ∉ t' := fun h => ht.2 (by rw [hsplit]; simp [h])
            have hlen : t'.length ≤ t.length := by rw [hsplit]; simp; omega
            have := braced_iff (t := t') hr he hw ht' (k := k + 1) (by simp only [List.length_cons] at hk; omega)
            rw [show '{' :: e :: t = '{' :: e :: t.takeWhile idChar ++ '}' :: t' by
              rw [List.cons_append, List.cons_append, ← hsplit], this]
            constructor
            · intro h
              refine ⟨e :: t.takeWhile idChar, t', rfl, ⟨e, rfl, (idStart_eq e).1 he⟩, ?_, h⟩
              intro c hc
              rcases List.mem_cons.1 hc with rfl | hc
              · exact (idChar_eq _).1 (by unfold idChar; rw [he]; rfl)
              · exact (idChar_eq c).1 (hw c hc)
            · rintro ⟨name, t2, h, ⟨d, hd1, -⟩, hall, hcode⟩
              cases name with
              | nil => cases hd1
              | cons x w =>
                rw [List.cons_append, List.cons_append, List.cons_append] at h
                injection h with _ h
                injection h with h h'
                subst h
                have e1 : (t.takeWhile idChar ++ '}' :: t').takeWhile idChar = t.takeWhile idChar := by rw [← hsplit]
                rw [h', List.takeWhile_append_of_pos fun d hd => (idChar_eq d).2 (hall d (List.mem_cons_of_mem _ hd))] at e1
                rw [show ('}' :: t2).takeWhile idChar = [] by simp [show idChar '}' = false by decide], List.append_nil] at e1
                rw [← e1]
                exact hcode
          · constructor
            · rintro ⟨y, hy⟩
              exfalso
              have hdw : ∀ t', (t ++ '@' :: "{reset}".toList).dropWhile idChar ≠ '}' :: t' := by
                intro t' h
                rw [List.dropWhile_append] at h
                split at h
                · simp only [List.dropWhile_cons, hat] at h
                  simp at h
                · rename_i hne
                  cases hdd : t.dropWhile idChar with
                  | nil => rw [hdd] at hne; simp at hne
                  | cons x z =>
                    rw [hdd] at h
                    injection h with h
                    exact hd ⟨z, by rw [hdd, h]⟩
              simp only [List.cons_append, List.nil_append, substGo, if_true, show ('{' = '@') = False by decide, if_false, show idStart '{' = false by decide,
                Bool.false_eq_true, he] at hy
              cases hy
            · rintro ⟨name, t2, h, ⟨d, hd1, -⟩, hall, -⟩
              exfalso
              cases name with
              | nil => cases hd1
              | cons x w =>
                injection h with _ h
                rw [List.cons_append] at h
                injection h with _ h
                apply hd
                refine ⟨t2, ?_⟩
                rw [h, List.dropWhile_append_of_pos fun d hd => (idChar_eq d).2 (hall d (List.mem_cons_of_mem _ hd))]
                simp [show idChar '}' = false by decide]
    · have hbr : ∀ name t', c :: t ≠ '{' :: (name ++ '}' :: t') := fun name t' h => h5 (by injection h)
      simp only [hbr, false_and, exists_false, false_or]
      cases hid : idStart c with
      | false =>
        constructor
        · rintro ⟨y, hy⟩
          exfalso
          simp only [List.cons_append, substGo, if_true, if_neg (Ne.symm hc), hid, if_neg h5, Bool.false_eq_true, if_false] at hy
          cases hy
        · rintro ⟨name, h, -⟩
          exfalso
          have := (idStart_eq c).2 (.inl (named_head h))
          rw [hid] at this; cases this
      | true =>
        have hal : c.isAlpha = true := ((idStart_eq c).1 hid).resolve_right h3
        have hw : ∀ c ∈ t.takeWhile idChar, idChar c = true := List.all_eq_true.1 List.all_takeWhile
        have hnamed : MarkNamed (c :: t.takeWhile idChar) (c :: t) := by
          refine ⟨t.dropWhile idChar, by rw [List.cons_append, List.takeWhile_append_dropWhile], ⟨c, rfl, hal⟩, ?_, ?_⟩
          · intro d hd
            rcases List.mem_cons.1 hd with rfl | hd
            · exact (idChar_eq _).1 (by unfold idChar; rw [hid]; rfl)
            · exact (idChar_eq d).1 (hw d hd)
          · intro d hd hm
            have := List.head?_dropWhile_not idChar t
            rw [hd] at this
            change idChar d = false at this
            rw [(idChar_eq d).2 hm] at this
            cases this
        have t1 : (t ++ '@' :: "{reset}".toList).takeWhile idChar = t.takeWhile idChar := by
          rw [List.takeWhile_append]
          split
          · rename_i h
            rw [List.takeWhile_cons, hat]
            simp only [Bool.false_eq_true, if_false, List.append_nil]
            have := List.takeWhile_append_dropWhile (p := idChar) (l := t)
            exact ((List.takeWhile_prefix idChar).eq_of_length h).symm
          · rfl
        have t2 : (t ++ '@' :: "{reset}".toList).dropWhile idChar = t.dropWhile idChar ++ '@' :: "{reset}".toList := by
          rw [List.dropWhile_append]
          split
          · rename_i h
            rw [List.isEmpty_iff.1 h, List.dropWhile_cons, hat]
            simp
          · rfl
        have hdrop : '@' ∉ t.dropWhile idChar := fun h => ht ((List.dropWhile_sublist _).subset h)
        have hlen : (t.dropWhile idChar).length ≤ t.length := (List.dropWhile_sublist _).length_le
        obtain ⟨y, hy⟩ := rest_ok hr hdrop (n := k) (by omega)
        constructor
        · rintro ⟨z, hz⟩
          refine ⟨_, hnamed, ?_⟩
          cases ha : a (c :: t.takeWhile idChar) with
          | some code => exact ⟨_, rfl⟩
          | none =>
            exfalso
            simp only [List.cons_append, substGo, if_true, if_neg (Ne.symm hc), hid, t1, ansiGet, ha, bind, Except.bind] at hz
            cases hz
        · rintro ⟨name, h, code, ha⟩
          rw [named_eq h] at ha
          refine ⟨code ++ y, ?_⟩
          simp only [List.cons_append, substGo, if_true, if_neg (Ne.symm hc), hid, t1, t2, ansiGet, ha, bind, Except.bind]
          rw [hy]
          rfl

private theorem announce_one {a : AnsiTable} (ha : (∃ b, a "boldon".toList = some b) ∧ ∃ r, a "reset".toList = some r) {words : List String} {u v : List Char}
    (h : Typed words (u ++ '@' :: v)) (hu : '@' ∉ u) (hv : '@' ∉ v) : (∃ x, announce a (words.map some) = .ok x) ↔ KnownMark a v := by
  obtain ⟨k, hk, h1⟩ := fmt_one ha.1 ha.2 (X := "executing command: ".toList ++ u) (by rw [List.mem_append, not_or]; exact ⟨by decide, hu⟩) hv
  rw [announce_words a words h, h1, known_iff ha.2 hv hk]

/-- **C149** (what is left) A command with one `@` is run exactly if the `@` begins a mark that xylem knows, or ends the line. -/
theorem C149_one_mark_partial (ha : (∃ b, m.ansi "boldon".toList = some b) ∧ ∃ r, m.ansi "reset".toList = some r)
    (hinst : lookupInstaller ic n = some inst) (hsim : o.simulate = false) {pre post : List Cmd} {words : List String}
    (hplan : inst.getInstallCommands rs o.interactive o.reinstall s = (.ok (pre ++ words.map some :: post), s1))
    (hpre : ∀ c ∈ pre, Plain c ∧ ∀ s, (m.call c s).1 = .ok 0) {u v : List Char} (h : Typed words (u ++ '@' :: v)) (hu : '@' ∉ u) (hv : '@' ∉ v) :
    (∃ code more, (installResolutions m ic o n rs s).ev =
      .plan n rs (.ok (pre ++ words.map some :: post)) :: (pre.map fun c => .exec n c (.ok 0)) ++ .exec n (words.map some) code :: more) ↔
      KnownMark m.ansi v := by
  rw [← announce_one ha h hu hv]
  constructor
  · rintro ⟨code, more, he⟩
    cases hx : announce m.ansi (words.map some) with
    | ok x => exact ⟨x, rfl⟩
    | error e =>
      have := congrArg List.length he
      rw [(not_announced ha hinst hsim hplan hpre hx).2] at this
      simp at this
  · rintro ⟨x, hx⟩
    exact run_of_announce ha hinst hsim hplan hpre hx

/-! ## Examples: Homebrew and `openssl@1.1` -/

/-- The machine of the example remembers the commands that are run; all succeed. -/
def exBrewMachine : Machine (List Cmd) where
  call c s := (.ok 0, s ++ [c])
  ansi := ansiOff

/-- Its host. -/
def exBrewHost : Host (List Cmd) where
  isRoot := false
  popen := fun _ s => (.ok "", s)
  pathExists := fun _ _ => false
  isdir := fun _ _ => false
  makedirs := fun _ s => (.ok (), s)
  expand := id

/-- The options of the homebrew plugin by default. -/
def exBrewOptions : Config := [("as_root", .val (.bool false))]

/-- Homebrew as in the code. -/
def exBrew : Installer (List Cmd) := (homebrewPlugin exBrewHost).installer exBrewHost exBrewOptions

/-- The context of an OS X machine. -/
def exBrewCtx : InstallerCtx (List Cmd) := ⟨[exBrew], [exBrew], [], .ok ("osx", "lion")⟩

/-- The resolutions of a rule with three packages. -/
def exBrewItems : List Resolution := [[("package", .str "wget")], [("package", .str "openssl@1.1")], [("package", .str "zlib")]]

private theorem exBrew_ansi : (∃ b, exBrewMachine.ansi "boldon".toList = some b) ∧ ∃ r, exBrewMachine.ansi "reset".toList = some r :=
  ⟨⟨[], by decide +kernel⟩, ⟨[], by decide +kernel⟩⟩

private theorem exBrew_plan (s : List Cmd) : exBrew.getInstallCommands exBrewItems true false s =
    (.ok ([["brew", "install", "wget"].map some] ++ ["brew", "install", "openssl@1.1"].map some :: [["brew", "install", "zlib"].map some]), s) := rfl

private theorem exBrew_pre : ∀ c ∈ [["brew", "install", "wget"].map some], Plain c ∧ ∀ s, (exBrewMachine.call c s).1 = .ok 0 := by
  intro c hc
  rw [List.mem_singleton] at hc
  subst hc
  refine ⟨fun w hw => ?_, fun _ => rfl⟩
  obtain ⟨t, ht, rfl⟩ := List.mem_map.1 hw
  refine ⟨t, rfl, ?_⟩
  revert t; decide

/-- `brew install wget` is run, `brew install openssl@1.1` and `brew install zlib` are not. -/
theorem C149_homebrew_witness : (installResolutions exBrewMachine exBrewCtx {} "homebrew" exBrewItems []).res = .error .valueError ∧
    (installResolutions exBrewMachine exBrewCtx {} "homebrew" exBrewItems []).ev.drop 1 = [.exec "homebrew" (["brew", "install", "wget"].map some) (.ok 0)] := by
  obtain ⟨h1, h2⟩ := C149_not_run_refuted (m := exBrewMachine) (ic := exBrewCtx) (o := {}) (n := "homebrew") (inst := exBrew) (rs := exBrewItems) exBrew_ansi rfl rfl
    (exBrew_plan []) exBrew_pre (u := "brew install openssl".toList) (v := "1.1".toList) (by unfold Typed; decide +kernel) (by decide)
    ⟨'1', ".1".toList, rfl, by decide, by decide⟩
  exact ⟨h1, by rw [h2]; rfl⟩

/-- The simulation shows all three. -/
example : (installResolutions exBrewMachine exBrewCtx { simulate := true } "homebrew" exBrewItems []).res = .ok [] :=
  (C149_simulated_refuted (m := exBrewMachine) (ic := exBrewCtx) (o := { simulate := true }) (n := "homebrew") (inst := exBrew) (rs := exBrewItems) rfl rfl
    (cmds := [["brew", "install", "wget"], ["brew", "install", "openssl@1.1"], ["brew", "install", "zlib"]]) (by simp) (exBrew_plan [])).1

/-- A repository as the package of pip. -/
example : MarkNamed "github".toList "github.com/x/y".toList ∧ exBrewMachine.ansi "github".toList = none ∧
    Typed ["pip", "install", "-U", "git+ssh://git@github.com/x/y"] ("pip install -U git+ssh://git".toList ++ '@' :: "github.com/x/y".toList) := by
  refine ⟨⟨".com/x/y".toList, by decide +kernel, ⟨'g', rfl, by decide⟩, ?_, ?_⟩, by decide +kernel, by unfold Typed; decide +kernel⟩
  · intro c hc
    left
    revert c; decide
  · intro c hc
    injection hc with hc
    subst hc
    unfold MarkupChar; decide

/-- Without `openssl@1.1`, both commands are run. -/
example : ∃ code more, (installResolutions exBrewMachine exBrewCtx {} "homebrew" [[("package", .str "wget")], [("package", .str "libé+-.{x}")]] []).ev =
    .plan "homebrew" [[("package", .str "wget")], [("package", .str "libé+-.{x}")]]
      (.ok ([["brew", "install", "wget"].map some] ++ ["brew", "install", "libé+-.{x}"].map some :: [])) ::
      ([["brew", "install", "wget"].map some].map fun c => .exec "homebrew" c (.ok 0)) ++ .exec "homebrew" (["brew", "install", "libé+-.{x}"].map some) code :: more :=
  C149_run_partial (m := exBrewMachine) (ic := exBrewCtx) (o := {}) (inst := exBrew) exBrew_ansi rfl rfl rfl exBrew_pre (by decide)

/-- A package with the name of a colour after its `@`, and one that ends with `@`, are installed; `x@{y` is not. -/
example : KnownMark exBrewMachine.ansi "cyan/x".toList ∧ KnownMark exBrewMachine.ansi [] ∧ KnownMark exBrewMachine.ansi "{redf}".toList ∧
    ¬KnownMark exBrewMachine.ansi "{y".toList := by
  refine ⟨.inr (.inr (.inr ⟨"cyan".toList, ⟨"/x".toList, by decide +kernel, ⟨'c', rfl, by decide⟩, ?_, ?_⟩, [], by decide +kernel⟩)), .inl rfl,
    .inr (.inr (.inl ⟨"redf".toList, [], by decide +kernel, ⟨'r', rfl, .inl (by decide)⟩, ?_, [], by decide +kernel⟩)), ?_⟩
  · intro c hc
    left
    revert c; decide
  · rintro c hc (h | h)
    · injection hc with hc
      rw [← hc] at h
      revert h; decide
    · injection hc with hc
      rw [← hc] at h
      revert h; decide
  · intro c hc
    left
    revert c; decide
  · rintro (h | ⟨c, name, t, h, hm, -⟩ | ⟨name, t, h, -⟩ | ⟨name, ⟨r, h, ⟨c, h2, h3⟩, -⟩, -⟩)
    · revert h; decide
    · have h : ['{', 'y'] = c :: t := h
      injection h with h _
      subst h
      simp at hm
    · have h : ['{', 'y'] = '{' :: (name ++ '}' :: t) := h
      injection h with _ h
      have : '}' ∈ ['y'] := by rw [h]; simp
      revert this; decide
    · cases name with
      | nil => cases h2
      | cons x w =>
        have h : ['{', 'y'] = x :: (w ++ r) := h
        injection h with h _
        injection h2 with h2
        rw [← h2, ← h] at h3
        revert h3; decide

/-- `brew install x@{y` is not run. -/
example : ¬∃ code more, (installResolutions exBrewMachine exBrewCtx {} "homebrew" [[("package", .str "wget")], [("package", .str "x@{y")]] []).ev =
    .plan "homebrew" [[("package", .str "wget")], [("package", .str "x@{y")]]
      (.ok ([["brew", "install", "wget"].map some] ++ ["brew", "install", "x@{y"].map some :: [])) ::
      ([["brew", "install", "wget"].map some].map fun c => .exec "homebrew" c (.ok 0)) ++ .exec "homebrew" (["brew", "install", "x@{y"].map some) code :: more := by
  rw [C149_one_mark_partial (m := exBrewMachine) (ic := exBrewCtx) (o := {}) (inst := exBrew) exBrew_ansi rfl rfl rfl exBrew_pre
    (u := "brew install x".toList) (v := "{y".toList) (by unfold Typed; decide +kernel) (by decide) (by decide)]
  rintro (h | ⟨c, name, t, h, hm, -⟩ | ⟨name, t, h, -⟩ | ⟨name, h, -⟩)
  · revert h; decide
  · have h : ['{', 'y'] = c :: t := h
    injection h with h _
    subst h
    simp at hm
  · have h : ['{', 'y'] = '{' :: (name ++ '}' :: t) := h
    injection h with _ h
    have : '}' ∈ ['y'] := by rw [h]; simp
    revert this; decide
  · exact absurd (named_head (c := '{') h) (by decide)

end Verif
