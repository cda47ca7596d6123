import Verif.Lemmas.ProgramOutput
import Verif.Lemmas.Program
/-! # C122: what the commands print on stdout; C123: verbose output on stdout -/
namespace Verif
variable {σ : Type}

/-! ## Lemmas -/

/-- A program that first prints some lines. -/
def Run.after {α : Type} (n : List Line) (r : Run α) : Run α := ⟨n ++ r.lines, r.res⟩

theorem after_nil {α : Type} (r : Run α) : r.after [] = r := rfl

theorem after_bind {α β : Type} (n : List Line) (r : Run α) (f : α → Run β) : (r.after n >>= f) = (r >>= f).after n := by
  cases h : r.res with
  | error e => rw [run_bind_error h, run_bind_error (r := r.after n) h]; rfl
  | ok a => rw [run_bind_ok h, run_bind_ok (r := r.after n) h]; simp [Run.after]

theorem after_interruptible (n : List Line) (on : Bool) (r : Run Unit) : interruptible on (r.after n) = (interruptible on r).after n := by
  cases h : r.res with
  | ok u => cases u; rw [interruptible_ok h, interruptible_ok (r := r.after n) h]
  | error e =>
    rw [interruptible_error h, interruptible_error (r := r.after n) h]
    split <;> simp [Run.after]

theorem after_none (n : List Line) (r : Run Unit) : (r.after n).returnsNone = r.returnsNone.after n := after_bind n r _

theorem AlikeBut.after {α : Type} {r r' : Run α} (n : List Line) (h : AlikeBut r r') : AlikeBut (r.after n) (r'.after n) :=
  ⟨h.1, by simp only [Run.after, List.filter_append, h.2]⟩

theorem AlikeBut.interruptible {on : Bool} {r r' : Run Unit} (h : AlikeBut r r') : AlikeBut (interruptible on r) (Verif.interruptible on r') := by
  cases hr : r'.res with
  | ok u => cases u; rw [interruptible_ok hr, interruptible_ok (h.1.trans hr)]; exact h
  | error e =>
    rw [interruptible_error hr, interruptible_error (h.1.trans hr)]
    split
    · exact ⟨rfl, by simp only [List.filter_append, h.2]⟩
    · exact h

theorem AlikeBut.none {r r' : Run Unit} (h : AlikeBut r r') : AlikeBut r.returnsNone r'.returnsNone := h.bind fun _ _ => .refl _

/-- What is said on stdout about the sources, if they are looked for at all. -/
def sourcesNote (c : Console) (w : Surroundings σ) (cfg : Config) : List Line :=
  match pathsFor w cfg, specsFor w cfg with
  | .ok p, .ok _ => placeNote c (w.sourcesIn p.sourcesDir) p.sourcesDir
  | _, _ => []

/-- As `sourcesNote`, for commands that first make an installer context. -/
def contextNote (c : Console) (env : StartEnv) (w : Surroundings σ) (cfg : Config) : List Line :=
  match contextFor env w cfg with
  | .ok _ => sourcesNote c w cfg
  | .error _ => []

theorem loadedNoting_after (c : Console) (w : Surroundings σ) (cfg : Config) :
    loadedNoting c w cfg = (Run.lift (loadedFor w cfg)).after (sourcesNote c w cfg) := by
  unfold loadedNoting sourcesNote
  cases hp : pathsFor w cfg with
  | error e =>
    have : loadedFor w cfg = .error e := by unfold loadedFor; rw [hp]; rfl
    rw [this]; rfl
  | ok p =>
    rw [run_lift_ok]
    cases hs : specsFor w cfg with
    | error e =>
      have : loadedFor w cfg = .error e := by unfold loadedFor sourcesFor; rw [hp, hs]; rfl
      rw [this]; rfl
    | ok s => rw [run_lift_ok, run_bind_ok rfl]; rfl

theorem note_quiet {c : Console} (hv : c.verbose = false) (w : Surroundings σ) (cfg : Config) : sourcesNote c w cfg = [] := by
  unfold sourcesNote placeNote
  simp only [hv, Bool.false_eq_true, if_false]
  cases pathsFor w cfg <;> cases specsFor w cfg <;> rfl

theorem contextNote_quiet {c : Console} (hv : c.verbose = false) (env : StartEnv) (w : Surroundings σ) (cfg : Config) : contextNote c env w cfg = [] := by
  unfold contextNote
  cases contextFor env w cfg
  · rfl
  · exact note_quiet hv w cfg

/-- The database and the entries of `install_from`. -/
def resolveInputs (env : StartEnv) (w : Surroundings σ) (cfg : Config) : Except Exc (Database × Dict String (List String)) := do
  let db ← databaseFor env w cfg
  let f ← installFromOf cfg
  pure (db, f)

theorem inputs_same (c : Console) (env : StartEnv) (w : Surroundings σ) (cfg : Config) :
    AlikeBut (resolveInputsSaying c env w cfg) ((Run.lift (resolveInputs env w cfg)).after (sourcesNote c w cfg)) := by
  unfold resolveInputsSaying
  have e : resolveInputs env w cfg = (loadedFor w cfg >>= fun l => lookupCtxFor env w cfg >>= fun k => installFromOf cfg >>= fun f =>
      pure (databaseOf w.uni l k, f)) := by
    unfold resolveInputs databaseFor
    cases loadedFor w cfg with
    | error e => rfl
    | ok l =>
      cases h : lookupCtxFor env w cfg with
      | error e => simp only [bind, Except.bind, h]
      | ok k => simp only [bind, Except.bind, h]; rfl
  rw [e, ← lift_bind, ← after_bind, ← loadedNoting_after]
  refine .bind (loaded_same _ _ _) fun l _ => ?_
  rw [← lift_bind]
  refine .bind (.refl _) fun k _ => ?_
  rw [← lift_bind]
  exact .bind (.refl _) fun f _ => .refl _

theorem context_bind {β : Type} (env : StartEnv) (w : Surroundings σ) (cfg : Config) (f : InstallerSetup σ → OsSetup → Run β) :
    (Run.lift (contextAndOs env w cfg) >>= fun x => f x.1 x.2) =
      (Run.lift (contextFor env w cfg) >>= fun r => Run.lift (osFor env w cfg) >>= fun os => f r os) := by
  unfold contextAndOs
  cases contextFor env w cfg with
  | error e => rfl
  | ok r => cases h : osFor env w cfg <;> simp only [bind, Except.bind, pure, Except.pure, Run.lift, Run.bind, h] <;> rfl

theorem context_os {env : StartEnv} {w : Surroundings σ} {cfg : Config} {x : InstallerSetup σ × OsSetup} (h : contextAndOs env w cfg = .ok x) :
    contextFor env w cfg = .ok x.1 ∧ osFor env w cfg = .ok x.2 := by
  unfold contextAndOs at h
  obtain ⟨r, h1, h⟩ := Except_bind_ok.1 h
  obtain ⟨os, h2, h⟩ := Except_bind_ok.1 h
  have h := pure_ok.1 h
  subst h
  exact ⟨h1, h2⟩

/-- An installer context has an os. -/
theorem context_has_os {env : StartEnv} {w : Surroundings σ} {cfg : Config} {r : InstallerSetup σ} (h : contextFor env w cfg = .ok r) :
    ∃ os, osFor env w cfg = .ok os := by
  unfold contextFor installerContext at h
  obtain ⟨s, h1, h⟩ := Except_bind_ok.1 h
  obtain ⟨oss, h2, h⟩ := Except_bind_ok.1 h
  obtain ⟨os, h3, h⟩ := Except_bind_ok.1 h
  refine ⟨os, ?_⟩
  unfold osFor
  rw [h1]
  show (loadPlugins w.uni s.disabledOs w.osEntries >>= _) = _
  rw [h2]
  exact h3

/-- The context is made, then something follows that says something about sources. -/
theorem after_context {c : Console} {env : StartEnv} {w : Surroundings σ} {cfg : Config} {f f' : InstallerSetup σ × OsSetup → Run Unit}
    (hf : ∀ x, contextAndOs env w cfg = .ok x → AlikeBut (f x) ((f' x).after (sourcesNote c w cfg))) :
    AlikeBut (contextSaying c env w cfg >>= f) ((Run.lift (contextAndOs env w cfg) >>= f').after (contextNote c env w cfg)) := by
  refine (AlikeBut.bind (context_same c env w cfg) (f' := fun x => (f' x).after (sourcesNote c w cfg)) (fun x hx => hf x hx)).trans ?_
  unfold contextNote
  cases h : contextFor env w cfg with
  | error e =>
    have : contextAndOs env w cfg = .error e := by unfold contextAndOs; rw [h]; rfl
    rw [this]; exact .refl _
  | ok r =>
    obtain ⟨os, ho⟩ := context_has_os h
    have : contextAndOs env w cfg = .ok (r, os) := by unfold contextAndOs; rw [h, ho]; rfl
    rw [this, run_lift_ok, run_lift_ok]
    exact .refl _

theorem resolve_func_same (t : Texts) (env : StartEnv) (w : Surroundings σ) (text : String × ResErr → List Char) (keys : List String) (p : Process)
    (ns : ArgSpace) : AlikeBut (resolveFuncSaying t env w text keys p ns)
      ((resolveFunc env w text keys p ns).after (contextNote (p.console t) env w p.config)) := by
  unfold resolveFuncSaying resolveFunc
  rw [← after_none, ← after_interruptible]
  refine .none (.interruptible ?_)
  rw [← context_bind env w p.config (fun ic os => Run.lift (databaseFor env w p.config) >>= fun db => Run.lift (installFromOf p.config) >>= fun f =>
    Run.lift (resolve ic.context db f keys (resolveArgsOf ns keys).all) >>= fun r =>
    printResolved p.color text os.os.plugin.defaultInstaller (resolveArgsOf ns keys).showDefault r)]
  refine after_context fun x _ => ?_
  have e : (Run.lift (databaseFor env w p.config) >>= fun db => Run.lift (installFromOf p.config) >>= fun f =>
      Run.lift (resolve x.1.context db f keys (resolveArgsOf ns keys).all) >>= fun r =>
      printResolved p.color text x.2.os.plugin.defaultInstaller (resolveArgsOf ns keys).showDefault r) =
      (Run.lift (resolveInputs env w p.config) >>= fun i => Run.lift (resolve x.1.context i.1 i.2 keys (resolveArgsOf ns keys).all) >>= fun r =>
      printResolved p.color text x.2.os.plugin.defaultInstaller (resolveArgsOf ns keys).showDefault r) := by
    unfold resolveInputs
    cases databaseFor env w p.config with
    | error e => rfl
    | ok db => cases h : installFromOf p.config <;> simp only [bind, Except.bind, pure, Except.pure, Run.lift, Run.bind, h] <;> rfl
  rw [e, ← after_bind]
  refine .bind (inputs_same _ _ _ _) fun i _ => ?_
  exact .bind (resolve_same _ _ _ _ _ _) fun r _ => .refl _

theorem install_needs_resolve (m : Machine σ) (ic : InstallerCtx σ) (db : Database) (f : Dict String (List String)) (o : InstallOpts) (ks : List String)
    (all : Bool) (s : σ) {e : Exc} (h : resolve ic db f ks all = .error e) : install m ic db f o ks all s = ⟨.error e, s, []⟩ := by
  unfold install
  rw [h]
  rfl

theorem install_func_same (t : Texts) (env : StartEnv) (w : Surroundings σ) (text : String × ResErr → List Char) (itext : InstErr → List Char)
    (keys : List String) (s : σ) (p : Process) (ns : ArgSpace) : AlikeBut (installFuncSaying t env w text itext keys s p ns)
      ((installFunc env w text itext keys s p ns).after (contextNote (p.console t) env w p.config)) := by
  unfold installFuncSaying installFunc
  rw [← after_none, ← after_interruptible]
  refine .none (.interruptible ?_)
  have e : (Run.said p.color w.machine.ansi (installRun env w keys p ns s) >>= printReport p.color text itext) =
      (Run.lift (contextAndOs env w p.config) >>= fun x => Run.lift (resolveInputs env w p.config) >>= fun i =>
        Run.said p.color w.machine.ansi (install w.machine x.1.context i.1 i.2 (installArgsOf ns keys).opts keys (installArgsOf ns keys).all s) >>=
        printReport p.color text itext) := by
    unfold installRun installInputs contextAndOs resolveInputs
    cases h1 : contextFor env w p.config with
    | error e => rfl
    | ok r =>
      obtain ⟨os, ho⟩ := context_has_os h1
      rw [ho]
      show _ = (Run.lift (databaseFor env w p.config >>= _) >>= _)
      cases h2 : databaseFor env w p.config with
      | error e => rfl
      | ok db =>
        cases h3 : installFromOf p.config with
        | error e => simp only [bind, Except.bind, h3]; rfl
        | ok f => simp only [bind, Except.bind, pure, Except.pure, Run.lift, Run.bind, h3, List.nil_append]
  rw [e]
  refine after_context fun x _ => ?_
  rw [← after_bind]
  refine .bind (inputs_same _ _ _ _) fun i _ => ?_
  have hr := resolve_same (p.console t) x.1.context i.1 i.2 keys (installArgsOf ns keys).all
  cases h : resolve x.1.context i.1 i.2 keys (installArgsOf ns keys).all with
  | error e =>
    rw [h] at hr
    rw [run_bind_error hr.1, install_needs_resolve _ _ _ _ _ _ _ _ h]
    exact ⟨rfl, hr.2⟩
  | ok r =>
    rw [h] at hr
    rw [run_bind_ok hr.1]
    refine ⟨rfl, ?_⟩
    simp only [List.filter_append, hr.2]
    rfl

/-- The loop of `xylem lookup` with a line about the sources for every key. -/
def lookupLoopNoting (n : List Line) (on : Bool) (dump : PVal → Except Exc (List Char)) (lookup : String → Except Exc PVal)
    (os : Except Exc (List Char)) : List String → Run Unit
  | [] => pure ()
  | key :: t => do
    (lookupLoop on dump lookup os [key]).after n
    lookupLoopNoting n on dump lookup os t

theorem lookupLoop_cons (on : Bool) (dump : PVal → Except Exc (List Char)) (lookup : String → Except Exc PVal) (os : Except Exc (List Char))
    (key : String) (t : List String) :
    lookupLoop on dump lookup os (key :: t) = (lookupLoop on dump lookup os [key] >>= fun _ => lookupLoop on dump lookup os t) := by
  unfold lookupLoop
  cases lookup key with
  | error e => rfl
  | ok v =>
    simp only [run_lift_ok]
    cases os with
    | error e => rfl
    | ok o =>
      simp only [run_lift_ok]
      cases dump v with
      | error e => rfl
      | ok d =>
        simp only [run_lift_ok]
        cases t <;> rfl

theorem lookupLoop_one (on : Bool) (dump : PVal → Except Exc (List Char)) (lookup : String → Except Exc PVal) (os : Except Exc (List Char)) (key : String) :
    lookupLoop on dump lookup os [key] = (Run.lift (lookup key) >>= fun r => lookupLoop on dump (fun _ => .ok r) os [key]) := by
  unfold lookupLoop
  cases lookup key <;> rfl

theorem lookup_noting_nil (on : Bool) (dump : PVal → Except Exc (List Char)) (lookup : String → Except Exc PVal) (os : Except Exc (List Char))
    (keys : List String) : lookupLoopNoting [] on dump lookup os keys = lookupLoop on dump lookup os keys := by
  induction keys with
  | nil => rfl
  | cons k t ih => rw [lookupLoopNoting, ih, after_nil]; exact (lookupLoop_cons _ _ _ _ _ _).symm

theorem lookup_one_same (c : Console) (env : StartEnv) (w : Surroundings σ) (cfg : Config) (key : String) :
    AlikeBut (lookupSaying c env w cfg key) ((Run.lift (lookupFor env w cfg key)).after (sourcesNote c w cfg)) := by
  unfold lookupSaying lookupFor
  rw [← lift_bind, ← after_bind, ← loadedNoting_after]
  refine .bind (loaded_same _ _ _) fun l _ => ?_
  rw [← lift_bind]
  refine .bind (.refl _) fun k _ => ?_
  rw [← lift_bind]
  exact .refl _

theorem lookup_loop_same (c : Console) (env : StartEnv) (w : Surroundings σ) (cfg : Config) (dump : PVal → Except Exc (List Char))
    (os : Except Exc (List Char)) (keys : List String) :
    AlikeBut (lookupLoopSaying c dump (lookupSaying c env w cfg) os keys)
      (lookupLoopNoting (sourcesNote c w cfg) c.on dump (lookupFor env w cfg) os keys) := by
  induction keys with
  | nil => exact .refl _
  | cons k t ih =>
    unfold lookupLoopSaying lookupLoopNoting
    rw [lookupLoop_one, ← after_bind]
    have := ((lookup_one_same c env w cfg k).bind (f := fun r => lookupLoop c.on dump (fun _ => .ok r) os [k])
      (f' := fun r => lookupLoop c.on dump (fun _ => .ok r) os [k]) (fun _ _ => .refl _)).bind
      (f := fun _ => lookupLoopSaying c dump (lookupSaying c env w cfg) os t)
      (f' := fun _ => lookupLoopNoting (sourcesNote c w cfg) c.on dump (lookupFor env w cfg) os t) (fun _ _ => ih)
    refine AlikeBut.trans ?_ this
    have : ∀ (a : Run PVal) (f : PVal → Run Unit) (g : Run Unit), AlikeBut (a >>= fun r => f r >>= fun _ => g) ((a >>= f) >>= fun _ => g) := by
      intro a f g
      cases ha : a.res with
      | error e => rw [run_bind_error ha, run_bind_error ha, run_bind_error rfl]; exact .refl _
      | ok x =>
        rw [run_bind_ok ha, run_bind_ok ha]
        cases hf : (f x).res with
        | error e => rw [run_bind_error hf, run_bind_error (r := ⟨_, _⟩) rfl]; exact .refl _
        | ok u => rw [run_bind_ok hf, run_bind_ok (r := ⟨_, _⟩) rfl]; exact ⟨rfl, by simp⟩
    exact this _ _ _

theorem lookup_func_same (t : Texts) (env : StartEnv) (w : Surroundings σ) (dump : PVal → Except Exc (List Char)) (keys : List String) (p : Process)
    (ns : ArgSpace) : AlikeBut (lookupFuncSaying t env w dump keys p ns) (interruptible p.color (Run.lift (contextFor env w p.config) >>= fun _ =>
      lookupLoopNoting (sourcesNote (p.console t) w p.config) p.color dump (lookupFor env w p.config) (osStringFor env w p.config) keys)).returnsNone := by
  unfold lookupFuncSaying
  refine .none (.interruptible ?_)
  refine (AlikeBut.bind (context_same (p.console t) env w p.config) (fun x hx => lookup_loop_same (p.console t) env w p.config dump
    (osStringFor env w p.config) keys)).trans ?_
  have := context_bind env w p.config (fun _ _ => lookupLoopNoting (sourcesNote (p.console t) w p.config) p.color dump (lookupFor env w p.config)
    (osStringFor env w p.config) keys)
  refine AlikeBut.trans (b := _) (by rw [show (p.console t).on = p.color from rfl, this]; exact .refl _) ?_
  cases h : contextFor env w p.config with
  | error e => exact .refl _
  | ok r =>
    obtain ⟨os, ho⟩ := context_has_os h
    rw [ho]
    exact .refl _

/-! ## Whole programs -/

theorem mainTry_same (on debug : Bool) (text : Bool → Exc → List Char) {a b : Run (Option Int)} {n : List Line} (h : AlikeBut a (b.after n)) :
    (mainTry on debug text a).ending = (mainTry on debug text b).ending ∧
    (mainTry on debug text a).lines.filter Line.notErr = n.filter Line.notErr ++ (mainTry on debug text b).lines.filter Line.notErr := by
  have hr : a.res = b.res := h.1
  have hl : a.lines.filter Line.notErr = n.filter Line.notErr ++ b.lines.filter Line.notErr := by
    rw [h.2]; simp only [Run.after, List.filter_append]
  unfold mainTry
  rw [hr]
  cases hb : b.res with
  | ok x => exact ⟨rfl, by simp only [List.filter_append, hl, List.append_assoc]⟩
  | error e =>
    simp only
    split
    · split
      · exact ⟨rfl, by simp only [List.filter_append, hl, List.append_assoc]⟩
      · exact ⟨rfl, by simp only [List.filter_append, hl, List.append_assoc]⟩
    · split
      · exact ⟨rfl, by simp only [List.filter_append, hl, List.append_assoc]⟩
      · exact ⟨rfl, hl⟩

theorem mainTry_ending (on debug : Bool) (text : Bool → Exc → List Char) {a b : Run (Option Int)} (h : a.res = b.res) :
    (mainTry on debug text a).ending = (mainTry on debug text b).ending := by
  unfold mainTry
  rw [h]
  cases hb : b.res with
  | ok x => rfl
  | error e =>
    simp only
    split
    · split <;> rfl
    · split <;> rfl

theorem mainParsed_same (env : StartEnv) (desc : Desc) (text : Bool → Exc → List Char) {func func' : Process → ArgSpace → Run (Option Int)}
    (h : ∀ p ns, (func p ns).res = (func' p ns).res) {Q : Process → Prop} (hq : ∀ p ns, Q p → AlikeBut (func p ns) (func' p ns))
    (p : Process) (ns : ArgSpace) :
    (mainParsed env desc text func p ns).1 = (mainParsed env desc text func' p ns).1 ∧
    (mainParsed env desc text func p ns).2.ending = (mainParsed env desc text func' p ns).2.ending ∧
    (Q (mainParsed env desc text func' p ns).1 →
      (mainParsed env desc text func p ns).2.lines.filter Line.notErr = (mainParsed env desc text func' p ns).2.lines.filter Line.notErr) := by
  unfold mainParsed
  simp only
  cases hc : handleConfigArguments env desc (handleSwitches env ns p) ns with
  | mk lines res =>
    cases res with
    | error e => exact ⟨rfl, rfl, fun _ => rfl⟩
    | ok c =>
      refine ⟨rfl, mainTry_ending _ _ _ (h _ _), fun hn => ?_⟩
      simp only at hn ⊢
      have := mainTry_same (n := []) (handleSwitches env ns p).color (handleSwitches env ns p).debug text (hq { handleSwitches env ns p with config := c } ns hn)
      simp only [List.filter_append, this.2, List.filter_nil, List.nil_append]

theorem mainWith_same (env : StartEnv) (desc : Desc) (text : Bool → Exc → List Char) (fresh : Bool) (top sub : List OptSpec)
    (positional : Except Exc Unit) {func func' : Process → ArgSpace → Run (Option Int)} (h : ∀ p ns, (func p ns).res = (func' p ns).res)
    {Q : Process → Prop} (hq : ∀ p ns, Q p → AlikeBut (func p ns) (func' p ns)) (p : Process) (before after : List Given) :
    (mainWith env desc text fresh top sub positional func p before after).1 = (mainWith env desc text fresh top sub positional func' p before after).1 ∧
    (mainWith env desc text fresh top sub positional func p before after).2.ending =
      (mainWith env desc text fresh top sub positional func' p before after).2.ending ∧
    (Q (mainWith env desc text fresh top sub positional func' p before after).1 →
      (mainWith env desc text fresh top sub positional func p before after).2.lines.filter Line.notErr =
        (mainWith env desc text fresh top sub positional func' p before after).2.lines.filter Line.notErr) := by
  unfold mainWith
  cases parseCommandLine fresh top sub before after with
  | error e => exact ⟨rfl, rfl, fun _ => rfl⟩
  | ok ns =>
    cases positional with
    | error e => exact ⟨rfl, rfl, fun _ => rfl⟩
    | ok u => exact mainParsed_same env desc text h hq p ns

theorem interruptible_res {on : Bool} {a b : Run Unit} (h : a.res = b.res) : (interruptible on a).res = (interruptible on b).res := by
  cases hb : b.res with
  | ok u => cases u; rw [interruptible_ok hb, interruptible_ok (h.trans hb), h]
  | error e =>
    rw [interruptible_error hb, interruptible_error (h.trans hb)]
    split
    · rfl
    · exact h

theorem none_res {a b : Run Unit} (h : a.res = b.res) : a.returnsNone.res = b.returnsNone.res := by
  rw [(returnsNone_res a).2, (returnsNone_res b).2, h]

theorem noting_res (n : List Line) (on : Bool) (dump : PVal → Except Exc (List Char)) (lookup : String → Except Exc PVal) (os : Except Exc (List Char))
    (keys : List String) : (lookupLoopNoting n on dump lookup os keys).res = (lookupLoop on dump lookup os keys).res := by
  induction keys with
  | nil => rfl
  | cons k t ih =>
    have e : lookupLoop on dump lookup os (k :: t) = (lookupLoop on dump lookup os [k] >>= fun _ => lookupLoop on dump lookup os t) :=
      lookupLoop_cons on dump lookup os k t
    rw [e]
    have e2 : lookupLoopNoting n on dump lookup os (k :: t) =
      ((lookupLoop on dump lookup os [k]).after n >>= fun _ => lookupLoopNoting n on dump lookup os t) := rfl
    rw [e2, after_bind]
    show (lookupLoop on dump lookup os [k] >>= fun _ => lookupLoopNoting n on dump lookup os t).res = _
    generalize lookupLoop on dump lookup os [k] = a
    rw [run_res_bind, run_res_bind, ih]

/-! ## C122 -/

/-- **C122** `xylem resolve` with everything it says: its exit and its variables are those of the program without the messages of setting up, and unless
it is verbose, everything it prints that is not on stderr is the result: nothing the set up says is mixed with it. -/
theorem C122_resolve_stdout (t : Texts) (env : StartEnv) (w : Surroundings σ) (desc : Desc) (text : Bool → Exc → List Char)
    (etext : String × ResErr → List Char) (fresh : Bool) (top sub : List OptSpec) (p : Process) (before after : List Given) (keys : List String) :
    let full := xylemResolveSaying t env w desc text etext fresh top sub p before after keys
    let results := xylemResolve env w desc text etext fresh top sub p before after keys
    full.1 = results.1 ∧ full.2.ending = results.2.ending ∧
    (results.1.verbose = false → full.2.lines.filter Line.notErr = results.2.lines.filter Line.notErr) := by
  have := mainWith_same env desc text fresh top sub (requireKeys keys) (func' := resolveFunc env w etext keys) (fun p ns => (resolve_func_same t env w etext keys p ns).1)
    (Q := fun p => p.verbose = false) (fun p ns hv => by
      have := resolve_func_same t env w etext keys p ns
      rwa [contextNote_quiet (c := p.console t) hv env w p.config] at this) p before after
  exact this

/-- **C122** The same for `xylem install`. -/
theorem C122_install_stdout (t : Texts) (env : StartEnv) (w : Surroundings σ) (desc : Desc) (text : Bool → Exc → List Char)
    (etext : String × ResErr → List Char) (itext : InstErr → List Char) (fresh : Bool) (top sub : List OptSpec) (p : Process)
    (before after : List Given) (keys : List String) (s : σ) :
    let full := xylemInstallSaying t env w desc text etext itext fresh top sub p before after keys s
    let results := xylemInstall env w desc text etext itext fresh top sub p before after keys s
    full.1 = results.1 ∧ full.2.ending = results.2.ending ∧
    (results.1.verbose = false → full.2.lines.filter Line.notErr = results.2.lines.filter Line.notErr) := by
  have := mainWith_same env desc text fresh top sub (requireKeys keys) (func' := installFunc env w etext itext keys s) (fun p ns => (install_func_same t env w etext itext keys s p ns).1)
    (Q := fun p => p.verbose = false) (fun p ns hv => by
      have := install_func_same t env w etext itext keys s p ns
      rwa [contextNote_quiet (c := p.console t) hv env w p.config] at this) p before after
  exact this

/-- **C122** The same for `xylem lookup`. -/
theorem C122_lookup_stdout (t : Texts) (env : StartEnv) (w : Surroundings σ) (desc : Desc) (text : Bool → Exc → List Char)
    (dump : PVal → Except Exc (List Char)) (fresh : Bool) (top sub : List OptSpec) (p : Process) (before after : List Given) (keys : List String) :
    let full := xylemLookupSaying t env w desc text dump fresh top sub p before after keys
    let results := xylemLookup env w desc text dump fresh top sub p before after keys
    full.1 = results.1 ∧ full.2.ending = results.2.ending ∧
    (results.1.verbose = false → full.2.lines.filter Line.notErr = results.2.lines.filter Line.notErr) := by
  have hn : ∀ p : Process, (interruptible p.color (Run.lift (contextFor env w p.config) >>= fun _ =>
      lookupLoopNoting (sourcesNote (p.console t) w p.config) p.color dump (lookupFor env w p.config) (osStringFor env w p.config) keys)).returnsNone.res =
      (lookupFunc env w dump keys p []).res := by
    intro p
    refine none_res (interruptible_res ?_)
    rw [run_res_bind, run_res_bind]
    congr 1
    funext _
    exact noting_res _ _ _ _ _ _
  refine mainWith_same env desc text fresh top sub (requireKeys keys) (func' := lookupFunc env w dump keys) (fun p ns => (lookup_func_same t env w dump keys p ns).1.trans (hn p))
    (Q := fun p => p.verbose = false) (fun p ns hv => ?_) p before after
  have := lookup_func_same t env w dump keys p ns
  rw [note_quiet (c := p.console t) hv] at this
  refine this.trans ?_
  unfold lookupFunc
  simp only [lookup_noting_nil]
  exact .refl _

theorem update_func_body (t : Texts) (w : Surroundings σ) (p : Process) (ns : ArgSpace) :
    (updateFuncSaying t w p ns).res = (updateFunc w p ns).res ∧
    (∀ paths specs, pathsFor w p.config = .ok paths → specsFor w p.config = .ok specs →
      (updateFuncSaying t w p ns).lines.filter Line.notErr =
        (updateCommandSaying p.color p.verbose t.yaml t.str t.exc w.defaultSources w.defaultCache (cacheEnvFor w paths) specs (w.dirAt paths.cacheDir)
          (w.sourcesIn paths.sourcesDir) paths w.outcome).lines.filter Line.notErr) := by
  unfold updateFuncSaying updateFunc updateRun
  cases hp : pathsFor w p.config with
  | error e => exact ⟨rfl, fun _ _ h => by cases h⟩
  | ok paths =>
    rw [run_lift_ok]
    have hs := specs_same (p.console t) w p.config
    cases hs' : specsFor w p.config with
    | error e =>
      rw [hs'] at hs
      refine ⟨none_res (interruptible_res ?_), fun _ _ _ h => by cases h⟩
      rw [run_bind_error hs.1]
      rfl
    | ok specs =>
      rw [hs'] at hs
      have hu : AlikeBut (specsSaying (p.console t) w p.config >>= fun specs => updateSaying p.color p.verbose t.yaml t.str t.exc w.defaultSources
          w.defaultCache (cacheEnvFor w paths) specs (w.dirAt paths.cacheDir) (w.sourcesIn paths.sourcesDir) paths w.outcome)
          (updateSaying p.color p.verbose t.yaml t.str t.exc w.defaultSources w.defaultCache (cacheEnvFor w paths) specs (w.dirAt paths.cacheDir)
          (w.sourcesIn paths.sourcesDir) paths w.outcome) := by
        rw [run_bind_ok hs.1]
        exact ⟨rfl, by simp only [List.filter_append, hs.2]; rfl⟩
      refine ⟨none_res ?_, fun paths' specs' h1 h2 => ?_⟩
      · rw [(AlikeBut.interruptible (on := p.color) hu).1]
        exact C119_same_ending p.color p.verbose (switchOn ns "dry_run") t.yaml t.str t.exc w.defaultSources w.defaultCache (cacheEnvFor w paths) specs
          (w.dirAt paths.cacheDir) (w.sourcesIn paths.sourcesDir) paths w.outcome
      · cases h1
        cases h2
        rw [(returnsNone_res _).1]
        exact (AlikeBut.interruptible (on := p.color) hu).2

/-- **C122** `xylem update` with everything it says: its exit and its variables are those of the program without messages; what it prints that is not
on stderr is what `C119_update_output` describes. -/
theorem C122_update_stdout (t : Texts) (env : StartEnv) (w : Surroundings σ) (desc : Desc) (text : Bool → Exc → List Char) (fresh : Bool)
    (top sub : List OptSpec) (p : Process) (before after : List Given) :
    let full := xylemUpdateSaying t env w desc text fresh top sub p before after
    let silent := xylemUpdate env w desc text fresh top sub p before after
    full.1 = silent.1 ∧ full.2.ending = silent.2.ending ∧
    (∀ p' ns paths specs, reached env desc fresh top sub (.ok ()) p before after = .ok (p', ns) → pathsFor w p'.config = .ok paths →
      specsFor w p'.config = .ok specs →
      full.2.lines.filter Line.notErr = (mainTry p'.color p'.debug text
        (updateCommandSaying p'.color p'.verbose t.yaml t.str t.exc w.defaultSources w.defaultCache (cacheEnvFor w paths) specs (w.dirAt paths.cacheDir)
          (w.sourcesIn paths.sourcesDir) paths w.outcome).returnsNone).lines.filter Line.notErr) := by
  have := mainWith_same env desc text fresh top sub (.ok ()) (func' := updateFunc w) (fun p ns => (update_func_body t w p ns).1)
    (Q := fun _ => False) (fun _ _ h => h.elim) p before after
  refine ⟨this.1, this.2.1, fun p' ns paths specs hr hp hs => ?_⟩
  show (xylemUpdateSaying t env w desc text fresh top sub p before after).2.lines.filter Line.notErr = _
  unfold xylemUpdateSaying
  rw [mainWith_reached hr]
  have hb := update_func_body t w p' ns
  refine (mainTry_same (n := []) p'.color p'.debug text ⟨?_, ?_⟩).2
  · rw [hb.1]
    refine none_res ?_
    have := C119_same_ending p'.color p'.verbose (switchOn ns "dry_run") t.yaml t.str t.exc w.defaultSources w.defaultCache (cacheEnvFor w paths) specs
          (w.dirAt paths.cacheDir) (w.sourcesIn paths.sourcesDir) paths w.outcome
    show _ = (updateCommandSaying _ _ _ _ _ _ _ _ _ _ _ _ _).res
    rw [this]
    unfold updateRun
    rw [hp, hs]
    rfl
  · rw [hb.2 paths specs hp hs]
    show _ = (updateCommandSaying _ _ _ _ _ _ _ _ _ _ _ _ _).returnsNone.lines.filter Line.notErr
    rw [(returnsNone_res _).1]

/-! ## C123 -/

/-- The line about the sources. -/
def placeText (dirExists : Bool) (dir : String) : List Char :=
  if dirExists then "Loading source urls from '".toList ++ dir.toList ++ "'".toList else "Loading default source urls".toList

theorem contextNote_eq {c : Console} {env : StartEnv} {w : Surroundings σ} {cfg : Config} {ic : InstallerSetup σ} {paths : SourcesPaths} {specs : List Spec}
    (hv : c.verbose = true) (hc : contextFor env w cfg = .ok ic) (hp : pathsFor w cfg = .ok paths) (hs : specsFor w cfg = .ok specs) :
    contextNote c env w cfg = [.out (placeText (w.sourcesIn paths.sourcesDir).dirExists paths.sourcesDir ++ ansi c.on "reset")] := by
  unfold contextNote sourcesNote
  rw [hc]
  simp only
  rw [hp, hs]
  unfold placeNote
  simp only [hv, if_true]
  rfl

/-- **C123 refuted** (verbose messages leave stdout alone): if verbose, `xylem resolve` and `xylem install` print a line on stdout before the results,
whatever the results are, whenever they get to the sources. -/
theorem C123_verbose_line_refuted (t : Texts) {env : StartEnv} {w : Surroundings σ} {desc : Desc} (text : Bool → Exc → List Char)
    (etext : String × ResErr → List Char) (itext : InstErr → List Char) {fresh : Bool} {top sub : List OptSpec} {p p' : Process}
    {before after : List Given} {keys : List String} {ns : ArgSpace} (s : σ) {ic : InstallerSetup σ} {paths : SourcesPaths} {specs : List Spec}
    (hr : reached env desc fresh top sub (requireKeys keys) p before after = .ok (p', ns)) (hv : p'.verbose = true)
    (hc : contextFor env w p'.config = .ok ic) (hp : pathsFor w p'.config = .ok paths) (hs : specsFor w p'.config = .ok specs) :
    (xylemResolveSaying t env w desc text etext fresh top sub p before after keys).2.lines.filter Line.notErr =
      .out (placeText (w.sourcesIn paths.sourcesDir).dirExists paths.sourcesDir ++ ansi p'.color "reset") ::
      (xylemResolve env w desc text etext fresh top sub p before after keys).2.lines.filter Line.notErr ∧
    (xylemInstallSaying t env w desc text etext itext fresh top sub p before after keys s).2.lines.filter Line.notErr =
      .out (placeText (w.sourcesIn paths.sourcesDir).dirExists paths.sourcesDir ++ ansi p'.color "reset") ::
      (xylemInstall env w desc text etext itext fresh top sub p before after keys s).2.lines.filter Line.notErr := by
  have hn : contextNote (p'.console t) env w p'.config = _ := contextNote_eq (c := p'.console t) hv hc hp hs
  constructor
  · unfold xylemResolveSaying xylemResolve
    rw [mainWith_reached hr, mainWith_reached hr]
    have := (mainTry_same p'.color p'.debug text (resolve_func_same t env w etext keys p' ns)).2
    rw [hn] at this
    exact this
  · unfold xylemInstallSaying xylemInstall
    rw [mainWith_reached hr, mainWith_reached hr]
    have := (mainTry_same p'.color p'.debug text (install_func_same t env w etext itext keys s p' ns)).2
    rw [hn] at this
    exact this

/-- **C123 (partial)** This line is the only thing being verbose changes on stdout: there is at most one such line, before all results. -/
theorem C123_nothing_else_partial (t : Texts) (env : StartEnv) (w : Surroundings σ) (desc : Desc) (text : Bool → Exc → List Char)
    (etext : String × ResErr → List Char) (itext : InstErr → List Char) (fresh : Bool) (top sub : List OptSpec) (p p' : Process)
    (before after : List Given) (keys : List String) (ns : ArgSpace) (s : σ)
    (hr : reached env desc fresh top sub (requireKeys keys) p before after = .ok (p', ns)) :
    ∃ n : List Line, (n = [] ∨ ∃ b dir, n = [.out (placeText b dir ++ ansi p'.color "reset")]) ∧ (p'.verbose = false → n = []) ∧
    (xylemResolveSaying t env w desc text etext fresh top sub p before after keys).2.lines.filter Line.notErr =
      n ++ (xylemResolve env w desc text etext fresh top sub p before after keys).2.lines.filter Line.notErr ∧
    (xylemInstallSaying t env w desc text etext itext fresh top sub p before after keys s).2.lines.filter Line.notErr =
      n ++ (xylemInstall env w desc text etext itext fresh top sub p before after keys s).2.lines.filter Line.notErr := by
  have hcases : contextNote (p'.console t) env w p'.config = [] ∨
      ∃ b dir, contextNote (p'.console t) env w p'.config = [.out (placeText b dir ++ ansi p'.color "reset")] := by
    cases hv : p'.verbose with
    | false => exact .inl (contextNote_quiet (c := p'.console t) hv env w p'.config)
    | true =>
      cases hc : contextFor env w p'.config with
      | error e => left; unfold contextNote; rw [hc]
      | ok ic =>
        cases hp : pathsFor w p'.config with
        | error e => left; unfold contextNote sourcesNote; rw [hc]; simp only; rw [hp]
        | ok paths =>
          cases hs : specsFor w p'.config with
          | error e => left; unfold contextNote sourcesNote; rw [hc]; simp only; rw [hp, hs]
          | ok specs => exact .inr ⟨_, _, contextNote_eq (c := p'.console t) hv hc hp hs⟩
  have hf : (contextNote (p'.console t) env w p'.config).filter Line.notErr = contextNote (p'.console t) env w p'.config := by
    rcases hcases with h | ⟨b, d, h⟩ <;> rw [h] <;> rfl
  refine ⟨contextNote (p'.console t) env w p'.config, hcases, fun hv => contextNote_quiet (c := p'.console t) hv env w p'.config, ?_, ?_⟩
  · unfold xylemResolveSaying xylemResolve
    rw [mainWith_reached hr, mainWith_reached hr]
    have := (mainTry_same p'.color p'.debug text (resolve_func_same t env w etext keys p' ns)).2
    rwa [hf] at this
  · unfold xylemInstallSaying xylemInstall
    rw [mainWith_reached hr, mainWith_reached hr]
    have := (mainTry_same p'.color p'.debug text (install_func_same t env w etext itext keys s p' ns)).2
    rwa [hf] at this

theorem lookup_lines (n : List Line) (on : Bool) (dump : PVal → Except Exc (List Char)) (lookup : String → Except Exc PVal) (os : Except Exc (List Char))
    (keys : List String) (h : (lookupLoop on dump lookup os keys).res = .ok ()) :
    ∃ ls : List (List Char), ls.length = keys.length ∧ (lookupLoop on dump lookup os keys).lines = ls.map .out ∧
      (lookupLoopNoting n on dump lookup os keys).lines = ls.flatMap fun l => n ++ [.out l] := by
  induction keys with
  | nil => exact ⟨[], rfl, rfl, rfl⟩
  | cons k t ih =>
    have e2 : lookupLoopNoting n on dump lookup os (k :: t) =
      ((lookupLoop on dump lookup os [k]).after n >>= fun _ => lookupLoopNoting n on dump lookup os t) := rfl
    rw [lookupLoop_cons] at h ⊢
    rw [e2, after_bind]
    have hone : (lookupLoop on dump lookup os [k]).res = .ok () → ∃ l, (lookupLoop on dump lookup os [k]).lines = [.out l] := by
      unfold lookupLoop
      cases lookup k with
      | error e => intro h; cases h
      | ok v =>
        simp only [run_lift_ok]
        cases os with
        | error e => intro h; cases h
        | ok o =>
          simp only [run_lift_ok]
          cases dump v with
          | error e => intro h; cases h
          | ok d => intro _; exact ⟨_, rfl⟩
    cases h1 : (lookupLoop on dump lookup os [k]).res with
    | error e => rw [run_bind_error h1] at h; cases h
    | ok u =>
      rw [run_bind_ok h1] at h ⊢
      rw [run_bind_ok h1]
      obtain ⟨ls, e1, e3, e4⟩ := ih h
      obtain ⟨l, hl⟩ := hone h1
      refine ⟨l :: ls, by simp [e1], by simp [hl, e3], ?_⟩
      simp [Run.after, hl, e4]

/-- **C123 refuted** `xylem lookup`, if verbose, prints the line on stdout again for every key, between the results. -/
theorem C123_lookup_line_per_key_refuted (t : Texts) {env : StartEnv} {w : Surroundings σ} {desc : Desc} (text : Bool → Exc → List Char)
    (dump : PVal → Except Exc (List Char)) {fresh : Bool} {top sub : List OptSpec} {p p' : Process} {before after : List Given} {keys : List String}
    {ns : ArgSpace} {ic : InstallerSetup σ} {paths : SourcesPaths} {specs : List Spec}
    (hr : reached env desc fresh top sub (requireKeys keys) p before after = .ok (p', ns)) (hv : p'.verbose = true)
    (hc : contextFor env w p'.config = .ok ic) (hp : pathsFor w p'.config = .ok paths) (hs : specsFor w p'.config = .ok specs)
    (hok : (lookupLoop p'.color dump (lookupFor env w p'.config) (osStringFor env w p'.config) keys).res = .ok ()) :
    ∃ ls : List (List Char), ls.length = keys.length ∧
    (xylemLookup env w desc text dump fresh top sub p before after keys).2.lines.filterMap onStdout = ls ∧
    (xylemLookupSaying t env w desc text dump fresh top sub p before after keys).2.lines.filterMap onStdout =
      ls.flatMap fun l => [placeText (w.sourcesIn paths.sourcesDir).dirExists paths.sourcesDir ++ ansi p'.color "reset", l] := by
  have hn : sourcesNote (p'.console t) w p'.config =
      [.out (placeText (w.sourcesIn paths.sourcesDir).dirExists paths.sourcesDir ++ ansi p'.color "reset")] := by
    have := contextNote_eq (c := p'.console t) hv hc hp hs
    unfold contextNote at this
    rw [hc] at this
    exact this
  obtain ⟨ls, h1, h2, h3⟩ := lookup_lines (sourcesNote (p'.console t) w p'.config) p'.color dump (lookupFor env w p'.config)
    (osStringFor env w p'.config) keys hok
  have hres := (noting_res (sourcesNote (p'.console t) w p'.config) p'.color dump (lookupFor env w p'.config) (osStringFor env w p'.config) keys).trans hok
  have hout : ∀ l : List (List Char), (l.map Line.out).filterMap onStdout = l := by
    intro l; induction l with
    | nil => rfl
    | cons a l ih => show a :: _ = _; rw [ih]
  refine ⟨ls, h1, ?_, ?_⟩
  · unfold xylemLookup
    rw [mainWith_reached hr]
    have e : lookupFunc env w dump keys p' ns = ⟨ls.map .out, .ok none⟩ := by
      unfold lookupFunc
      rw [hc, run_lift_ok, interruptible_ok hok]
      unfold Run.returnsNone Run.bind
      rw [hok, h2]
      simp
    rw [e]
    show (ls.map Line.out ++ [Line.raw _]).filterMap onStdout = _
    rw [List.filterMap_append, hout]
    exact List.append_nil _
  · unfold xylemLookupSaying
    rw [mainWith_reached hr]
    have hsame := lookup_func_same t env w dump keys p' ns
    have e : (interruptible p'.color (Run.lift (contextFor env w p'.config) >>= fun _ =>
        lookupLoopNoting (sourcesNote (p'.console t) w p'.config) p'.color dump (lookupFor env w p'.config) (osStringFor env w p'.config) keys)).returnsNone =
        ⟨ls.flatMap fun l => sourcesNote (p'.console t) w p'.config ++ [.out l], .ok none⟩ := by
      rw [hc, run_lift_ok, interruptible_ok hres]
      unfold Run.returnsNone Run.bind
      rw [hres, h3]
      simp
    rw [e, ← after_nil (Run.mk _ _)] at hsame
    have hm := (mainTry_same (n := []) p'.color p'.debug text hsame).2
    have hst : ∀ l : List Line, l.filterMap onStdout = (l.filter Line.notErr).filterMap onStdout := by
      intro l
      induction l with
      | nil => rfl
      | cons a t ih =>
        cases a with
        | err t => exact ih
        | out t => show _ :: _ = _ :: _; rw [ih]
        | raw t => exact ih
    show (mainTry p'.color p'.debug text _).lines.filterMap onStdout = _
    rw [hst, hm, List.filter_nil, List.nil_append, ← hst]
    show ((ls.flatMap fun l => sourcesNote (p'.console t) w p'.config ++ [Line.out l]) ++ [Line.raw _]).filterMap onStdout = _
    rw [List.filterMap_append, hn]
    show (ls.flatMap fun l => [_, _]).filterMap onStdout ++ [] = _
    rw [List.append_nil]
    clear h1 h2 h3 hok hres hsame hm e
    induction ls with
    | nil => rfl
    | cons a l ih =>
      simp only [List.flatMap_cons, List.filterMap_append, ih]
      rfl

end Verif
