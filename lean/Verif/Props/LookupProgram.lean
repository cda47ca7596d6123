import Verif.Model.LookupProgram
import Verif.Props.ResolveInstall
import Verif.Props.CommandMisc
import Verif.Props.Api
import Verif.Props.Opened
/-! # C117: `xylem lookup` shows the rules `xylem resolve` chooses from -/
namespace Verif
variable {σ : Type}

/-- What `xylem lookup` works with: the loaded sources, all of them holding valid expanded rules of the (only shipped) spec `rules`, and the os. -/
structure LooksIn (env : StartEnv) (w : Surroundings σ) (c : Config) (sources : List Source) (k : LookupCtx) : Prop where
  loaded : loadedFor w c = .ok sources
  ctx : lookupCtxFor env w c = .ok k
  rules : ∃ u, ∀ s ∈ sources, ∃ r : Rules, s.spec = rulesSpec u ∧ s.data = r.toVal ∧ GoodRules r

/-- The value `v` says: the rules for these installers are those of `d`. In a rules file, `v` is what stands for one os version; it is read by
`expandInstallerDefinition`, and `default_installer` means the default installer. -/
def SaysRules (dflt : Option String) (v : PVal) (d : InstDict) : Prop :=
  ∃ d', expandInstallerDefinition v = .ok (InstDict.toVal d') ∧ DWF d' ∧ ∀ inst ρ, Offers d' dflt inst ρ ↔ dget d inst = some ρ

theorem lookupFor_ok {env : StartEnv} {w : Surroundings σ} {c : Config} {sources : List Source} {k : LookupCtx} (h : LooksIn env w c sources k)
    {key : String} {d : InstDict} (hd : dbLookup w.uni sources key k = .ok d) :
    ∃ v, lookupFor env w c key = .ok v ∧ SaysRules k.dflt v d := by
  obtain ⟨u, hr⟩ := h.rules
  obtain ⟨hg, hn⟩ := dbLookup_good hr hd
  have e : lookupFor env w c key = compactInstallerDict d k.dflt := by
    unfold lookupFor
    rw [h.loaded, h.ctx]
    show (dbLookup w.uni sources key k >>= _) = _
    rw [hd]
    rfl
  rw [e]
  cases hc : compactInstallerDict d k.dflt with
  | error e =>
    obtain ⟨_, name, _, _, h3, _⟩ := (C16_fails_iff d hg k.dflt e).1 hc
    exact absurd h3 hn
  | ok v =>
    obtain ⟨d', h1, h2, h3, _⟩ := C16_keeps_rules d hg k.dflt v hc
    exact ⟨v, rfl, d', h1, h2, fun inst ρ => (h3 inst ρ).trans (offers_plain hn)⟩

theorem zipWith_out {α β : Type} {f : α → β → List Char} {l : List α} {m : List β} :
    (List.zipWith (fun a b => Line.out (f a b)) l m).filterMap onStdout = List.zipWith f l m ∧
    (List.zipWith (fun a b => Line.out (f a b)) l m).filterMap onStderr = [] := by
  induction l generalizing m with
  | nil => simp
  | cons a t ih =>
    cases m with
    | nil => simp
    | cons b m => exact ⟨congrArg (f a b :: ·) (ih (m := m)).1, (ih (m := m)).2⟩

/-- **C117** `xylem lookup keys` as a whole program (colours off): one block for each key as given, in order; each is headed by the key and the os
(`name:version`), and its YAML text says the rules the database has for the key on this os, no more and no less; status 0, nothing on stderr. -/
theorem C117_lookup_run {top sub : List OptSpec} {env : StartEnv} {w : Surroundings σ} (text : Bool → Exc → List Char)
    (dump : PVal → Except Exc (List Char)) (hdump : ∀ v, ∃ y, dump v = .ok (y ++ ['\n'])) {fresh : Bool} {p q : Process} {before after : List Given}
    {keys : List String} {ns : ArgSpace} (h : reached env xylemDescription fresh top sub (requireKeys keys) p before after = .ok (q, ns))
    (hcol : q.color = false) {ic : InstallerSetup σ} (hic : contextFor env w q.config = .ok ic) {sources : List Source} {k : LookupCtx}
    (hl : LooksIn env w q.config sources k) (hk : ∀ key ∈ keys, ∃ d, dbLookup w.uni sources key k = .ok d) :
    let out := (xylemLookup env w xylemDescription text dump fresh top sub p before after keys).2
    ∃ yamls : List (List Char), List.Forall₂ (fun key y => ∃ v d, dump v = .ok (y ++ ['\n']) ∧ dbLookup w.uni sources key k = .ok d ∧
        SaysRules k.dflt v d) keys yamls ∧
      out.lines.filterMap onStdout = List.zipWith (fun key y => "Rules for '".toList ++ key.toList ++ "' on '".toList ++
        (k.os.toList ++ ":".toList ++ k.version.toList) ++ "':\n".toList ++ y) keys yamls ∧
      out.lines.filterMap onStderr = [] ∧ out.ending.status = 0 := by
  intro out
  have hos : osStringFor env w q.config = .ok (k.os.toList ++ ":".toList ++ k.version.toList) := by
    unfold osStringFor; rw [hl.ctx]; rfl
  have efun : lookupFunc env w dump keys q ns =
      (lookupCommand false dump (fun _ => lookupFor env w q.config) (fun _ => osStringFor env w q.config) (.ok ic.context) keys).returnsNone := by
    unfold lookupFunc lookupCommand
    rw [hic, hcol]
    simp only [run_lift_ok]
  have eout : out = mainTry false q.debug text (lookupCommand false dump (fun _ => lookupFor env w q.config)
      (fun _ => osStringFor env w q.config) (.ok ic.context) keys).returnsNone := by
    show (xylemLookup env w xylemDescription text dump fresh top sub p before after keys).2 = _
    unfold xylemLookup
    rw [mainWith_reached h, hcol, efun]
  have hy : ∀ l : List String, (∀ key ∈ l, ∃ d, dbLookup w.uni sources key k = .ok d) → ∃ yamls : List (List Char),
      List.Forall₂ (fun key y => ∃ v d, dump v = .ok (y ++ ['\n']) ∧ dbLookup w.uni sources key k = .ok d ∧ SaysRules k.dflt v d ∧
        lookupFor env w q.config key = .ok v) l yamls := by
    intro l
    induction l with
    | nil => exact fun _ => ⟨[], .nil⟩
    | cons a t ih =>
      intro hk
      obtain ⟨ys, hys⟩ := ih fun key hm => hk key (List.mem_cons_of_mem _ hm)
      obtain ⟨d, hd⟩ := hk a (List.mem_cons_self ..)
      obtain ⟨v, h1, h2⟩ := lookupFor_ok hl hd
      obtain ⟨y, hy⟩ := hdump v
      exact ⟨y :: ys, .cons ⟨v, d, hy, hd, h2, h1⟩ hys⟩
  obtain ⟨yamls, hys⟩ := hy keys hk
  obtain ⟨l1, l2⟩ := (C85_lookup_output q.debug text dump (fun _ => lookupFor env w q.config) (fun _ => osStringFor env w q.config) ic.context _ hos
    keys).1 yamls (hys.imp fun key y ⟨v, d, h1, _, _, h4⟩ => ⟨v, h4, h1⟩)
  have hnoerr : ∀ e, (lookupCommand false dump (fun _ => lookupFor env w q.config) (fun _ => osStringFor env w q.config) (.ok ic.context)
      keys).returnsNone.res = .error e → ∃ c, e = .systemExit c := by
    intro e he
    rcases (C60_status_zero false q.debug text _).1 l2 with ⟨r, hr, _⟩ | ⟨c, hc, _⟩
    · rw [he] at hr; cases hr
    · rw [he] at hc; injection hc with hc; exact ⟨c, hc⟩
  obtain ⟨m1, m2⟩ := mainTry_lines (on := false) (debug := q.debug) (text := text) hnoerr
  rw [(returnsNone_res _).1, l1] at m1 m2
  refine ⟨yamls, hys.imp fun key y ⟨v, d, h1, h2, h3, _⟩ => ⟨v, d, h1, h2, h3⟩, ?_, ?_, by rw [eout]; exact l2⟩
  · rw [eout, m1, zipWith_out.1]
    rfl
  · rw [eout, m2, zipWith_out.2]

/-- **C117** `xylem lookup` and `xylem resolve` with the same common options (written in full): for every key `resolve` shows a result for, the rules
`lookup` shows for that key contain a rule for the installer used, the installer is the one to be chosen among those with a rule, and the result is what it makes of that rule; and
resolve reports that there is no rule for a key only if lookup shows no rule for it. -/
theorem C117_resolve_uses_shown {top sub sub' : List OptSpec} (hp : ParsersFor "lookup" top sub) (hp' : ParsersFor "resolve" top sub')
    {env : StartEnv} {w : Surroundings σ} {fresh : Bool} {p q q' : Process} {before after after' : List Given} {keys keys' : List String}
    {ns ns' : ArgSpace} (h : reached env xylemDescription fresh top sub (requireKeys keys) p before after = .ok (q, ns))
    (h' : reached env xylemDescription fresh top sub' (requireKeys keys') p before after' = .ok (q', ns'))
    (hfu : InFull sub after) (hfu' : InFull sub' after') (hc : commonOptions top after = commonOptions top after')
    {ic : InstallerSetup σ} {os : OsSetup} {db : Database} {f : Dict String (List String)} (hf : Finds env w q'.config ic os db f)
    {sources : List Source} {k : LookupCtx} (hl : LooksIn env w q.config sources k)
    {all : Bool} {r : Resolved} (hr : resolve ic.context db f keys' all = .ok r) :
    (∀ key n items, (key, n, items) ∈ r.results → ∃ v d rule, ∃ i : Installer σ, lookupFor env w q.config key = .ok v ∧
      SaysRules k.dflt v d ∧ Chosen ic.context f key d i rule ∧ i.name = n ∧ dget d n = some rule ∧ i.resolve rule = .ok items) ∧
    (∀ key, (key, ResErr.noRule) ∈ r.errors → ∃ v, lookupFor env w q.config key = .ok v ∧ SaysRules k.dflt v []) := by
  have e := C106_same_config hp hp' env h h' hfu hfu' hc
  subst e
  have hdb : db = databaseOf w.uni sources k := by
    have := hf.db
    unfold databaseFor at this
    rw [hl.loaded, hl.ctx] at this
    exact (Except.ok.inj this).symm
  subst hdb
  constructor
  · intro key n items hm
    obtain ⟨d, i, rule, h1, _, hch, h2, h3⟩ := resolveKey_ok (mem_results hr hm)
    obtain ⟨v, g1, g2⟩ := lookupFor_ok hl h1
    have hcho := chooseInstaller_ok_iff.1 hch
    refine ⟨v, d, rule, i, g1, g2, hcho, h3.symm, ?_, h2⟩
    have e : n = i.name := h3
    rw [e]
    rcases hcho with ⟨_, hd, _⟩ | ⟨_, ⟨_, _, _, hd, _⟩ | ⟨_, _, _, _, hd, _⟩⟩ <;> exact hd
  · intro key hm
    have hk := mem_errors hr hm
    unfold resolveKey at hk
    split at hk
    · split at hk <;> cases hk
    · rename_i hlk
      exact lookupFor_ok hl hlk
    · split at hk
      · rename_i err hch
        injection hk with hk
        injection hk with hk
        subst hk
        exfalso
        unfold chooseInstaller at hch
        split at hch
        · split at hch
          · cases hch
          · split at hch <;> cases hch
        · split at hch
          · cases hch
          · split at hch <;> cases hch
      · rename_i i rule hch
        exfalso
        unfold resolveWith at hk
        split at hk
        · cases hk
        · split at hk <;> cases hk

/-- **C117** `xylem update`, then `xylem lookup` (or `resolve`, `install`) with the same common options: if every source is a `rules` source whose file was
downloaded as the YAML document `doc s`, which loads as `rules s`, and written to the cache, the commands look in sources holding exactly these rules,
whatever the cache had before. -/
theorem C117_after_update {cmd : String} {top sub sub' : List OptSpec} (hp : ParsersFor "update" top sub) (hp' : ParsersFor cmd top sub')
    (env : StartEnv) (w : Surroundings σ) {fresh : Bool} {positional : Except Exc Unit} {p q q' : Process} {before after after' : List Given}
    {ns ns' : ArgSpace} (h : reached env xylemDescription fresh top sub (.ok ()) p before after = .ok (q, ns))
    (h' : reached env xylemDescription fresh top sub' positional p before after' = .ok (q', ns'))
    (hf : InFull sub after) (hf' : InFull sub' after') (hc : commonOptions top after = commonOptions top after')
    (hsl : ∀ v i, w.sha1 v = .ok i → i.toList.head? ≠ some '/')
    {paths : SourcesPaths} (hpa : pathsFor w q.config = .ok paths) (hdir : ensureCacheDir (w.dirAt paths.cacheDir) = .ok ())
    {sources : List Source} (hs : sourcesFor w q.config = .ok sources) (u : Char → Bool) (hrules : ∀ s ∈ sources, s.spec = rulesSpec u)
    (hni : ∀ s ∈ sources, NotInterrupted (cacheEnvFor w paths) (s, w.outcome s)) (hwrite : ∀ s ∈ sources, (w.outcome s).write = .ok)
    (doc : Source → PVal) (rules : Source → Rules)
    (hnet : ∀ s ∈ sources, (w.outcome s).net s.arguments = .ok (doc s) ∧ (doc s).WF ∧ loadRulesData u (doc s) = .ok (rules s).toVal)
    {k : LookupCtx} (hk : lookupCtxFor env w q.config = .ok k) :
    let w' := { w with files := applySteps w.files (updateEffect env w xylemDescription fresh top sub p before after) }
    LooksIn env w' q'.config (sources.map fun s => { s with data := (rules s).toVal, time := (w.outcome s).now }) k := by
  intro w'
  have hdl : ∀ s ∈ sources, Downloaded s (w.outcome s) (rules s).toVal := by
    intro s hs
    obtain ⟨h1, h2, h3⟩ := hnet s hs
    unfold loadRulesData at h3
    obtain ⟨x, h4, h3⟩ := Except_bind_ok.1 h3
    obtain ⟨⟨⟩, h5, h3⟩ := Except_bind_ok.1 h3
    rw [pure_ok] at h3; subst h3
    unfold Downloaded
    rw [hrules s hs]
    simp only [rulesSpec, rulesLoadData, h1, bind, Except.bind]
    exact ⟨h4, h5⟩
  have hl : List.Forall₂ (fun s s' => AfterUpdate (cacheEnvFor w paths) w.files s (w.outcome s) s') sources
      (sources.map fun s => { s with data := (rules s).toVal, time := (w.outcome s).now }) := by
    rw [List.forall₂_map_right_iff]
    exact List.forall₂_same.2 fun s hm => .inl ⟨_, hdl s hm, hwrite s hm, rfl⟩
  obtain ⟨e1, _, e3, _⟩ := C105_update_then_command hp hp' env w h h' hf hf' hc hsl hpa hdir hs hni hl
  refine ⟨e3, ?_, u, ?_⟩
  · rw [e1]; exact hk
  · intro s' hs'
    obtain ⟨s, hm, rfl⟩ := List.mem_map.1 hs'
    exact ⟨rules s, hrules s hm, rfl, loaded_is_good (hnet s hm).2.1 (hnet s hm).2.2⟩

end Verif
