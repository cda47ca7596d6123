import Verif.Lemmas.HeapLookup
import Verif.Props.Database
import Verif.Props.Aliases
/-!
# C94, C95: lookup and merging do not touch the rules they work on
-/
set_option linter.unusedSimpArgs false
namespace Verif

/-! ## C94: lookups -/

/-- `m`, run in memory `h`, does what `x` says: the same exception, or a value that written out is the result. No
object of `h` is changed, also not by a run that ends with an exception. -/
def DoesAs {β : Type} (h : Heap) (f : β → PVal) (run : Except Exc HVal × Heap) (x : Except Exc β) : Prop :=
  h <+: run.2 ∧ (∀ e, x = .error e → run.1 = .error e) ∧ (∀ t, x = .ok t → ∃ v, run.1 = .ok v ∧ WritesOut run.2 v (f t))

theorem doesAs_of_ref {β : Type} {h0 h : Heap} (hk : Kept h0 h) {f : β → PVal} {m : HX HVal} {x : Except Exc β} {Q : HVal → β → Heap → Prop}
    (hr : Ref (fun _ => False) h m x Q) (hq : ∀ v t h', Q v t h' → WritesOut h' v (f t)) : DoesAs h0 f (m h) x := by
  obtain ⟨r, h', e, s, ag⟩ := hr
  rw [e]
  refine ⟨(hk.steps0 s).prefix, ?_, ?_⟩
  · rintro e rfl; cases ag; rfl
  · rintro t rfl
    cases ag with
    | ok q => exact ⟨_, rfl, hq _ _ _ q⟩

theorem newInst_writes {h0 h h' : Heap} {P : Nat → Prop} {v : HVal} {t : InstDict} (q : NewInst h0 P h v t h') : WritesOut h' v t.toVal := by
  obtain ⟨F, _, o⟩ := q
  exact o.writes

/-- C94: `lookup_rules` on a rules dict in memory, with or without shared parts, answers what it answers on the rules
dict written out, and changes no object. -/
theorem C94_lookup_rules (h : Heap) (v : HVal) (r : Rules) (hv : WritesOut h v r.toVal) (key os ver : String) (dflt : Option String) :
    DoesAs h InstDict.toVal (xLookupRules v key os ver dflt h) (lookupRules r key os ver dflt) :=
  doesAs_of_ref (.refl h) (lookupRules_ref (.refl h) hv key os ver dflt) (fun _ _ _ q => newInst_writes q)

/-- `v` is the loaded data of the source `s` of the rules spec, in memory `h`. -/
def LoadedAs (h : Heap) (v : HVal) (s : Source) : Prop :=
  ∃ (u : Char → Bool) (r : Rules), s.spec = rulesSpec u ∧ s.data = r.toVal ∧ WritesOut h v r.toVal

theorem dbLookup_tree (uni : Char → Bool) (key : String) (c : LookupCtx) {h0 : Heap} {l : List HVal} {ss : List Source}
    (hl : List.Forall₂ (LoadedAs h0) l ss) : ∃ rs, List.Forall₂ (fun v r => WritesOut h0 v (Rules.toVal r)) l rs ∧
      dbLookup uni ss key c = rs.reverse.foldlM (dbStepT uni key c.os c.version c.dflt) [] := by
  have : ∃ rs, List.Forall₂ (fun v r => WritesOut h0 v (Rules.toVal r)) l rs ∧
      List.Forall₂ (fun (s : Source) (r : Rules) => ∃ u, s.spec = rulesSpec u ∧ s.data = r.toVal) ss rs := by
    induction hl with
    | nil => exact ⟨[], .nil, .nil⟩
    | cons hx _ ih =>
      obtain ⟨rs, h1, h2⟩ := ih
      obtain ⟨u, r, g1, g2, g3⟩ := hx
      exact ⟨r :: rs, .cons g3 h1, .cons ⟨u, g1, g2⟩ h2⟩
  obtain ⟨rs, h1, h2⟩ := this
  refine ⟨rs, h1, ?_⟩
  unfold dbLookup
  have h3 := List.rel_reverse h2
  revert h3
  generalize ss.reverse = l1
  generalize rs.reverse = l2
  generalize ([] : InstDict) = acc
  intro h3
  induction h3 generalizing acc with
  | nil => rfl
  | @cons s r _ _ hx _ ih =>
    obtain ⟨u, g1, g2⟩ := hx
    rw [List.foldlM_cons, List.foldlM_cons]
    have : dbLookupStep uni key c acc s = dbStepT uni key c.os c.version c.dflt acc r := by
      unfold dbLookupStep dbStepT
      rw [source_lookup_eq uni u _ _ g1 g2]
    rw [this]
    congr 1
    funext a
    exact ih a

/-- The memory after a number of lookups, whatever their outcomes. -/
def afterLookups (uni : Char → Bool) (datas : List HVal) : List (String × LookupCtx) → Heap → Heap
  | [], h => h
  | q :: qs, h => afterLookups uni datas qs (xDbLookup uni datas q.1 q.2.os q.2.version q.2.dflt h).2

theorem after_kept (uni : Char → Bool) {h0 : Heap} {datas : List HVal} {ss : List Source} (hl : List.Forall₂ (LoadedAs h0) datas ss) :
    ∀ (qs : List (String × LookupCtx)) (h : Heap), Kept h0 h → Kept h0 (afterLookups uni datas qs h) := by
  intro qs
  induction qs with
  | nil => exact fun h hk => hk
  | cons q qs ih =>
    intro h hk
    obtain ⟨rs, h1, _⟩ := dbLookup_tree uni q.1 q.2 hl
    obtain ⟨r, h', e, s, _⟩ := dbLookup_ref (P := fun _ => True) uni q.1 q.2.os q.2.version q.2.dflt hk h1
    simp only [afterLookups, e]
    exact ih _ (hk.steps0 s)

/-- C94: after any number of lookups in the database, successful or not, for whatever keys and systems, the loaded
rules are unchanged and the next lookup answers what a first lookup in the database answers. -/
theorem C94_lookups_are_repeatable (uni : Char → Bool) (h : Heap) (datas : List HVal) (ss : List Source) (hl : List.Forall₂ (LoadedAs h) datas ss)
    (qs : List (String × LookupCtx)) (key : String) (c : LookupCtx) :
    h <+: afterLookups uni datas qs h ∧
    DoesAs h InstDict.toVal (xDbLookup uni datas key c.os c.version c.dflt (afterLookups uni datas qs h)) (dbLookup uni ss key c) := by
  have hk := after_kept uni hl qs h (.refl h)
  refine ⟨hk.prefix, ?_⟩
  obtain ⟨rs, h1, h2⟩ := dbLookup_tree uni key c hl
  rw [h2]
  exact doesAs_of_ref hk (dbLookup_ref (P := fun _ => True) uni key c.os c.version c.dflt hk h1) (fun _ _ _ q => newInst_writes q)

/-- C94: the dict a lookup returns is a new one: whatever the caller puts into it or takes out of it, the loaded
rules do not change. -/
theorem C94_result_is_new (uni : Char → Bool) (h : Heap) (datas : List HVal) (ss : List Source) (hl : List.Forall₂ (LoadedAs h) datas ss)
    (key : String) (c : LookupCtx) (v : HVal) (h' : Heap) (hrun : xDbLookup uni datas key c.os c.version c.dflt h = (.ok v, h')) :
    ∃ a, v = .ref a ∧ ∀ o : HObj, h <+: h'.set a o := by
  obtain ⟨rs, h1, _⟩ := dbLookup_tree uni key c hl
  obtain ⟨r, h2, e, s, ag⟩ := dbLookup_ref (P := fun _ => True) uni key c.os c.version c.dflt (Kept.refl h) h1
  rw [hrun] at e
  injection e with e1 e2
  subst e1 e2
  generalize rs.reverse.foldlM (dbStepT uni key c.os c.version c.dflt) [] = x at ag
  cases ag with
  | ok q =>
    obtain ⟨F, hf, a, d, G, rfl, o⟩ := q
    refine ⟨a, rfl, fun ob => ?_⟩
    have hb := (o.bound a o.root).1
    refine Kept.prefix ⟨by simpa using s.len, fun x hx => ?_⟩
    rw [getElem?_set_ne' (by omega), s.same x hx id]

/-! ### examples -/

/-- ```
foo:
  ubuntu:
    lucid:        {apt: &r {packages: [libfoo]}}
    any_version: &v {default_installer: *r}
bar:
  any_os:  {any_version: {pip: *r}}
  ubuntu:  {lucid: *v}
```
and a second rules dict that consists of the entry for `bar` only. -/
def lookupHeap : Heap :=
  [.dict [(.str "foo", .ref 1), (.str "bar", .ref 6)],
   .dict [(.str "ubuntu", .ref 2)],
   .dict [(.str "lucid", .ref 3), (.str "any_version", .ref 5)],
   .dict [(.str "apt", .ref 4)],
   .dict [(.str "packages", .ref 10)],
   .dict [(.str "default_installer", .ref 4)],
   .dict [(.str "any_os", .ref 7), (.str "ubuntu", .ref 9)],
   .dict [(.str "any_version", .ref 8)],
   .dict [(.str "pip", .ref 4)],
   .dict [(.str "lucid", .ref 5)],
   .list [.str "libfoo"],
   .dict [(.str "bar", .ref 6)]]

/-- `lookupHeap` written out. -/
def lookupTree : Rules :=
  [("foo", [("ubuntu", [("lucid", [("apt", [("packages", .list [.str "libfoo"])])]),
      ("any_version", [("default_installer", [("packages", .list [.str "libfoo"])])])])]),
   ("bar", [("any_os", [("any_version", [("pip", [("packages", .list [.str "libfoo"])])])]),
      ("ubuntu", [("lucid", [("default_installer", [("packages", .list [.str "libfoo"])])])])])]

theorem lookupTree_out : WritesOut lookupHeap (.ref 0) lookupTree.toVal := by
  simp [WritesOut, lookupTree, lookupHeap, TreeAt, ItemsAt, ListAt, Rules.toVal, OsDict.toVal, VerDict.toVal, InstDict.toVal, Rule.toVal, dictVal]

/-- The hypotheses of the C94 theorems hold of a database with one source whose rules share dicts ... -/
example : List.Forall₂ (LoadedAs lookupHeap) [.ref 0] [exSource "u" lookupTree] :=
  .cons ⟨fun _ => false, lookupTree, rfl, rfl, lookupTree_out⟩ .nil

/-- ... where lookups succeed, each time with the same answer ... -/
example : dbLookup (fun _ => false) [exSource "u" lookupTree] "bar" ⟨"ubuntu", "lucid", some "apt"⟩ =
    .ok [("pip", [("packages", .list [.str "libfoo"])]), ("apt", [("packages", .list [.str "libfoo"])])] := rfl

/-- ... or fail: without default installer for `foo`. -/
example : dbLookup (fun _ => false) [exSource "u" lookupTree] "foo" ⟨"ubuntu", "lucid", none⟩ = .error .valueError := rfl

/-- C94, the other side: the installer rules in the answer are not copies but the rules of the database. A caller
that changes the *contents* of a rule (here: empties the package list of the answer for `bar`) changes the answer for
`foo`. -/
theorem C94_rules_are_shared : ∃ (h : Heap) (datas : List HVal) (ss : List Source) (c : LookupCtx), List.Forall₂ (LoadedAs h) datas ss ∧
    ∃ h1 d rule, xDbLookup (fun _ => false) datas "bar" c.os c.version c.dflt h = (.ok (.ref d), h1) ∧
      h1[d]? = some (.dict [(.str "pip", .ref rule), (.str "apt", .ref rule)]) ∧
      ∃ e h2, xDbLookup (fun _ => false) datas "foo" c.os c.version c.dflt (h1.set rule (.dict [])) = (.ok e, h2) ∧
        WritesOut h2 e (.dict [(.str "apt", .dict [])]) ∧
        dbLookup (fun _ => false) ss "foo" c = .ok [("apt", [("packages", .list [.str "libfoo"])])] := by
  refine ⟨lookupHeap, [.ref 0], [exSource "u" lookupTree], ⟨"ubuntu", "lucid", some "apt"⟩,
    .cons ⟨fun _ => false, lookupTree, rfl, rfl, lookupTree_out⟩ .nil, _, _, 4, rfl, rfl, _, _, rfl, ?_, rfl⟩
  simp only [WritesOut, TreeAt, ItemsAt]
  exact ⟨_, _, rfl, trivial, rfl, _, _, rfl, ⟨_, _, rfl, trivial, rfl, rfl⟩, rfl⟩

/-! ## C95: merging -/

/-- C95: `merge_rules` on rules dicts in memory, which may share any of their parts or even be the same dict, does what
it does on the rules dicts written out, and changes no object of its inputs, also not when it fails midway. -/
theorem C95_merge_rules (h : Heap) (l : List HVal) (rs : List Rules) (hl : List.Forall₂ (fun v r => WritesOut h v (Rules.toVal r)) l rs)
    (dflts : Dict String (Option String)) : DoesAs h Rules.toVal (xMergeRules l dflts h) (mergeRules rs dflts) :=
  doesAs_of_ref (.refl h) (mergeRules_ref (P := fun _ => True) dflts hl) (by
    rintro v t h' ⟨F, _, o⟩
    exact o.writes)

/-! ### the structure of the result -/

/-- A value with `n` levels of separate new dicts, above values that satisfy `Q`. -/
def Spread (n0 : Nat) (Q : HVal → Prop) (h : Heap) : Nat → HVal → FP → Prop
  | 0, v, _ => Q v
  | n + 1, v, F => ∃ (a : Nat) (d : Dict PKey HVal) (G : PKey → FP), v = .ref a ∧ h[a]? = some (.dict d) ∧ F a ∧ (∀ x, F x → n0 ≤ x) ∧
      (∀ k w, dget d k = some w → Spread n0 Q h n w (G k)) ∧ (∀ k x, G k x → F x ∧ x ≠ a) ∧ (∀ k k' x, G k x → G k' x → k = k')

theorem spread_own {β : Type} {h0 : Heap} {Q : HVal → Prop} {C : Heap → HVal → β → FP → Prop} {n : Nat}
    (hC : ∀ h w b G, C h w b G → Spread h0.length Q h n w G) {h : Heap} {v : HVal} {t : Dict String β} {F : FP} (o : OwnDict h0 C h v t F) :
    Spread h0.length Q h (n + 1) v F := by
  obtain ⟨a, d, G, rfl, o⟩ := o
  refine ⟨a, d, fun k => match k with | .str s => G s | _ => fun _ => False, rfl, o.get, o.root, fun x hx => (o.bound x hx).1, ?_, ?_, ?_⟩
  · intro k w hw
    have hk : k ∈ dkeys d := by rw [mem_dkeys_iff, hw]; rfl
    rw [o.keys, List.mem_map] at hk
    obtain ⟨s, hs, rfl⟩ := hk
    rw [mem_dkeys_iff] at hs
    obtain ⟨b, hb⟩ := Option.isSome_iff_exists.1 hs
    obtain ⟨w', h1, h2⟩ := o.child s b hb
    rw [hw] at h1; injection h1 with h1; subst h1
    exact hC _ _ _ _ h2
  · intro k x hx
    cases k with
    | str s => exact o.inside s x hx
    | _ => exact hx.elim
  · intro k k' x h1 h2
    cases k with
    | str s =>
      cases k' with
      | str s' => rw [o.apart s s' x h1 h2]
      | _ => exact h2.elim
    | _ => exact h1.elim

/-- One step of a path. -/
def StepTo (h : Heap) (v : HVal) (s : PKey ⊕ Nat) (w : HVal) : Prop :=
  ∃ a, v = .ref a ∧ ((∃ d k, s = .inl k ∧ h[a]? = some (.dict d) ∧ dget d k = some w) ∨ ∃ l i, s = .inr i ∧ h[a]? = some (.list l) ∧ l[i]? = some w)

theorem reaches_front {h : Heap} {root v : HVal} {p : List (PKey ⊕ Nat)} (hr : Reaches h root p v) :
    (p = [] ∧ v = root) ∨ ∃ p' s w, p = p' ++ [s] ∧ StepTo h root s w ∧ Reaches h w p' v := by
  induction hr with
  | here => exact .inl ⟨rfl, rfl⟩
  | @key p a d k v _ ha hd ih =>
    rcases ih with ⟨rfl, rfl⟩ | ⟨p', s, w, rfl, h1, h2⟩
    · exact .inr ⟨[], .inl k, v, rfl, ⟨a, rfl, .inl ⟨d, k, rfl, ha, hd⟩⟩, .here⟩
    · exact .inr ⟨.inl k :: p', s, w, rfl, h1, .key h2 ha hd⟩
  | @item p a l i v _ ha hd ih =>
    rcases ih with ⟨rfl, rfl⟩ | ⟨p', s, w, rfl, h1, h2⟩
    · exact .inr ⟨[], .inr i, v, rfl, ⟨a, rfl, .inr ⟨l, i, rfl, ha, hd⟩⟩, .here⟩
    · exact .inr ⟨.inr i :: p', s, w, rfl, h1, .item h2 ha hd⟩

theorem stepTo_spread {n0 : Nat} {Q : HVal → Prop} {h : Heap} {n : Nat} {v w : HVal} {F : FP} {s : PKey ⊕ Nat} (hs : Spread n0 Q h (n + 1) v F)
    (hw : StepTo h v s w) : ∃ (a : Nat) (d : Dict PKey HVal) (G : PKey → FP) (k : PKey), v = .ref a ∧ F a ∧ h[a]? = some (.dict d) ∧ s = .inl k ∧ dget d k = some w ∧ Spread n0 Q h n w (G k) ∧
      (∀ k x, G k x → F x ∧ x ≠ a) ∧ (∀ k k' x, G k x → G k' x → k = k') := by
  obtain ⟨a, d, G, rfl, ha, hF, _, hC, hi, hp⟩ := hs
  obtain ⟨a', e, h⟩ := hw
  injection e with e; subst e
  rcases h with ⟨d', k, rfl, h1, h2⟩ | ⟨l, i, rfl, h1, h2⟩
  · rw [ha] at h1; injection h1 with h1; injection h1 with h1; subst h1
    exact ⟨a, d, G, k, rfl, hF, ha, rfl, h2, hC k w h2, hi, hp⟩
  · rw [ha] at h1; injection h1 with h1; injection h1

theorem spread_new {n0 : Nat} {Q : HVal → Prop} {h : Heap} : ∀ (n : Nat) (v : HVal) (F : FP) (p : List (PKey ⊕ Nat)) (w : HVal),
    Spread n0 Q h n v F → Reaches h v p w → (p.length < n → ∃ a, w = .ref a ∧ F a ∧ n0 ≤ a) ∧ (p.length = n → Q w) := by
  intro n
  induction n with
  | zero =>
    intro v F p w hs hr
    refine ⟨fun h => absurd h (Nat.not_lt_zero _), fun h => ?_⟩
    rcases reaches_front hr with ⟨_, rfl⟩ | ⟨p', s, w', rfl, _⟩
    · exact hs
    · simp at h
  | succ n ih =>
    intro v F p w hs hr
    rcases reaches_front hr with ⟨rfl, rfl⟩ | ⟨p', s, w', rfl, h1, h2⟩
    · obtain ⟨a, d, G, rfl, _, hF, hb, _⟩ := hs
      exact ⟨fun _ => ⟨a, rfl, hF, hb a hF⟩, fun h => by simp at h⟩
    · obtain ⟨a, d, G, k, rfl, hF, ha, rfl, hd, hC, hi, hp⟩ := stepTo_spread hs h1
      obtain ⟨g1, g2⟩ := ih w' (G k) p' w hC h2
      refine ⟨fun hl => ?_, fun hl => g2 (by simpa using hl)⟩
      obtain ⟨x, e1, e2, e3⟩ := g1 (by simpa using hl)
      exact ⟨x, e1, (hi k x e2).1, e3⟩

theorem spread_apart {n0 : Nat} {Q : HVal → Prop} {h : Heap} : ∀ (n : Nat) (v : HVal) (F : FP) (p q : List (PKey ⊕ Nat)) (a : Nat),
    Spread n0 Q h n v F → Reaches h v p (.ref a) → Reaches h v q (.ref a) → p.length < n → q.length < n → p = q := by
  intro n
  induction n with
  | zero => intro v F p q a _ _ _ h; exact absurd h (Nat.not_lt_zero _)
  | succ n ih =>
    intro v F p q x hs hp hq lp lq
    have key : ∀ p' s w, StepTo h v s w → Reaches h w p' (.ref x) → p'.length < n → v ≠ .ref x := by
      intro p' s w h1 h2 hl
      obtain ⟨a, d, G, k, rfl, hF, ha, rfl, hd, hC, hi, _⟩ := stepTo_spread hs h1
      obtain ⟨y, e1, e2, _⟩ := (spread_new n w (G k) p' _ hC h2).1 hl
      injection e1 with e1; subst e1
      intro e; injection e with e
      exact (hi k x e2).2 e.symm
    rcases reaches_front hp with ⟨rfl, e⟩ | ⟨p', s, w, rfl, h1, h2⟩
    · rcases reaches_front hq with ⟨rfl, _⟩ | ⟨q', s', w', rfl, h1', h2'⟩
      · rfl
      · exact absurd e.symm (key q' s' w' h1' h2' (by simpa using lq))
    · rcases reaches_front hq with ⟨rfl, e⟩ | ⟨q', s', w', rfl, h1', h2'⟩
      · exact absurd e.symm (key p' s w h1 h2 (by simpa using lp))
      · obtain ⟨a, d, G, rfl, ha, hF, _, hC, hi, hap⟩ := hs
        have step : ∀ s w, StepTo h (.ref a) s w → ∃ k, s = .inl k ∧ dget d k = some w := by
          rintro s w ⟨a', e, h⟩
          injection e with e; subst e
          rcases h with ⟨d', k, rfl, h1, h2⟩ | ⟨l, i, rfl, h1, h2⟩
          · rw [ha] at h1; injection h1 with h1; injection h1 with h1; subst h1; exact ⟨k, rfl, h2⟩
          · rw [ha] at h1; injection h1 with h1; injection h1
        obtain ⟨k, rfl, hk⟩ := step s w h1
        obtain ⟨k', rfl, hk'⟩ := step s' w' h1'
        have l1 : p'.length < n := by simpa using lp
        have l2 : q'.length < n := by simpa using lq
        obtain ⟨y, e1, e2, _⟩ := (spread_new n w (G k) p' _ (hC k w hk) h2).1 l1
        obtain ⟨y', e1', e2', _⟩ := (spread_new n w' (G k') q' _ (hC k' w' hk') h2').1 l2
        injection e1 with e1; subst e1
        injection e1' with e1'; subst e1'
        have : k = k' := hap k k' x e2 e2'
        subst this
        rw [hk] at hk'; injection hk' with hk'; subst hk'
        rw [ih w (G k) p' q' x (hC k w hk) h2 h2' l1 l2]

mutual
theorem reach_tree {h : Heap} (hw : h.WF) {root : HVal} : ∀ (v : HVal) (t : PVal) (p : List (PKey ⊕ Nat)), WritesOut h v t → Reaches h root p v →
    TreeAt h (fun a => ∃ p, Reaches h root p (.ref a)) v t
  | v, .none, _, ht, _ => by simpa only [WritesOut, TreeAt] using ht
  | v, .bool b, _, ht, _ => by simpa only [WritesOut, TreeAt] using ht
  | v, .int i, _, ht, _ => by simpa only [WritesOut, TreeAt] using ht
  | v, .str s, _, ht, _ => by simpa only [WritesOut, TreeAt] using ht
  | v, .other n, _, ht, _ => by simpa only [WritesOut, TreeAt] using ht
  | v, .list ts, p, ht, hr => by
    simp only [WritesOut, TreeAt] at ht ⊢
    obtain ⟨a, l, rfl, _, ha, hl⟩ := ht
    refine ⟨a, l, rfl, ⟨p, hr⟩, ha, reach_list hw l ts hl ?_⟩
    intro v hv
    obtain ⟨i, hi⟩ := List.getElem?_of_mem hv
    exact ⟨_, .item hr ha hi⟩
  | v, .dict e, p, ht, hr => by
    simp only [WritesOut, TreeAt] at ht ⊢
    obtain ⟨a, d, rfl, _, ha, hl⟩ := ht
    exact ⟨a, d, rfl, ⟨p, hr⟩, ha, reach_items hw d e hl (fun k v hv => ⟨_, .key hr ha (mem_dget (hw a d ha) hv)⟩)⟩
theorem reach_list {h : Heap} (hw : h.WF) {root : HVal} : ∀ (l : List HVal) (ts : List PVal), ListAt h (fun _ => True) l ts →
    (∀ v ∈ l, ∃ p, Reaches h root p v) → ListAt h (fun a => ∃ p, Reaches h root p (.ref a)) l ts
  | l, [], ht, _ => by simpa only [ListAt] using ht
  | l, t :: ts, ht, hp => by
    simp only [ListAt] at ht ⊢
    obtain ⟨v, l', rfl, h1, h2⟩ := ht
    obtain ⟨p, hr⟩ := hp v (by simp)
    exact ⟨v, l', rfl, reach_tree hw v t p h1 hr, reach_list hw l' ts h2 (fun v hv => hp v (by simp [hv]))⟩
theorem reach_items {h : Heap} (hw : h.WF) {root : HVal} : ∀ (d : Dict PKey HVal) (e : List (PKey × PVal)), ItemsAt h (fun _ => True) d e →
    (∀ k v, (k, v) ∈ d → ∃ p, Reaches h root p v) → ItemsAt h (fun a => ∃ p, Reaches h root p (.ref a)) d e
  | d, [], ht, _ => by simpa only [ItemsAt] using ht
  | d, (k, t) :: e, ht, hp => by
    simp only [ItemsAt] at ht ⊢
    obtain ⟨v, d', rfl, h1, h2⟩ := ht
    obtain ⟨p, hr⟩ := hp k v (by simp)
    exact ⟨v, d', rfl, reach_tree hw v t p h1 hr, reach_items hw d' e h2 (fun k v hv => hp k v (by simp [hv]))⟩
end

/-- C95: the rules dicts are copied down to the installer dicts, the installer rules are not (as the docstring says). In the result:
every dict above the rules is new; no two places of the result share such a dict; every installer rule is an object
of one of the inputs. -/
theorem C95_result_structure (h : Heap) (hw : h.WF) (l : List HVal) (rs : List Rules)
    (hl : List.Forall₂ (fun v r => WritesOut h v (Rules.toVal r)) l rs) (dflts : Dict String (Option String)) (v : HVal) (h' : Heap)
    (hrun : xMergeRules l dflts h = (.ok v, h')) :
    (∀ p w, Reaches h' v p w → p.length ≤ 3 → ∃ a, w = .ref a ∧ h.length ≤ a) ∧
    (∀ p q a, Reaches h' v p (.ref a) → Reaches h' v q (.ref a) → p.length ≤ 3 → q.length ≤ 3 → p = q) ∧
    (∀ p w, Reaches h' v p w → p.length = 4 → ∃ a, w = .ref a ∧ ∃ input ∈ l, ∃ q, Reaches h input q (.ref a)) := by
  let P : Nat → Prop := fun a => ∃ input ∈ l, ∃ q, Reaches h input q (.ref a)
  have hl' : List.Forall₂ (fun v r => TreeAt h P v (Rules.toVal r)) l rs := by
    have : ∀ (l1 : List HVal) (rs1 : List Rules), (∀ x ∈ l1, x ∈ l) → List.Forall₂ (fun v r => WritesOut h v (Rules.toVal r)) l1 rs1 →
        List.Forall₂ (fun v r => TreeAt h P v (Rules.toVal r)) l1 rs1 := by
      intro l1 rs1 hm hf
      induction hf with
      | nil => exact .nil
      | @cons x r l1 rs1 hx _ ih =>
        refine .cons ?_ (ih fun x hx => hm x (List.mem_cons_of_mem _ hx))
        exact TreeAt_mono (fun a o hp ha => ⟨⟨x, hm x (by simp), hp⟩, ha⟩) _ _ (reach_tree hw x _ [] hx .here)
    exact this l rs (fun _ h => h) hl
  obtain ⟨r, h2, e, s, ag⟩ := mergeRules_ref (P := P) dflts hl'
  rw [hrun] at e
  injection e with e1 e2
  subst e1 e2
  generalize mergeRules rs dflts = x at ag
  cases ag with
  | ok q =>
    obtain ⟨F, _, o⟩ := q
    have sp : Spread h.length (fun w => ∃ a, w = .ref a ∧ P a) h' 4 v F :=
      spread_own (fun _ _ _ _ o => spread_own (fun _ _ _ _ o => spread_own (fun _ _ _ _ o => spread_own (C := OwnRule h P) (n := 0) (by
        rintro _ w b G ⟨hr, _⟩
        unfold Rule.toVal dictVal at hr
        simp only [TreeAt] at hr
        obtain ⟨a, d, rfl, hp, _⟩ := hr
        exact ⟨a, rfl, hp⟩) o) o) o) o
    refine ⟨fun p w hp hl => ?_, fun p q a hp hq lp lq => spread_apart 4 v F p q a sp hp hq (by omega) (by omega), fun p w hp hl => ?_⟩
    · obtain ⟨a, e1, _, e3⟩ := (spread_new 4 v F p w sp hp).1 (by omega)
      exact ⟨a, e1, e3⟩
    · exact (spread_new 4 v F p w sp hp).2 hl

/-! ### examples -/

/-- The second rules dict of `lookupHeap` written out. -/
def lookupTree2 : Rules :=
  [("bar", [("any_os", [("any_version", [("pip", [("packages", .list [.str "libfoo"])])])]),
      ("ubuntu", [("lucid", [("default_installer", [("packages", .list [.str "libfoo"])])])])])]

theorem lookupTree2_out : WritesOut lookupHeap (.ref 11) lookupTree2.toVal := by
  simp [WritesOut, lookupTree2, lookupHeap, TreeAt, ItemsAt, ListAt, Rules.toVal, OsDict.toVal, VerDict.toVal, InstDict.toVal, Rule.toVal, dictVal]

/-- The hypotheses of the C95 theorems hold of two rules dicts that share an os dict and a rule ... -/
example : lookupHeap.WF ∧ List.Forall₂ (fun v r => WritesOut lookupHeap v (Rules.toVal r)) [.ref 11, .ref 0] [lookupTree2, lookupTree] :=
  ⟨Heap_WF_check (by decide), .cons lookupTree2_out (.cons lookupTree_out .nil)⟩

/-- ... whose merge succeeds ... -/
example : mergeRules [lookupTree2, lookupTree] [("ubuntu", some "apt")] = .ok
    [("foo", [("ubuntu", [("lucid", [("apt", [("packages", .list [.str "libfoo"])])]),
        ("any_version", [("apt", [("packages", .list [.str "libfoo"])])])])]),
     ("bar", [("any_os", [("any_version", [("pip", [("packages", .list [.str "libfoo"])])])]),
        ("ubuntu", [("lucid", [("apt", [("packages", .list [.str "libfoo"])])])])])] := rfl

/-- ... while a rules dict merged with itself fails midway (C17). -/
example : mergeRules [lookupTree, lookupTree] [("ubuntu", some "apt")] = .error .valueError := rfl

end Verif
