import Verif.Lemmas.HeapSim2
/-!
# C92: YAML aliases in rules files
-/
namespace Verif

/-! ## from roles to levels -/

/-- The level of an object: the role it plays if it is a dict, else 0. -/
noncomputable def roleLevel (h : Heap) (root : HVal) (a : Nat) : Nat :=
  open Classical in
  match h[a]? with
  | some (.dict _) => if H : ∃ n, Plays h root n (.ref a) then H.choose else 0
  | _ => 0

theorem roleLevel_dict {h : Heap} {root : HVal} (hr : OneRole h root) {a n : Nat} {d : Dict PKey HVal}
    (ha : h[a]? = some (.dict d)) (hp : Plays h root n (.ref a)) : roleLevel h root a = n := by
  have H : ∃ n, Plays h root n (.ref a) := ⟨n, hp⟩
  have : roleLevel h root a = H.choose := by
    unfold roleLevel
    rw [ha]
    simp only
    rw [dif_pos H]
  rw [this]
  exact hr a d _ _ ha H.choose_spec hp

theorem roleLevel_list {h : Heap} {root : HVal} {a : Nat} {l : List HVal} (ha : h[a]? = some (.list l)) :
    roleLevel h root a = 0 := by
  unfold roleLevel
  rw [ha]

mutual
theorem plays_zero {h : Heap} {root : HVal} (hr : OneRole h root) : ∀ (v : HVal) (t : PVal), TreeAt h (fun _ => True) v t →
    (∀ n, Plays h root n v → t.isDict = false ∨ n = 0 → TreeAt h (fun a => roleLevel h root a = 0) v t)
  | v, .none, ht, _, _, _ => by simpa only [TreeAt] using ht
  | v, .bool b, ht, _, _, _ => by simpa only [TreeAt] using ht
  | v, .int i, ht, _, _, _ => by simpa only [TreeAt] using ht
  | v, .str s, ht, _, _, _ => by simpa only [TreeAt] using ht
  | v, .other n, ht, _, _, _ => by simpa only [TreeAt] using ht
  | v, .list ts, ht, n, hp, _ => by
    simp only [TreeAt] at ht ⊢
    obtain ⟨a, l, rfl, _, ha, hl⟩ := ht
    exact ⟨a, l, rfl, roleLevel_list ha, ha, plays_zero_list hr l ts hl (fun v hv => .item hp ha hv)⟩
  | v, .dict e, ht, n, hp, hn => by
    have hn : n = 0 := by simpa [PVal.isDict] using hn
    subst hn
    simp only [TreeAt] at ht ⊢
    obtain ⟨a, d, rfl, _, ha, hl⟩ := ht
    exact ⟨a, d, rfl, roleLevel_dict hr ha hp, ha, plays_zero_items hr d e hl (fun k v hv => .inner hp ha hv)⟩
theorem plays_zero_list {h : Heap} {root : HVal} (hr : OneRole h root) : ∀ (l : List HVal) (ts : List PVal),
    ListAt h (fun _ => True) l ts → (∀ v ∈ l, Plays h root 0 v) → ListAt h (fun a => roleLevel h root a = 0) l ts
  | l, [], ht, _ => by simpa only [ListAt] using ht
  | l, t :: ts, ht, hp => by
    simp only [ListAt] at ht ⊢
    obtain ⟨v, l', rfl, h1, h2⟩ := ht
    exact ⟨v, l', rfl, plays_zero hr v t h1 0 (hp v (by simp)) (.inr rfl),
      plays_zero_list hr l' ts h2 (fun v hv => hp v (by simp [hv]))⟩
theorem plays_zero_items {h : Heap} {root : HVal} (hr : OneRole h root) : ∀ (d : Dict PKey HVal) (e : List (PKey × PVal)),
    ItemsAt h (fun _ => True) d e → (∀ k v, (k, v) ∈ d → Plays h root 0 v) →
    ItemsAt h (fun a => roleLevel h root a = 0) d e
  | d, [], ht, _ => by simpa only [ItemsAt] using ht
  | d, (k, t) :: e, ht, hp => by
    simp only [ItemsAt] at ht ⊢
    obtain ⟨v, d', rfl, h1, h2⟩ := ht
    exact ⟨v, d', rfl, plays_zero hr v t h1 0 (hp k v (by simp)) (.inr rfl),
      plays_zero_items hr d' e h2 (fun k v hv => hp k v (by simp [hv]))⟩
end

theorem bareDict_eq {h : Heap} {P : Nat → Prop} {v : HVal} {t : PVal} (ht : TreeAt h P v t) : bareDict h v = instLike t := by
  cases t with
  | list ts =>
    simp only [TreeAt] at ht
    obtain ⟨a, l, rfl, _, ha, _⟩ := ht
    simp only [bareDict, ha, instLike]
  | dict e =>
    simp only [TreeAt] at ht
    obtain ⟨a, d, rfl, _, ha, hi⟩ := ht
    simp only [bareDict, ha, instLike]
    rw [dhas_keys (Items_keys (ItemsAt_iff.1 hi))]
  | _ => simp only [TreeAt] at ht; subst ht; rfl

theorem plays_Lev {h : Heap} {root : HVal} (hr : OneRole h root) : ∀ (n : Nat) (k : PKey) (v : HVal) (t : PVal),
    TreeAt h (fun _ => True) v t → Plays h root (roleUnder h n k v) v → Lev ⟨h, roleLevel h root⟩ n k v t := by
  intro n
  induction n with
  | zero =>
    intro k v t ht hp
    rw [show roleUnder h 0 k v = 0 by simp [roleUnder]] at hp
    exact plays_zero hr v t ht 0 hp (.inr rfl)
  | succ n ih =>
    intro k v t ht hp
    by_cases hc : n = 2 ∧ k = .str "any_os" ∧ instLike t = true
    · obtain ⟨rfl, rfl, hi⟩ := hc
      rw [Lev_anyos hi]
      refine ih _ v t ht ?_
      rw [show roleUnder h 2 (.str "any_os") v = 2 by simp [roleUnder]]
      rwa [show roleUnder h (2 + 1) (.str "any_os") v = 2 by simp [roleUnder, bareDict_eq ht, hi]] at hp
    · have hrole : roleUnder h (n + 1) k v = n + 1 := by
        unfold roleUnder
        rw [if_neg]
        rintro ⟨h1, h2, h3⟩
        rw [bareDict_eq ht] at h3
        exact hc ⟨by omega, h2, h3⟩
      rw [hrole] at hp
      cases hd : t.isDict with
      | false => exact (Lev_nondict hd).2 (plays_zero hr v t ht _ hp (.inl hd))
      | true =>
        cases t with
        | dict e =>
          rw [Lev_pos hc]
          simp only [TreeAt] at ht
          obtain ⟨a, d, rfl, _, ha, hi⟩ := ht
          refine ⟨a, d, rfl, roleLevel_dict hr ha hp, ha, Items_mono (ItemsAt_iff.1 hi) fun k' v' t' hm _ ht' => ?_⟩
          exact ih k' v' t' ht' (.entry hp ha hm)
        | _ => simp [PVal.isDict] at hd

/-! ## a rules file with aliases -/

/-- C92 (partial): a rules file in which no dict stands in two different roles is expanded as if every alias were
written out: the same exception, or a result that written out is the expansion of the written out file. (Missing:
dicts standing in two roles, see `C92_two_roles_refuted`.) -/
theorem C92_aliases_written_out_partial (h : Heap) (root : HVal) (t : PVal) (hw : h.WF) (ho : WritesOut h root t)
    (hr : OneRole h root) :
    (∀ x, expandRules t = .error x → hExpandRules root h = .error x) ∧
    (∀ t', expandRules t = .ok t' → ∃ v' h', hExpandRules root h = .ok (v', h') ∧ WritesOut h' v' t') := by
  have hp : Plays h root (roleUnder h 5 .none root) root := by
    rw [show roleUnder h 5 .none root = 5 by simp [roleUnder]]; exact .root
  have hlev := plays_Lev hr 5 .none root t ho hp
  obtain ⟨h1, h2⟩ := rules_sim (S := ⟨h, roleLevel h root⟩) hw hlev
  refine ⟨h1, fun t' ht' => ?_⟩
  obtain ⟨r, S', g1, g2, _⟩ := h2 t' ht'
  exact ⟨r, S'.h, g1, Lev_out _ _ _ _ g2⟩

/-! ### files without aliases -/

/-- The role of a value together with the way to it. -/
inductive PlaysVia (h : Heap) (root : HVal) : List (PKey ⊕ Nat) → Nat → HVal → Prop
  | root : PlaysVia h root [] 5 root
  | entry {p : List (PKey ⊕ Nat)} {n a : Nat} {d : Dict PKey HVal} {k : PKey} {v : HVal} :
      PlaysVia h root p (n + 1) (.ref a) → h[a]? = some (.dict d) → dget d k = some v →
      PlaysVia h root (.inl k :: p) (roleUnder h n k v) v
  | inner {p : List (PKey ⊕ Nat)} {a : Nat} {d : Dict PKey HVal} {k : PKey} {v : HVal} :
      PlaysVia h root p 0 (.ref a) → h[a]? = some (.dict d) → dget d k = some v → PlaysVia h root (.inl k :: p) 0 v
  | item {p : List (PKey ⊕ Nat)} {n a : Nat} {l : List HVal} {i : Nat} {v : HVal} :
      PlaysVia h root p n (.ref a) → h[a]? = some (.list l) → l[i]? = some v → PlaysVia h root (.inr i :: p) 0 v

theorem plays_via {h : Heap} (hw : h.WF) {root : HVal} {n : Nat} {v : HVal} (H : Plays h root n v) :
    ∃ p, PlaysVia h root p n v := by
  induction H with
  | root => exact ⟨[], .root⟩
  | entry _ ha hm ih => obtain ⟨p, hp⟩ := ih; exact ⟨_, .entry hp ha (mem_dget (hw _ _ ha) hm)⟩
  | inner _ ha hm ih => obtain ⟨p, hp⟩ := ih; exact ⟨_, .inner hp ha (mem_dget (hw _ _ ha) hm)⟩
  | item _ ha hm ih =>
    obtain ⟨p, hp⟩ := ih
    obtain ⟨i, hi⟩ := List.mem_iff_getElem?.1 hm
    exact ⟨_, .item hp ha hi⟩

theorem via_reaches {h : Heap} {root : HVal} {p : List (PKey ⊕ Nat)} {n : Nat} {v : HVal} (H : PlaysVia h root p n v) :
    Reaches h root p v := by
  induction H with
  | root => exact .here
  | entry _ ha hm ih => exact .key ih ha hm
  | inner _ ha hm ih => exact .key ih ha hm
  | item _ ha hm ih => exact .item ih ha hm

theorem via_det {h : Heap} {root : HVal} : ∀ (p : List (PKey ⊕ Nat)) {n m : Nat} {v w : HVal}, PlaysVia h root p n v →
    PlaysVia h root p m w → n = m ∧ v = w := by
  intro p
  induction p with
  | nil => intro n m v w h1 h2; cases h1; cases h2; exact ⟨rfl, rfl⟩
  | cons s p ih =>
    intro n m v w h1 h2
    cases h1 with
    | entry p1 a1 g1 =>
      cases h2 with
      | entry p2 a2 g2 =>
        obtain ⟨e1, e2⟩ := ih p1 p2
        cases e1; cases e2
        rw [a1] at a2; cases a2
        rw [g1] at g2; cases g2
        exact ⟨rfl, rfl⟩
      | inner p2 a2 g2 =>
        obtain ⟨e1, e2⟩ := ih p1 p2
        cases e1
    | inner p1 a1 g1 =>
      cases h2 with
      | entry p2 a2 g2 =>
        obtain ⟨e1, e2⟩ := ih p1 p2
        cases e1
      | inner p2 a2 g2 =>
        obtain ⟨e1, e2⟩ := ih p1 p2
        cases e2
        rw [a1] at a2; cases a2
        rw [g1] at g2; cases g2
        exact ⟨rfl, rfl⟩
    | item p1 a1 g1 =>
      cases h2 with
      | item p2 a2 g2 =>
        obtain ⟨e1, e2⟩ := ih p1 p2
        cases e2
        rw [a1] at a2; cases a2
        rw [g1] at g2; cases g2
        exact ⟨rfl, rfl⟩

/-- C92: a file without aliases is expanded exactly as the tree it denotes (this justifies treating rules files as
trees everywhere else in the model). -/
theorem C92_without_aliases (h : Heap) (root : HVal) (t : PVal) (hw : h.WF) (ho : WritesOut h root t)
    (hn : NoAlias h root) :
    (∀ x, expandRules t = .error x → hExpandRules root h = .error x) ∧
    (∀ t', expandRules t = .ok t' → ∃ v' h', hExpandRules root h = .ok (v', h') ∧ WritesOut h' v' t') := by
  refine C92_aliases_written_out_partial h root t hw ho fun a d m n _ hm hp => ?_
  obtain ⟨p, h1⟩ := plays_via hw hm
  obtain ⟨q, h2⟩ := plays_via hw hp
  have := hn p q a (via_reaches h1) (via_reaches h2)
  subst this
  exact (via_det p h1 h2).1

/-! ### concrete files -/

/-- A way to see that no dict stands in two roles: an assignment of roles that fits. -/
theorem oneRole_of {h : Heap} {root : HVal} (role : Nat → Nat) (h0 : ∀ a, root = .ref a → role a = 5)
    (h1 : ∀ (a : Nat) (d : Dict PKey HVal) (k : PKey) (b : Nat), h[a]? = some (.dict d) → (k, .ref b) ∈ d →
      (role a = 0 → role b = 0) ∧ ∀ n, role a = n + 1 → (∃ e, h[b]? = some (.dict e)) → role b = roleUnder h n k (.ref b))
    (h2 : ∀ (a : Nat) (l : List HVal) (b : Nat), h[a]? = some (.list l) → .ref b ∈ l → role b = 0) : OneRole h root := by
  have key : ∀ (n : Nat) (v : HVal), Plays h root n v → ∀ a d, v = .ref a → h[a]? = some (.dict d) → role a = n := by
    intro n v H
    induction H with
    | root => intro a d hv _; exact h0 a hv
    | entry _ ha hm ih =>
      intro b e hv hb
      subst hv
      exact (h1 _ _ _ b ha hm).2 _ (ih _ _ rfl ha) ⟨e, hb⟩
    | inner _ ha hm ih =>
      intro b e hv hb
      subst hv
      exact (h1 _ _ _ b ha hm).1 (ih _ _ rfl ha)
    | item _ ha hm ih =>
      intro b e hv hb
      subst hv
      exact h2 _ _ b ha hm
  intro a d m n ha hm hp
  rw [← key m _ hm a d rfl ha, ← key n _ hp a d rfl ha]

/-- Roles fit, as a check on a given memory (used for the examples only). -/
def rolesFit (h : Heap) (role : Nat → Nat) : Bool :=
  (List.range h.length).all fun a =>
    match h[a]? with
    | some (.dict d) => d.all fun kv =>
      match kv.2 with
      | .ref b => match role a with
        | 0 => role b == 0
        | n + 1 => match h[b]? with
          | some (.dict _) => role b == roleUnder h n kv.1 (.ref b)
          | _ => true
      | _ => true
    | some (.list l) => l.all fun v => match v with | .ref b => role b == 0 | _ => true
    | Option.none => true

theorem oneRole_fit {h : Heap} {r : Nat} (role : Nat → Nat) (h0 : role r = 5) (hf : rolesFit h role = true) :
    OneRole h (.ref r) := by
  have hall : ∀ a, a < h.length → _ := fun a ha => List.all_eq_true.1 hf a (List.mem_range.2 ha)
  refine oneRole_of role (fun a ha => by cases ha; exact h0) (fun a d k b ha hm => ?_) (fun a l b ha hm => ?_)
  · have := hall a (lt_of_get ha)
    rw [ha] at this
    have := List.all_eq_true.1 this (k, .ref b) hm
    simp only at this
    constructor
    · intro hz; rw [hz] at this; simpa using this
    · rintro n hn ⟨e, he⟩
      rw [hn] at this
      simp only [he] at this
      simpa using this
  · have := hall a (lt_of_get ha)
    rw [ha] at this
    have := List.all_eq_true.1 this (.ref b) hm
    simpa using this

theorem Heap_WF_check {h : Heap} (hc : (h.all fun o => match o with | .dict d => decide (DWF d) | _ => true) = true) : h.WF := by
  intro a d ha
  have := List.all_eq_true.1 hc (.dict d) (List.mem_of_getElem? ha)
  simpa using this

/-- ```
foo: &f
  ubuntu: &u [libfoo]
  any_os: &p {pip: foo}
bar: *f
baz:
  debian: {any_version: *p, wheezy: *u}
``` -/
def aliasHeap : Heap :=
  [.dict [(.str "foo", .ref 1), (.str "bar", .ref 1), (.str "baz", .ref 4)],
   .dict [(.str "ubuntu", .ref 2), (.str "any_os", .ref 3)],
   .list [.str "libfoo"],
   .dict [(.str "pip", .str "foo")],
   .dict [(.str "debian", .ref 5)],
   .dict [(.str "any_version", .ref 3), (.str "wheezy", .ref 2)]]

/-- `aliasHeap` written out. -/
def aliasTree : PVal :=
  .dict [(.str "foo", .dict [(.str "ubuntu", .list [.str "libfoo"]), (.str "any_os", .dict [(.str "pip", .str "foo")])]),
   (.str "bar", .dict [(.str "ubuntu", .list [.str "libfoo"]), (.str "any_os", .dict [(.str "pip", .str "foo")])]),
   (.str "baz", .dict [(.str "debian", .dict [(.str "any_version", .dict [(.str "pip", .str "foo")]),
      (.str "wheezy", .list [.str "libfoo"])])])]

theorem aliasTree_out : WritesOut aliasHeap (.ref 0) aliasTree := by
  simp [WritesOut, aliasTree, aliasHeap, TreeAt, ItemsAt, ListAt]

/-- The hypotheses of `C92_aliases_written_out_partial` hold of a file with three aliases ... -/
example : aliasHeap.WF ∧ WritesOut aliasHeap (.ref 0) aliasTree ∧ OneRole aliasHeap (.ref 0) ∧
    ¬ NoAlias aliasHeap (.ref 0) := by
  refine ⟨Heap_WF_check (by decide), aliasTree_out,
    oneRole_fit (fun a => [5, 4, 0, 2, 4, 3].getD a 0) rfl (by decide), fun hn => ?_⟩
  have h1 : Reaches aliasHeap (.ref 0) [.inl (.str "foo")] (.ref 1) := .key .here rfl rfl
  have h2 : Reaches aliasHeap (.ref 0) [.inl (.str "bar")] (.ref 1) := .key .here rfl rfl
  exact absurd (hn _ _ _ h1 h2) (by decide)

/-- ... whose expansion succeeds. -/
example : expandRules aliasTree = .ok
    (.dict [(.str "foo", .dict [(.str "ubuntu", .dict [(.str "any_version", .dict [(.str "default_installer",
        .dict [(.str "packages", .list [.str "libfoo"])])])]),
      (.str "any_os", .dict [(.str "any_version", .dict [(.str "pip", .dict [(.str "packages", .list [.str "foo"])])])])]),
     (.str "bar", .dict [(.str "ubuntu", .dict [(.str "any_version", .dict [(.str "default_installer",
        .dict [(.str "packages", .list [.str "libfoo"])])])]),
      (.str "any_os", .dict [(.str "any_version", .dict [(.str "pip", .dict [(.str "packages", .list [.str "foo"])])])])]),
     (.str "baz", .dict [(.str "debian", .dict [
      (.str "any_version", .dict [(.str "pip", .dict [(.str "packages", .list [.str "foo"])])]),
      (.str "wheezy", .dict [(.str "default_installer", .dict [(.str "packages", .list [.str "libfoo"])])])])])]) := rfl

/-- ```
foo:
  ubuntu: &x {apt: [libfoo]}
  any_os: *x
``` -/
def twoRolesHeap : Heap :=
  [.dict [(.str "foo", .ref 1)],
   .dict [(.str "ubuntu", .ref 2), (.str "any_os", .ref 2)],
   .dict [(.str "apt", .ref 3)],
   .list [.str "libfoo"]]

/-- `twoRolesHeap` written out. -/
def twoRolesTree : PVal :=
  .dict [(.str "foo", .dict [(.str "ubuntu", .dict [(.str "apt", .list [.str "libfoo"])]),
    (.str "any_os", .dict [(.str "apt", .list [.str "libfoo"])])])]

/-- C92 (refutation of the unrestricted claim): in this file one dict is a version dict under `ubuntu` and an
installer dict under `any_os`. Written out, the `any_os` rule of installer `apt` is the package list; with the
alias, it is a dict with the single entry `default_installer`, that is, a rule without packages. -/
theorem C92_two_roles_refuted : ∃ (h : Heap) (root : HVal) (t t' u : PVal) (v' : HVal) (h' : Heap),
    h.WF ∧ WritesOut h root t ∧ expandRules t = .ok t' ∧ hExpandRules root h = .ok (v', h') ∧ WritesOut h' v' u ∧
    u ≠ t' ∧ ¬ WritesOut h' v' t' ∧
    (∃ o, t' = .dict [(.str "foo", .dict [o, (.str "any_os", .dict [(.str "any_version",
      .dict [(.str "apt", .dict [(.str "packages", .list [.str "libfoo"])])])])])]) ∧
    (∃ o, u = .dict [(.str "foo", .dict [o, (.str "any_os", .dict [(.str "any_version",
      .dict [(.str "apt", .dict [(.str "default_installer", .dict [(.str "packages", .list [.str "libfoo"])])])])])])]) := by
  have hu : ∀ (h' : Heap) (v' : HVal) (u t' : PVal), WritesOut h' v' u → u ≠ t' → ¬ WritesOut h' v' t' :=
    fun h' v' u t' h1 h2 h3 => h2 (TreeAt_det _ _ _ h1 h3)
  have hout : WritesOut
      [.dict [(.str "foo", .ref 1)], .dict [(.str "ubuntu", .ref 2), (.str "any_os", .ref 6)],
       .dict [(.str "apt", .ref 4)], .list [.str "libfoo"], .dict [(.str "default_installer", .ref 5)],
       .dict [(.str "packages", .ref 3)], .dict [(.str "any_version", .ref 2)]] (.ref 0)
      (.dict [(.str "foo", .dict [(.str "ubuntu", .dict [(.str "apt", .dict [(.str "default_installer",
        .dict [(.str "packages", .list [.str "libfoo"])])])]), (.str "any_os", .dict [(.str "any_version",
      .dict [(.str "apt", .dict [(.str "default_installer", .dict [(.str "packages", .list [.str "libfoo"])])])])])])]) := by
    simp [WritesOut, TreeAt, ItemsAt, ListAt]
  have hne : ∀ o o' : PKey × PVal, PVal.dict [(.str "foo", .dict [o, (.str "any_os", .dict [(.str "any_version",
      .dict [(.str "apt", .dict [(.str "default_installer", .dict [(.str "packages", .list [.str "libfoo"])])])])])])] ≠
      .dict [(.str "foo", .dict [o', (.str "any_os", .dict [(.str "any_version",
      .dict [(.str "apt", .dict [(.str "packages", .list [.str "libfoo"])])])])])] := by
    intro o o' h
    simp at h
  exact ⟨twoRolesHeap, .ref 0, twoRolesTree, _, _, _, _, Heap_WF_check (by decide),
    by simp [WritesOut, twoRolesTree, twoRolesHeap, TreeAt, ItemsAt, ListAt], rfl, rfl, hout, hne _ _,
    hu _ _ _ _ hout (hne _ _), ⟨_, rfl⟩, ⟨_, rfl⟩⟩

end Verif
