import Verif.Spec.Depends
import Verif.Props.Installers
import Verif.Props.Resolve
/-!
# C150: dependencies of rules
-/
namespace Verif
variable {σ : Type} {ic : InstallerCtx σ} {expand : String → String}

private theorem packagesOf_congr {r r' : Rule} (h : dget r "packages" = dget r' "packages") : packagesOf r = packagesOf r' := by
  unfold packagesOf; rw [h]

private theorem baseResolve_same {r r' : Rule} (h : SamePackages r r') :
    baseResolve expand (describe ruleItems) r = baseResolve expand (describe ruleItems) r' := by
  obtain ⟨h1, h2, h3⟩ := h
  by_cases hp : TextList (dget r "packages")
  · rw [baseResolve_textList expand r hp h2, baseResolve_textList expand r' (h1 ▸ hp) h3, packagesOf_congr h1]
  · rw [((C68_one_resolution_per_package expand r).2 (.inl hp)).1, ((C68_one_resolution_per_package expand r').2 (.inl (h1 ▸ hp))).1]

/-- Equal outcome of looking for a rule. -/
private def SameFound (x y : Option Rule) : Prop := (x = none ∧ y = none) ∨ ∃ r r', x = some r ∧ y = some r' ∧ SamePackages r r'

private theorem dget_same {d d' : InstDict} (h : List.Forall₂ (fun x y => x.1 = y.1 ∧ SamePackages x.2 y.2) d d') (n : String) :
    SameFound (dget d n) (dget d' n) := by
  induction h with
  | nil => exact .inl ⟨rfl, rfl⟩
  | @cons x y d d' hxy _ ih =>
    obtain ⟨k, r⟩ := x
    obtain ⟨k', r'⟩ := y
    obtain ⟨h1, h2⟩ := hxy
    simp only at h1 h2
    subst h1
    by_cases hk : k = n
    · exact .inr ⟨r, r', by simp [dget, hk], by simp [dget, hk], h2⟩
    · have e : ∀ (r : Rule) (d : InstDict), dget ((k, r) :: d) n = dget d n := fun r d => by simp [dget, hk]
      rw [e, e]; exact ih

/-- Equal choice of an installer, with rules that list the same packages. -/
private def SameChoice (i i' : Option (Installer σ × Rule)) : Prop :=
  (i = none ∧ i' = none) ∨ ∃ x r r', i = some (x, r) ∧ i' = some (x, r') ∧ SamePackages r r'

private theorem coreLoop_same {d d' : InstDict} (h : List.Forall₂ (fun x y => x.1 = y.1 ∧ SamePackages x.2 y.2) d d') (l : List (Installer σ)) :
    SameChoice (coreLoop d l) (coreLoop d' l) := by
  induction l with
  | nil => exact .inl ⟨rfl, rfl⟩
  | cons i l ih =>
    rw [coreLoop, coreLoop]
    rcases dget_same h i.name with ⟨h1, h2⟩ | ⟨r, r', h1, h2, h3⟩
    · rw [h1, h2]; exact ih
    · rw [h1, h2]; exact .inr ⟨i, r, r', rfl, rfl, h3⟩

private theorem additionalLoop_same {d d' : InstDict} (h : List.Forall₂ (fun x y => x.1 = y.1 ∧ SamePackages x.2 y.2) d d') (l : List (Installer σ))
    {acc acc' : Option (Installer σ × Rule)} (ha : SameChoice acc acc') : SameChoice (additionalLoop d acc l) (additionalLoop d' acc' l) := by
  induction l generalizing acc acc' with
  | nil => exact ha
  | cons i l ih =>
    rw [additionalLoop, additionalLoop]
    rcases dget_same h i.name with ⟨h1, h2⟩ | ⟨r, r', h1, h2, h3⟩
    · rw [h1, h2]; exact ih ha
    · rw [h1, h2]; exact ih (.inr ⟨i, r, r', rfl, rfl, h3⟩)

private theorem coreLoop_mem {d : InstDict} {l : List (Installer σ)} {x : Installer σ × Rule} (h : coreLoop d l = some x) : x.1 ∈ l := by
  induction l with
  | nil => cases h
  | cons i l ih =>
    rw [coreLoop] at h
    cases hd : dget d i.name with
    | none => rw [hd] at h; exact List.mem_cons_of_mem _ (ih h)
    | some r => rw [hd] at h; injection h with h; rw [← h]; simp

private theorem additionalLoop_mem {d : InstDict} {l : List (Installer σ)} {acc : Option (Installer σ × Rule)} {x : Installer σ × Rule}
    (h : additionalLoop d acc l = some x) : acc = some x ∨ x.1 ∈ l := by
  induction l generalizing acc with
  | nil => exact .inl h
  | cons i l ih =>
    rw [additionalLoop] at h
    cases hd : dget d i.name with
    | none => rw [hd] at h; exact (ih h).imp id (List.mem_cons_of_mem _)
    | some r =>
      rw [hd] at h
      rcases ih h with h | h
      · injection h with h; rw [← h]; simp
      · exact .inr (List.mem_cons_of_mem _ h)

private theorem choose_same {ifm : Dict String String} {key : String} {d d' : InstDict}
    (h : List.Forall₂ (fun x y => x.1 = y.1 ∧ SamePackages x.2 y.2) d d') :
    (∃ e, chooseInstaller ic ifm key d = .error e ∧ chooseInstaller ic ifm key d' = .error e) ∨
      ∃ i r r', chooseInstaller ic ifm key d = .ok (i, r) ∧ chooseInstaller ic ifm key d' = .ok (i, r') ∧ SamePackages r r' ∧
        (i ∈ ic.plugins ∨ i ∈ ic.core ∨ i ∈ ic.additional) := by
  unfold chooseInstaller
  cases dget ifm key with
  | some instName =>
    simp only
    cases hl : lookupInstaller ic instName with
    | none => exact .inl ⟨_, rfl, rfl⟩
    | some inst =>
      simp only
      rcases dget_same h instName with ⟨h1, h2⟩ | ⟨r, r', h1, h2, h3⟩
      · rw [h1, h2]; exact .inl ⟨_, rfl, rfl⟩
      · rw [h1, h2]; exact .inr ⟨inst, r, r', rfl, rfl, h3, .inl (List.mem_of_find?_eq_some hl)⟩
  | none =>
    simp only
    rcases coreLoop_same h ic.core with ⟨h1, h2⟩ | ⟨i, r, r', h1, h2, h3⟩
    · rw [h1, h2]
      simp only
      rcases additionalLoop_same h ic.additional (acc := none) (acc' := none) (.inl ⟨rfl, rfl⟩) with ⟨h1, h2⟩ | ⟨i, r, r', h1, h2, h3⟩
      · rw [h1, h2]; exact .inl ⟨_, rfl, rfl⟩
      · rw [h1, h2]
        refine .inr ⟨i, r, r', rfl, rfl, h3, .inr (.inr ?_)⟩
        rcases additionalLoop_mem h1 with h | h
        · cases h
        · exact h
    · rw [h1, h2]
      exact .inr ⟨i, r, r', rfl, rfl, h3, .inr (.inl (coreLoop_mem h1))⟩

private theorem resolveKey_same (hu : UsualRules expand ic) {db db' : Database} (h : SameButDepends db db') (ifm : Dict String String) (key : String) :
    resolveKey ic db.lookup ifm key = resolveKey ic db'.lookup ifm key := by
  unfold resolveKey
  rcases h.2 key with ⟨e, h1, h2⟩ | ⟨d, d', h1, h2, h3⟩
  · rw [h1, h2]
  · rw [h1, h2]
    cases h3 with
    | nil => rfl
    | @cons x y d d' hxy ht =>
      simp only
      rcases choose_same (ic := ic) (ifm := ifm) (key := key) (List.Forall₂.cons hxy ht) with ⟨e, e1, e2⟩ | ⟨i, r, r', e1, e2, e3, hi⟩
      · rw [e1, e2]
      · rw [e1, e2]
        show resolveWith i r = resolveWith i r'
        unfold resolveWith
        rw [hu i hi, baseResolve_same e3]

private theorem resolveLoop_same (hu : UsualRules expand ic) {db db' : Database} (h : SameButDepends db db') (ifm : Dict String String) (acc : Resolved)
    (ks : List String) : resolveLoop ic db.lookup ifm acc ks = resolveLoop ic db'.lookup ifm acc ks := by
  induction ks generalizing acc with
  | nil => rfl
  | cons k ks ih =>
    rw [resolveLoop, resolveLoop, resolveKey_same hu h]
    rcases resolveKey ic db'.lookup ifm k with e | (e | r)
    · rfl
    · exact ih _
    · exact ih _

/-- **C150** (refuted) What rules depend on has no influence on what keys resolve to: any two databases that differ only in the `depends` of rules give the same results and errors. -/
theorem C150_resolve_ignores_depends_refuted (hu : UsualRules expand ic) {db db' : Database} (h : SameButDepends db db')
    (installFrom : Dict String (List String)) (keys : List String) (all : Bool) :
    resolve ic db installFrom keys all = resolve ic db' installFrom keys all := by
  unfold resolve lookupKeys
  rw [h.1]
  congr 1
  funext ks
  exact resolveLoop_same hu h _ _ _

/-- **C150** (refuted) … nor on what an installation does. -/
theorem C150_install_ignores_depends_refuted (m : Machine σ) (hu : UsualRules expand ic) {db db' : Database} (h : SameButDepends db db')
    (installFrom : Dict String (List String)) (o : InstallOpts) (keys : List String) (all : Bool) :
    install m ic db installFrom o keys all = install m ic db' installFrom o keys all := by
  unfold install
  rw [C150_resolve_ignores_depends_refuted hu h]

/-- **C150** (the part that holds) A plugin tells what a valid rule depends on: the listed keys, in order. -/
theorem C150_depends_known_partial (rule : Rule) (hp : TextList (dget rule "packages")) {keys : List String}
    (hd : dget rule "depends" = some (.list (keys.map .str))) :
    getDepends expand (describe ruleItems) rule = .ok (.list (keys.map .str)) := by
  have ht : TextList (dget rule "depends") := .inr (.inr ⟨_, hd, fun x hx => .inr (by
    obtain ⟨s, -, rfl⟩ := List.mem_map.1 hx
    exact ⟨s, rfl⟩)⟩)
  rw [(C68_depends expand rule).1 hp ht]
  unfold ruleList
  rw [hd]

/-! ### examples -/

/-- An installer that resolves rules as the built-in ones do. -/
def exUsual (n : String) : Installer Unit := { exInst n with resolve := baseResolve id (describe ruleItems) }

def exUsualCtx : InstallerCtx Unit := ⟨[exUsual "apt", exUsual "pip"], [exUsual "apt"], [exUsual "pip"], .ok ("ubuntu", "trusty")⟩

/-- Rules for two keys; `depends` is what the rule of "ros" depends on. -/
def exDependsDb (depends : Dict String PVal) : Database where
  lookup key := if key = "ros" then .ok [("apt", ("packages", .list [.str "ros-core"]) :: depends)]
    else if key = "boost" then .ok [("apt", [("packages", .list [.str "libboost"])])] else .error .lookupError
  keys := .ok ["boost", "ros"]

private theorem exDependsDb_same (keys : List String) : SameButDepends (exDependsDb [("depends", .list (keys.map .str))]) (exDependsDb []) := by
  refine ⟨rfl, fun key => ?_⟩
  unfold exDependsDb
  simp only
  have none : TextList none := .inl rfl
  have some : TextList (some (PVal.list (keys.map .str))) := .inr (.inr ⟨_, rfl, fun x hx => .inr (by
    obtain ⟨s, -, rfl⟩ := List.mem_map.1 hx
    exact ⟨s, rfl⟩)⟩)
  split
  · exact .inr ⟨_, _, rfl, rfl, .cons ⟨rfl, rfl, some, none⟩ .nil⟩
  · split
    · exact .inr ⟨_, _, rfl, rfl, .cons ⟨rfl, rfl, none, none⟩ .nil⟩
    · exact .inl ⟨_, rfl, rfl⟩

private theorem exUsualCtx_usual : UsualRules id exUsualCtx := by
  intro i hi
  simp only [exUsualCtx, List.mem_cons, List.not_mem_nil, or_false] at hi
  rcases hi with (rfl | rfl) | rfl | rfl <;> rfl

/-- **C150** Witness: the rule of "ros" depends on "boost", for which there is a rule as well, but "ros" resolves to its own package alone;
asking for the dependency gives it. -/
theorem C150_witness : resolve exUsualCtx (exDependsDb [("depends", .list (["boost"].map .str))]) [] ["ros"] false =
      .ok ⟨[("ros", ("apt", [packageResolution [] (.str "ros-core")]))], []⟩ ∧
    resolve exUsualCtx (exDependsDb [("depends", .list (["boost"].map .str))]) [] ["boost"] false = .ok ⟨[("boost", ("apt", [packageResolution [] (.str "libboost")]))], []⟩ ∧
    getDepends id (describe ruleItems) (("packages", .list [.str "ros-core"]) :: [("depends", .list (["boost"].map .str))]) = .ok (.list [.str "boost"]) := by
  refine ⟨?_, ?_, C150_depends_known_partial (expand := id) _ (.inr (.inr ⟨_, rfl, fun x hx => .inr ⟨"ros-core", List.mem_singleton.1 hx⟩⟩)) (keys := ["boost"]) rfl⟩
  · rw [C150_resolve_ignores_depends_refuted exUsualCtx_usual (exDependsDb_same _)]; rfl
  · rfl

/-- A dependency that does not exist at all makes no difference either. -/
example (m : Machine Unit) (o : InstallOpts) : install m exUsualCtx (exDependsDb [("depends", .list (["nothing"].map .str))]) [] o ["ros"] false =
    install m exUsualCtx (exDependsDb []) [] o ["ros"] false :=
  C150_install_ignores_depends_refuted m exUsualCtx_usual (exDependsDb_same _) _ _ _ _

end Verif
