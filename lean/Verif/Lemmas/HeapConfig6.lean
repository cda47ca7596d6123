import Verif.Lemmas.HeapConfig5
import Verif.Spec.HeapConfig
import Verif.Props.HeapMerge
/-!
# Programs working with configs
-/
set_option linter.unusedSimpArgs false
namespace Verif
variable {h0 : Heap}

theorem Desc.Wf.group {desc : Desc} (hw : desc.Wf) {g : String} : desc.Group g ↔ g ∈ dkeys desc.groups := by
  constructor
  · rintro ⟨n, i, s, hn, hg⟩
    obtain ⟨gd, h1, -⟩ := hw.inGroup n i g s (hw.has.1 hn) hg
    exact mem_dkeys_iff.2 (by simp [h1])
  · intro hg
    obtain ⟨gd, hgd⟩ := Option.isSome_iff_exists.1 (mem_dkeys_iff.1 hg)
    obtain ⟨w, hne, hh⟩ := hw.ofGroup g gd hgd
    cases gd with
    | nil => exact absurd rfl hne
    | cons x gd =>
      obtain ⟨s, i⟩ := x
      obtain ⟨h1, h2⟩ := hh s i (by simp [dget_cons])
      exact ⟨i.name, i, s, hw.has.2 h2, h1⟩

theorem Desc.Wf.not_group {desc : Desc} (hw : desc.Wf) {n : String} {i : ConfigItem} (hn : desc.Has n i) : ¬ desc.Group n := by
  rw [hw.group]
  exact hw.disjoint n (mem_dkeys_iff.2 (by simp [hw.has.1 hn]))

theorem DefaultsIn.at {desc : Desc} (hw : desc.Wf) {dflt : String → HVal} {h : Heap} (hd : DefaultsIn h dflt desc) : DefaultsAt h dflt desc :=
  fun n i hi => hd n i (hw.has.2 hi)

theorem groupAddr_iff {h : Heap} {a : Nat} {g : String} {b : Nat} : groupAddr h a g = some b ↔ ∃ d, h[a]? = some (.dict d) ∧ dget d (.str g) = some (.ref b) := by
  unfold groupAddr
  split
  · rename_i d hd
    split
    · rename_i b' hb
      constructor
      · intro e; injection e with e; subst e; exact ⟨d, hd, hb⟩
      · rintro ⟨d', h1, h2⟩; rw [hd] at h1; injection h1 with h1; injection h1 with h1; subst h1; rw [hb] at h2; injection h2 with h2; injection h2 with h2; rw [h2]
    · rename_i hne
      constructor
      · intro e; cases e
      · rintro ⟨d', h1, h2⟩; rw [hd] at h1; injection h1 with h1; injection h1 with h1; subst h1; exact absurd h2 (hne b)
  · rename_i hne
    constructor
    · intro e; cases e
    · rintro ⟨d', h1, h2⟩; exact absurd h1 (hne d')

theorem Created.newDicts {desc : Desc} (hw : desc.Wf) {h h' : Heap} {v : HVal} {c : Config} (n : Created desc h v c h')
    (hg : ∀ g, g ∈ dkeys desc.groups → HasGroup c g) : ∃ a, v = .ref a ∧ NewDicts desc h a h' := by
  obtain ⟨h1, S, F, hS, ⟨a, d, G, rfl, o⟩, hF⟩ := n
  have key : ∀ g, desc.Group g → ∃ b, groupAddr h' a g = some b ∧ G g b ∧ IsDict h' b := by
    intro g hgr
    rw [hw.group] at hgr
    obtain ⟨e, he⟩ := hg g hgr
    obtain ⟨w, h2, h3⟩ := o.child g (true, .grp e) (by rw [dget_tag, he, ← hS g hgr]; rfl)
    rw [EntryOwn.grp] at h3
    obtain ⟨b, d', G', rfl, o'⟩ := h3
    exact ⟨b, groupAddr_iff.2 ⟨d, o.get, h2⟩, o'.root, d', o'.get⟩
  refine ⟨a, rfl, ?_⟩
  constructor
  · exact hF a o.root
  · exact ⟨d, o.get⟩
  · intro g hgr
    obtain ⟨b, h2, h3, h4⟩ := key g hgr
    exact ⟨b, h2, hF b (o.inside g b h3).1, h4, (o.inside g b h3).2⟩
  · intro g g' hgr hgr' he
    obtain ⟨b, h2, h3, -⟩ := key g hgr
    obtain ⟨b', h2', h3', -⟩ := key g' hgr'
    rw [h2, h2'] at he
    injection he with he; subst he
    exact o.apart g g' b h3 h3'

/-- The run makes a new config. -/
structure MakesConfig (desc : Desc) (h : Heap) (run : Except Exc HVal × Heap) (x : Except Exc Config) : Prop where
  does : DoesAs h Config.toVal run x
  new : ∀ v, run.1 = .ok v → ∃ a, v = .ref a ∧ NewDicts desc h a run.2

theorem makesConfig_of_ref {desc : Desc} (hw : desc.Wf) {h : Heap} {m : HX HVal} {x : Except Exc Config}
    (hr : Ref NoFP h m x (fun v c h' => Created desc h v c h' ∧ ∀ g, g ∈ dkeys desc.groups → HasGroup c g)) : MakesConfig desc h (m h) x := by
  refine ⟨doesAs_of_ref (.refl h) hr fun v t h' q => q.1.writes, ?_⟩
  obtain ⟨r, h', e, s, ag⟩ := hr
  rw [e]
  rintro v rfl
  cases ag with
  | ok q => exact q.1.newDicts hw q.2

theorem newYaml_loads {load : String → HX HVal} {loadYaml : String → Except Exc PVal} (hl : NewYaml load loadYaml) : LoadsAs load loadYaml := by
  intro s h
  obtain ⟨⟨t, ht⟩, h2, h3⟩ := hl s h
  have st : Steps NoFP h (load s h).2 := ⟨by rw [← ht]; simp, fun x hx _ => by rw [← ht, List.getElem?_append_left hx]⟩
  cases hx : loadYaml s with
  | error e => exact ⟨_, _, Prod.ext (h2 e hx) rfl, st, .err e⟩
  | ok t =>
    obtain ⟨v, h4, h5⟩ := h3 t hx
    exact ⟨_, _, Prod.ext h4 rfl, st, .ok h5⟩

/-! ## The invariant -/

/-- What holds at any time. -/
structure CInv (desc : Desc) (h0 : Heap) (s : CState) : Prop where
  kept : Kept h0 s.heap
  nodup : s.configs.Nodup
  conf : ∀ a ∈ s.configs, h0.length ≤ a ∧ IsDict s.heap a
  group : ∀ a ∈ s.configs, ∀ g, desc.Group g → ∃ b, groupAddr s.heap a g = some b ∧ h0.length ≤ b ∧ IsDict s.heap b ∧ b ∉ s.configs
  apart : ∀ a ∈ s.configs, ∀ a' ∈ s.configs, ∀ g g' b, desc.Group g → desc.Group g' → groupAddr s.heap a g = some b → groupAddr s.heap a' g' = some b → a = a' ∧ g = g'

theorem IsDict.lt {h : Heap} {a : Nat} (hd : IsDict h a) : a < h.length := by
  obtain ⟨d, hd⟩ := hd; exact lt_of_getElem? hd

theorem IsDict.kept {h h' : Heap} (k : Kept h h') {a : Nat} (hd : IsDict h a) : IsDict h' a := by
  obtain ⟨d, hd⟩ := hd; exact ⟨d, k.get hd⟩

theorem groupAddr_kept {h h' : Heap} (k : Kept h h') {a : Nat} (hd : IsDict h a) (g : String) : groupAddr h' a g = groupAddr h a g := by
  unfold groupAddr
  rw [k.same a hd.lt]

theorem CInv.grow {desc : Desc} {s : CState} (hi : CInv desc h0 s) {h' : Heap} (k : Kept s.heap h') : CInv desc h0 { s with heap := h' } where
  kept := hi.kept.trans k
  nodup := hi.nodup
  conf := fun a ha => ⟨(hi.conf a ha).1, (hi.conf a ha).2.kept k⟩
  group := fun a ha g hg => by
    obtain ⟨b, h1, h2, h3, h4⟩ := hi.group a ha g hg
    exact ⟨b, by rw [groupAddr_kept k (hi.conf a ha).2]; exact h1, h2, h3.kept k, h4⟩
  apart := fun a ha a' ha' g g' b hg hg' h1 h2 => by
    rw [groupAddr_kept k (hi.conf a ha).2] at h1
    rw [groupAddr_kept k (hi.conf a' ha').2] at h2
    exact hi.apart a ha a' ha' g g' b hg hg' h1 h2

theorem CInv.add {desc : Desc} {s : CState} (hi : CInv desc h0 s) {h' : Heap} (k : Kept s.heap h') {a : Nat} (n : NewDicts desc s.heap a h') :
    CInv desc h0 ⟨h', a :: s.configs⟩ := by
  have hg := hi.grow k
  have hlt : ∀ c ∈ s.configs, c < s.heap.length := fun c hc => (hi.conf c hc).2.lt
  have old : ∀ c ∈ s.configs, ∀ g b, desc.Group g → groupAddr h' c g = some b → b < s.heap.length := by
    intro c hc g b hgr hb
    obtain ⟨b', h1, -, h3, -⟩ := hi.group c hc g hgr
    rw [groupAddr_kept k (hi.conf c hc).2, h1] at hb
    injection hb with hb; subst hb
    exact h3.lt
  have new : ∀ g b, desc.Group g → groupAddr h' a g = some b → s.heap.length ≤ b := by
    intro g b hgr hb
    obtain ⟨b', h1, h2, -⟩ := n.group g hgr
    rw [h1] at hb; injection hb with hb; subst hb
    exact h2
  refine ⟨hg.kept, ?_, ?_, ?_, ?_⟩
  · refine List.nodup_cons.2 ⟨fun hm => ?_, hi.nodup⟩
    have := hlt a hm
    have := n.new
    omega
  · intro c hm
    rcases List.mem_cons.1 hm with rfl | hc
    · exact ⟨Nat.le_trans hi.kept.len n.new, n.dict⟩
    · exact hg.conf c hc
  · intro c hm0 g hgr
    rcases List.mem_cons.1 hm0 with rfl | hc
    · obtain ⟨b, h1, h2, h3, h4⟩ := n.group g hgr
      refine ⟨b, h1, Nat.le_trans hi.kept.len h2, h3, fun hm => ?_⟩
      rcases List.mem_cons.1 hm with rfl | hm
      · exact h4 rfl
      · have := hlt b hm; omega
    · obtain ⟨b, h1, h2, h3, h4⟩ := hg.group c hc g hgr
      refine ⟨b, h1, h2, h3, fun hm => ?_⟩
      rcases List.mem_cons.1 hm with rfl | hm
      · have := old c hc g b hgr h1
        have := n.new
        omega
      · exact h4 hm
  · intro c hm c' hm' g g' b hgr hgr' h1 h2
    rcases List.mem_cons.1 hm with rfl | hc <;> rcases List.mem_cons.1 hm' with rfl | hc'
    · exact ⟨rfl, n.apart g g' hgr hgr' (h1.trans h2.symm)⟩
    · have := old c' hc' g' b hgr' h2
      have := new g b hgr h1
      omega
    · have := old c hc g b hgr h1
      have := new g' b hgr' h2
      omega
    · exact hg.apart c hc c' hc' g g' b hgr hgr' h1 h2

theorem CInv.after {desc : Desc} {s : CState} (hi : CInv desc h0 s) {run : Except Exc HVal × Heap} {x : Except Exc Config} (hm : MakesConfig desc s.heap run x) :
    CInv desc h0 (s.after run) := by
  obtain ⟨r, h'⟩ := run
  have k : Kept s.heap h' := by
    obtain ⟨⟨t, ht⟩, -⟩ := hm.does
    simp only at ht
    exact ⟨by rw [← ht]; simp, fun y hy => by rw [← ht, List.getElem?_append_left hy]⟩
  cases r with
  | error e => exact hi.grow k
  | ok v =>
    obtain ⟨a, rfl, n⟩ := hm.new v rfl
    exact hi.add k n

/-! ## Assigning -/

theorem xset_at {h : Heap} {a : Nat} {d : Dict PKey HVal} (hd : h[a]? = some (.dict d)) (k : PKey) (w : HVal) :
    xset (.ref a) k w h = (.ok (), h.set a (.dict (dset d k w))) := by
  simp only [xset]
  rw [hx_bind]
  simp only [xdict, hd]
  rfl

theorem xindex_at {h : Heap} {a : Nat} {d : Dict PKey HVal} (hd : h[a]? = some (.dict d)) {k : PKey} {w : HVal} (hw : dget d k = some w) :
    xindex (.ref a) k h = (.ok w, h) := by
  simp only [xindex]
  rw [hx_bind]
  simp only [xdict, hd, hw]
  rfl

/-- Where an option is: the dict and the key. -/
def optAt (h : Heap) (a : Nat) (n : String) : Option (Nat × String) :=
  match groupOf n with
  | some (g, s) => (groupAddr h a g).map fun b => (b, s)
  | none => some (a, n)

theorem write_at {h : Heap} {a b : Nat} {n k : String} (ho : optAt h a n = some (b, k)) (hb : IsDict h b) (w : HVal) :
    ∃ d, h[b]? = some (.dict d) ∧ xWriteOpt (.ref a) n w h = (.ok (), h.set b (.dict (dset d (.str k) w))) := by
  obtain ⟨d, hd⟩ := hb
  refine ⟨d, hd, ?_⟩
  unfold optAt at ho
  unfold xWriteOpt
  cases hg : groupOf n with
  | none =>
    rw [hg] at ho
    injection ho with ho; injection ho with h1 h2; subst h1 h2
    exact xset_at hd _ _
  | some p =>
    obtain ⟨g, s⟩ := p
    rw [hg] at ho
    simp only [Option.map_eq_some_iff] at ho
    obtain ⟨b', h1, h2⟩ := ho
    injection h2 with h2 h3; subst h2 h3
    obtain ⟨e, h4, h5⟩ := groupAddr_iff.1 h1
    show (xindex (.ref a) (.str g) >>= fun d => xset d (.str s) w) h = _
    rw [hx_bind, xindex_at h4 h5]
    exact xset_at hd _ _

theorem read_at {h : Heap} {a b : Nat} {n k : String} (ho : optAt h a n = some (b, k)) : xReadOpt (.ref a) n h = xindex (.ref b) (.str k) h := by
  unfold optAt at ho
  unfold xReadOpt
  cases hg : groupOf n with
  | none =>
    rw [hg] at ho
    injection ho with ho; injection ho with h1 h2; subst h1 h2
    rfl
  | some p =>
    obtain ⟨g, s⟩ := p
    rw [hg] at ho
    simp only [Option.map_eq_some_iff] at ho
    obtain ⟨b', h1, h2⟩ := ho
    injection h2 with h2 h3; subst h2 h3
    obtain ⟨e, h4, h5⟩ := groupAddr_iff.1 h1
    show (xindex (.ref a) (.str g) >>= fun d => xindex d (.str s)) h = _
    rw [hx_bind, xindex_at h4 h5]

theorem CInv.opt {desc : Desc} {s : CState} (hi : CInv desc h0 s) {a : Nat} (ha : a ∈ s.configs) {n : String} {i : ConfigItem} (hn : desc.Has n i) :
    ∃ b k, optAt s.heap a n = some (b, k) ∧ h0.length ≤ b ∧ IsDict s.heap b := by
  unfold optAt
  cases hg : groupOf n with
  | none => exact ⟨a, n, rfl, hi.conf a ha⟩
  | some p =>
    obtain ⟨g, t⟩ := p
    obtain ⟨b, h1, h2, h3, -⟩ := hi.group a ha g ⟨n, i, t, hn, hg⟩
    exact ⟨b, t, by simp only [h1]; rfl, h2, h3⟩

/-- No two options are at the same place. -/
theorem CInv.opt_apart {desc : Desc} {s : CState} (hi : CInv desc h0 s) {a a' : Nat} (ha : a ∈ s.configs) (ha' : a' ∈ s.configs) {n n' : String} {i i' : ConfigItem}
    (hn : desc.Has n i) (hn' : desc.Has n' i') {b : Nat} {k : String} (h1 : optAt s.heap a n = some (b, k)) (h2 : optAt s.heap a' n' = some (b, k)) : a = a' ∧ n = n' := by
  unfold optAt at h1 h2
  cases hg : groupOf n with
  | none =>
    rw [hg] at h1
    injection h1 with h1; injection h1 with e1 e2; subst e1 e2
    cases hg' : groupOf n' with
    | none =>
      rw [hg'] at h2
      injection h2 with h2; injection h2 with e1 e2
      exact ⟨e1.symm, e2.symm⟩
    | some p =>
      obtain ⟨g, t⟩ := p
      rw [hg'] at h2
      simp only [Option.map_eq_some_iff] at h2
      obtain ⟨b', h3, h4⟩ := h2
      injection h4 with h4 h5; subst h4
      obtain ⟨b2, h6, -, -, h7⟩ := hi.group a' ha' g ⟨n', i', t, hn', hg'⟩
      rw [h3] at h6; injection h6 with h6; subst h6
      exact absurd ha h7
  | some p =>
    obtain ⟨g, t⟩ := p
    rw [hg] at h1
    simp only [Option.map_eq_some_iff] at h1
    obtain ⟨b', h3, h4⟩ := h1
    injection h4 with h4 h5; subst h4 h5
    cases hg' : groupOf n' with
    | none =>
      rw [hg'] at h2
      injection h2 with h2; injection h2 with e1 e2; subst e1
      obtain ⟨b2, h6, -, -, h7⟩ := hi.group a ha g ⟨n, i, t, hn, hg⟩
      rw [h3] at h6; injection h6 with h6; subst h6
      exact absurd ha' h7
    | some p' =>
      obtain ⟨g', t'⟩ := p'
      rw [hg'] at h2
      simp only [Option.map_eq_some_iff] at h2
      obtain ⟨b2, h6, h7⟩ := h2
      injection h7 with h7 h8; subst h7 h8
      obtain ⟨e1, e2⟩ := hi.apart a ha a' ha' g g' b2 ⟨n, i, _, hn, hg⟩ ⟨n', i', _, hn', hg'⟩ h3 h6
      subst e2
      exact ⟨e1, groupOf_inj hg hg'⟩

theorem IsDict.set {h : Heap} {a b : Nat} {d : Dict PKey HVal} (hb : b < h.length) (ha : IsDict h a) : IsDict (h.set b (.dict d)) a := by
  by_cases he : b = a
  · subst he; exact ⟨d, by simp [hb]⟩
  · obtain ⟨e, h1⟩ := ha
    exact ⟨e, by rw [getElem?_set_ne' (Ne.symm he)]; exact h1⟩

theorem groupAddr_set {h : Heap} {a b : Nat} {d : Dict PKey HVal} (hd : h[b]? = some (.dict d)) {k g : String} {w : HVal} (hne : b = a → k ≠ g) :
    groupAddr (h.set b (.dict (dset d (.str k) w))) a g = groupAddr h a g := by
  unfold groupAddr
  by_cases he : b = a
  · subst he
    have hl := lt_of_getElem? hd
    rw [List.getElem?_set_self hl, hd]
    simp only
    rw [dget_set, if_neg (fun e => hne rfl (by injection e))]
  · rw [getElem?_set_ne' (Ne.symm he)]

theorem CInv.assign {desc : Desc} (hw : desc.Wf) {s : CState} (hi : CInv desc h0 s) {a : Nat} (ha : a ∈ s.configs) {n : String} {i : ConfigItem} (hn : desc.Has n i) (w : HVal) :
    CInv desc h0 { s with heap := (xWriteOpt (.ref a) n w s.heap).2 } := by
  obtain ⟨b, k, h1, h2, h3⟩ := hi.opt ha hn
  obtain ⟨d, h4, h5⟩ := write_at h1 h3 w
  rw [h5]
  have hl := lt_of_getElem? h4
  have hne : ∀ c ∈ s.configs, ∀ g, desc.Group g → b = c → k ≠ g := by
    rintro c hc g hg rfl rfl
    unfold optAt at h1
    cases hgo : groupOf n with
    | none =>
      rw [hgo] at h1
      injection h1 with h1; injection h1 with e1 e2; subst e2
      exact hw.not_group hn hg
    | some p =>
      obtain ⟨g', t⟩ := p
      rw [hgo] at h1
      simp only [Option.map_eq_some_iff] at h1
      obtain ⟨b', h6, h7⟩ := h1
      injection h7 with h7 _; subst h7
      obtain ⟨b2, h8, -, -, h9⟩ := hi.group a ha g' ⟨n, i, t, hn, hgo⟩
      rw [h6] at h8; injection h8 with h8; subst h8
      exact h9 hc
  have hga : ∀ c ∈ s.configs, ∀ g, desc.Group g → groupAddr (s.heap.set b (.dict (dset d (.str k) w))) c g = groupAddr s.heap c g :=
    fun c hc g hg => groupAddr_set h4 (hne c hc g hg)
  refine ⟨⟨?_, fun x hx => ?_⟩, hi.nodup, fun c hc => ⟨(hi.conf c hc).1, (hi.conf c hc).2.set hl⟩, ?_, ?_⟩
  · simpa using hi.kept.len
  · simp only
    rw [getElem?_set_ne' (by omega)]
    exact hi.kept.same x hx
  · intro c hc g hg
    obtain ⟨b', e1, e2, e3, e4⟩ := hi.group c hc g hg
    exact ⟨b', (hga c hc g hg).trans e1, e2, e3.set hl, e4⟩
  · intro c hc c' hc' g g' b' hg hg' e1 e2
    exact hi.apart c hc c' hc' g g' b' hg hg' ((hga c hc g hg).symm.trans e1) ((hga c' hc' g' hg').symm.trans e2)

theorem CInv.change {desc : Desc} {s : CState} (hi : CInv desc h0 s) {a : Nat} (o : HObj) (ha : h0.length ≤ a) (hc : a ∉ s.configs)
    (hg : ∀ c ∈ s.configs, ∀ g, desc.Group g → groupAddr s.heap c g ≠ some a) : CInv desc h0 { s with heap := s.heap.set a o } := by
  have same : ∀ x, x ≠ a → (s.heap.set a o)[x]? = s.heap[x]? := fun x hx => getElem?_set_ne' hx
  have hne : ∀ c ∈ s.configs, c ≠ a := by rintro c h rfl; exact hc h
  have hga : ∀ c ∈ s.configs, ∀ g, groupAddr (s.heap.set a o) c g = groupAddr s.heap c g := by
    intro c h g
    unfold groupAddr
    rw [same c (hne c h)]
  have hd : ∀ x, x ≠ a → IsDict s.heap x → IsDict (s.heap.set a o) x := by
    rintro x hx ⟨d, hd⟩
    exact ⟨d, by rw [same x hx]; exact hd⟩
  refine ⟨⟨?_, fun x hx => ?_⟩, hi.nodup, fun c h => ⟨(hi.conf c h).1, hd c (hne c h) (hi.conf c h).2⟩, ?_, ?_⟩
  · simpa using hi.kept.len
  · simp only
    rw [same x (by omega)]
    exact hi.kept.same x hx
  · intro c h g hgr
    obtain ⟨b', e1, e2, e3, e4⟩ := hi.group c h g hgr
    refine ⟨b', (hga c h g).trans e1, e2, hd b' ?_ e3, e4⟩
    rintro rfl
    exact hg c h g hgr e1
  · intro c h c' h' g g' b' hgr hgr' e1 e2
    exact hi.apart c h c' h' g g' b' hgr hgr' ((hga c h g).symm.trans e1) ((hga c' h' g').symm.trans e2)

end Verif
