import Verif.Lemmas.HeapConfig6
import Verif.Props.ConfigFiles
/-!
# C108–C110: configs as objects in memory
-/
set_option linter.unusedSimpArgs false
namespace Verif

/-! ## Making configs -/

/-- C108: `get_default_config` computes the default config of the description; the config and its groups are new dicts and no object is changed. -/
theorem C108_default_config {desc : Desc} (hb : desc.Built) {dflt : String → HVal} {h : Heap} (hd : DefaultsIn h dflt desc) :
    MakesConfig desc h (xConfigFromDefaults dflt desc h) (configFromDefaults desc) := by
  have hw := hb.wf
  refine makesConfig_of_ref hw (Ref_conseq (Ref_val (default_config_ref hw (hd.at hw))) ?_)
  rintro v c h' s ⟨⟨n, -⟩, e⟩
  obtain ⟨r, h1, -, h3⟩ := defaults_spec hw
  rw [e] at h1; injection h1 with h1; subst h1
  exact ⟨n, h3⟩

/-- C109: `merge_configs` on complete configs in memory, with or without shared parts, computes the merged config; the result and its groups are new
dicts and no object, in particular none of the configs given, is changed. -/
theorem C109_merge_configs {desc : Desc} (hb : desc.Built) {h : Heap} (hwf : h.WF) {top : HVal} {c : Config} (ht : WritesOut h top (Config.toVal c))
    {more : List HVal} {cs : List Config} (hm : List.Forall₂ (fun v c => WritesOut h v (Config.toVal c)) more cs) (hc : ∀ x ∈ c :: cs, Complete desc x) :
    MakesConfig desc h (xMergeConfigs desc top more h) (mergeConfigs desc c cs) := by
  have hw := hb.wf
  have fits : ∀ x ∈ c :: cs, Fits desc x := fun x hx => (complete_iff hw).1 (hc x hx)
  refine makesConfig_of_ref hw (Ref_conseq (merge_configs_ref hw (confWf_of_heap hwf ht) ⟨ht, fits c (by simp)⟩ ?_) fun v c h' s q => ⟨q.1, q.2.grps⟩)
  have : ∀ x ∈ cs, Fits desc x := fun x hx => fits x (by simp [hx])
  clear hc fits
  induction hm with
  | nil => exact .nil
  | cons h1 _ ih => exact .cons ⟨h1, this _ (by simp)⟩ (ih fun x hx => this x (by simp [hx]))

/-- C110: `ensure_config` on a dict of the user computes the config that belongs to it; the result and its groups are new dicts and no object, in
particular not the user's dict nor anything in it, is changed. -/
theorem C110_ensure_config {desc : Desc} (hb : desc.Built) (hdef : ∀ n i, desc.Has n i → DefaultFits i) (expand : String → String) {dflt : String → HVal} {h : Heap}
    (hd : DefaultsIn h dflt desc) (global_ : HVal) {v : HVal} {e : Dict PKey PVal} (hv : WritesOut h v (.dict e)) :
    MakesConfig desc h (xEnsureConfig expand dflt desc global_ (.dict v) h) (configFromParsedYaml expand e desc true) := by
  have hw := hb.wf
  exact makesConfig_of_ref hw (Ref_conseq (parsed_defaults_ref expand hw (fun n i hi => hdef n i (hw.has.2 hi)) hv (hd.at hw)) fun v c h' s q => ⟨q.1, q.2.grps⟩)

/-- C110: without a config `ensure_config` returns the global one, given a config it returns that very object; anything else is an error. The memory
stays as it is. -/
theorem C110_ensure_config_same (expand : String → String) (dflt : String → HVal) (desc : Desc) (global_ v : HVal) (h : Heap) :
    xEnsureConfig expand dflt desc global_ .none h = (.ok global_, h) ∧ xEnsureConfig expand dflt desc global_ (.configDict v) h = (.ok v, h) ∧
    xEnsureConfig expand dflt desc global_ .other h = (.error .valueError, h) := ⟨rfl, rfl, rfl⟩

/-- C110: `load_config` computes the config of the command line, the files and the defaults; the result and its groups are new dicts and no object is
changed, also not by a failed call. -/
theorem C110_load_config {desc : Desc} (hb : desc.Built) (hdef : ∀ n i, desc.Has n i → DefaultFits i) {load : String → HX HVal} {loadYaml : String → Except Exc PVal}
    (hl : NewYaml load loadYaml) (expand : String → String) {dflt : String → HVal} {h : Heap} (hd : DefaultsIn h dflt desc)
    (file : String → FileText) (home tool ns : String) (a : GlobalArgs) (args : String → Option CmdVal) :
    MakesConfig desc h (xLoadConfig load expand dflt file home tool ns a args desc h) (loadConfig loadYaml expand file home tool ns a args desc) := by
  have hw := hb.wf
  exact makesConfig_of_ref hw (Ref_conseq (load_config_ref (newYaml_loads hl) expand file home tool ns a args hw (fun n i hi => hdef n i (hw.has.2 hi)) (hd.at hw))
    fun v c h' s q => ⟨q.1, q.2.grps⟩)

/-! ## Programs -/

theorem reach_inv {E : CEnv} (hb : E.desc.Built) (hdef : ∀ n i, E.desc.Has n i → DefaultFits i) {loadYaml : String → Except Exc PVal} (hl : NewYaml E.load loadYaml)
    {h0 : Heap} (hd : DefaultsIn h0 E.dflt E.desc) {s : CState} (hr : CReach E h0 s) : CInv E.desc h0 s := by
  induction hr with
  | start => exact ⟨.refl h0, .nil, by simp, by simp, by simp⟩
  | @step s s' _ st ih =>
    have hd' : DefaultsIn s.heap E.dflt E.desc := fun n i hi => ih.kept.writesOut (hd n i hi)
    cases st with
    | default => exact ih.after (C108_default_config hb hd')
    | load file home tool ns a args => exact ih.after (C110_load_config hb hdef hl E.expand hd' file home tool ns a args)
    | ensure g v e hv => exact ih.after (C110_ensure_config hb hdef E.expand hd' g hv)
    | merge top more c cs hwf ht hm hc => exact ih.after (C109_merge_configs hb hwf ht hm hc)
    | assign a n i w ha hn => exact ih.assign hb.wf ha hn w
    | make o => exact ih.grow (.alloc _ _)
    | change a o ha hc hg => exact ih.change o ha hc hg

/-- C108: whatever a program does with the configs it got (assigning to options included) and with objects of its own, the objects that existed in the
beginning, the defaults among them, stay as they are: `get_default_config` always answers the same, and `load_config` finds the same defaults. -/
theorem C108_defaults_stay_partial {E : CEnv} (hb : E.desc.Built) (hdef : ∀ n i, E.desc.Has n i → DefaultFits i) {loadYaml : String → Except Exc PVal}
    (hl : NewYaml E.load loadYaml) {h0 : Heap} (hd : DefaultsIn h0 E.dflt E.desc) {s : CState} (hr : CReach E h0 s) :
    h0 <+: s.heap ∧ MakesConfig E.desc s.heap (xConfigFromDefaults E.dflt E.desc s.heap) (configFromDefaults E.desc) ∧
    ∀ file home tool ns a args, MakesConfig E.desc s.heap (xLoadConfig E.load E.expand E.dflt file home tool ns a args E.desc s.heap)
      (loadConfig loadYaml E.expand file home tool ns a args E.desc) := by
  have hi := reach_inv hb hdef hl hd hr
  have hd' : DefaultsIn s.heap E.dflt E.desc := fun n i h => hi.kept.writesOut (hd n i h)
  exact ⟨hi.kept.prefix, C108_default_config hb hd', fun file home tool ns a args => C110_load_config hb hdef hl E.expand hd' file home tool ns a args⟩

/-- C108: assigning to an option of a config succeeds, the option has the new value afterwards, and every other option of it and every option of the other
configs is the object it was. -/
theorem C108_assignments {E : CEnv} (hb : E.desc.Built) (hdef : ∀ n i, E.desc.Has n i → DefaultFits i) {loadYaml : String → Except Exc PVal}
    (hl : NewYaml E.load loadYaml) {h0 : Heap} (hd : DefaultsIn h0 E.dflt E.desc) {s : CState} (hr : CReach E h0 s) {a : Nat} (ha : a ∈ s.configs)
    {n : String} {i : ConfigItem} (hn : E.desc.Has n i) (w : HVal) :
    ∃ h', xWriteOpt (.ref a) n w s.heap = (.ok (), h') ∧ xReadOpt (.ref a) n h' = (.ok w, h') ∧
      ∀ a' ∈ s.configs, ∀ n' i', E.desc.Has n' i' → (a', n') ≠ (a, n) → (xReadOpt (.ref a') n' h').1 = (xReadOpt (.ref a') n' s.heap).1 := by
  have hi := reach_inv hb hdef hl hd hr
  have hw := hb.wf
  obtain ⟨b, k, h1, h2, h3⟩ := hi.opt ha hn
  obtain ⟨d, h4, h5⟩ := write_at h1 h3 w
  have hl' := lt_of_getElem? h4
  have ha2 := hi.assign hw ha hn w
  rw [h5] at ha2
  refine ⟨_, h5, ?_, ?_⟩
  · have h6 : optAt (s.heap.set b (.dict (dset d (.str k) w))) a n = some (b, k) := by
      obtain ⟨b', k', h6, -⟩ := ha2.opt ha hn
      have := opt_same hw hi ha hn ha hn h1 h4 (w := w)
      rw [this]; exact h1
    rw [read_at h6]
    exact xindex_at (List.getElem?_set_self hl') (by simp [dget_set])
  · intro a' ha' n' i' hn' hne
    obtain ⟨b', k', h6, h7, h8⟩ := hi.opt ha' hn'
    have h9 := opt_same hw hi ha hn ha' hn' h1 h4 (w := w)
    rw [h6] at h9
    rw [read_at h9, read_at h6]
    by_cases hbb : b = b'
    · subst hbb
      have hk : k ≠ k' := by
        rintro rfl
        obtain ⟨e1, e2⟩ := hi.opt_apart ha ha' hn hn' h1 h6
        exact hne (by rw [e1, e2])
      simp only [xindex]
      rw [hx_bind, hx_bind]
      simp only [xdict, List.getElem?_set_self hl', h4, dget_set]
      rw [if_neg (fun e => hk (by injection e))]
      cases dget d (.str k') <;> rfl
    · obtain ⟨d', h10⟩ := h8
      simp only [xindex]
      rw [hx_bind, hx_bind]
      simp only [xdict, getElem?_set_ne' (Ne.symm hbb), h10]
      cases dget d' (.str k') <;> rfl
where
  /-- Options stay where they are. -/
  opt_same {desc : Desc} (hw : desc.Wf) {h0 : Heap} {s : CState} (hi : CInv desc h0 s) {a : Nat} (ha : a ∈ s.configs) {n : String} {i : ConfigItem}
      (hn : desc.Has n i) {a' : Nat} (ha' : a' ∈ s.configs) {n' : String} {i' : ConfigItem} (hn' : desc.Has n' i') {b : Nat} {k : String} (h1 : optAt s.heap a n = some (b, k))
      {d : Dict PKey HVal} (h4 : s.heap[b]? = some (.dict d)) {w : HVal} :
      optAt (s.heap.set b (.dict (dset d (.str k) w))) a' n' = optAt s.heap a' n' := by
    unfold optAt
    cases hg : groupOf n' with
    | none => rfl
    | some p =>
      obtain ⟨g, t⟩ := p
      simp only
      rw [groupAddr_set h4]
      rintro rfl rfl
      unfold optAt at h1
      cases hgo : groupOf n with
      | none =>
        rw [hgo] at h1
        injection h1 with h1; injection h1 with e1 e2; subst e2
        exact hw.not_group hn ⟨n', i', t, hn', hg⟩
      | some p =>
        obtain ⟨g', t'⟩ := p
        rw [hgo] at h1
        simp only [Option.map_eq_some_iff] at h1
        obtain ⟨b', h6, h7⟩ := h1
        injection h7 with h7 _; subst h7
        obtain ⟨b2, h8, -, -, h9⟩ := hi.group a ha g' ⟨n, i, t', hn, hgo⟩
        rw [h6] at h8; injection h8 with h8; subst h8
        exact h9 ha'

end Verif
