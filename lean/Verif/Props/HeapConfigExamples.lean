import Verif.Props.HeapConfig
/-!
# C108–C110: examples, and what configs share
-/
namespace Verif

/-- The default objects of xylem's description: three lists and two dicts made when `config.py` is imported. -/
def exDfltHeap : Heap := [.list [], .list [], .list [], .dict [], .dict []]

/-- Which object is the default of which option. -/
def exDflt (n : String) : HVal :=
  if n = "disabled_plugins/os" then .ref 0
  else if n = "disabled_plugins/installer" then .ref 1
  else if n = "disabled_plugins/spec" then .ref 2
  else if n = "install_from" then .ref 3
  else if n = "installer_options" then .ref 4
  else if n = "use_additional_installers" then .bool true
  else if n = "user_sources" then .bool false
  else .none

/-- A parser that finds a list with the text as its only element. -/
def exLoad (s : String) : HX HVal := xalloc (.list [.str s]) >>= fun a => pure (.ref a)

/-- xylem's description with these. -/
def exEnvC : CEnv := ⟨exLoad, id, exDflt, xylemDescription⟩

theorem exLoad_new : NewYaml exLoad (fun s => .ok (.list [.str s])) := by
  intro s h
  refine ⟨⟨[.list [.str s]], rfl⟩, by simp, ?_⟩
  rintro t ht
  injection ht with ht; subst ht
  refine ⟨.ref h.length, rfl, ?_⟩
  refine tree_list (Nat.le_refl _) (l := [.str s]) (by show (h ++ [_])[h.length]? = _; simp) (.cons (by simp [TreeAt]) .nil)

theorem exDflt_in : DefaultsIn exDfltHeap exDflt xylemDescription := by
  rintro n i ⟨h, rfl⟩
  have e : xylemDescription.itemlist = xylemItems.map mkItem := by rfl
  rw [e] at h
  revert i h
  simp only [xylemItems, List.map_cons, List.map_nil, List.forall_mem_cons, List.not_mem_nil, false_implies, implies_true, and_true]
  refine ⟨?_, ?_, ?_, ?_, ?_, ?_, ?_, ?_, ?_, ?_, ?_, ?_⟩
  · trivial
  · trivial
  · trivial
  · rfl
  · exact tree_dict trivial (d := []) rfl .nil
  · exact tree_dict trivial (d := []) rfl .nil
  · rfl
  · trivial
  · trivial
  · exact tree_list trivial (l := []) rfl .nil
  · exact tree_list trivial (l := []) rfl .nil
  · exact tree_list trivial (l := []) rfl .nil

theorem exEnvC_ok : exEnvC.desc.Built ∧ (∀ n i, exEnvC.desc.Has n i → DefaultFits i) ∧ NewYaml exEnvC.load (fun s => .ok (.list [.str s])) ∧
    DefaultsIn exDfltHeap exEnvC.dflt exEnvC.desc :=
  ⟨xylem_built, fun _ _ h => (xylem_defaults h).1, exLoad_new, exDflt_in⟩

/-- `config.option` as a list, if it is one. -/
def xListOpt (c : HVal) (n : String) : HX (Option (List HVal)) := xReadOpt c n >>= fun v h => (.ok (hListOf h v), h)

/-- `config.option.append(w)`. -/
def xAppendOpt (c : HVal) (n : String) (w : HVal) : HX Unit := xReadOpt c n >>= fun v =>
  match v with
  | .ref a => xAppend a w
  | _ => xlift (.error .attributeError)

/-- Load a config where nothing is set on the command line and there are no files. -/
def exLoadC : HX HVal := xLoadConfig exLoad id exDflt (fun _ => .missing) "" "xylem" "config.yaml" ⟨none, none, false⟩ (fun _ => some .none) xylemDescription

/-- ```
c = get_default_config()
before = list(c.disabled_plugins.os)
c.disabled_plugins.os.append(w)
return before, get_default_config().disabled_plugins.os, load_config(..).disabled_plugins.os
``` -/
def exAppendDefault (w : HVal) : HX (Option (List HVal) × Option (List HVal) × Option (List HVal)) := do
  let c ← xConfigFromDefaults exDflt xylemDescription
  let before ← xListOpt c "disabled_plugins/os"
  xAppendOpt c "disabled_plugins/os" w
  let c' ← xConfigFromDefaults exDflt xylemDescription
  let after ← xListOpt c' "disabled_plugins/os"
  let l ← exLoadC
  let loaded ← xListOpt l "disabled_plugins/os"
  pure (before, after, loaded)

theorem ok_of_toOption {α : Type} {x : Except Exc α} {a : α} (h : x.toOption = some a) : x = .ok a := by
  cases x with
  | ok b => injection h with h; rw [h]
  | error e => cases h

/-- C108 does not hold for the lists in a config: the default of an option is one object shared by all configs. Whoever appends to a list of a
default config changes all later default configs and all configs loaded later. -/
theorem C108_shared_default_refuted :
    (exAppendDefault (.str "ubuntu") exDfltHeap).1 = .ok (some [], some [.str "ubuntu"], some [.str "ubuntu"]) :=
  ok_of_toOption (by decide +kernel)

/-- ```
c = get_default_config(); m = merge_configs(desc, c, c)
m.disabled_plugins.os.append(w)
return c.disabled_plugins.os
``` -/
def exAppendMerged (w : HVal) : HX (Option (List HVal)) := do
  let c ← xConfigFromDefaults exDflt xylemDescription
  let m ← xMergeConfigs xylemDescription c [c]
  xAppendOpt m "disabled_plugins/os" w
  xListOpt c "disabled_plugins/os"

/-- C109: the values of the merged config are those of the configs given, not copies. -/
theorem C109_values_shared : (exAppendMerged (.str "ubuntu") exDfltHeap).1 = .ok (some [.str "ubuntu"]) := ok_of_toOption (by decide +kernel)

/-! ## Non-vacuity -/

/-- The address of the result. -/
def addrOf : Except Exc HVal → Nat
  | .ok (.ref a) => a
  | _ => 0

theorem after_configs (s : CState) (run : Except Exc HVal × Heap) (h : (∃ a, run.1.toOption = some (.ref a))) :
    s.after run = ⟨run.2, addrOf run.1 :: s.configs⟩ := by
  obtain ⟨a, h⟩ := h
  obtain ⟨r, h'⟩ := run
  have := ok_of_toOption h
  simp only at this
  subst this
  rfl

/-- The option of a program with a default config, a loaded config and a list of its own. -/
def exPlugins : ConfigItem := mkItem { name := "disabled_plugins/os", type := .list .string, default := .list [], argument := some "disable-os-plugins" }

/-- Memory after getting a default config, loading a config and making a list. -/
def exHeap3 : Heap := (exLoadC (xConfigFromDefaults exDflt xylemDescription exDfltHeap).2).2 ++ [.list [.str "ubuntu"]]

/-- A program with a default config and a loaded one that assigns a list of its own to an option of the first. -/
example : ∃ s a, CReach exEnvC exDfltHeap s ∧ s.configs.length = 2 ∧ a ∈ s.configs ∧
    (xReadOpt (.ref a) "disabled_plugins/os" s.heap).1 = .ok (.ref (exHeap3.length - 1)) := by
  have r1 := CReach.step (E := exEnvC) (h0 := exDfltHeap) .start (.default _)
  rw [after_configs _ _ ⟨5, by decide +kernel⟩] at r1
  have r2 := r1.step (.load _ (fun _ => .missing) "" "xylem" "config.yaml" ⟨none, none, false⟩ (fun _ => some .none))
  rw [after_configs _ _ ⟨addrOf (exLoadC (xConfigFromDefaults exDflt xylemDescription exDfltHeap).2).1, by decide +kernel⟩] at r2
  have r3 := r2.step (.make _ (.list [.str "ubuntu"]))
  have r4 := r3.step (.assign _ (addrOf (xConfigFromDefaults exDflt xylemDescription exDfltHeap).1) "disabled_plugins/os" exPlugins (.ref (exHeap3.length - 1))
    (.tail _ (.head _)) ⟨List.mem_of_getElem? (i := 9) rfl, rfl⟩)
  refine ⟨_, _, r4, rfl, .tail _ (.head _), ok_of_toOption ?_⟩
  decide +kernel

theorem exDefault_wf : (xConfigFromDefaults exDflt xylemDescription exDfltHeap).2.WF := by
  intro a d hd
  have : ∀ o ∈ (xConfigFromDefaults exDflt xylemDescription exDfltHeap).2, ∀ d, o = .dict d → DWF d := by
    have key : ((xConfigFromDefaults exDflt xylemDescription exDfltHeap).2.all fun o => match o with
      | .dict d => decide (DWF d)
      | _ => true) = true := by decide +kernel
    rintro o ho d rfl
    have := List.all_eq_true.1 key _ ho
    simpa using this
  exact this _ (List.mem_of_getElem? hd) d rfl

/-- The hypotheses on merged configs hold for a default config. -/
example : ∃ v c, WritesOut (xConfigFromDefaults exDflt xylemDescription exDfltHeap).2 v (Config.toVal c) ∧ Complete xylemDescription c := by
  have hw := xylem_built.wf
  obtain ⟨r, h1, -⟩ := defaults_spec hw
  have h2 : Complete xylemDescription r :=
    (complete_iff hw).2 (defaults_fit hw (fun n i hi => (xylem_defaults (hw.has.2 hi)).1) h1).1
  obtain ⟨-, -, h3⟩ := (C108_default_config xylem_built exDflt_in).does
  obtain ⟨v, -, h5⟩ := h3 r h1
  exact ⟨v, r, h5, h2⟩

end Verif
