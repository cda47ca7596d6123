import Verif.Model.HeapConfig
import Verif.Spec.Heap
import Verif.Spec.Config
import Verif.Model.Installers
import Mathlib.Data.List.Forall2
/-!
# What is expected of configs as objects in memory
-/
namespace Verif

/-- The config `c` as a tree. -/
def Config.toVal (c : Config) : PVal := dictVal Entry.toVal c

/-- `g` is a group of the description. -/
def Desc.Group (desc : Desc) (g : String) : Prop := ∃ n i s, desc.Has n i ∧ groupOf n = some (g, s)

/-- The object at address `a` is a dict. -/
def IsDict (h : Heap) (a : Nat) : Prop := ∃ d, h[a]? = some (.dict d)

/-- The address of the object that the dict at address `a` holds under the key `g`. -/
def groupAddr (h : Heap) (a : Nat) (g : String) : Option Nat :=
  match h[a]? with
  | some (.dict d) => match dget d (.str g) with
    | some (.ref b) => some b
    | _ => none
  | _ => none

/-- The config at address `a` in memory `h'` is a dict made since memory `h`, and so is the dict of each group; they are all different. -/
structure NewDicts (desc : Desc) (h : Heap) (a : Nat) (h' : Heap) : Prop where
  new : h.length ≤ a
  dict : IsDict h' a
  group : ∀ g, desc.Group g → ∃ b, groupAddr h' a g = some b ∧ h.length ≤ b ∧ IsDict h' b ∧ b ≠ a
  apart : ∀ g g', desc.Group g → desc.Group g' → groupAddr h' a g = groupAddr h' a g' → g = g'

/-- The default objects `dflt` are in memory as the description tells. -/
def DefaultsIn (h : Heap) (dflt : String → HVal) (desc : Desc) : Prop := ∀ n i, desc.Has n i → WritesOut h (dflt n) i.default

/-- The YAML parser `load` makes new objects and changes none; what it finds is what `loadYaml` tells. -/
def NewYaml (load : String → HX HVal) (loadYaml : String → Except Exc PVal) : Prop :=
  ∀ s h, h <+: (load s h).2 ∧ (∀ e, loadYaml s = .error e → (load s h).1 = .error e) ∧
    ∀ t, loadYaml s = .ok t → ∃ v, (load s h).1 = .ok v ∧ TreeAt (load s h).2 (fun a => h.length ≤ a) v t

/-! ## Programs working with configs -/

/-- A program: the memory and the configs it has got so far. -/
structure CState where
  heap : Heap
  configs : List Nat

/-- After a call that returned or raised. -/
def CState.after (s : CState) : Except Exc HVal × Heap → CState
  | (.ok (.ref a), h) => ⟨h, a :: s.configs⟩
  | (_, h) => { s with heap := h }

/-- Loaded descriptions, defaults and parsers of a program. -/
structure CEnv where
  load : String → HX HVal
  expand : String → String
  dflt : String → HVal
  desc : Desc

/-- What a program may do: get a default config, load a config, turn a dict into a config, merge configs, assign to options of the configs it has got,
make new objects, and do whatever it likes to objects other than these configs (and their groups) that did not exist in the beginning (memory `h0`). -/
inductive CStep (E : CEnv) (h0 : Heap) : CState → CState → Prop
  | default (s : CState) : CStep E h0 s (s.after (xConfigFromDefaults E.dflt E.desc s.heap))
  | load (s : CState) (file : String → FileText) (home tool ns : String) (a : GlobalArgs) (args : String → Option CmdVal) :
      CStep E h0 s (s.after (xLoadConfig E.load E.expand E.dflt file home tool ns a args E.desc s.heap))
  | ensure (s : CState) (global_ v : HVal) (e : Dict PKey PVal) (hv : WritesOut s.heap v (.dict e)) :
      CStep E h0 s (s.after (xEnsureConfig E.expand E.dflt E.desc global_ (.dict v) s.heap))
  | merge (s : CState) (top : Nat) (more : List HVal) (c : Config) (cs : List Config) (hwf : s.heap.WF)
      (ht : WritesOut s.heap (.ref top) (Config.toVal c)) (hm : List.Forall₂ (fun v c => WritesOut s.heap v (Config.toVal c)) more cs)
      (hc : ∀ x ∈ c :: cs, Complete E.desc x) : CStep E h0 s (s.after (xMergeConfigs E.desc (.ref top) more s.heap))
  | assign (s : CState) (a : Nat) (n : String) (i : ConfigItem) (w : HVal) (ha : a ∈ s.configs) (hn : E.desc.Has n i) :
      CStep E h0 s { s with heap := (xWriteOpt (.ref a) n w s.heap).2 }
  | make (s : CState) (o : HObj) : CStep E h0 s { s with heap := s.heap ++ [o] }
  | change (s : CState) (a : Nat) (o : HObj) (ha : h0.length ≤ a) (hc : a ∉ s.configs)
      (hg : ∀ c ∈ s.configs, ∀ g, E.desc.Group g → groupAddr s.heap c g ≠ some a) : CStep E h0 s { s with heap := s.heap.set a o }

/-- The states a program can get to. -/
inductive CReach (E : CEnv) (h0 : Heap) : CState → Prop
  | start : CReach E h0 ⟨h0, []⟩
  | step {s s' : CState} : CReach E h0 s → CStep E h0 s s' → CReach E h0 s'

end Verif
