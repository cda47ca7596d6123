import Verif.Lemmas.HeapCopy
import Verif.Props.HeapConfigExamples
/-!
# C111: `copy_to_dict`
-/
namespace Verif

/-- C111: `copy_to_dict` on a config in memory, with or without shared parts and nested configs, returns a dict that written out is the same. No object
is changed. The copy consists of new objects only: whatever happens to the objects that were there before, the copy stays the same (and nothing done
to the objects of the copy reaches the others, which are at other addresses). -/
theorem C111_copy_to_dict {h : Heap} (hwf : h.WF) {isConfig : Nat → Bool} (hc : ∀ a, isConfig a = true → IsDict h a) {v : HVal} {e : Dict PKey PVal}
    (hv : WritesOut h v (.dict e)) :
    ∃ N, ∀ n, N ≤ n → ∃ w h', xCopyToDict isConfig n v h = (.ok w, h') ∧ h <+: h' ∧ WritesOut h' w (.dict e) ∧ TreeAt h' (fun a => h.length ≤ a) w (.dict e) ∧
      ∀ h'' : Heap, (∀ a, h.length ≤ a → h''[a]? = h'[a]?) → WritesOut h'' w (.dict e) := by
  refine ⟨sizeOf e + 1, fun n hn => ?_⟩
  obtain ⟨w, h', e1, k, t⟩ := copyToDict_spec hwf hc n v e h (.refl h) hv (by omega)
  refine ⟨w, h', e1, k.prefix, TreeAt_mono (fun _ _ _ ho => ⟨trivial, ho⟩) _ _ t, t, fun h'' hs => ?_⟩
  exact TreeAt_mono (fun a o ha ho => ⟨trivial, by rw [hs a ha]; exact ho⟩) _ _ t

/-! ### Example: a default config of xylem -/

/-- The memory with a default config at address 5; its group dicts are the config dicts among the others. -/
def exCopyHeap : Heap := (xConfigFromDefaults exDflt xylemDescription exDfltHeap).2

/-- The objects of class `ConfigDict`: made by `config_from_defaults`. -/
def exIsConfig (a : Nat) : Bool := decide (5 ≤ a ∧ a < exCopyHeap.length)

example : exCopyHeap.WF ∧ (∀ a, exIsConfig a = true → IsDict exCopyHeap a) ∧ (∃ e, WritesOut exCopyHeap (.ref 5) (.dict e)) ∧
    exIsConfig 5 = true ∧ exIsConfig 6 = true := by
  refine ⟨exDefault_wf, ?_, ?_, by decide +kernel, by decide +kernel⟩
  · have key : ((List.range exCopyHeap.length).all fun a => !exIsConfig a || match exCopyHeap[a]? with
      | some (.dict _) => true
      | _ => false) = true := by decide +kernel
    intro a ha
    have h1 : a < exCopyHeap.length := (decide_eq_true_iff.1 ha).2
    have h2 := List.all_eq_true.1 key a (List.mem_range.2 h1)
    rw [ha] at h2
    unfold IsDict
    cases hg : exCopyHeap[a]? with
    | none => rw [hg] at h2; cases h2
    | some o =>
      cases o with
      | dict d => exact ⟨d, rfl⟩
      | list l => rw [hg] at h2; cases h2
  · obtain ⟨-, -, h3⟩ := (C108_default_config xylem_built exDflt_in).does
    obtain ⟨r, h1, -⟩ := defaults_spec xylem_built.wf
    obtain ⟨v, h4, h5⟩ := h3 r h1
    have e5 : (xConfigFromDefaults exDflt xylemDescription exDfltHeap).1 = .ok (.ref 5) := ok_of_toOption (by decide +kernel)
    rw [e5] at h4
    injection h4 with h4
    subst h4
    exact ⟨_, h5⟩

/-- The copy of the example is complete with two levels and shares no list with the defaults: appending to it leaves the defaults alone. -/
def exAppendCopy (w : HVal) : HX (Option (List HVal) × Option (List HVal)) := do
  let c ← xCopyToDict exIsConfig 2 (.ref 5)
  xAppendOpt c "disabled_plugins/os" w
  let copied ← xListOpt c "disabled_plugins/os"
  let d ← xConfigFromDefaults exDflt xylemDescription
  let dflt ← xListOpt d "disabled_plugins/os"
  pure (copied, dflt)

example : (exAppendCopy (.str "ubuntu") exCopyHeap).1 = .ok (some [.str "ubuntu"], some []) := ok_of_toOption (by decide +kernel)

end Verif
