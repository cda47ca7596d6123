import Verif.Model.Install
/-! # Specification vocabulary for installations: what can be read off the sequence of events -/
namespace Verif

/-- The commands (with their installer) the installers asked to be run, in order. -/
def plannedOf (ev : List Event) : List (String × Cmd) := ev.flatMap fun
  | .plan i _ (.ok cmds) => cmds.map fun c => (i, c)
  | _ => []

/-- The commands that were run, in order. -/
def executedOf (ev : List Event) : List (String × Cmd) := ev.flatMap fun
  | .exec i c _ => [(i, c)]
  | _ => []

/-- The commands shown by a simulation, in order. -/
def shownOf (ev : List Event) : List (String × Cmd) := ev.flatMap fun
  | .shown i c => [(i, c)]
  | _ => []

/-- The items for which commands were asked for, by installer, in order. -/
def plannedItems (ev : List Event) : List (String × List Resolution) := ev.flatMap fun
  | .plan i items _ => [(i, items)]
  | _ => []

/-- The failure an event amounts to: a command with nonzero exit code, an item not detected or not checkable afterwards. -/
def failureOf : Event → Option InstErr
  | .exec i c (.ok code) => if code = 0 then none else some (.commandFailed i c code)
  | .probe i item (.ok false) => some (.notDetected i item)
  | .probe i item (.error e) => some (.checkFailed i item e)
  | _ => none

/-- What remains of a group after filtering (`none`: nothing to do). -/
def keptOf : Event → Option (String × List Resolution)
  | .filter i _ (.ok rs) => if rs = [] then none else some (i, rs)
  | .filter i items (.error _) => if items = [] then none else some (i, items)
  | _ => none

/-- The failure of an installed-check. -/
def filterFailureOf : Event → Option InstErr
  | .filter i _ (.error e) => some (.filterFailed i e)
  | _ => none

/-- The event is the execution of a command. -/
def Event.isExec : Event → Bool
  | .exec .. => true
  | _ => false

/-- The event is a prerequisite check (the only calls that may fix something). -/
def Event.isCheck : Event → Bool
  | .general .. => true
  | .prereq .. => true
  | _ => false

/-- The event is a filter call. -/
def Event.isFilter : Event → Bool
  | .filter .. => true
  | _ => false

/-- The events of a group of items that was installed without any problem: ask, run every command successfully, find every item. -/
def cleanGroup (i : String) (items : List Resolution) (cmds : List Cmd) : List Event :=
  if cmds = [] then [.plan i items (.ok [])]
  else .plan i items (.ok cmds) :: (cmds.map fun c => .exec i c (.ok 0)) ++ items.map fun x => .probe i x (.ok true)

/-- Neighbouring groups have different installers. -/
def NeighboursDiffer : List (String × List Resolution) → Prop
  | a :: b :: t => a.1 ≠ b.1 ∧ NeighboursDiffer (b :: t)
  | _ => True

/-- The events of groups that were all installed without a problem. -/
def cleanGroups : List (String × List Resolution) → List (List Cmd) → List Event
  | (n, rs) :: t, c :: cs => cleanGroup n rs c ++ cleanGroups t cs
  | _, _ => []

/-- The input of a filter call. -/
def filterInput : Event → Option (String × List Resolution)
  | .filter i items _ => some (i, items)
  | _ => none

/-- A group is made of consecutive entries with the same installer. -/
def GroupOf (b : List (String × List Resolution)) (g : String × List Resolution) : Prop :=
  b ≠ [] ∧ (∀ p ∈ b, p.1 = g.1) ∧ g.2 = (b.map Prod.snd).flatten

/-- Pairs a list of blocks with its groups. -/
def GroupsOf : List (List (String × List Resolution)) → List (String × List Resolution) → Prop
  | [], [] => True
  | b :: bs, g :: gs => GroupOf b g ∧ GroupsOf bs gs
  | _, _ => False

/-- What a single event does to the machine: the call it records, to the loaded plugin of that name (or the operating system), has the
recorded outcome in that state. -/
inductive Does {σ : Type} (m : Machine σ) (ic : InstallerCtx σ) (o : InstallOpts) : σ → Event → σ → Prop
  | plan {n rs i s out s'} : lookupInstaller ic n = some i → i.getInstallCommands rs o.interactive o.reinstall s = (out, s') →
      Does m ic o s (.plan n rs out) s'
  | exec {n cmd s out s'} : m.call cmd s = (out, s') → Does m ic o s (.exec n cmd out) s'
  | probe {n r i s out s'} : lookupInstaller ic n = some i → i.isInstalled r s = (out, s') → Does m ic o s (.probe n r out) s'
  | filter {n rs i s out s'} : lookupInstaller ic n = some i → i.filterUninstalled rs s = (out, s') → Does m ic o s (.filter n rs out) s'
  | general {n i os s out s'} : lookupInstaller ic n = some i → ic.osTuple = .ok os →
      i.checkGeneral os o.fixPrerequisites o.interactive s = (out, s') → Does m ic o s (.general n o.fixPrerequisites out) s'
  | prereq {n rs i os s out s'} : lookupInstaller ic n = some i → ic.osTuple = .ok os →
      i.checkInstall rs os o.fixPrerequisites o.interactive s = (out, s') → Does m ic o s (.prereq n rs o.fixPrerequisites out) s'
  | heading {n s} : Does m ic o s (.heading n) s
  | shown {n c s} : Does m ic o s (.shown n c) s

/-- The events, one after the other, lead from one state of the machine to another. -/
inductive Replays {σ : Type} (m : Machine σ) (ic : InstallerCtx σ) (o : InstallOpts) : σ → List Event → σ → Prop
  | nil {s} : Replays m ic o s [] s
  | cons {s e s1 l s2} : Does m ic o s e s1 → Replays m ic o s1 l s2 → Replays m ic o s (e :: l) s2

end Verif
