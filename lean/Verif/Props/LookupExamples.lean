import Verif.Props.LookupProgram
import Verif.Props.ShownInstalled
import Verif.Props.SessionExamples
/-! # C116, C117: the theorems apply -/
namespace Verif

/-- A toy `dump_yaml`: texts of packages, one per line. -/
def exDump (v : PVal) : Except Exc (List Char) :=
  match v with
  | .str s => .ok (s.toList ++ ['\n'])
  | .list l => .ok ("- ".toList ++ l.flatMap (fun x => match x with | .str s => s.toList | _ => ['?']) ++ ['\n'])
  | _ => .ok ("{}".toList ++ ['\n'])

/-- `xylem lookup --no-color boost eigen boost other`. -/
def exLookup (keys : List String) : List String × Int :=
  let out := (xylemLookup exReal exShown xylemDescription (fun _ _ => []) exDump true (exParser "") (exParser "lookup") exProcess []
    [⟨"--no-color", none⟩] keys).2
  ((out.lines.filterMap onStdout).map String.ofList, out.ending.status)

example : exLookup ["boost", "eigen", "boost", "other"] =
    (["Rules for 'boost' on 'ubuntu:trusty':\n- libboost", "Rules for 'eigen' on 'ubuntu:trusty':\n- libeigen",
      "Rules for 'boost' on 'ubuntu:trusty':\n- libboost", "Rules for 'other' on 'ubuntu:trusty':\n{}"], 0) := by decide +kernel

theorem means_finds {cmd : String} {top sub : List OptSpec} (hp : ParsersFor cmd top sub) {f flag : String} (h : Means sub f flag) :
    finds sub f flag = true := by
  have hf : FlagsApart sub := (mkParser_ok hp.sub).2
  have hn := parser_nodup hp.sub hp.facts.1
  obtain ⟨o, ho, hfl, hm⟩ := h
  unfold finds
  rw [(findOption_iff hf hn).2 ⟨ho, hm⟩]
  exact List.contains_iff_mem.2 hfl

theorem exResolveParsers : ParsersFor "resolve" (exParser "") (exParser "resolve") := ⟨rfl, rfl⟩
theorem exLookupParsers : ParsersFor "lookup" (exParser "") (exParser "lookup") := ⟨rfl, rfl⟩

/-- `--no-color` only. -/
def exPlain : List Given := [⟨"--no-color", none⟩]

theorem exPlain_only {cmd : String} (hp : ParsersFor cmd (exParser "") (exParser cmd)) {flag : String}
    (h : finds (exParser cmd) "--no-color" flag = false) : ¬ IsGiven (exParser cmd) flag exPlain := by
  rintro ⟨g, hg, hm⟩
  rw [exPlain, List.mem_singleton] at hg
  subst hg
  rw [means_finds hp hm] at h
  cases h

theorem exShown_surely {c : Config} {ic : InstallerSetup (List String)} (h : contextFor exReal exShown c = .ok ic) :
    ∀ i ∈ ic.context.plugins, Surely i := by
  intro i hi
  obtain ⟨ep, he, disabled, pn, n, a, v, ⟨d, t, h1, _, _, h4, _, _⟩, hc⟩ := context_plugins h i hi
  simp only [exShown, List.mem_singleton] at he
  subst he
  unfold builtinEntry at h1
  injection h1 with h1
  subst h1
  injection h4 with h4
  injection h4 with h4
  injection h4 with h4
  injection h4 with h4 h5
  subst h5
  injection hc with hc
  exact ⟨_, _, hc.symm⟩

/-- The commands as reached. -/
def exAt (cmd : String) : Except Exc (Process × ArgSpace) :=
  reached exReal xylemDescription true (exParser "") (exParser cmd) (requireKeys ["boost", "eigen"]) exProcess [] exPlain

/-- Nothing ends in SystemExit; the os is found; colours are off. -/
def exFine : Bool :=
  (match parseCommandLine true (exParser "") (exParser "install") [] exPlain with
   | .ok ns => noExit (effectiveConfig exReal xylemDescription ns)
   | .error _ => true) &&
  (match exAt "install" with
   | .ok r => noExit (installRun exReal exShown ["boost", "eigen"] r.1 r.2 []).res
   | .error _ => true) &&
  (match exAt "resolve" with
   | .ok r => !r.1.color && (osFor exReal exShown r.1.config).toOption.isSome
   | .error _ => false)

theorem exFine_true : exFine = true := by decide +kernel

/-- C116 on the example machine: all hypotheses hold. -/
example : (xylemInstall exReal exShown xylemDescription (fun _ _ => []) (fun _ => []) (fun _ => []) true (exParser "") (exParser "install") exProcess []
      exPlain ["boost", "eigen"] []).2.ending.status = 0 ∧
    ∃ (ic : InstallerSetup (List String)) (results : List (String × String × List Resolution)),
      (∀ k ∈ ["boost", "eigen"], ∃ n items, (k, n, items) ∈ results) ∧
      ∀ k n items, (k, n, items) ∈ results → ∀ x ∈ items, SaysInstalled ic.context n x
        (installEffect exReal exShown xylemDescription true (exParser "") (exParser "install") exProcess [] exPlain ["boost", "eigen"] []).st := by
  have hst : (xylemInstall exReal exShown xylemDescription (fun _ _ => []) (fun _ => []) (fun _ => []) true (exParser "") (exParser "install") exProcess []
      exPlain ["boost", "eigen"] []).2.ending.status = 0 := by decide +kernel
  have hf := exFine_true
  unfold exFine at hf
  rw [Bool.and_eq_true, Bool.and_eq_true] at hf
  obtain ⟨⟨f1, f2⟩, f3⟩ := hf
  cases hr : exAt "resolve" with
  | error e => rw [hr] at f3; cases f3
  | ok r =>
    obtain ⟨q, ns⟩ := r
    rw [hr] at f3
    simp only [Bool.and_eq_true, Bool.not_eq_true'] at f3
    cases ho : osFor exReal exShown q.config with
    | error e => rw [ho] at f3; cases f3.2
    | ok os =>
      refine ⟨hst, ?_⟩
      obtain ⟨ic, results, _, g2, g3, _⟩ := C116_shown_is_installed exResolveParsers exParsers (fun _ _ => []) (fun _ => []) (fun _ => []) [] hr f3.1
        (inFull_of (by decide +kernel)) (inFull_of (by decide +kernel)) rfl
        (iff_of_false (exPlain_only exResolveParsers (by decide +kernel)) (exPlain_only exParsers (by decide +kernel)))
        (fun ns' hn => by rw [hn] at f1; exact noExit_spec f1)
        (fun p' ns' hn => by
          have hn : exAt "install" = .ok (p', ns') := hn
          rw [hn] at f2; exact noExit_spec f2)
        (fun ic o h => surely_honest (exShown_surely h) o) (.inr fun ic h => surely_filters (exShown_surely h))
        (by
          rintro ⟨flag, hm, h | h⟩
          · exact not_given_nil h
          · simp only [List.mem_cons, List.not_mem_nil, or_false] at hm
            rcases hm with rfl | rfl | rfl <;> exact exPlain_only exParsers (by decide +kernel) h)
        (exPlain_only exParsers (by decide +kernel)) (sd := false)
        (iff_of_false (by simp) (exPlain_only exResolveParsers (by decide +kernel))) ho hst
      exact ⟨ic, results, g2, g3⟩

end Verif
