import Verif.Props.ArgvWords
/-! # C139: command lines that meet the hypotheses -/
namespace Verif
variable {σ : Type}

/-- `Fitting`, as a check. -/
def fittingB (opts : List OptSpec) (g : Given) : Bool :=
  match findOption opts g.flag with
  | .ok o => g.value.isSome == o.action.takesValue
  | .error _ => false

theorem fitting_of {opts : List OptSpec} {g : Given} (h : fittingB opts g = true) : Fitting opts g := by
  unfold fittingB at h
  cases hf : findOption opts g.flag with
  | error e => rw [hf] at h; cases h
  | ok o =>
    rw [hf] at h
    have h : g.value.isSome = o.action.takesValue := by simpa using h
    exact ⟨o, hf, by rw [h]; exact takesValue_iff _⟩

theorem all_fitting {opts : List OptSpec} {l : List Given} (h : l.all (fittingB opts) = true) : ∀ g ∈ l, Fitting opts g := fun g hg =>
  fitting_of (List.all_eq_true.1 h g hg)

/-- `-vd` (two switches in one word) and `--os ubuntu`. -/
theorem ex_before : Written PlainWord [⟨"-v", none⟩, ⟨"-d", none⟩, ⟨"--os", some "ubuntu"⟩] ["-vd", "--os", "ubuntu"] := by
  have := Written.bundle (value := PlainWord) 'v' 'd' [] (by decide) (Written.apart "--os" "ubuntu" (by decide) (by unfold PlainWord; decide +kernel) .nil)
  exact this

/-- `--dry-run`. -/
theorem ex_dry : Written PlainWord [⟨"--dry-run", none⟩] ["--dry-run"] := .alone _ (by decide) .nil

/-- `--core=apt`, an abbreviation of `--core-installers`. -/
theorem ex_core : Written PlainWord [⟨"--core", some "apt"⟩] ["--core=apt"] := by
  have := Written.joined (value := PlainWord) "--core" "apt" .nil
  exact this

/-- `xylem -vd --os ubuntu install --dry-run boost --core=apt` is the run of `xylem install` with these options and the key `boost`. -/
example (o : Outside σ) (fresh : Bool) (p : Process) (s : σ) :
    xylemMain o xylemDescription fresh p ["-vd", "--os", "ubuntu", "install", "--dry-run", "boost", "--core=apt"] s =
      xylemInstallTelling o.texts o.voice o.env o.world xylemDescription o.text o.etext o.itext fresh sharedOptions (commandOptions "install" ++ sharedOptions) p
        [⟨"-v", none⟩, ⟨"-d", none⟩, ⟨"--os", some "ubuntu"⟩] [⟨"--dry-run", none⟩, ⟨"--core", some "apt"⟩] ["boost"] s :=
  (C139_run_of_words o fresh p s (cmd := "install") (by decide) (parsersFor _) ex_before ex_dry ex_core (keys := ["boost"]) (all_fitting (by decide +kernel))
    (all_fitting (by decide +kernel)) (all_fitting (by decide +kernel)) (by unfold PlainWord; decide +kernel) (show ["boost"] ≠ [] by simp)).1

/-- These words are accepted. -/
example : (parseXylem true xylemDescription ["-vd", "--os", "ubuntu", "install", "--dry-run", "boost", "--core=apt"]).isOk = true ∧
    "--dry-run" ∈ (["-vd", "--os", "ubuntu", "install", "--dry-run", "boost", "--core=apt"] : List String).takeWhile (· ≠ "--") := by
  rw [parseXylem_eq]
  decide +kernel

/-- `xylem install a -- -x`: `-x` is a key. -/
example (o : Outside σ) (fresh : Bool) (p : Process) (s : σ) :
    xylemDone o xylemDescription fresh p ["install", "a", "--", "-x"] s =
      ⟨installEffect o.env o.world xylemDescription fresh sharedOptions (commandOptions "install" ++ sharedOptions) p [] [] ["a", "-x"] s, [], []⟩ :=
  (C139_run_behind_dashes o fresh p s (cmd := "install") (by decide) (parsersFor _) (by decide) .nil .nil (k1 := ["a"]) (k2 := ["-x"]) (by simp) (by simp)
    (by unfold PlainWord; decide +kernel) (show ["a", "-x"] ≠ [] by simp)).2

/-- `xylem install --all`: status 2, nothing done. -/
example (o : Outside σ) (p : Process) (s : σ) :
    xylemMain o xylemDescription true p ["install", "--all"] s = (p, ⟨[], uncaught (.systemExit 2)⟩) ∧
    xylemDone o xylemDescription true p ["install", "--all"] s = .nothing s := by
  have hn : ∃ ns, parseCommandLine true sharedOptions (commandOptions "install" ++ sharedOptions) [] ([⟨"--all", none⟩] ++ []) = .ok ns := ⟨_, rfl⟩
  obtain ⟨ns, hn⟩ := hn
  exact C139_wrong_number_of_keys_run o true p s (cmd := "install") (by decide) (parsersFor _) .nil (.alone "--all" (by decide) .nil) .nil (keys := []) (by simp)
    (all_fitting (by decide +kernel)) (by simp) (by simp) (fun h => by simp [KeysFor] at h) hn

/-- `xylem install a --reinstall b`: status 2, nothing done. -/
example (o : Outside σ) (p : Process) (s : σ) :
    xylemMain o xylemDescription true p ["install", "a", "--reinstall", "b"] s = (p, ⟨[], uncaught (.systemExit 2)⟩) ∧
    xylemDone o xylemDescription true p ["install", "a", "--reinstall", "b"] s = .nothing s := by
  have hn : ∃ ns, parseCommandLine true sharedOptions (commandOptions "install" ++ sharedOptions) [] ([] ++ ([⟨"--reinstall", none⟩] ++ [])) = .ok ns := ⟨_, rfl⟩
  obtain ⟨ns, hn⟩ := hn
  exact C140_keys_apart_run_refuted o true p s (cmd := "install") (by decide) (parsersFor _) .nil .nil (.alone "--reinstall" (by decide) .nil) .nil
    (k1 := ["a"]) (k2 := ["b"]) (by simp) (by simp) (all_fitting (by decide +kernel)) (by simp) (by unfold PlainWord; decide +kernel)
    (by unfold PlainWord; decide +kernel) (by simp) (by simp) (by simp) hn

/-- `xylem install a b` has no word that begins with `--f`. -/
example : ∀ w ∈ (["install", "a", "b"] : List String), ¬ "--f".toList <+: w.toList := by decide +kernel

/-- A usage error, and a question for the version. -/
example : (parseXylem true xylemDescription ["update", "x"] = .error (.systemExit 2)) ∧ (parseXylem true xylemDescription ["--vers"] = .error (.systemExit 0)) := by
  rw [parseXylem_eq, parseXylem_eq]
  exact ⟨rfl, rfl⟩

end Verif
