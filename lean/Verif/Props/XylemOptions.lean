import Verif.Props.Config
import Verif.Props.ConfigFiles
/-! # C137: the options of xylem itself -/
namespace Verif

/-- The documented options: name of the config entry, command line option, type and default. -/
def documentedOptions : List (String × String × CType × PVal) :=
  [("os_override", "os", .string, .none),
   ("os_options/features", "os-features", .list .string, .none),
   ("core_installers", "core-installers", .list .string, .none),
   ("use_additional_installers", "use-additional-installers", .boolean, .bool true),
   ("install_from", "install-from", .mergingDict (.list .string) .string, .dict []),
   ("installer_options", "installer-options", .mergingDict (.dict .any .string) .string, .dict []),
   ("user_sources", "user-sources", .boolean, .bool false),
   ("cache_dir", "cache-dir", .path, .none),
   ("sources_dir", "sources-dir", .path, .none),
   ("disabled_plugins/os", "disable-os-plugins", .list .string, .list []),
   ("disabled_plugins/installer", "disable-installer-plugins", .list .string, .list []),
   ("disabled_plugins/spec", "disable-spec-plugins", .list .string, .list [])]

/-- The documented options are exactly the options of xylem. -/
theorem C137_options_documented :
    xylemDescription.itemlist.map (fun i => (i.name, i.argument, i.type, i.default)) = documentedOptions ∧
    ∀ i ∈ xylemDescription.itemlist, i.commandLine = true := by
  have e : xylemDescription.itemlist = xylemItems.map mkItem := by rfl
  rw [e]
  refine ⟨by rfl, ?_⟩
  intro i hi
  simp only [xylemItems, List.map_cons, List.map_nil, List.mem_cons, List.not_mem_nil, or_false] at hi
  rcases hi with rfl | rfl | rfl | rfl | rfl | rfl | rfl | rfl | rfl | rfl | rfl | rfl <;> rfl

/-- **C137** The loaded config of xylem: every documented option has the value given on the command line (under the documented option), else the one of the
first config file that sets it, else its documented default — each read as its documented type; `install_from` and `installer_options` are put together
key by key. -/
theorem C137_loaded_options {loadYaml : String → Except Exc PVal} {expand : String → String} {file : String → FileText} {home tool ns : String}
    {a : GlobalArgs} {args : String → Option CmdVal} {r : Config}
    (h : loadConfig loadYaml expand file home tool ns a args xylemDescription = .ok r) {n opt : String} {t : CType} {default : PVal}
    (hn : (n, opt, t, default) ∈ documentedOptions) :
    ∃ raw cmd files v, args (String.ofList (underscorify opt.toList)) = some raw ∧ t.fromCommandLine loadYaml expand raw = .ok cmd ∧
      List.Forall₂ (fun dir v => ∃ data, loadConfigFileYaml loadYaml (file (pathJoin dir ns)) = .ok data ∧
        t.fromYaml expand ((fileEntry data n).getD .none) = .ok v) (configDirs home tool a) files ∧
      readOpt r n = .ok v ∧
      (if n = "install_from" ∨ n = "installer_options" then ∃ d, v = .dict d ∧ DWF d ∧ ∀ k, dget d k = firstWith k (cmd :: files)
        else v = firstSet (cmd :: files ++ [default])) := by
  rw [← C137_options_documented.1] at hn
  obtain ⟨i, hi, e⟩ := List.mem_map.1 hn
  simp only [Prod.mk.injEq] at e
  obtain ⟨rfl, rfl, rfl, rfl⟩ := e
  obtain ⟨cmd, files, v, h1, h2, h3, h4⟩ := C48_loaded_config xylem_built (fun n i hi => (xylem_defaults hi).1) h (n := i.name) ⟨hi, rfl⟩
  unfold CommandLineGives at h1
  rw [if_pos (C137_options_documented.2 i hi)] at h1
  obtain ⟨raw, h5, h6⟩ := h1
  refine ⟨raw, cmd, files, v, h5, h6, h2, h3, ?_⟩
  have first : ∀ (l : List PVal) (k : PKey), firstWith k (l ++ [.dict []]) = firstWith k l := by
    intro l k
    induction l with
    | nil => rfl
    | cons x l ih => cases x <;> simp [firstWith, ih]
  clear h2 h3 h5 h6 hn h
  have e : xylemDescription.itemlist = xylemItems.map mkItem := by rfl
  rw [e] at hi
  simp only [xylemItems, List.map_cons, List.map_nil, List.mem_cons, List.not_mem_nil, or_false] at hi
  rcases hi with rfl | rfl | rfl | rfl | rfl | rfl | rfl | rfl | rfl | rfl | rfl | rfl <;>
    first
    | (rw [if_neg (by decide)]; exact h4)
    | (rw [if_pos (by decide)]
       obtain ⟨d, hv, hw, hd⟩ := h4
       exact ⟨d, hv, hw, fun k => (hd k).trans (first (cmd :: files) k)⟩)

/-- **C137** Without any option on the command line and without config files, every option has its documented default. -/
theorem C137_defaults {loadYaml : String → Except Exc PVal} {expand : String → String} {file : String → FileText} {home tool ns : String}
    {a : GlobalArgs} {args : String → Option CmdVal} {r : Config}
    (h : loadConfig loadYaml expand file home tool ns a args xylemDescription = .ok r) (hargs : ∀ dest raw, args dest = some raw → raw = .none)
    (hfiles : ∀ dir ∈ configDirs home tool a, file (pathJoin dir ns) = .missing) {n opt : String} {t : CType} {default : PVal}
    (hn : (n, opt, t, default) ∈ documentedOptions) : readOpt r n = .ok default := by
  obtain ⟨raw, cmd, files, v, h1, h2, h3, h4, h5⟩ := C137_loaded_options h hn
  rw [hargs _ _ h1] at h2
  have hu : ∀ v', t.fromYaml expand .none = .ok v' → v' = t.unset := by
    intro v' hv
    cases t <;> simp [CType.fromYaml, CType.verify, PVal.isNone] at hv <;> exact hv.symm
  have hcmd : cmd = t.unset := by
    simp only [CType.fromCommandLine] at h2
    injection h2 with h2; exact h2.symm
  have hfs : ∀ (dirs : List String) (files : List PVal), List.Forall₂ (fun dir v => ∃ data, loadConfigFileYaml loadYaml (file (pathJoin dir ns)) = .ok data ∧
      t.fromYaml expand ((fileEntry data n).getD .none) = .ok v) dirs files → (∀ dir ∈ dirs, file (pathJoin dir ns) = .missing) →
      ∀ x ∈ files, x = t.unset := by
    intro dirs files hf
    induction hf with
    | nil => intro _ x hx; simp at hx
    | @cons dir y dirs files hy _ ih =>
      intro hfiles x hx
      rcases List.mem_cons.1 hx with rfl | hx
      · obtain ⟨data, hd, hv⟩ := hy
        rw [hfiles dir (by simp)] at hd
        injection hd with hd
        subst hd
        refine hu _ ?_
        have e : fileEntry [] n = none := by
          unfold fileEntry
          cases groupOf n <;> rfl
        rw [e] at hv
        exact hv
      · exact ih (fun dir hdir => hfiles dir (List.mem_cons_of_mem _ hdir)) x hx
  have hall : ∀ x ∈ cmd :: files, x = t.unset := by
    intro x hx
    rcases List.mem_cons.1 hx with rfl | hx
    · exact hcmd
    · exact hfs _ _ h3 hfiles x hx
  rw [h4]
  have none_first : ∀ (l : List PVal), (∀ x ∈ l, x = .none) → ∀ d, firstSet (l ++ [d]) = d := by
    intro l hl d
    induction l with
    | nil => cases d <;> rfl
    | cons x l ih =>
      rw [hl x (by simp)]
      exact ih (fun y hy => hl y (by simp [hy]))
  have empty_first : ∀ (l : List PVal), (∀ x ∈ l, x = .dict []) → ∀ k, firstWith k l = none := by
    intro l hl k
    induction l with
    | nil => rfl
    | cons x l ih =>
      rw [hl x (by simp)]
      exact ih (fun y hy => hl y (by simp [hy]))
  simp only [documentedOptions, List.mem_cons, List.not_mem_nil, or_false, Prod.mk.injEq] at hn
  rcases hn with ⟨rfl, rfl, rfl, rfl⟩ | ⟨rfl, rfl, rfl, rfl⟩ | ⟨rfl, rfl, rfl, rfl⟩ | ⟨rfl, rfl, rfl, rfl⟩ | ⟨rfl, rfl, rfl, rfl⟩ | ⟨rfl, rfl, rfl, rfl⟩ |
      ⟨rfl, rfl, rfl, rfl⟩ | ⟨rfl, rfl, rfl, rfl⟩ | ⟨rfl, rfl, rfl, rfl⟩ | ⟨rfl, rfl, rfl, rfl⟩ | ⟨rfl, rfl, rfl, rfl⟩ | ⟨rfl, rfl, rfl, rfl⟩ <;>
    first
    | (rw [if_neg (by decide)] at h5
       rw [h5, none_first _ hall])
    | (rw [if_pos (by decide)] at h5
       obtain ⟨d, rfl, -, hd⟩ := h5
       have : d = [] := by
         cases d with
         | nil => rfl
         | cons x d =>
           have := hd x.1
           rw [empty_first _ hall] at this
           simp [dget] at this
       rw [this])

/-- The hypotheses are met, and loading works. -/
example : ∃ r, loadConfig (fun _ => .error .yamlError) id (fun _ => .missing) "/home/me" "xylem" "config.yaml" ⟨none, none, false⟩ (fun _ => some .none)
    xylemDescription = .ok r ∧ readOpt r "use_additional_installers" = .ok (.bool true) := by
  refine ⟨_, rfl, rfl⟩

end Verif
