import Verif.Props.Install
/-! # C34: when an installation returns, and when it does not -/
namespace Verif
variable {σ α β : Type}

/-- The program returns a value with property `Q` from every state. -/
def Returns (p : Prog σ α) (Q : α → Prop) : Prop := ∀ s, ∃ a, (p s).res = .ok a ∧ Q a

theorem Returns.bind {p : Prog σ α} {f : α → Prog σ β} {Q : α → Prop} {R : β → Prop} (hp : Returns p Q) (hf : ∀ a, Q a → Returns (f a) R) :
    Returns (p >>= f) R := by
  intro s
  obtain ⟨a, h1, h2⟩ := hp s
  obtain ⟨b, h3, h4⟩ := hf a h2 (p s).st
  exact ⟨b, by rw [bind_ok h1]; exact h3, h4⟩

theorem Returns.ret {a : α} {Q : α → Prop} (h : Q a) : Returns (Prog.ret a : Prog σ α) Q := fun _ => ⟨a, rfl, h⟩
theorem Returns.lift {x : Except Exc α} {Q : α → Prop} (h : ∃ a, x = .ok a ∧ Q a) : Returns (Prog.lift x : Prog σ α) Q := fun _ => h
theorem Returns.attempt {c : σ → Except Exc α × σ} {mk : Except Exc α → Event} {Q : Except Exc α → Prop} (h : ∀ s, Q (c s).1) :
    Returns (Prog.attempt c mk) Q := fun s => ⟨_, rfl, h s⟩

/-- The decimal text of an exit code contains no markup. -/
theorem codeText_at (code : Int) : '@' ∉ codeText code := by
  have dig : ∀ n : Nat, '@' ∉ (toString n).toList := by
    intro n h
    rw [show toString n = n.repr from rfl, Nat.toList_repr] at h
    exact absurd (Nat.isDigit_of_mem_toDigits (by omega) (by omega) h) (by decide)
  unfold codeText
  cases code with
  | ofNat n => exact dig n
  | negSucc n =>
    rw [show toString (Int.negSucc n) = "-" ++ toString (n + 1) from rfl, String.toList_append, List.mem_append, not_or]
    exact ⟨by decide, dig _⟩

theorem fmt_message {a : AnsiTable} (ha : (∃ b, a "boldon".toList = some b) ∧ ∃ r, a "reset".toList = some r) {s t : List Char}
    (hs : '@' ∉ s) (ht : '@' ∉ t) : ∃ x, fmt a (('@' :: '!' :: s) ++ t ++ "@|".toList) = .ok x := by
  obtain ⟨⟨b, hb⟩, r, hr⟩ := ha
  have h := C57_bold_text a b r (s ++ t) (by simp [hs, ht]) hb hr
  rw [show ('@' :: '!' :: s) ++ t = "@!".toList ++ (s ++ t) by simp]
  exact ⟨_, h⟩

/-- The words of the command are texts without `@`. -/
def Plain (c : Cmd) : Prop := ∀ w ∈ c, ∃ t : String, w = some t ∧ '@' ∉ t.toList

/-- An installer whose methods do not fail, except that it may be unable to tell what is installed (InstallerError); its commands are texts without
`@` and can be started on the machine `m`. -/
structure Obliging (m : Machine σ) (i : Installer σ) : Prop where
  general : ∀ os fix inter s, (i.checkGeneral os fix inter s).1 = .ok ()
  prereq : ∀ rs os fix inter s, (i.checkInstall rs os fix inter s).1 = .ok ()
  filter : ∀ rs s, (∃ l, (i.filterUninstalled rs s).1 = .ok l) ∨ ∃ e, (i.filterUninstalled rs s).1 = .error e ∧ e.isInstallerError = true
  installed : ∀ r s, (∃ b, (i.isInstalled r s).1 = .ok b) ∨ ∃ e, (i.isInstalled r s).1 = .error e ∧ e.isInstallerError = true
  commands : ∀ rs a b s, ∃ cmds, (i.getInstallCommands rs a b s).1 = .ok cmds ∧
    ∀ c ∈ cmds, Plain c ∧ ∀ s', ∃ code, (m.call c s').1 = .ok code

theorem pyJoin_at {l : List (List Char)} (h : ∀ w ∈ l, '@' ∉ w) : '@' ∉ pyJoin [' '] l := by
  induction l with
  | nil => simp [pyJoin]
  | cons w t ih =>
    have hw := h w (by simp)
    have := ih (fun x hx => h x (List.mem_cons_of_mem _ hx))
    cases t with
    | nil => simpa [pyJoin] using hw
    | cons v t => simp only [pyJoin, List.mem_append, not_or]; exact ⟨⟨hw, by decide⟩, this⟩

theorem plain_join {c : Cmd} (h : Plain c) : ∃ l, joinCmd c = .ok l ∧ '@' ∉ l := by
  have : ∃ ws, cmdWords c = .ok ws ∧ ∀ w ∈ ws, '@' ∉ w := by
    induction c with
    | nil => exact ⟨[], rfl, by simp⟩
    | cons w c ih =>
      obtain ⟨t, rfl, ht⟩ := h w (by simp)
      obtain ⟨ws, h1, h2⟩ := ih fun w hw => h w (List.mem_cons_of_mem _ hw)
      refine ⟨t.toList :: ws, by simp [cmdWords, h1, bind, Except.bind, pure, Except.pure], ?_⟩
      intro w hw
      rcases List.mem_cons.1 hw with rfl | hw
      · exact ht
      · exact h2 w hw
  obtain ⟨ws, h1, h2⟩ := this
  exact ⟨pyJoin [' '] ws, by simp [joinCmd, h1, bind, Except.bind, pure, Except.pure], pyJoin_at h2⟩

theorem announce_ok {a : AnsiTable} (ha : (∃ b, a "boldon".toList = some b) ∧ ∃ r, a "reset".toList = some r) {c : Cmd} (h : Plain c) :
    ∃ x, announce a c = .ok x := by
  obtain ⟨l, h1, h2⟩ := plain_join h
  obtain ⟨x, hx⟩ := fmt_message ha (s := "executing command: ".toList) (t := l) (by decide) h2
  exact ⟨x, by simpa [announce, h1, bind, Except.bind] using hx⟩

theorem showCommands_returns (n : String) (cmds : List Cmd) (h : ∀ c ∈ cmds, Plain c) :
    Returns (showCommands n cmds : Prog σ Unit) fun _ => True := by
  intro s
  obtain ⟨l, -, -, -, h4⟩ := showCommands_run (σ := σ) n cmds s
  rcases h4 with ⟨h4, -⟩ | ⟨c, t, e, rfl, h5, -⟩
  · exact ⟨_, h4, trivial⟩
  · obtain ⟨x, hx, -⟩ := plain_join (h c (by simp))
    rw [hx] at h5; simp at h5

theorem runCommands_returns (m : Machine σ) (inst : String) (errs : List InstErr) (cmds : List Cmd)
    (ha : (∃ b, m.ansi "boldon".toList = some b) ∧ ∃ r, m.ansi "reset".toList = some r)
    (h : ∀ c ∈ cmds, Plain c ∧ ∀ s', ∃ code, (m.call c s').1 = .ok code) :
    Returns (runCommands m inst true errs cmds) fun _ => True := by
  induction cmds generalizing errs with
  | nil => exact Returns.ret trivial
  | cons c t ih =>
    have hc := h c (by simp)
    have iht := fun e => ih e fun x hx => h x (List.mem_cons_of_mem _ hx)
    rw [runCommands]
    refine Returns.bind (Q := fun _ => True) (Returns.lift ?_) fun _ _ => ?_
    · obtain ⟨x, hx⟩ := announce_ok ha hc.1
      exact ⟨x, hx, trivial⟩
    · refine Returns.bind (Q := fun r => ∃ code, r = .ok code) (Returns.attempt fun s => hc.2 s) fun r hr => ?_
      obtain ⟨code, rfl⟩ := hr
      refine Returns.bind (Q := fun x => x = code) (Returns.lift ⟨code, rfl, rfl⟩) fun x hx => ?_
      subst hx
      refine Returns.bind (Q := fun _ => True) (Returns.lift ?_) fun _ _ => ?_
      · obtain ⟨y, hy⟩ := fmt_message ha (s := "command return code: ".toList) (t := codeText x) (by decide) (codeText_at x)
        exact ⟨y, hy, trivial⟩
      · split
        · exact iht _
        · exact iht _

theorem verifyItems_returns (i : Installer σ) (name : String) (errs : List InstErr) (items : List Resolution)
    (h : ∀ r s, (∃ b, (i.isInstalled r s).1 = .ok b) ∨ ∃ e, (i.isInstalled r s).1 = .error e ∧ e.isInstallerError = true) :
    Returns (verifyItems i name errs items) fun _ => True := by
  induction items generalizing errs with
  | nil => exact Returns.ret trivial
  | cons x t ih =>
    rw [verifyItems]
    refine Returns.bind (Q := fun r => (∃ b, r = .ok b) ∨ ∃ e, r = .error e ∧ e.isInstallerError = true)
      (Returns.attempt fun s => h x s) fun r hr => ?_
    rcases hr with ⟨b, rfl⟩ | ⟨e, rfl, he⟩
    · cases b <;> exact ih _
    · simp only [he, if_true]; exact ih _

/-- The installers in use are loaded plugins (established by `setup_installers`, see C42). -/
def InstallerCtx.Consistent (ic : InstallerCtx σ) : Prop := (∀ i ∈ ic.core, i ∈ ic.plugins) ∧ ∀ i ∈ ic.additional, i ∈ ic.plugins

theorem lookupInstaller_of_mem {ic : InstallerCtx σ} {i : Installer σ} (h : i ∈ ic.plugins) :
    ∃ j ∈ ic.plugins, lookupInstaller ic i.name = some j := by
  unfold lookupInstaller
  cases hf : ic.plugins.find? fun j => j.name == i.name with
  | none => exact absurd (List.find?_eq_none.1 hf i h) (by simp)
  | some j => exact ⟨j, List.mem_of_find?_eq_some hf, rfl⟩

/-- The installer named in a result is loaded. -/
theorem result_loaded {ic : InstallerCtx σ} (hic : ic.Consistent) {db : Database} {f : Dict String (List String)} {keys : List String}
    {all : Bool} {r : Resolved} (h : resolve ic db f keys all = .ok r) {x : String × List Resolution} (hx : x ∈ r.results.map Prod.snd) :
    ∃ j ∈ ic.plugins, lookupInstaller ic x.1 = some j := by
  obtain ⟨⟨k, y⟩, hm, rfl⟩ := List.mem_map.1 hx
  obtain ⟨d, inst, rule, _, _, hc, _, hn⟩ := resolveKey_ok (mem_results h hm)
  simp only at hn ⊢
  rw [hn]
  apply lookupInstaller_of_mem
  unfold chooseInstaller at hc
  split at hc
  · split at hc
    · simp at hc
    · rename_i j hj
      split at hc
      · simp at hc
      · simp only [Except.ok.injEq, Prod.mk.injEq] at hc
        rw [← hc.1]; exact List.mem_of_find?_eq_some hj
  · split at hc
    · rename_i q hq
      simp only [Except.ok.injEq] at hc; subst hc
      obtain ⟨_, _, hp, _⟩ := coreLoop_some.1 hq
      exact hic.1 inst (by rw [hp]; simp)
    · split at hc
      · rename_i q hq
        simp only [Except.ok.injEq] at hc; subst hc
        obtain ⟨_, _, hp, _⟩ := additionalLoop_some.1 hq
        exact hic.2 inst (by rw [hp]; simp)
      · simp at hc

theorem squash_names {l : List (String × List Resolution)} {g : String × List Resolution} (hg : g ∈ squashResolutions l) :
    ∃ x ∈ l, x.1 = g.1 := by
  obtain ⟨bs, h1, h2, h3⟩ := squash_spec l
  clear h3
  generalize squashResolutions l = gs at h2 hg
  subst h1
  induction bs generalizing gs with
  | nil => cases gs with
    | nil => simp at hg
    | cons g gs => simp [GroupsOf] at h2
  | cons b bs ih => cases gs with
    | nil => simp at hg
    | cons g' gs =>
      rcases List.mem_cons.1 hg with rfl | hg
      · obtain ⟨hne, hb, _⟩ := h2.1
        cases b with
        | nil => exact absurd rfl hne
        | cons p b => exact ⟨p, by simp, hb p (by simp)⟩
      · obtain ⟨x, hx, he⟩ := ih gs h2.2 hg
        exact ⟨x, by rw [List.flatten_cons]; exact List.mem_append_right _ hx, he⟩

/-- Every name in the list is the name of a loaded and obliging installer. -/
def AllObliging (m : Machine σ) (ic : InstallerCtx σ) (names : List String) : Prop :=
  ∀ n ∈ names, ∃ i, lookupInstaller ic n = some i ∧ Obliging m i

theorem requireInstaller_returns {ic : InstallerCtx σ} {n : String} {i : Installer σ} (h : lookupInstaller ic n = some i) {f : Installer σ → Prog σ β}
    {R : β → Prop} (hf : Returns (f i) R) : Returns (Prog.lift (requireInstaller ic n) >>= f) R := by
  intro s
  rw [requireInstaller, h]
  exact hf s

theorem checkGeneral_returns (m : Machine σ) (ic : InstallerCtx σ) (os : OsTuple) (fix inter : Bool) (names : List String)
    (h : AllObliging m ic names) : Returns (checkGeneralLoop ic os fix inter names) fun _ => True := by
  induction names with
  | nil => exact Returns.ret trivial
  | cons n t ih =>
    obtain ⟨i, hi, ho⟩ := h n (by simp)
    rw [checkGeneralLoop]
    refine requireInstaller_returns hi (Returns.bind (Q := fun r => r = .ok ()) (Returns.attempt fun s => ho.general ..) fun r hr => ?_)
    subst hr
    exact Returns.bind (Q := fun _ => True) (Returns.lift ⟨(), rfl, trivial⟩) fun _ _ => ih fun n hn => h n (List.mem_cons_of_mem _ hn)

theorem checkInstall_returns (m : Machine σ) (ic : InstallerCtx σ) (os : OsTuple) (fix inter : Bool) (l : List (String × List Resolution))
    (h : AllObliging m ic (l.map Prod.fst)) : Returns (checkInstallLoop ic os fix inter l) fun _ => True := by
  induction l with
  | nil => exact Returns.ret trivial
  | cons p t ih =>
    obtain ⟨n, rs⟩ := p
    obtain ⟨i, hi, ho⟩ := h n (by simp)
    rw [checkInstallLoop]
    refine requireInstaller_returns hi (Returns.bind (Q := fun r => r = .ok ()) (Returns.attempt fun s => ho.prereq ..) fun r hr => ?_)
    subst hr
    exact Returns.bind (Q := fun _ => True) (Returns.lift ⟨(), rfl, trivial⟩) fun _ _ => ih fun n hn => h n (by
      rw [List.map_cons]; exact List.mem_cons_of_mem _ hn)

theorem filterLoop_returns (m : Machine σ) (ic : InstallerCtx σ) (l : List (String × List Resolution)) (names : List String)
    (hsub : ∀ g ∈ l, g.1 ∈ names) (h : AllObliging m ic names) (u : List (String × List Resolution)) (errs : List InstErr)
    (hu : ∀ g ∈ u, g.1 ∈ names) : Returns (filterLoop ic u errs l) fun r => ∀ g ∈ r.1, g.1 ∈ names := by
  induction l generalizing u errs with
  | nil => exact Returns.ret hu
  | cons p t ih =>
    obtain ⟨n, rs⟩ := p
    have hn : n ∈ names := hsub (n, rs) (by simp)
    obtain ⟨i, hi, ho⟩ := h n hn
    have hk : ∀ rs', ∀ g ∈ (if rs' = [] then u else u ++ [(n, rs')]), g.1 ∈ names := by
      intro rs' g hg
      split at hg
      · exact hu g hg
      · rcases List.mem_append.1 hg with hg | hg
        · exact hu g hg
        · simp only [List.mem_singleton] at hg; subst hg; exact hn
    rw [filterLoop]
    refine requireInstaller_returns hi (Returns.bind (Q := fun r => (∃ b, r = .ok b) ∨ ∃ e, r = .error e ∧ e.isInstallerError = true)
      (Returns.attempt fun s => ho.filter rs s) fun r hr => ?_)
    have iht := ih (fun g hg => hsub g (List.mem_cons_of_mem _ hg))
    rcases hr with ⟨b, rfl⟩ | ⟨e, rfl, he⟩
    · exact iht _ _ (hk b)
    · simp only [he, if_true]; exact iht _ _ (hk rs)

theorem installLoop_returns (m : Machine σ) (ic : InstallerCtx σ) (o : InstallOpts) (hc : o.continueOnError = true)
    (ha : (∃ b, m.ansi "boldon".toList = some b) ∧ ∃ r, m.ansi "reset".toList = some r)
    (l : List (String × List Resolution)) (h : AllObliging m ic (l.map Prod.fst)) (errs : List InstErr) :
    Returns (installLoop m ic o errs l) fun _ => True := by
  induction l generalizing errs with
  | nil => exact Returns.ret trivial
  | cons p t ih =>
    obtain ⟨n, rs⟩ := p
    obtain ⟨i, hi, ho⟩ := h n (by simp)
    rw [installLoop]
    refine Returns.bind (Q := fun _ => True) ?_ fun es _ => ?_
    · unfold installResolutions
      refine requireInstaller_returns hi (Returns.bind (Q := fun r => ∃ cmds, r = .ok cmds ∧
        ∀ c ∈ cmds, Plain c ∧ ∀ s', ∃ code, (m.call c s').1 = .ok code)
        (Returns.attempt fun s => ho.commands rs _ _ s) fun r hr => ?_)
      obtain ⟨cmds, rfl, hcm⟩ := hr
      simp only
      split
      · exact Returns.ret trivial
      · split
        · exact Returns.bind (Q := fun _ => True) (fun s => ⟨(), rfl, trivial⟩) fun _ _ =>
            Returns.bind (showCommands_returns n cmds fun c hc => (hcm c hc).1) fun _ _ => Returns.ret trivial
        · rw [hc]
          refine Returns.bind (runCommands_returns m n [] cmds ha hcm) fun r _ => ?_
          split
          · exact Returns.ret trivial
          · exact verifyItems_returns i n _ rs ho.installed
    · rw [if_neg (by rw [hc]; simp)]
      exact ih (fun n hn => h n (by rw [List.map_cons]; exact List.mem_cons_of_mem _ hn)) _

theorem mapResolutions_names (l : List (String × List Resolution)) (p : String × List Resolution) (hp : p ∈ mapResolutions l) :
    ∃ g ∈ l, g.1 = p.1 := by
  have gen : ∀ (l : List (String × List Resolution)) (m : Dict String (List Resolution)), p ∈ l.foldl mapResolutionsStep m →
      (∃ g ∈ l, g.1 = p.1) ∨ p.1 ∈ m.map Prod.fst := by
    intro l
    induction l with
    | nil => intro m h; exact Or.inr (List.mem_map_of_mem h)
    | cons g t ih =>
      intro m h
      rw [List.foldl_cons] at h
      rcases ih _ h with ⟨g', h1, h2⟩ | h1
      · exact Or.inl ⟨g', List.mem_cons_of_mem _ h1, h2⟩
      · have : ∀ (d : Dict String (List Resolution)) k v, p.1 ∈ (dset d k v).map Prod.fst → p.1 = k ∨ p.1 ∈ d.map Prod.fst := by
          intro d k v
          induction d with
          | nil => simp [dset]
          | cons x t ihd =>
            obtain ⟨k', w⟩ := x
            unfold dset
            split
            · rename_i hk; intro hh; right; simpa using hh
            · intro hh
              simp only [List.map_cons, List.mem_cons] at hh ⊢
              rcases hh with hh | hh
              · exact Or.inr (Or.inl hh)
              · rcases ihd hh with hh | hh
                · exact Or.inl hh
                · exact Or.inr (Or.inr hh)
        rcases this m g.1 _ h1 with h1 | h1
        · exact Or.inl ⟨g, by simp, h1.symm⟩
        · exact Or.inr h1
  rcases gen l [] hp with h | h
  · exact h
  · simp at h

/-- **C34 (partial, positive part)** With continue_on_error an installation returns — having run everything and reporting all failures by
`C34_continue_runs_everything_partial` — whatever exit codes the commands have and whatever is found installed, provided the key lookup does not
raise, the os is known, every plugin is obliging, and the colour table has the two entries used. -/
theorem C34_returns_if_plugins_behave_partial (m : Machine σ) (ic : InstallerCtx σ) (hic : ic.Consistent) (db : Database)
    (f : Dict String (List String)) (o : InstallOpts) (keys : List String) (all : Bool) (s : σ) (hc : o.continueOnError = true)
    (hre : o.reinstall = false) (ha : (∃ b, m.ansi "boldon".toList = some b) ∧ ∃ r, m.ansi "reset".toList = some r)
    (horder : ∀ d, (m.dictOrder d).Perm d) (os : OsTuple) (hos : ic.osTuple = .ok os) (hob : ∀ i ∈ ic.plugins, Obliging m i)
    (r : Resolved) (hr : resolve ic db f keys all = .ok r) :
    ∃ errs, (install m ic db f o keys all s).res = .ok ⟨r.errors, errs⟩ := by
  have names : AllObliging m ic ((r.results.map Prod.snd).map Prod.fst) := by
    intro n hn
    obtain ⟨x, hx, rfl⟩ := List.mem_map.1 hn
    obtain ⟨j, hj, hl⟩ := result_loaded hic hr hx
    exact ⟨j, hl, hob j hj⟩
  have names' : ∀ g ∈ squashResolutions (r.results.map Prod.snd), g.1 ∈ (r.results.map Prod.snd).map Prod.fst := by
    intro g hg
    obtain ⟨x, hx, he⟩ := squash_names hg
    exact he ▸ List.mem_map_of_mem hx
  have : Returns (install m ic db f o keys all) fun rep => rep.resolveErrors = r.errors := by
    unfold install
    refine Returns.bind (Q := fun x => x = r) (Returns.lift ⟨r, hr, rfl⟩) fun y hy => ?_
    subst hy
    rw [if_neg (by rw [hc]; simp)]
    unfold installAfterResolve
    refine Returns.bind (Q := fun _ => True) ?_ fun _ _ => ?_
    · unfold checkGeneralPrerequisites
      refine Returns.bind (Q := fun x => x = os) (Returns.lift ⟨os, hos, rfl⟩) fun x hx => ?_
      apply checkGeneral_returns m
      intro n hn
      have : n ∈ (squashResolutions (y.results.map Prod.snd)).map Prod.fst := ((C41_remove_duplicates _).1 n).1 hn
      obtain ⟨g, hg, rfl⟩ := List.mem_map.1 this
      exact names _ (names' g hg)
    · rw [hre]
      simp only [Bool.false_eq_true, if_false]
      refine Returns.bind (filterLoop_returns m ic _ _ names' names [] [] (by simp)) fun u hu => ?_
      rw [if_neg (by rw [hc]; simp)]
      unfold installPlanned
      refine Returns.bind (Q := fun _ => True) ?_ fun _ _ => ?_
      · unfold checkInstallPrerequisites
        refine Returns.bind (Q := fun x => x = os) (Returns.lift ⟨os, hos, rfl⟩) fun x hx => ?_
        apply checkInstall_returns m
        intro n hn
        obtain ⟨p, hp, rfl⟩ := List.mem_map.1 hn
        obtain ⟨g, hg, he⟩ := mapResolutions_names _ p ((horder _).mem_iff.1 hp)
        exact he ▸ names _ (hu g hg)
      · refine Returns.bind (Q := fun _ => True) ?_ fun errs _ => Returns.ret rfl
        unfold installResolved
        apply installLoop_returns m ic o hc ha
        intro n hn
        obtain ⟨g, hg, rfl⟩ := List.mem_map.1 hn
        obtain ⟨x, hx, he⟩ := squash_names hg
        exact he ▸ names _ (hu x hx)
  obtain ⟨rep, h1, h2⟩ := this s
  exact ⟨rep.installErrors, by rw [h1, ← h2]⟩

end Verif
