import Verif.Props.InstallExamples
/-! # C71: prerequisite checks come first -/
namespace Verif
variable {σ : Type}

theorem mapResolutions_get (l : List (String × List Resolution)) (n : String) :
    (dget (mapResolutions l) n).getD [] = l.flatMap (fun g => if g.1 = n then g.2 else []) := by
  have gen : ∀ (l : List (String × List Resolution)) (m : Dict String (List Resolution)),
      (dget (l.foldl mapResolutionsStep m) n).getD [] = (dget m n).getD [] ++ l.flatMap (fun g => if g.1 = n then g.2 else []) := by
    intro l
    induction l with
    | nil => simp
    | cons g t ih =>
      intro m
      rw [List.foldl_cons, ih, List.flatMap_cons, ← List.append_assoc]
      congr 1
      unfold mapResolutionsStep
      by_cases h : g.1 = n
      · subst h; rw [dget_dset_self']; simp
      · rw [dget_dset_ne' _ _ h]; simp [h]
  simpa [dget, mapResolutions] using gen l []

/-- **C71** Nothing is planned or executed before all prerequisites have been checked successfully: each installer's general ones, and those
for exactly the items it is going to install (its groups joined); and no check, and no question what is installed, comes after the first plan. -/
theorem C71_prerequisites_checked_first (m : Machine σ) (ic : InstallerCtx σ) (db : Database) (f : Dict String (List String))
    (o : InstallOpts) (keys : List String) (all : Bool) (s : σ) (horder : ∀ d, (m.dictOrder d).Perm d)
    (pre post : List Event) (x : Event) (hx : x.isCheck = false ∧ x.isFilter = false)
    (hev : (install m ic db f o keys all s).ev = pre ++ x :: post) :
    (∀ y ∈ post, y.isCheck = false ∧ y.isFilter = false) ∧
    (∀ i items r, .plan i items r ∈ (install m ic db f o keys all s).ev →
      .general i o.fixPrerequisites (.ok ()) ∈ pre ∧
      .prereq i ((pre.filterMap keptOf).flatMap fun g => if g.1 = i then g.2 else []) o.fixPrerequisites (.ok ()) ∈ pre) := by
  have hr := install_run m ic db f o keys all s
  generalize install m ic db f o keys all s = out at hr hev
  have none : (∀ e ∈ out.ev, e.isCheck = true ∨ e.isFilter = true) → False := by
    intro h
    have := h x (by rw [hev]; simp)
    rw [hx.1, hx.2] at this; simp at this
  cases hr with
  | resolveRaised e h' hres hev => exact (none (by simp [hev])).elim
  | resolveErrors r h' hne hc hres hev => exact (none (by simp [hev])).elim
  | stopped r h' hgo e hres hev => exact (none hev).elim
  | filterErrors r h' hgo hre g F hg hF u errs hFr hne hc hres hev' =>
    have := ran_prefix (p := []) hg hF (by simp)
    rw [List.append_nil, ← hev'] at this
    exact (none this).elim
  | ran r h' hgo hre g p F L hg hF u errs hFr hok hp hL hres hev' hg' hp' =>
    have hev2 := hev'
    rw [hev] at hev2
    rcases split_append hev2.symm with ⟨post', h6, _⟩ | ⟨pre', h6, h7⟩
    · have := ran_prefix hg hF hp x (by rw [h6]; simp)
      rw [hx.1, hx.2] at this; simp at this
    · refine ⟨fun y hy => hL.onlyInstall y (by rw [h6]; simp [hy]), ?_⟩
      intro i items res hm
      have hgm : (i, items) ∈ squashResolutions u := by
        have h1 : .plan i items res ∈ L.ev := by
          rw [hev'] at hm
          rcases List.mem_append.1 hm with hm | hm
          · have := ran_prefix hg hF hp _ hm
            simp [Event.isCheck, Event.isFilter] at this
          · exact hm
        have h2 : (i, items) ∈ plannedItems L.ev := List.mem_flatMap.2 ⟨_, h1, by simp⟩
        exact hL.itemsPlanned.subset h2
      obtain ⟨y, hy, hyi⟩ := squash_names hgm
      simp only at hyi
      obtain ⟨hin, h2, _, _⟩ := hF.result u errs hFr
      have hpre : pre = g ++ F.ev ++ p ++ pre' := h7
      have hkept : pre.filterMap keptOf = u := by
        have e1 : g.filterMap keptOf = [] := by
          rw [List.filterMap_eq_nil_iff]; intro x hx; obtain ⟨n, r, rfl⟩ := hg x hx; rfl
        have e2 : p.filterMap keptOf = [] := by
          rw [List.filterMap_eq_nil_iff]; intro x hx; obtain ⟨n, rs, r, rfl⟩ := hp x hx; rfl
        have e3 : pre'.filterMap keptOf = [] := by
          rw [List.filterMap_eq_nil_iff]; intro x hx
          exact (not_filter_none (hL.onlyInstall x (by rw [h6]; simp [hx])).2).1
        rw [hpre, List.filterMap_append, List.filterMap_append, List.filterMap_append, e1, e2, e3, h2]; simp
      constructor
      · rw [hpre, hg']
        apply List.mem_append_left
        apply List.mem_append_left
        apply List.mem_append_left
        refine List.mem_map.2 ⟨i, ?_, rfl⟩
        rw [installerNames, (C41_remove_duplicates _).1]
        have hyf : y ∈ F.ev.filterMap keptOf := by rw [h2] at hy; simpa using hy
        obtain ⟨e, he, hk⟩ := List.mem_filterMap.1 hyf
        have : ∃ q, filterInput e = some q ∧ q.1 = y.1 := by
          cases e with
          | filter n rs out' =>
            refine ⟨(n, rs), rfl, ?_⟩
            cases out' <;> simp only [keptOf] at hk <;> split at hk <;> simp at hk <;> (subst hk; rfl)
          | _ => simp [keptOf] at hk
        obtain ⟨q, hq, hqy⟩ := this
        have : q ∈ squashResolutions (r.results.map Prod.snd) := hin ▸ List.mem_filterMap.2 ⟨e, he, hq⟩
        rw [← hyi, ← hqy]
        exact List.mem_map_of_mem this
      · rw [hkept, ← mapResolutions_get, hpre, hp']
        apply List.mem_append_left
        apply List.mem_append_right
        have hdom : ∀ (l : List (String × List Resolution)) (m : Dict String (List Resolution)),
            (i ∈ l.map Prod.fst ∨ dget m i ≠ .none) → dget (l.foldl mapResolutionsStep m) i ≠ .none := by
          intro l
          induction l with
          | nil => intro m h; simpa using h
          | cons g t ih =>
            intro m h
            rw [List.foldl_cons]
            apply ih
            by_cases hgi : g.1 = i
            · right; unfold mapResolutionsStep; rw [hgi, dget_dset_self']; simp
            · rcases h with h | h
              · left
                rw [List.map_cons, List.mem_cons] at h
                rcases h with h | h
                · exact absurd h.symm hgi
                · exact h
              · right; unfold mapResolutionsStep; rw [dget_dset_ne' _ _ hgi]; exact h
        have hne : dget (mapResolutions u) i ≠ .none := hdom u [] (Or.inl (hyi ▸ List.mem_map_of_mem hy))
        cases hd : dget (mapResolutions u) i with
        | none => exact absurd hd hne
        | some v =>
          have hmem : ∀ (d : Dict String (List Resolution)), dget d i = some v → (i, v) ∈ d := by
            intro d
            induction d with
            | nil => simp [dget]
            | cons x t ih =>
              obtain ⟨k, w⟩ := x
              intro h
              unfold dget at h
              split at h
              · rename_i hk; subst hk; simp only [Option.some.injEq] at h; subst h; simp
              · exact List.mem_cons_of_mem _ (ih h)
          exact List.mem_map.2 ⟨(i, v), (horder _).mem_iff.2 (hmem _ hd), rfl⟩

example : ∃ pre post, (install toyMachine toyIc toyDb [] {} ["a", "b", "c"] false ["b"]).ev =
      pre ++ .plan "toy" [toyRes "a", toyRes "c"] (.ok [["get", "a"], ["get", "c"]]) :: post ∧ pre.length = 3 :=
  ⟨[.general "toy" false (.ok ()), .filter "toy" [toyRes "a", toyRes "b", toyRes "c"] (.ok [toyRes "a", toyRes "c"]),
     .prereq "toy" [toyRes "a", toyRes "c"] false (.ok ())], _, congrArg Out.ev toy_run_good, rfl⟩
example : ∀ d, (toyMachine.dictOrder d).Perm d := fun _ => .rfl

end Verif
