import Verif.Lemmas.Argv5
import Verif.Props.Argv
/-! # C139: every accepted command line -/
namespace Verif

theorem readAll_ok {opts : List OptSpec} {p : Positionals} {ns : ArgSpace} {words : List String} {r : Reading} (h : readAll opts p ns words = .ok r) :
    ∃ ks, classifyAll opts words = .ok ks ∧ readWords opts p ks (startReading opts ns) = .ok r ∧ r.complete p = true := by
  unfold readAll at h
  obtain ⟨ks, h1, h2⟩ := Except_bind_ok.1 h
  obtain ⟨q, h3, h4⟩ := Except_bind_ok.1 h2
  split at h4
  · rename_i hc
    cases h4
    exact ⟨ks, h1, h3, hc⟩
  · cases h4

/-- **C139** Every command line that is accepted consists of options for xylem, the name of a command, options for it, its keys standing together, and further
options for it, where each option is one the parser has, with a value exactly if it takes one; the command has as many keys as it takes; and its values are those
`parseCommandLine` computes from these options. So whatever holds for all options and keys (`Model/CommandLine`, `Model/Program`) holds for all words. -/
theorem C139_accepted {fresh : Bool} {top : List OptSpec} {cmds : List CommandParser} (ht : Usual top) (hc : ∀ k ∈ cmds, Usual k.opts ∧ k.positionals ≠ .command)
    {words : List String} {k : CommandParser} {ns : ArgSpace} {keys : List String} (h : parseArgv fresh top cmds words = .ok (k, ns, keys)) :
    k ∈ cmds ∧ ∃ before wb a1 w1 kw a2 w2, words = wb ++ k.name :: (w1 ++ (kw ++ w2)) ∧
      Written ArgWord before wb ∧ Written ArgWord a1 w1 ∧ KeyWords keys kw w2 ∧ Written ArgWord a2 w2 ∧
      (∀ g ∈ before, Fitting top g) ∧ (∀ g ∈ a1 ++ a2, Fitting k.opts g) ∧ k.positionals.admits keys ∧
      parseCommandLine fresh top k.opts before (a1 ++ a2) = .ok ns := by
  unfold parseArgv at h
  obtain ⟨t, h1, h2⟩ := Except_bind_ok.1 h
  obtain ⟨kt, i1, i2, i3⟩ := readAll_ok h1
  have hrest : ∃ c ws, t.rest = c :: ws := by
    cases hr : t.rest with
    | nil => rw [hr] at h2; cases h2
    | cons c ws => exact ⟨c, ws, rfl⟩
  obtain ⟨c, ws, hr⟩ := hrest
  rw [hr] at h2
  unfold callCommand at h2
  simp only at h2
  cases hf : cmds.find? fun k => k.name == c with
  | none => rw [hf] at h2; cases h2
  | some q =>
    rw [hf] at h2
    simp only at h2
    obtain ⟨s, h3, h4⟩ := Except_bind_ok.1 h2
    split at h4
    · rename_i hex
      cases h4
      have hname : k.name = c := by simpa using List.find?_some hf
      have hmem := List.mem_of_find?_eq_some hf
      obtain ⟨_, before, wb, c', rest, j1, j2, j3, j4, j5⟩ := read_top ht _ words kt _ t (Nat.le_refl _) i1 i2 rfl hex.1 i3
      rw [hr] at j2
      injection j2 with j2 j2'
      subst j2; subst j2'
      obtain ⟨ks, l1, l2, l3⟩ := readAll_ok h3
      obtain ⟨a1, w1, keys, kw, a2, w2, m1, m2, m3, m4, m5, m6, m7, m8, m9⟩ :=
        read_before (hc k hmem).1 (hc k hmem).2 _ ws ks _ s (Nat.le_refl _) l1 l2 rfl rfl hex.2 l3
      refine ⟨hmem, before, wb, a1, w1, kw, a2, w2, by rw [j1, m1, hname], j3, m2, by rw [m8]; exact m4, m3, j4, ?_, by rw [m8]; exact m9, ?_⟩
      · intro g hg
        rcases List.mem_append.1 hg with hg | hg
        · exact m5 g hg
        · exact m6 g hg
      · have e1 : parseInto top [] before = .ok t.ns := j5
        unfold parseCommandLine
        rw [e1]
        show (if fresh = true then _ else _) = _
        cases fresh with
        | true =>
          have e2 : parseInto k.opts [] (a1 ++ a2) = .ok s.ns := m7
          simp only [if_true]
          rw [e2]
          rfl
        | false =>
          have e2 : parseInto k.opts t.ns (a1 ++ a2) = .ok s.ns := m7
          simp only [Bool.false_eq_true, if_false]
          exact e2
    · cases h4

end Verif
