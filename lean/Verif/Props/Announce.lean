import Verif.Props.InstallReturns
import Verif.Props.DryRun
/-!
# What an installation prints before it runs a command (C80)
-/
namespace Verif

/-- **C80** Before a command is run its text is announced on stdout: `executing command: ` and the words of the command with one blank between
them, in bold (`bold` and `reset` are the codes of the terminal, empty without colours); the words must be texts without `@`. -/
theorem C80_announcement (on : Bool) (a : AnsiTable) (bold reset : List Char) (hb : a "boldon".toList = some bold) (hr : a "reset".toList = some reset)
    (inst : String) (words : List String) (hw : ∀ w ∈ words, '@' ∉ w.toList) (code : Except Exc Int) :
    eventLines on a (.exec inst (words.map some) code) =
      [.out (bold ++ "executing command: ".toList ++ pyJoin [' '] (words.map String.toList) ++ reset ++ reset ++ ansi on "reset")] := by
  have hp : Plain (words.map some) := by
    intro w h
    obtain ⟨t, ht, rfl⟩ := List.mem_map.1 h
    exact ⟨t, rfl, hw t ht⟩
  obtain ⟨l, h1, h2⟩ := plain_join hp
  have e : l = pyJoin [' '] (words.map String.toList) := by
    rw [joinCmd_typed h1, typed, List.map_map]
    rfl
  have h3 : announce a (words.map some) = .ok (bold ++ ("executing command: ".toList ++ l) ++ reset ++ reset) := by
    have hat : '@' ∉ "executing command: ".toList ++ l := by
      rw [List.mem_append, not_or]; exact ⟨by decide, h2⟩
    have := C57_bold_text a bold reset _ hat hb hr
    unfold announce
    rw [h1]
    show fmt a ("@!executing command: ".toList ++ l ++ "@|".toList) = _
    rw [← this]
    rfl
  simp only [eventLines, h3, info, e, List.append_assoc]

/-- **C80** The text of a command in a simulation: two blanks and its words with one blank between them. -/
theorem C80_shown_command (on : Bool) (a : AnsiTable) (inst : String) (words : List String) :
    eventLines on a (.shown inst (words.map some)) = [.out ("  ".toList ++ pyJoin [' '] (words.map String.toList) ++ ansi on "reset")] := by
  have h : joinCmd (words.map some) = .ok (pyJoin [' '] (words.map String.toList)) := by
    have : cmdWords (words.map some) = .ok (words.map String.toList) := by
      induction words with
      | nil => rfl
      | cons w t ih => simp [cmdWords, ih, bind, Except.bind, pure, Except.pure]
    simp [joinCmd, this, bind, Except.bind, pure, Except.pure]
  simp only [eventLines, h, info]

example : eventLines false (fun _ => some []) (.exec "apt" [some "sudo", some "apt-get", some "install", some "x"] (.ok 0)) =
    [.out "executing command: sudo apt-get install x".toList] :=
  C80_announcement false (fun _ => some []) [] [] rfl rfl "apt" ["sudo", "apt-get", "install", "x"] (by decide) (.ok 0)

end Verif
