import Verif.Model.ArgBytes
import Verif.Spec.Encoding
import Verif.Spec.Config
/-! # What the words of the command line should mean -/
namespace Verif

/-- The bytes of a text (UTF-8), as the shell passes them. -/
def bytesOf (s : String) : Bytes := encodeUtf8 s.toList

/-- The value of an option, with its words as bytes. -/
def CmdVal.asBytes : CmdVal → ByteArg
  | .none => .none
  | .one s => .one (bytesOf s)
  | .many l => .many (l.map bytesOf)

/-- YAML is read from bytes as from the text they encode. -/
def ReadsUtf8 (loadBytes : Bytes → Except Exc PVal) (loadText : String → Except Exc PVal) : Prop := ∀ s, loadBytes (bytesOf s) = loadText s

/-- Words that are read in python 2: all for types other than lists and dicts; for those the words that are ASCII, or are a list (a dict) as they are, with the brackets. -/
def SafeWord (loadText : String → Except Exc PVal) : CType → String → Prop
  | .list _, s => AsciiText s.toList ∨ ∃ l, loadText s = .ok (.list l)
  | .dict _ _, s => AsciiText s.toList ∨ ∃ d, loadText s = .ok (.dict d)
  | .mergingDict _ _, s => AsciiText s.toList ∨ ∃ d, loadText s = .ok (.dict d)
  | _, _ => True

/-- The words can be put together (to a list, to a dict), whatever is inside. -/
def GoTogether (loadText : String → Except Exc PVal) (t : CType) (ws : List String) : Prop :=
  match t with
  | .list _ => ∃ w, (CType.list .any).fromCommandLine loadText id (.many ws) = .ok w
  | _ => ∃ w, (CType.dict .any .any).fromCommandLine loadText id (.many ws) = .ok w

/-- Lists and dicts. -/
def CType.Compound : CType → Prop
  | .list _ | .dict _ _ | .mergingDict _ _ => True
  | _ => False

end Verif
