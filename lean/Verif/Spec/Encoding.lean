import Verif.Model.Encoding
/-! # Specification of text, bytes and printable exceptions -/
namespace Verif

/-- The byte string is valid UTF-8 (as specified by Lean's library: the encoding of some list of characters). -/
def ValidUtf8 (b : Bytes) : Prop := b.toByteArray.IsValidUTF8

/-- Only ASCII characters. -/
def AsciiText (t : List Char) : Prop := ∀ c ∈ t, c.toNat < 128

/-- Only ASCII bytes. -/
def AsciiBytes (b : Bytes) : Prop := ∀ x ∈ b, x.toNat < 128

/-- The message of an exception is a text, or ASCII. -/
def PrintableMsg : ExcMsg → Prop
  | .text _ => True
  | .bytes b => AsciiBytes b

/-- Name and message of the exception do not contain bytes that are not ASCII. -/
def Printable (e : ExcObj) : Prop := AsciiBytes e.cls ∧ PrintableMsg e.msg

/-- The characters of an ASCII byte string. -/
def asciiChars (b : Bytes) : List Char := b.map fun x => Char.ofNat x.toNat

/-- The method gives a text or a byte string, or raises one of the errors `to_str` expects. -/
def Tame : MethodResult → Prop
  | .text _ | .bytes _ | .unicodeError => True
  | _ => False

end Verif
