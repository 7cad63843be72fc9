/-
Specification of how metadata values look in a text, and of what is left of a value after it was written to a text
and read again.
-/
import Verif.Spec.Abif
import Verif.Py.Json

namespace Verif.Spec
variable [Uni]

/-- A key as people write it: word characters and blanks on one line, not starting with a blank. -/
def PlainKey (k : Str) : Prop :=
  (∃ c t, k = c :: t ∧ isWord c = true) ∧ ∀ c ∈ k, (isWord c = true ∨ isSpace c = true) ∧ isLineBreak c = false

/-- a printable ASCII character that may stand in a metadata value -/
def plainValChar (c : Char) : Bool := decide (32 ≤ c.toNat) && decide (c.toNat ≤ 126) && valChar c

/-- What a metadata value becomes after one trip through a text: strings of plain value characters stay as they
are, numbers, booleans and null become the string of their JSON text; empty strings, strings with any other
character, lists and objects are lost. -/
def rereadValue : Json → Option Str
  | .null => some c!"null"
  | .bool true => some c!"true"
  | .bool false => some c!"false"
  | .int i => some (intStr i)
  | .str s => if s ≠ [] ∧ s.all plainValChar = true then some s else none
  | .arr _ => none
  | .obj _ => none

end Verif.Spec
