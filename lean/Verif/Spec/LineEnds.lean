/-
The lines of a text, whichever way their ends are written.
-/
import Verif.Py.Str

namespace Verif.Spec

/-- the usual ways to end a line: line feed (Unix), carriage return and line feed (Windows), carriage return (old Mac) -/
inductive LineEnd : Str → Prop
  | unix : LineEnd ['\n']
  | windows : LineEnd ['\r', '\n']
  | mac : LineEnd ['\r']

/-- `WritesLines ls text`: the text consists of the lines `ls`.  Each line has an end, the last line may lack it if it
is not empty; ends may be of different kinds, but a carriage return directly followed by a line feed is one end, not two. -/
inductive WritesLines : List Str → Str → Prop
  | none : WritesLines [] []
  | last (l : Str) : l ≠ [] → (∀ c ∈ l, isLineBreak c = false) → WritesLines [l] l
  | line (l e : Str) (ls : List Str) (t : Str) : (∀ c ∈ l, isLineBreak c = false) → LineEnd e →
      ¬ (e = ['\r'] ∧ t.head? = some '\n') → WritesLines ls t → WritesLines (l :: ls) (l ++ e ++ t)

/-- two texts of the same lines -/
def SameLines (s t : Str) : Prop := ∃ ls : List Str, WritesLines ls s ∧ WritesLines ls t

/-- the line breaks Python knows besides line feed and carriage return: vertical tab, form feed, the separators
U+001C to U+001E, next line, and the Unicode line and paragraph separators -/
def RareBreak (c : Char) : Prop :=
  c.toNat = 0x0B ∨ c.toNat = 0x0C ∨ c.toNat = 0x1C ∨ c.toNat = 0x1D ∨ c.toNat = 0x1E ∨ c.toNat = 0x85 ∨
    c.toNat = 0x2028 ∨ c.toNat = 0x2029

end Verif.Spec
