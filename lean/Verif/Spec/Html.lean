/-
What a reader of HTML text sees: character references are replaced by the characters they stand for.
-/
import Verif.Py.Str

namespace Verif.Spec
open Verif

/-- the references used, and their characters -/
def htmlRefs : List (Str × Char) :=
  [(c!"&amp;", '&'), (c!"&lt;", '<'), (c!"&gt;", '>'), (c!"&quot;", '"'), (c!"&#x27;", '\'')]

/-- `Shows h s`: the HTML text `h` is read as the text `s`.  The text is a sequence of the references above and of
characters other than `&` and `<` (the characters that start a reference or a tag), read from left to right. -/
inductive Shows : Str → Str → Prop
  | nil : Shows [] []
  | char (c : Char) (h s : Str) (h1 : c ≠ '&') (h2 : c ≠ '<') : Shows h s → Shows (c :: h) (c :: s)
  | ref (r : Str) (c : Char) (h s : Str) (hr : (r, c) ∈ htmlRefs) : Shows h s → Shows (r ++ h) (c :: s)

end Verif.Spec
