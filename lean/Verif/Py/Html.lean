/-
Python's `html.escape` and the escaping BeautifulSoup applies to text.
-/
import Verif.Py.Str

namespace Verif

/-- `s.replace(c, r)` for a pattern of one character -/
def replaceChar (c : Char) (r : Str) (s : Str) : Str := s.flatMap (fun x => if x = c then r else [x])

/-- `html.escape(s)` (with `quote=True`): Lib/html/__init__.py, five replacements one after another, `&` first -/
def htmlEscape (s : Str) : Str :=
  replaceChar '\'' c!"&#x27;" (replaceChar '"' c!"&quot;"
    (replaceChar '>' c!"&gt;" (replaceChar '<' c!"&lt;" (replaceChar '&' c!"&amp;" s))))

/-- BeautifulSoup's default ("minimal") formatter for text: `EntitySubstitution.substitute_xml`, three replacements one
after another -/
def soupEscape (s : Str) : Str :=
  replaceChar '>' c!"&gt;" (replaceChar '<' c!"&lt;" (replaceChar '&' c!"&amp;" s))

end Verif
