/-
html_output_scorestar.py
-/
import Verif.Py.Html
import Verif.Model.Report

namespace Verif
variable [Uni]

/-- the text put into the `pre` element, html_output_scorestar.py:33-46.  `STAR_report` returns a string, so the
comprehension in line 34 runs over its characters.  `dumpStar` and `dumpScaled` are `json.dumps(..., indent=4)`; the
`BeautifulSoup` parser object is not modelled. -/
def htmlStarText (dumpStar : StarResult → Except PyErr Str) (dumpScaled : ScaledResult → Except PyErr Str) (m : Jabmod) :
    Except PyErr Str := do
  let content ← starReport m
  let escaped := content.map (fun c => htmlEscape [c])
  let basicstar ← starResult m
  let j1 ← dumpStar basicstar
  let scaled ← scaledScores m 50
  let j2 ← dumpScaled scaled
  .ok ((escaped ++ [j1] ++ [j2]).flatten)

/-- `html_score_and_star`, html_output_scorestar.py:31-50: BeautifulSoup escapes the text of the element when the document
is turned into a string. -/
def htmlStar (dumpStar : StarResult → Except PyErr Str) (dumpScaled : ScaledResult → Except PyErr Str) (m : Jabmod) :
    Except PyErr Str := do
  let text ← htmlStarText dumpStar dumpScaled m
  .ok (c!"<pre>" ++ soupEscape text ++ c!"</pre>")

end Verif
