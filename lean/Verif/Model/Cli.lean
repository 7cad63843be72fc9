/-
abiftool.py: the command line, and util.py: convert_text_to_abif.
-/
import Verif.Model.JsonOut
import Verif.Model.Export
import Verif.Model.Csv
import Verif.Model.Nameq
import Verif.Model.Debtally
import Verif.Model.Preflib
import Verif.Model.Sftxt
import Verif.Model.Widj

namespace Verif
variable [Uni]

/-- The arguments after `argparse` (abiftool.py:95-120) has checked them: `fromfmt`, `to` and the modifiers are among the
listed choices, `files` is not empty.  `--debug` is left out. -/
structure CliArgs where
  files : List Str
  fromfmt : Option Str := none
  to : Str := c!"text"
  modifier : Option (List Str) := none
  width : Int := 160
  cleanws : Bool := false
  addScores : Bool := false

/-- What the command line depends on.  `file` gives the text of a file, `none` if it does not exist (simplification:
files that exist can be read and decoded); `loads` is `json.loads` (of a document that is a jabmod); `sha` is the hash
used for Debian tokens; `listing` is the order in which sets are listed in JSON; the rest is the rendering done by
libraries: texttable, graphviz (`pipe`: the text it makes of a graph in a given format), BeautifulSoup. -/
structure CliEnv where
  stdin : Str
  file : Str → Option Str
  loads : Str → Except PyErr Jabmod
  sha : Str → Str
  sched : Sched
  draw : List (List TCell) → Except PyErr Str
  drawWide : Int → List (List TCell) → Except PyErr Str
  pipe : Str → Graph → Except PyErr Str
  html : Bool → Option Str → HPage → Except PyErr Str
  listing : SetListing

/-- what a run printed, and how it ended -/
structure CliResult where
  out : Str
  ending : Except PyErr Unit

/-- `validinfmts`, abiftool.py:27-36, 101 -/
def validInFmts : List Str :=
  [c!"abif", c!"debtally", c!"jabmod", c!"nameq", c!"preflib", c!"sftxt", c!"widj"]

/-- `s.rsplit('.', 1)[1]` for a string with a dot -/
def afterLastDot (s : Str) : Str := (s.reverse.takeWhile (fun c => c != '.')).reverse

/-- `input_format`, abiftool.py:124-134.  `args.input_file` is always a list (`nargs='+'`), so the comparison with `'-'` in
line 128 is never true. -/
def cliFormat (a : CliArgs) : Except PyErr Str :=
  match a.fromfmt with
  | some f => .ok f
  | none =>
    match a.files with
    | [] => .error .indexError
    | f :: _ => if '.' ∈ f then .ok (afterLastDot f) else .ok c!"abif"

/-- reading the input files in order, abiftool.py:144-150: the text read last, and all texts -/
def readFiles (env : CliEnv) : List Str → Str → List Str → Except Str (Str × List Str)
  | [], inputstr, blobs => .ok (inputstr, blobs)
  | f :: fs, _, blobs =>
    match env.file f with
    | none => .error f
    | some text => readFiles env fs text (blobs ++ [text])

/-- the input, abiftool.py:139-156 (lines 151-156 cannot be reached: `args.input_file` is a list); an error carries the
name of a missing file -/
def cliInput (env : CliEnv) (a : CliArgs) : Except Str (Str × List Str) :=
  if a.files = [c!"-"] then .ok (env.stdin, []) else readFiles env a.files [] []

/-- `modifiers`, abiftool.py:157-160 -/
def cliModifiers (a : CliArgs) : List Str :=
  match a.modifier with
  | none => [c!"candlist", c!"Copeland", c!"winlosstie"]
  | some [] => [c!"candlist", c!"Copeland", c!"winlosstie"]
  | some ms => ms

/-- the model read from the input, abiftool.py:163-190 -/
def cliModel (env : CliEnv) (a : CliArgs) (fmt inputstr : Str) (blobs : List Str) : Except PyErr Jabmod :=
  if fmt = c!"abif" then convertAbif a.cleanws a.addScores (decide (c!"jcomments" ∈ cliModifiers a)) inputstr
  else if fmt = c!"debtally" then (convertDebtally env.sha [] inputstr).bind (convertAbif false false false)
  else if fmt = c!"jabmod" then env.loads inputstr
  else if fmt = c!"nameq" then nameqToJabmod inputstr
  else if fmt = c!"preflib" then (convertPreflib inputstr).bind (convertAbif false false false)
  else if fmt = c!"sftxt" then
    match blobs with
    | b0 :: b1 :: _ => sfConvert false b0 b1
    | _ => .error .indexError
  else if fmt = c!"widj" then (convertWidj (.str inputstr)).bind (fun _ => .error .typeError)
  else .error .systemExit

/-- a section of the text output, if its modifier is given -/
def section? (mods : List Str) (name : Str) (text : Except PyErr Str) : Except PyErr Str :=
  if name ∈ mods then text else .ok []

/-- the STAR section, abiftool.py:261-268 -/
def starSection (m : Jabmod) : Except PyErr Str := do
  let r ← hasRatings m
  if r then starReport m
  else .ok (c!"No stars/scores available." ++ c!"  Please use --add-scores to extrapolate score from ranks.")

/-- the `-t text` output, abiftool.py:246-271 -/
def cliText (env : CliEnv) (mods : List Str) (width : Int) (m : Jabmod) : Except PyErr Str := do
  let s1 ← section? mods c!"candlist" (.ok (candlistText m))
  let s2 ← section? mods c!"winlosstie" (texttablePairwise env.draw m)
  let s3 ← section? mods c!"pairwise" ((env.drawWide width (gridRows (pairwiseCount m))).bind postprocess)
  let s4 ← section? mods c!"IRV" ((irvDict env.sched m).bind irvReport)
  let s5 ← section? mods c!"score" (scoreReport m)
  let s6 ← section? mods c!"STAR" (starSection m)
  let s7 ← section? mods c!"Copeland" ((fullCopecount m).bind (copelandReport m.candidates))
  .ok (s1 ++ s2 ++ s3 ++ s4 ++ s5 ++ s6 ++ s7)

/-- the JSON outputs, abiftool.py:224-238 -/
def cliJson (env : CliEnv) (to : Str) (mods : List Str) (m : Jabmod) : Except PyErr Str :=
  if to = c!"irvjson" ∨ c!"IRV" ∈ mods then (irvDict env.sched m).bind fun d => .ok (irvDoc env.listing m.candidates d).dumpsIndent
  else if to = c!"paircountjson" ∨ c!"pairwise" ∈ mods then .ok (pairsDoc (pairwiseCount m)).dumpsIndent
  else if c!"STAR" ∈ mods then (starResult m).bind fun r => .ok (starDoc r).dumpsIndent
  else .ok c!"Please specify modifier or choose 'jabmod' output format"

/-- `copecount_diagram`, vizelect.py:26-66 -/
def copecountDiagram (env : CliEnv) (fmt : Str) (cc : Copecount) : Except PyErr Str :=
  (copecountGraph cc).bind fun g => (env.pipe fmt g).bind fun d => .ok (fromSvg d)

/-- graphviz output, abiftool.py:207-209, 243-245, 213-217 -/
def cliDiagram (env : CliEnv) (fmt : Str) (m : Jabmod) : Except PyErr Str :=
  (fullCopecount m).bind (copecountDiagram env fmt)

/-- the output, abiftool.py:197-277 -/
def cliOutput (env : CliEnv) (a : CliArgs) (m : Jabmod) : Except PyErr Str :=
  let mods := cliModifiers a
  if a.to = c!"abif" then convertToAbif m
  else if a.to = c!"csvrank" then rankingCsv m
  else if a.to = c!"dot" then cliDiagram env c!"dot" m
  else if a.to = c!"html" then (htmlPage m true false).bind (env.html false none)
  else if a.to = c!"html_snippet" then do
    let _ ← fullCopecount m
    let svg ← if c!"svg" ∈ mods then (cliDiagram env c!"svg" m).map some else .ok none
    let p ← htmlPage m true true
    env.html true svg p
  else if a.to = c!"irvjson" ∨ a.to = c!"json" ∨ a.to = c!"paircountjson" then cliJson env a.to mods m
  else if a.to = c!"jabmod" then .ok (dumpModel m)
  else if a.to = c!"nameq" then jabmodToNameq m
  else if a.to = c!"svg" then cliDiagram env c!"svg" m
  else if a.to = c!"text" then cliText env mods a.width m
  else if a.to = c!"winlosstiejson" then
    (winLossTie m.candidates.keys (pairwiseCount m)).bind fun w => .ok (wltDoc w).dumpsIndent
  else .ok (c!"Cannot convert to " ++ a.to ++ c!" yet.")

/-- `main`, abiftool.py:93-283.  What is printed before an exception is not kept (only line 171 prints something, the
error message, before re-raising). -/
def cliMain (env : CliEnv) (a : CliArgs) : CliResult :=
  match cliFormat a with
  | .error e => ⟨[], .error e⟩
  | .ok fmt =>
    if fmt ∉ validInFmts then ⟨c!"Error: Unsupported input format '" ++ fmt ++ c!"'\n", .ok ()⟩
    else
      match cliInput env a with
      | .error f => ⟨c!"The file '" ++ f ++ c!"' doesn't exist.\n", .error .systemExit⟩
      | .ok (inputstr, blobs) =>
        match cliModel env a fmt inputstr blobs with
        | .error e => ⟨[], .error e⟩
        | .ok m =>
          match cliOutput env a (if c!"consolidate" ∈ cliModifiers a then consolidate m else m) with
          | .error e => ⟨[], .error e⟩
          | .ok out => ⟨out ++ c!"\n", .ok ()⟩

/-! ### util.py -/

/-- `inputblobs[i]` -/
def blobAt (blobs : List Str) (i : Nat) : Except PyErr Str :=
  match blobs[i]? with
  | some b => .ok b
  | none => .error .indexError

/-- the model made by `convert_text_to_abif`, util.py:26-51 -/
def textModel (loads : Str → Except PyErr Jabmod) (sha : Str → Str) (fromfmt : Str) (blobs : List Str)
    (cleanws addRatings : Bool) (metadata : List (Str × Str)) : Except PyErr Jabmod := do
  let b0 ← blobAt blobs 0
  if fromfmt = c!"abif" then
    match convertAbif cleanws addRatings false b0 with
    | .error .voteline => .error .systemExit
    | r => r
  else if fromfmt = c!"debtally" then (convertDebtally sha metadata b0).bind (convertAbif false false false)
  else if fromfmt = c!"jabmod" then loads b0
  else if fromfmt = c!"preflib" then (convertPreflib b0).bind (convertAbif false false false)
  else if fromfmt = c!"sftxt" then do
    let b1 ← blobAt blobs 1
    sfConvert false b0 b1
  else if fromfmt = c!"widj" then (convertWidj (.str b0)).bind (fun _ => .error .typeError)
  else .error .voteline

/-- `convert_text_to_abif`, util.py:26-51 -/
def textToAbif (loads : Str → Except PyErr Jabmod) (sha : Str → Str) (fromfmt : Str) (blobs : List Str)
    (cleanws addRatings : Bool) (metadata : List (Str × Str)) : Except PyErr Str :=
  (textModel loads sha fromfmt blobs cleanws addRatings metadata).bind convertToAbif

end Verif
