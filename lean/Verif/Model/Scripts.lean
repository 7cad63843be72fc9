/-
The stand-alone programs of the abiflib modules: the `main` functions of irvtally.py, pairwise.py, scorestar.py,
debtally.py, preflib.py, html_output_pairwise.py, html_output_scorestar.py and core.py, after argparse.
(textoutput.py:147 calls the `main` it imports from pairwise.py, line 19, so as a program it is `pairwiseMain`.  The `main`
of devtools.py passes an argument `LogfileSingleton` does not have, a TypeError; it is not modelled.)
-/
import Verif.Model.Cli
import Verif.Model.Html

namespace Verif
variable [Uni]

/-- reading the input file: `pathlib.Path(f).read_text()` or `open(f).read()`; an exception if it does not exist -/
def scriptInput (env : CliEnv) (file : Str) : Except PyErr Str :=
  match env.file file with
  | some t => .ok t
  | none => .error .fileNotFound

/-- `print(outstr)` at the end of a program; nothing is printed before -/
def printed : Except PyErr Str → CliResult
  | .ok out => ⟨out ++ c!"\n", .ok ()⟩
  | .error e => ⟨[], .error e⟩

/-- irvtally.py:284-300 -/
def irvMain (env : CliEnv) (json : Bool) (file : Str) : CliResult :=
  printed do
    let abiftext ← scriptInput env file
    let m ← convertAbif false false false abiftext
    let d ← irvDict env.sched m
    if json then .ok (irvDoc env.listing m.candidates d).dumpsIndent
    else do
      let rep ← irvReport d
      .ok (candlistText m ++ rep)

/-- `headerfy_text_file`, textoutput.py:137-143 -/
def headerfy (filetext filename : Str) : Str :=
  c!"============================\n" ++ (filename ++ c!"\n") ++ c!"-------------------------\n" ++ filetext

/-- pairwise.py:143-168; `width` keeps its default, textoutput.py:32 -/
def pairwiseMain (env : CliEnv) (file : Str) : CliResult :=
  printed do
    let abiftext ← scriptInput env file
    let m ← convertAbif false false false abiftext
    let grid ← (env.drawWide 160 (gridRows (pairwiseCount m))).bind postprocess
    .ok (c!"======= ABIF FILE =======\n\n" ++ headerfy abiftext file ++ c!"\n======= PAIRWISE RESULTS =======\n\n" ++ grid)

/-- `json.dumps` of the enhanced score result, scorestar.py:45-68 and 193-194 -/
def scoreDoc (r : ScoreResult) : Json :=
  .obj [(c!"scores", .obj (r.scores.map (scoreEntryJson r.ranks))), (c!"ranklist", strsJson r.ranklist),
        (c!"total_all_scores", .int r.totalAllScores), (c!"totalvoters", r.totalvoters)]

/-- scorestar.py:164-214; `dumpScaled` is `json.dumps(..., indent=4)` of the scaled scores, which holds floats -/
def scoreMain (env : CliEnv) (dumpScaled : ScaledResult → Except PyErr Str) (file : Str) : CliResult :=
  printed do
    let abiftext ← scriptInput env file
    let m ← convertAbif false true false abiftext
    let scoreres ← enhancedScore m
    let star ← starResult m
    let scorerep ← scoreReport m
    let starrep ← starReport m
    let scaled ← scaledScores m 50
    let sc ← dumpScaled scaled
    .ok (c!"======= ABIF File =======\n" ++ abiftext ++
         c!"======= ABIF Model (jabmod) =======\n" ++ dumpModel m ++
         c!"\n======= Raw Score JSON =======\n" ++ (scoreDoc scoreres).dumpsIndent ++
         c!"\n======= Raw STAR JSON =======\n" ++ (starDoc star).dumpsIndent ++
         c!"\n======= Score Results =======\n" ++ scorerep ++
         c!"\n======= STAR Results =======\n" ++ starrep ++
         c!"\n======= Scaled Scores ========\n" ++ sc)

/-- debtally.py:106-120 -/
def debtallyMain (env : CliEnv) (file : Str) : CliResult :=
  printed do
    let sheet ← scriptInput env file
    convertDebtally env.sha [] sheet

/-- preflib.py:83-97 -/
def preflibMain (env : CliEnv) (file : Str) : CliResult :=
  printed do
    let s ← scriptInput env file
    convertPreflib s

/-- `abifmodel['metadata']['filename'] = args.input_file` -/
def withFilename (file : Str) (m : Jabmod) : Jabmod := { m with metadata := Dict.set m.metadata c!"filename" (.str file) }

/-- html_output_pairwise.py:218-231 -/
def pairPageMain (env : CliEnv) (file : Str) : CliResult :=
  printed do
    let s ← scriptInput env file
    let m ← env.loads s
    (htmlPage (withFilename file m) true false).bind (env.html false none)

/-- html_output_scorestar.py:53-67 -/
def starPageMain (env : CliEnv) (dumpStar : StarResult → Except PyErr Str) (dumpScaled : ScaledResult → Except PyErr Str)
    (file : Str) : CliResult :=
  printed do
    let s ← scriptInput env file
    let m ← convertAbif false false false s
    htmlStar dumpStar dumpScaled (withFilename file m)

/-- the `-f` choices of core.py:690-695 (`modify_jabmod` only prints a note that it is not implemented) -/
inductive CoreFunc
  | prefToDict
  | processPrefline
  | emptyish

/-- the document printed for `pref_to_dict`, core.py:395 and 703-704 -/
def prefstrDoc (prefs : Dict Str Pref) (cands : List Str) : Json :=
  .obj [(c!"prefs", prefsJson prefs), (c!"cands", strsJson cands)]

/-- core.py:682-717, for the first string given -/
def coreMain (f : CoreFunc) (s : Str) : CliResult :=
  printed (match f with
    | .prefToDict => do
      let r ← parsePrefstr s
      .ok (prefstrDoc r.1 r.2).dumpsIndent
    | .processPrefline => do
      let m ← processPrefline c!"0" s none emptyishJabmod
      .ok (dumpModel m)
    | .emptyish => .ok (dumpModel emptyishJabmod))

end Verif
