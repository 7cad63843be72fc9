/-
abiftool.py: the arguments, as argparse (Python 3.12 or later) reads them, and the list of formats in the help text.
-/
import Verif.Model.Cli

namespace Verif
variable [Uni]

/-- the options, abiftool.py:106-120, and `-h` which argparse adds -/
inductive Opt
  | help | debug | fromfmt | to | modifier | width | cleanws | addScores
deriving DecidableEq, Repr

/-- the letters of the options, abiftool.py:106-115 -/
def shortOpts : List (Char × Opt) :=
  [('h', .help), ('d', .debug), ('f', .fromfmt), ('t', .to), ('m', .modifier), ('w', .width)]

/-- the long names of the options (after `--`), abiftool.py:106-120 -/
def longOpts : List (Str × Opt) :=
  [(c!"help", .help), (c!"debug", .debug), (c!"fromfmt", .fromfmt), (c!"to", .to), (c!"modifier", .modifier), (c!"width", .width),
   (c!"cleanws", .cleanws), (c!"add-scores", .addScores)]

/-- options with a value; the others are `action="store_true"` or help -/
def Opt.takesValue : Opt → Bool
  | .fromfmt | .to | .modifier | .width => true
  | _ => false

/-- `validoutfmts`, abiftool.py:38-52, 102 -/
def validOutFmts : List Str :=
  [c!"abif", c!"csvrank", c!"dot", c!"html", c!"html_snippet", c!"irvjson", c!"jabmod", c!"json", c!"nameq", c!"paircountjson",
   c!"svg", c!"text", c!"winlosstiejson"]

/-- `validmod`, abiftool.py:54-65, 103 -/
def validMods : List Str :=
  [c!"candlist", c!"Copeland", c!"consolidate", c!"IRV", c!"jcomments", c!"pairwise", c!"score", c!"STAR", c!"svg", c!"winlosstie"]

/-- argparse's `^-\d+$|^-\d*\.\d+$` on a string that starts with a dash -/
def negNumber (s : Str) : Bool :=
  match s with
  | '-' :: t =>
    (t != [] && t.all isDigit) ||
    (match t.dropWhile isDigit with
     | '.' :: r => r != [] && r.all isDigit
     | _ => false)
  | _ => false

/-- what a word of the command line is -/
inductive ArgWord
  /-- a file name or value -/
  | plain
  /-- a long option, with the value after `=` if there is one -/
  | long (o : Opt) (value : Option Str)
  /-- a short option and what follows its letter -/
  | short (o : Opt) (rest : Str)
  /-- looks like an option, but is none -/
  | unknown
  /-- abbreviates more than one option -/
  | ambiguous
deriving DecidableEq, Repr

/-- the long options a name abbreviates (argparse's `_get_option_tuples`); a complete name is only itself -/
def longMatches (name : Str) : List Opt :=
  match longOpts.lookup name with
  | some o => [o]
  | none => (longOpts.filter (fun p => name.isPrefixOf p.1)).map Prod.snd

/-- words that start with a dash and are no option of the parser: numbers and words with a space are taken for values -/
def notOption (s : Str) : ArgWord := if negNumber s = true ∨ ' ' ∈ s then .plain else .unknown

/-- argparse's `_parse_optional` for this parser.  A short option with an empty name (`-=x`) abbreviates every option.  The
word `--` is not modelled (see `parseWords`). -/
def argWord (s : Str) : ArgWord :=
  match s with
  | '-' :: '-' :: t =>
    let name := t.takeWhile (fun c => c != '=')
    let value := if '=' ∈ t then some ((t.dropWhile (fun c => c != '=')).drop 1) else none
    match longMatches name with
    | [] => notOption s
    | [o] => .long o value
    | _ => .ambiguous
  | '-' :: c :: t =>
    if c = '=' then .ambiguous
    else
    match shortOpts.lookup c with
    | some o => .short o t
    | none => notOption s
  | _ => .plain

/-- why argparse ends the program -/
inductive ArgStop
  /-- `parser.error`: usage message, exit status 2 -/
  | usage
  /-- `--help`: help text, exit status 0 -/
  | help
deriving DecidableEq, Repr

/-- an option takes effect: `choices`, `type=int`, `action='append'`, `store_true`, abiftool.py:106-120 -/
def applyOpt (a : CliArgs) (o : Opt) (v : Str) : Except ArgStop CliArgs :=
  match o with
  | .help => .error .help
  | .debug => .ok a
  | .cleanws => .ok { a with cleanws := true }
  | .addScores => .ok { a with addScores := true }
  | .fromfmt => if v ∈ validInFmts then .ok { a with fromfmt := some v } else .error .usage
  | .to => if v ∈ validOutFmts then .ok { a with to := v } else .error .usage
  | .modifier => if v ∈ validMods then .ok { a with modifier := some (a.modifier.getD [] ++ [v]) } else .error .usage
  | .width =>
    match pyIntOfStr v with
    | .ok i => .ok { a with width := i }
    | .error _ => .error .usage

/-- what a word with short options asks for: options with their values, then -/
inductive ShortEnd
  /-- nothing more -/
  | done
  /-- an option whose value is the next word -/
  | wants (o : Opt)
  /-- a letter that is no option -/
  | stray
  /-- a flag with a value -/
  | bad
deriving DecidableEq, Repr

/-- the letters of a word like `-dfabif` (`consume_optional` of argparse) -/
def shortGroup (o : Opt) : Str → List (Opt × Str) × ShortEnd
  | [] => if o.takesValue then ([], .wants o) else ([(o, [])], .done)
  | c :: t =>
    if o.takesValue then ([(o, if c = '=' then t else c :: t)], .done)
    else if c = '=' ∨ c = '-' then ([], .bad)
    else
      match shortOpts.lookup c with
      | none => ([(o, [])], .stray)
      | some o' => ((o, []) :: (shortGroup o' t).1, (shortGroup o' t).2)

def applyOpts (a : CliArgs) : List (Opt × Str) → Except ArgStop CliArgs
  | [] => .ok a
  | ov :: t =>
    match applyOpt a ov.1 ov.2 with
    | .error e => .error e
    | .ok a' => applyOpts a' t

/-- the state of the parser: the files (once some were given), whether the last word was one of them, whether something was not
understood, and the options -/
structure ArgState where
  files : List Str := []
  isOpen : Bool := false
  extra : Bool := false
  args : CliArgs := { files := [] }

/-- the loop of argparse's `_parse_known_args` over the words.  Words that are not options are the files if they are the first
run of such words, else left over.  Simplification: the word `--` is not treated specially. -/
def parseWords : List Str → ArgState → Except ArgStop ArgState
  | [], st => .ok st
  | w :: t, st =>
    match argWord w with
    | .plain =>
      if st.isOpen = true ∨ st.files = [] then parseWords t { st with files := st.files ++ [w], isOpen := true }
      else parseWords t { st with extra := true }
    | .unknown => parseWords t { st with isOpen := false, extra := true }
    | .ambiguous => .error .usage
    | .long o value =>
      if o.takesValue then
        match value with
        | some v =>
          match applyOpt st.args o v with
          | .error e => .error e
          | .ok a => parseWords t { st with isOpen := false, args := a }
        | none =>
          match t with
          | [] => .error .usage
          | v :: t' =>
            if argWord v = .plain then
              match applyOpt st.args o v with
              | .error e => .error e
              | .ok a => parseWords t' { st with isOpen := false, args := a }
            else .error .usage
      else
        match value with
        | some _ => .error .usage
        | none =>
          match applyOpt st.args o [] with
          | .error e => .error e
          | .ok a => parseWords t { st with isOpen := false, args := a }
    | .short o rest =>
      match (shortGroup o rest).2 with
      | .bad => .error .usage
      | .done =>
        match applyOpts st.args (shortGroup o rest).1 with
        | .error e => .error e
        | .ok a => parseWords t { st with isOpen := false, args := a }
      | .stray =>
        match applyOpts st.args (shortGroup o rest).1 with
        | .error e => .error e
        | .ok a => parseWords t { st with isOpen := false, extra := true, args := a }
      | .wants o' =>
        match t with
        | [] => .error .usage
        | v :: t' =>
          if argWord v = .plain then
            match applyOpts st.args ((shortGroup o rest).1 ++ [(o', v)]) with
            | .error e => .error e
            | .ok a => parseWords t' { st with isOpen := false, args := a }
          else .error .usage

/-- `parser.parse_args()`, abiftool.py:122: a file is required, and nothing may be left over -/
def parseArgv (argv : List Str) : Except ArgStop CliArgs :=
  match parseWords argv {} with
  | .error e => .error e
  | .ok st => if st.files = [] ∨ st.extra = true then .error .usage else .ok { st.args with files := st.files }

/-- how a run of the program goes: ended by argparse, or as `cliMain` says -/
inductive ArgvResult
  | stopped (s : ArgStop)
  | ran (r : CliResult)

/-- `abiftool.py` with these words on the command line, abiftool.py:93-283 -/
def argvMain (env : CliEnv) (argv : List Str) : ArgvResult :=
  match parseArgv argv with
  | .error e => .stopped e
  | .ok a => .ran (cliMain env a)

/-- `help_text`, abiftool.py:71-77: a caption and a line per key -/
def helpText (caption bullet : Str) (rows : List (Str × Str)) : Str :=
  caption ++ c!":\n" ++ rows.flatMap (fun r => bullet ++ c!" " ++ r.1 ++ c!": " ++ r.2 ++ c!"\n")

/-- `INPUT_FORMATS`, abiftool.py:27-36 -/
def inputTable : List (Str × Str) :=
  [(c!"abif", c!"ABIF format"), (c!"debtally", c!"Election output format used by the Debian Project"),
   (c!"jabmod", c!"Internal JSON ABIF model (Json ABIF MODel)"),
   (c!"nameq", c!"Brian Olson's format which URL-encoded version of the raw ballots"),
   (c!"preflib", c!"Files downloaded from preflib.org"),
   (c!"sftxt", c!"Text files published by the City and County of San Francisco"), (c!"widj", c!"Legacy format from Electowidget")]

/-- `OUTPUT_FORMATS`, abiftool.py:38-52 -/
def outputTable : List (Str × Str) :=
  [(c!"abif", c!"ABIF format"), (c!"csvrank", c!"CSV rank format used by the online RCV tool by Dan Eckam"),
   (c!"dot", c!"Graphviz DOT format showing pairwise matchups"), (c!"html", c!"Full HTML output from <html> to </html>"),
   (c!"html_snippet", c!"HTML snippet that does not includes the <head> elements"),
   (c!"irvjson", c!"JSON format representing IRV election results"), (c!"jabmod", c!"Internal JSON ABIF model (Json ABIF MODel)"),
   (c!"json", c!"JSON format as specified in corresponding modifier"),
   (c!"nameq", c!"Brian Olson's format which URL-encoded version of the raw ballots"), (c!"paircountjson", c!"Pairwise ballot counts"),
   (c!"svg", c!"SVG output showing pairwise matchups and Copeland wins/losses/ties"),
   (c!"text", c!"Text table showing pairwise matchups and Copeland wins/losses/ties"),
   (c!"winlosstiejson", c!"JSON format representing win, loss, and tie counts")]

/-- `MODIFIERS`, abiftool.py:54-65 -/
def modifierTable : List (Str × Str) :=
  [(c!"candlist", c!"List all candidates at the beginning of output"), (c!"Copeland", c!"Show pairwise table and Copeland winner (default)"),
   (c!"consolidate", c!"Consolidate votelines if possible"), (c!"IRV", c!"Provide IRV results"),
   (c!"jcomments", c!"Put comments in jabmod output if available"),
   (c!"pairwise", c!"Show pairwise table (possibly without winlosstie info)"), (c!"score", c!"Provide score results"),
   (c!"STAR", c!"Provide STAR results"), (c!"svg", c!"Add SVG to the output if avaiable"), (c!"winlosstie", c!"Provide win-loss-tie table (default)")]

/-- `gen_epilog`, abiftool.py:69-87 -/
def genEpilog : Str :=
  helpText c!"Input formats" c!"--from" inputTable ++ c!"\n" ++ helpText c!"Output formats" c!"--to" outputTable ++ c!"\n" ++
  helpText c!"Modifiers" c!"--modifier" modifierTable

end Verif
