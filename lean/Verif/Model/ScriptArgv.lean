/-
The arguments of the stand-alone programs, as argparse (Python 3.12 or later) reads them.
-/
import Verif.Model.Argv
import Verif.Model.Scripts
import Verif.Model.Copedot
import Verif.Model.SfMain
import Verif.Model.FetchRun

namespace Verif

/-- an option of a program: `add_argument('-o', '--outfile', ...)`; without `takes` it is `action="store_true"` (or help) -/
structure OptDef where
  letter : Option Char
  name : Str
  takes : Bool
  choices : Option (List Str) := none
deriving DecidableEq, Repr

/-- the arguments that are not options: so many single ones, `nargs='+'`, or `nargs='*'` -/
inductive Positionals
  | exactly (n : Nat)
  | many
  | any
deriving DecidableEq, Repr

/-- a program's `ArgumentParser` -/
structure Program where
  opts : List OptDef
  pos : Positionals

/-- `-h`, `--help`, which argparse adds -/
def helpOpt : OptDef := { letter := some 'h', name := c!"help", takes := false }

/-- all options of a program -/
def Program.all (P : Program) : List OptDef := helpOpt :: P.opts

/-- the option with this letter -/
def Program.byLetter (P : Program) (c : Char) : Option OptDef := P.all.find? (fun o => o.letter == some c)

/-- the options a long name abbreviates (argparse's `_get_option_tuples`); a complete name is only itself -/
def Program.byName (P : Program) (n : Str) : List OptDef :=
  match P.all.find? (fun o => o.name == n) with
  | some o => [o]
  | none => P.all.filter (fun o => n.isPrefixOf o.name)

/-- what a word of the command line is -/
inductive PWord
  | plain
  | long (o : OptDef) (value : Option Str)
  | short (o : OptDef) (rest : Str)
  | unknown
  | ambiguous
deriving DecidableEq, Repr

section
variable [Uni]

/-- words that start with a dash and are no option of the parser: numbers and words with a space are taken for values -/
def noOption (s : Str) : PWord := if negNumber s = true ∨ ' ' ∈ s then .plain else .unknown

/-- argparse's `_parse_optional`.  The word `--` is not modelled: it is refused. -/
def Program.word (P : Program) (s : Str) : PWord :=
  match s with
  | '-' :: '-' :: t =>
    if t = [] then .ambiguous
    else
    let name := t.takeWhile (fun c => c != '=')
    let value := if '=' ∈ t then some ((t.dropWhile (fun c => c != '=')).drop 1) else none
    match P.byName name with
    | [] => noOption s
    | [o] => .long o value
    | _ => .ambiguous
  | '-' :: c :: t =>
    if c = '=' then .ambiguous
    else
    match P.byLetter c with
    | some o => .short o t
    | none => noOption s
  | _ => .plain

/-- how a word with short options ends -/
inductive GroupEnd
  | done
  | wants (o : OptDef)
  | stray
  | bad
deriving DecidableEq, Repr

/-- the letters of a word like `-jh` (`consume_optional` of argparse) -/
def Program.group (P : Program) (o : OptDef) : Str → List (OptDef × Str) × GroupEnd
  | [] => if o.takes then ([], .wants o) else ([(o, [])], .done)
  | c :: t =>
    if o.takes then ([(o, if c = '=' then t else c :: t)], .done)
    else if c = '=' ∨ c = '-' then ([], .bad)
    else
      match P.byLetter c with
      | none => ([(o, [])], .stray)
      | some o' => ((o, []) :: (P.group o' t).1, (P.group o' t).2)

/-- what the next words of the command line are -/
inductive OptStep
  /-- an argument that is no option -/
  | file (w : Str)
  /-- options with their values -/
  | uses (us : List (OptDef × Str))
  /-- options with their values, and something that is not understood -/
  | extra (us : List (OptDef × Str))
  /-- an error message -/
  | bad
deriving DecidableEq, Repr

/-- an option whose value is the next word -/
def Program.takeNext (P : Program) (us : List (OptDef × Str)) (o : OptDef) (t : List Str) : OptStep × List Str :=
  match t with
  | [] => (.bad, [])
  | v :: t' => if P.word v = .plain then (.uses (us ++ [(o, v)]), t') else (.bad, v :: t')

/-- one pass of the loop of argparse's `_parse_known_args`, and the words that are left -/
def Program.step (P : Program) (w : Str) (t : List Str) : OptStep × List Str :=
  match P.word w with
  | .plain => (.file w, t)
  | .unknown => (.extra [], t)
  | .ambiguous => (.bad, t)
  | .long o value =>
    match o.takes, value with
    | true, some v => (.uses [(o, v)], t)
    | true, none => P.takeNext [] o t
    | false, some _ => (.bad, t)
    | false, none => (.uses [(o, [])], t)
  | .short o rest =>
    match (P.group o rest).2 with
    | .done => (.uses (P.group o rest).1, t)
    | .stray => (.extra (P.group o rest).1, t)
    | .wants o' => P.takeNext (P.group o rest).1 o' t
    | .bad => (.bad, t)

/-- options take effect one after the other: help ends the program, a value that is not among the choices is an error -/
def takeUses : List (OptDef × Str) → Except ArgStop Unit
  | [] => .ok ()
  | (o, v) :: us =>
    if o = helpOpt then .error .help
    else
      match o.choices with
      | some l => if v ∈ l then takeUses us else .error .usage
      | none => takeUses us

/-- the state of the parser -/
structure ScanState where
  files : List Str := []
  isOpen : Bool := false
  extra : Bool := false
  uses : List (OptDef × Str) := []

/-- An argument that is no option: single ones are taken as long as one is wanted; `nargs='+'` and `nargs='*'` take the first run of them. -/
def Program.addFile (P : Program) (st : ScanState) (f : Str) : ScanState :=
  match P.pos with
  | .exactly n => if st.files.length < n then { st with files := st.files ++ [f] } else { st with extra := true }
  | _ => if st.isOpen = true ∨ st.files = [] then { st with files := st.files ++ [f], isOpen := true } else { st with extra := true }

/-- the loop of argparse's `_parse_known_args`; the number bounds the passes -/
def Program.scan (P : Program) : Nat → List Str → ScanState → Except ArgStop ScanState
  | _, [], st => .ok st
  | 0, _ :: _, st => .ok st
  | n + 1, w :: t, st =>
    match P.step w t with
    | (.bad, _) => .error .usage
    | (.file f, t') => P.scan n t' (P.addFile st f)
    | (.uses us, t') =>
      match takeUses us with
      | .error e => .error e
      | .ok () => P.scan n t' { st with isOpen := false, uses := st.uses ++ us }
    | (.extra us, t') =>
      match takeUses us with
      | .error e => .error e
      | .ok () => P.scan n t' { st with isOpen := false, extra := true, uses := st.uses ++ us }

/-- whether there are as many arguments as the program wants -/
def Positionals.enough : Positionals → List Str → Bool
  | .exactly n, fs => fs.length == n
  | .many, fs => fs != []
  | .any, _ => true

/-- `parser.parse_args()`: the arguments that are no options, and the options in the order given -/
def Program.parse (P : Program) (argv : List Str) : Except ArgStop (List Str × List (OptDef × Str)) :=
  match P.scan argv.length argv {} with
  | .error e => .error e
  | .ok st => if st.extra = true ∨ P.pos.enough st.files = false then .error .usage else .ok (st.files, st.uses)

/-- `args.x` of an option with a value: the last one given -/
def optValue (us : List (OptDef × Str)) (o : OptDef) : Option Str := ((us.filter (fun u => u.1 == o)).map Prod.snd).getLast?

/-- `args.x` of a flag -/
def optFlag (us : List (OptDef × Str)) (o : OptDef) : Bool := us.any (fun u => u.1 == o)

/-! ### the programs -/

/-- pairwise.py:145-149, scorestar.py:166-170, debtally.py:108-111, preflib.py:85-88, html_output_pairwise.py:220-223,
html_output_scorestar.py:55-58, configtool.py:96-100 -/
def oneFile : Program := { opts := [], pos := .exactly 1 }

/-- a program whose only argument is a file -/
def oneFileRun (main : Str → CliResult) (argv : List Str) : ArgvResult :=
  match oneFile.parse argv with
  | .error e => .stopped e
  | .ok (f :: _, _) => .ran (main f)
  | .ok ([], _) => .stopped .usage

/-- irvtally.py:287 -/
def jsonOpt : OptDef := { letter := some 'j', name := c!"json", takes := false }
/-- irvtally.py:285-290 -/
def irvProgram : Program := { opts := [jsonOpt], pos := .exactly 1 }
/-- irvtally.py:284-300 with its command line -/
def irvRun (env : CliEnv) (argv : List Str) : ArgvResult :=
  match irvProgram.parse argv with
  | .error e => .stopped e
  | .ok (f :: _, us) => .ran (irvMain env (optFlag us jsonOpt) f)
  | .ok ([], _) => .stopped .usage

/-- copedot.py:24, 31-33 -/
def outfmtOpt : OptDef := { letter := none, name := c!"outfmt", takes := true, choices := some [c!"dot", c!"json", c!"svg"] }
/-- copedot.py:29-35 -/
def copedotProgram : Program := { opts := [outfmtOpt], pos := .exactly 1 }
/-- copedot.py:27-55 with its command line -/
def copedotRun (env : CliEnv) (argv : List Str) : ArgvResult :=
  match copedotProgram.parse argv with
  | .error e => .stopped e
  | .ok (f :: _, us) => .ran (copedotMain env ((optValue us outfmtOpt).getD c!"svg") f)
  | .ok ([], _) => .stopped .usage

/-- core.py:689-695 -/
def funcOpt : OptDef :=
  { letter := some 'f', name := c!"func", takes := true,
    choices := some [c!"pref_to_dict", c!"process_abif_prefline", c!"emptyish", c!"modify_jabmod"] }
/-- core.py:687-698 -/
def coreProgram : Program := { opts := [funcOpt], pos := .many }

/-- sftxt.py:340-355 -/
def imagelinesOpt : OptDef := { letter := none, name := c!"imagelines", takes := false }
def outfileOpt : OptDef := { letter := some 'o', name := c!"outfile", takes := true }
def contestidOpt : OptDef := { letter := none, name := c!"contestid", takes := true }
def outputformatOpt : OptDef := { letter := none, name := c!"outputformat", takes := true }
def consolidateOpt : OptDef := { letter := none, name := c!"consolidate", takes := false }
/-- sftxt.py:339-357 -/
def sfProgram : Program :=
  { opts := [imagelinesOpt, outfileOpt, contestidOpt, outputformatOpt, consolidateOpt], pos := .exactly 2 }
/-- the arguments `main` of sftxt.py works with; `if args.outfile` is false for an empty name, sftxt.py:374 -/
def sfArgsOf (us : List (OptDef × Str)) : SfArgs :=
  { imagelines := optFlag us imagelinesOpt
    outfile := match optValue us outfileOpt with | some (_ :: _) => true | _ => false
    contest := optValue us contestidOpt
    fmt := (optValue us outputformatOpt).getD c!"json"
    consolidate := optFlag us consolidateOpt }

/-- fetchmgr.py:230-233: without `action`, the option takes a value -/
def abifOpt : OptDef := { letter := some 'a', name := c!"abif", takes := true }
/-- fetchmgr.py:228-241 -/
def fetchProgram : Program := { opts := [abifOpt], pos := .any }
/-- fetchmgr.py:227-247 with its command line: ended by argparse, or as `fetchMain` says -/
def fetchRun {L : Type} [DecidableEq L] (P : PathSem L) (W : World L) (E : ConvEnv L) (load : Str → Except PyErr FetchSpec) (argv : List Str)
    (s : FetchState L) : Except ArgStop (Except PyErr Unit × FetchState L) :=
  match fetchProgram.parse argv with
  | .error e => .error e
  | .ok (fns, _) => .ok (fetchMain P W E load fns s)

end

end Verif
