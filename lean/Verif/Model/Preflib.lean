/-
abiflib/preflib.py: from PrefLib text to .abif text.
-/
import Verif.Model.Parse
import Verif.Model.Token

namespace Verif
variable [U : Uni]

/-- `^# ALTERNATIVE NAME (\d+): (.*)$`, preflib.py:21 (lines of `splitlines()` hold no line break, so `.*` then `$`
is the whole rest) -/
def altNameAtoms : List Atom :=
  litAtoms c!"# ALTERNATIVE NAME " ++ [.plus isDigit, .one (fun c => c == ':'), .one (fun c => c == ' '), .star isDot]

/-- group 2 of the match -/
def altName (line : Str) : Option Str := (fullMatch altNameAtoms line).bind List.getLast?

/-- `_extract_alt_names_from_preflib_str`, preflib.py:17-26 -/
def altNames (text : Str) : List Str := (splitlines text).filterMap altName

/-- `^(\d+): (.*)`, preflib.py:37: quantity and ranking part -/
def prefLineMatch (line : Str) : Option (Str × Str) :=
  match prefixMatch [.plus isDigit, .one (fun c => c == ':'), .one (fun c => c == ' '), .star isDot] line with
  | some ([q, _, _, r], _) => some (q, r)
  | _ => none

/-- `re.split(r'({[^}]*}|,)', s)`, preflib.py:46: text and separators alternate; a brace without a closing brace
after it is ordinary text.  The first argument says that we are inside a braced separator, the last one is
the current piece reversed. -/
def splitBrace : Bool → Str → Str → List Str
  | _, [], cur => [cur.reverse]
  | true, c :: t, cur => if c = '}' then (c :: cur).reverse :: splitBrace false t [] else splitBrace true t (c :: cur)
  | false, c :: t, cur =>
    if c = '{' ∧ '}' ∈ t then cur.reverse :: splitBrace true t ['{']
    else if c = ',' then cur.reverse :: [','] :: splitBrace false t []
    else splitBrace false t (c :: cur)

/-- `not part or part == ',' or part.isspace()`, preflib.py:47 -/
def skipPart (part : Str) : Bool := part == [] || part == [','] || part.all isSpace

/-- `re.finditer(r'(\d+)', part)`, preflib.py:51: the maximal runs of digits; `cur` is the current run reversed -/
def digitRuns : Str → Str → List Str
  | [], cur => if cur = [] then [] else [cur.reverse]
  | c :: t, cur =>
    if isDigit c then digitRuns t (c :: cur) else if cur = [] then digitRuns t [] else cur.reverse :: digitRuns t []

/-- `shortnames[int(n) - 1]`, preflib.py:53: index -1 is the last element -/
def shortAt (names : List Str) (n : Nat) : Except PyErr Str :=
  match n with
  | 0 => match names.getLast? with | some x => .ok x | none => .error .indexError
  | n + 1 => match names[n]? with | some x => .ok x | none => .error .indexError

/-- the tier of one part, preflib.py:49-54 -/
def prefTier (names : List Str) (part : Str) : Except PyErr Str := do
  let toks ← (digitRuns part []).mapM (fun n => shortAt names (digitsVal n))
  .ok (joinStr ['='] toks)

/-- the voteline of one line, preflib.py:42-60 -/
def prefVoteline (names : List Str) (qr : Str × Str) : Except PyErr Str := do
  let tiers ← ((splitBrace false qr.2 []).filter (fun p => !skipPart p)).mapM (prefTier names)
  .ok (qr.1 ++ ':' :: (joinStr ['>'] tiers ++ ['\n']))

/-- `_extract_rankings_from_preflib_str`, preflib.py:28-62 -/
def prefRankings (names : List Str) (text : Str) : Except PyErr Str := do
  let ls ← ((splitlines text).filterMap prefLineMatch).mapM (prefVoteline names)
  .ok ls.flatten

/-- `convert_preflib_str_to_abif`, preflib.py:64-80 -/
def convertPreflib (text : Str) : Except PyErr Str := do
  let names := altNames text
  let shorts := names.map preflibToken
  let head := (shorts.zip names).flatMap (fun sn => '=' :: (sn.1 ++ ':' :: '[' :: (sn.2 ++ [']', '\n'])))
  let body ← prefRankings shorts text
  .ok (head ++ c!"# ---------------\n" ++ body)

end Verif
