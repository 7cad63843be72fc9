/-
abiflib/debtally.py: from a Debian tally sheet to .abif text.
-/
import Verif.Model.Parse
import Verif.Model.Token

namespace Verif
variable [U : Uni]

/-- `Option (\d+).*:\s+(.*)`, debtally.py:12 -/
def optionAtoms : List Atom :=
  litAtoms c!"Option " ++ [.plus isDigit, .star isDot, .one (fun c => c == ':'), .plus isSpace, .star isDot]

/-- group 2 of `re.search`, debtally.py:14-15 -/
def debOption (line : Str) : Option Str :=
  (searchMatch (fun _ => true) optionAtoms line).bind (fun r => r.2.1.getLast?)

/-- `_extract_option_names_from_tally_sheet`, debtally.py:8-17 -/
def debOptions (text : Str) : List Str := (splitlines text).filterMap debOption

/-- `^V: ([-\d]+)\s+(\S+).*$`, debtally.py:24: the rank characters and the voter id -/
def debVote (line : Str) : Option (Str × Str) :=
  match fullMatch (litAtoms c!"V: " ++ [.plus (fun c => c == '-' || isDigit c), .plus isSpace, .plus (fun c => !isSpace c), .star isDot])
      line with
  | some [_, _, _, ranks, _, vid, _] => some (ranks, vid)
  | _ => none

/-- the options whose rank character is the text of `r`, debtally.py:95-98; `i` is the index of the first character -/
def debCrs (strrank : Str) : Nat → Str → List Nat
  | _, [] => []
  | i, c :: t => if [c] = strrank then i :: debCrs strrank (i + 1) t else debCrs strrank (i + 1) t

/-- `short_option_names[i]`, debtally.py:98 -/
def optAt (shorts : List Str) (i : Nat) : Except PyErr Str :=
  match shorts[i]? with | some x => .ok x | none => .error .indexError

/-- one pass of the loop over ranks, debtally.py:94-99; the argument is `r + 1` -/
def debTier (shorts : List Str) (pref : Str) (rank : Nat) : Except PyErr (List Str) :=
  match debCrs (natStr rank) 0 pref with
  | [] => .ok []
  | crs => do
    let names ← crs.mapM (optAt shorts)
    .ok [joinStr ['='] names]

/-- the voteline of one vote, debtally.py:90-102 -/
def debLine (shorts : List Str) (numopt : Nat) (v : Str × Str) : Except PyErr Str := do
  let tiers ← (List.range numopt).mapM (fun r => debTier shorts v.1 (r + 1))
  .ok (c!"1:" ++ joinStr ['>'] tiers.flatten ++ c!"  ##VID:" ++ v.2 ++ ['\n'])

/-- `convert_debtally_to_abif`, debtally.py:75-103 -/
def convertDebtally (sha : Str → Str) (metadata : List (Str × Str)) (text : Str) : Except PyErr Str := do
  let names := debOptions text
  let shorts := debTokens sha names
  let metas := metadata.flatMap (fun kv => c!"{\"" ++ kv.1 ++ c!"\": \"" ++ kv.2 ++ c!"\"}\n")
  let head := (shorts.zip names).flatMap (fun sn => '=' :: (sn.1 ++ ':' :: '[' :: (sn.2 ++ [']', '\n'])))
  let body ← ((splitlines text).filterMap debVote).mapM (debLine shorts names.length)
  .ok (metas ++ head ++ c!"# ---------------\n" ++ body.flatten)

end Verif
