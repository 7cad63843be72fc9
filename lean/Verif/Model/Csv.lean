/-
`get_ranking_output_csv`, abiflib/core.py:640-664, with the part of Python's `csv` module it uses.
-/
import Verif.Model.Jabmod

namespace Verif

/-- characters that make `csv.writer` (excel dialect, QUOTE_MINIMAL) quote a field -/
def csvSpecial (c : Char) : Bool := c == ',' || c == '"' || c == '\r' || c == '\n'

/-- doubling of the quote character inside a quoted field -/
def csvEsc (c : Char) : Str := if c = '"' then ['"', '"'] else [c]

/-- one field as written by `csv.writer` -/
def csvField (s : Str) : Str := if s.any csvSpecial then '"' :: (s.flatMap csvEsc ++ ['"']) else s

/-- one row as written by `csv.writer` (a lone empty field is quoted), ended by `\r\n` -/
def csvRow (fs : List Str) : Str :=
  (if fs = [[]] then ['"', '"'] else joinStr [','] (fs.map csvField)) ++ ['\r', '\n']

/-- `f"voter{i:06d}"`, core.py:658 -/
def generatedVoterId (i : Nat) : Str := c!"voter" ++ (List.replicate (6 - (natStr i).length) '0' ++ natStr i)

/-- the voter id of a row, core.py:655-658: the voteline's own when it is truthy -/
def csvVoterId (vl : Voteline) (i : Nat) : Str :=
  match vl.voterid with
  | some (c :: s) => c :: s
  | _ => generatedVoterId i

/-- one entry of the dict comprehension core.py:652-654: `KeyError` when the entry has no rank -/
def csvRankEntry (kp : Str × Pref) : Except PyErr (Str × Str) :=
  match kp.2.rank with
  | some r => .ok (kp.1, intStr r)
  | none => .error .keyError

/-- `DictWriter.writerow`: a key outside the field names is a `ValueError`, a missing one an empty field -/
def csvDictRow (fields : List Str) (d : Dict Str Str) : Except PyErr (List Str) :=
  if (Dict.keys d).all (fun k => decide (k ∈ fields)) then .ok (fields.map (fun f => (Dict.get? d f).getD []))
  else .error .valueError

/-- one iteration of the inner loop, core.py:651-659 -/
def csvBallot (fields : List Str) (vl : Voteline) (i : Nat) : Except PyErr (List Str) :=
  match vl.prefs.mapM csvRankEntry with
  | .error e => .error e
  | .ok d => csvDictRow fields (Dict.set d c!"voterid" (csvVoterId vl i))

/-- inner loop `for z in range(vln['qty'])`, core.py:650; `i` rows were written before -/
def csvCopies (fields : List Str) (vl : Voteline) : Nat → Nat → Except PyErr (List (List Str))
  | 0, _ => .ok []
  | n + 1, i =>
    match csvBallot fields vl (i + 1) with
    | .error e => .error e
    | .ok r =>
      match csvCopies fields vl n (i + 1) with
      | .error e => .error e
      | .ok rs => .ok (r :: rs)

/-- outer loop, core.py:648-662 -/
def csvVotelines (fields : List Str) : List Voteline → Nat → Except PyErr (List (List Str))
  | [], _ => .ok []
  | vl :: t, i =>
    if vl.qty > 0 then
      match csvCopies fields vl vl.qty.toNat i with
      | .error e => .error e
      | .ok rs =>
        match csvVotelines fields t (i + vl.qty.toNat) with
        | .error e => .error e
        | .ok rest => .ok (rs ++ rest)
    else .error .voteline

/-- the field names, core.py:643-644 -/
def csvFields (m : Jabmod) : List Str := c!"voterid" :: Dict.keys m.candidates

/-- `get_ranking_output_csv`, core.py:640-664 -/
def rankingCsv (m : Jabmod) : Except PyErr Str :=
  match csvVotelines (csvFields m) m.votelines 0 with
  | .error e => .error e
  | .ok rows => .ok ((csvFields m :: rows).flatMap csvRow)

end Verif
