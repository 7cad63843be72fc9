/-
abiflib/sftxt.py: San Francisco fixed-width ballot image files.
-/
import Verif.Model.Parse
import Verif.Model.Export
import Verif.Model.Token

namespace Verif
variable [U : Uni]

/-- split at a character; `cur` is the current piece reversed -/
def splitAtChar (sep : Char) : Str → Str → List Str
  | [], cur => [cur.reverse]
  | c :: t, cur => if c = sep then cur.reverse :: splitAtChar sep t [] else splitAtChar sep t (c :: cur)

/-- a row of `csv.reader` on a line without quotes and carriage returns (field specs hold neither):
the empty line is the row without fields -/
def csvPlainRow (line : Str) : List Str := if line = [] then [] else splitAtChar ',' line []

/-- the row dict of `csv.DictReader`, sftxt.py:72-74: missing values are `None` (here `none`); surplus values, which
nothing reads, are dropped -/
def csvRowDict : List Str → List Str → Dict Str (Option Str) → Dict Str (Option Str)
  | [], _, d => d
  | n :: ns, [], d => csvRowDict ns [] (Dict.set d n none)
  | n :: ns, v :: vs, d => csvRowDict ns vs (Dict.set d n (some v))

/-- `list(csv.DictReader(StringIO(s)))`, sftxt.py:70-74 -/
def csvDicts (s : Str) : List (Dict Str (Option Str)) :=
  match (splitAtChar '\n' s []).map csvPlainRow with
  | [] => []
  | names :: rows => (rows.filter (fun r => decide (r ≠ []))).map (fun r => csvRowDict names r [])

/-- `int(field[key])` on a DictReader row -/
def rowInt (row : Dict Str (Option Str)) (key : Str) : Except PyErr Int :=
  match Dict.getE row key with
  | .error e => .error e
  | .ok none => .error .typeError
  | .ok (some s) => pyIntOfStr s

/-- loop of `sftxt_read_fieldspec`, sftxt.py:80-89: field names with the width written into the regular expression.
`pos` is updated before the length comparison (line 85), so line 87 compares zero with the length; the
error message then fails with an `IndexError` (`"{1}".format` with one argument). -/
def fieldspecLoop : List (Dict Str (Option Str)) → Int → Except PyErr (List (Option Str × Int))
  | [], _ => .ok []
  | row :: rows, pos =>
    match rowInt row c!"lastchar" with
    | .error e => .error e
    | .ok last =>
      match Dict.getE row c!"fieldname" with
      | .error e => .error e
      | .ok name =>
        match rowInt row c!"length" with
        | .error e => .error e
        | .ok len =>
          if last - last = len then .error .indexError
          else
            match fieldspecLoop rows last with
            | .error e => .error e
            | .ok fs => .ok ((name, last - pos) :: fs)

/-- `sftxt_read_fieldspec`, sftxt.py:60-90 -/
def readFieldspec (s : Str) : Except PyErr (List (Option Str × Int)) := fieldspecLoop (csvDicts s) 0

/-- match `.{w}` at the start: `w` characters other than a line feed.  A negative `w` is not a repetition:
Python reads the braces literally.  (Widths above the regex engine's limit are not modelled.) -/
def fieldMatch (w : Int) (s : Str) : Option (Str × Str) :=
  match w with
  | .ofNat n => if n ≤ s.length ∧ (s.take n).all isDot then some (s.take n, s.drop n) else none
  | .negSucc k =>
    match s with
    | [] => none
    | c :: t =>
      let lit := c!"{" ++ intStr (.negSucc k) ++ c!"}"
      if isDot c && lit.isPrefixOf t then some (c :: lit, t.drop lit.length) else none

/-- `re.match(regex, line)` and the row dict, sftxt.py:109-116 and 127-134: `ValueError` without a match -/
def sfFields : List (Option Str × Int) → Str → Dict (Option Str) Str → Except PyErr (Dict (Option Str) Str)
  | [], _, d => .ok d
  | (name, w) :: fs, s, d =>
    match fieldMatch w s with
    | none => .error .valueError
    | some (x, rest) => sfFields fs rest (Dict.set d name x)

/-- one line -/
def sfRecord (fields : List (Option Str × Int)) (line : Str) : Except PyErr (Dict (Option Str) Str) := sfFields fields line []

/-- `list(read_sftxt_blob(fieldspec, blob))`, sftxt.py:118-134 -/
def readBlob (spec blob : Str) : Except PyErr (List (Dict (Option Str) Str)) :=
  match readFieldspec spec with
  | .error e => .error e
  | .ok fields => (splitlines blob).mapM (sfRecord fields)

/-- `BALLOTIMAGE_FIELDSPEC`, sftxt.py:24-34 -/
def imageSpec : Str := c!"fieldname,lastchar,length\nContest_Id,7,7\nPref_Voter_Id,16,9\nSerial_Number,23,7\nTally_Type_Id,26,3\nPrecinct_Id,33,7\nVote_Rank,36,3\nCandidate_Id,43,7\nOver_Vote,44,1\nUnder_Vote,45,1\n"

/-- `MASTERLOOKUP_FIELDSPEC`, sftxt.py:36-44 -/
def masterSpec : Str := c!"fieldname,lastchar,length\nRecord_Type,10,10\nId,17,7\nDescription,67,50\nList_Order,74,7\nCandidates_Contest_Id,81,7\nIs_WriteIn,82,1\nIs_Provisional,83,1\n"

/-- one step of `_sftxt_lookuplines2candpool`, sftxt.py:142-149 -/
def sfPoolStep (st : Dict Str (Option Str) × Option Str) (row : Dict (Option Str) Str) :
    Except PyErr (Dict Str (Option Str) × Option Str) := do
  let rtype ← Dict.getE row (some c!"Record_Type")
  let pool ← if strip rtype = c!"Candidate" then do
      let id ← Dict.getE row (some c!"Id")
      let desc ← Dict.getE row (some c!"Description")
      .ok (Dict.set st.1 id (some (strip desc)))
    else .ok st.1
  let contest ← if strip rtype = c!"Contest" ∧ (st.2 = none ∨ st.2 = some []) then do
      let id ← Dict.getE row (some c!"Id")
      .ok (some id)
    else .ok st.2
  .ok (pool, contest)

/-- `_sftxt_lookuplines2candpool`, sftxt.py:137-150, with no contest given -/
def sfPool (rows : List (Dict (Option Str) Str)) : Except PyErr (Dict Str (Option Str) × Option Str) :=
  rows.foldlM sfPoolStep ([(c!"0000000", none)], none)

/-- a preference of a ballot, sftxt.py:202-212 -/
structure SfVote where
  rank : Int
  cand : Option Str
  exc : Option Str := none
deriving DecidableEq, Repr

/-- a ballot, sftxt.py:164-199 -/
structure SfBallot where
  contest : Str
  voter : Str
  serial : Str
  tally : Str
  precinct : Str
  votes : List SfVote
deriving DecidableEq, Repr

/-- the preference of an image line, sftxt.py:202-212 -/
def sfVote (pool : Dict Str (Option Str)) (row : Dict (Option Str) Str) : Except PyErr SfVote := do
  let ranktext ← Dict.getE row (some c!"Vote_Rank")
  let rank ← pyIntOfStr ranktext
  let cid ← Dict.getE row (some c!"Candidate_Id")
  let cand ← Dict.getE pool cid
  let ov ← Dict.getE row (some c!"Over_Vote")
  let un ← Dict.getE row (some c!"Under_Vote")
  if ov = c!"1" ∧ un = c!"1" then .error .valueError
  else if ov = c!"1" then .ok { rank := rank, cand := cand, exc := some c!"overvote" }
  else if un = c!"1" then .ok { rank := rank, cand := cand, exc := some c!"undervote" }
  else .ok { rank := rank, cand := cand }

/-- a ballot with the fields of an image line and no votes, sftxt.py:196-199 -/
def sfNewBallot (row : Dict (Option Str) Str) : Except PyErr SfBallot := do
  let contest ← Dict.getE row (some c!"Contest_Id")
  let voter ← Dict.getE row (some c!"Pref_Voter_Id")
  let serial ← Dict.getE row (some c!"Serial_Number")
  let tally ← Dict.getE row (some c!"Tally_Type_Id")
  let precinct ← Dict.getE row (some c!"Precinct_Id")
  .ok { contest := contest, voter := voter, serial := serial, tally := tally, precinct := precinct, votes := [] }

/-- the ballot started by an image line, with its first vote -/
def sfStart (pool : Dict Str (Option Str)) (row : Dict (Option Str) Str) : Except PyErr SfBallot :=
  match sfNewBallot row with
  | .error e => .error e
  | .ok b =>
    match sfVote pool row with
    | .error e => .error e
    | .ok v => .ok { b with votes := [v] }

/-- the loop of `_sftxt_convert_to_ballots`, sftxt.py:180-215, on the lines of the image file, which are parsed one at
a time (read_sftxt_file is a generator).  `cur` is `thisballot`, `none` for the empty ballot (which has no `votes`). -/
def sfBallots (fields : List (Option Str × Int)) (pool : Dict Str (Option Str)) (contest : Option Str) :
    List Str → Option SfBallot → Except PyErr (List (Option SfBallot))
  | [], cur => .ok [cur]
  | line :: t, cur =>
    match sfRecord fields line with
    | .error e => .error e
    | .ok row =>
      match Dict.getE row (some c!"Contest_Id") with
      | .error e => .error e
      | .ok cid =>
        if contest ≠ some cid then sfBallots fields pool contest t cur
        else
          match Dict.getE row (some c!"Pref_Voter_Id") with
          | .error e => .error e
          | .ok voter =>
            match cur with
            | none =>
              match sfStart pool row with
              | .error e => .error e
              | .ok b => sfBallots fields pool contest t (some b)
            | some b =>
              if b.voter = voter then
                match sfVote pool row with
                | .error e => .error e
                | .ok v => sfBallots fields pool contest t (some { b with votes := b.votes ++ [v] })
              else
                match sfStart pool row with
                | .error e => .error e
                | .ok b' =>
                  match sfBallots fields pool contest t (some b') with
                  | .error e => .error e
                  | .ok bs => .ok (some b :: bs)

/-- the token of a candidate name in the candidate table, sftxt.py:301-304 -/
def sfCandTok (name : Option Str) (n : Nat) : Str :=
  match name with
  | some (c :: s) => abifToken 20 (c :: s)
  | _ => c!"cand" ++ natStr n

/-- loop over the candidate pool, sftxt.py:298-307 -/
def sfCands : List (Str × Option Str) → Nat → Dict Str (Option Str) → Dict Str (Option Str)
  | [], _, d => d
  | idn :: t, n, d => sfCands t (n + 1) (Dict.set d (sfCandTok idn.2 n) idn.2)

/-- the token a vote is counted under, sftxt.py:320-323 -/
def sfVoteTok (v : SfVote) : Str :=
  match v.cand with
  | some (c :: s) => abifToken 20 (c :: s)
  | _ => c!"(none)"

/-- loop over the votes of a ballot, sftxt.py:319-326 -/
def sfPrefs (verbose : Bool) : List SfVote → Dict Str Pref → Dict Str Pref
  | [], d => d
  | v :: t, d =>
    if sfVoteTok v ≠ c!"(none)" ∨ verbose = true then sfPrefs verbose t (Dict.set d (sfVoteTok v) { rank := some v.rank })
    else sfPrefs verbose t d

/-- the comment of a ballot, sftxt.py:312-316 -/
def sfComment (b : SfBallot) : Str :=
  c!"Contest: " ++ b.contest ++ c!"; " ++ c!"Voter: " ++ b.voter ++ c!"; " ++ c!"SerialNum: " ++ b.serial ++ c!"; " ++
  c!"TalType: " ++ b.tally ++ c!"; " ++ c!"Precinct: " ++ b.precinct ++ c!";"

/-- the voteline of a ballot, sftxt.py:309-329: the empty ballot has no `votes` -/
def sfVoteline (verbose : Bool) (b : Option SfBallot) : Except PyErr Voteline :=
  match b with
  | none => .error .keyError
  | some b => .ok { qty := 1, prefs := sfPrefs verbose b.votes [], comment := if verbose then some (sfComment b) else none }

/-- JSON of an optional string -/
def optJson (s : Option Str) : Json :=
  match s with
  | some s => .str s
  | none => .null

/-- `convert_sftxt_to_jabmod`, sftxt.py:279-334.  An empty ballot text is a `ValueError` (line 106). -/
def sfConvert (verbose : Bool) (master ballots : Str) : Except PyErr Jabmod :=
  match readBlob masterSpec master with
  | .error e => .error e
  | .ok rows =>
    match sfPool rows with
    | .error e => .error e
    | .ok (pool, contest) =>
      match readFieldspec imageSpec with
      | .error e => .error e
      | .ok fields =>
        if ballots = [] then .error .valueError
        else
          match sfBallots fields pool contest (splitlines ballots) none with
          | .error e => .error e
          | .ok bs =>
            match bs.mapM (sfVoteline verbose) with
            | .error e => .error e
            | .ok vls =>
              let m : Jabmod := {
                metadata := [(c!"ballotcount", .int vls.length), (c!"contestid", optJson contest)]
                candidates := sfCands pool 0 []
                votelines := vls }
              .ok (if verbose then m else consolidate m)

end Verif
