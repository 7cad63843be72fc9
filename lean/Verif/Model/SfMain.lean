/-
The program of abiflib/sftxt.py: `_sftxt_dump_url_encoded`, `_sftxt_dump_csv1996fmt` and `main`.
-/
import Verif.Model.Sftxt
import Verif.Model.JsonIo
import Verif.Py.Url

namespace Verif
variable [U : Uni]

/-- the lines of a file as `fileinput.input` gives them (sftxt.py:102): split at line feeds only, unlike
`str.splitlines`.  The line feed kept at the end of each line is left out: no field can match it.  The text is the
file's after newline translation. -/
def nlLines (s : Str) : List Str :=
  let ps := splitAtChar '\n' s []
  if ps.getLast? = some [] then ps.dropLast else ps

/-- `list(read_sftxt_file(fieldspec, datafile))`, sftxt.py:93-116 -/
def readFileRows (spec text : Str) : Except PyErr (List (Dict (Option Str) Str)) :=
  match readFieldspec spec with
  | .error e => .error e
  | .ok fields => (nlLines text).mapM (sfRecord fields)

/-- `_sftxt_lookuplines2candpool(lookuplines, contestid)`, sftxt.py:137-150: a contest given (and not empty) is kept -/
def sfPoolFor (contest : Option Str) (rows : List (Dict (Option Str) Str)) : Except PyErr (Dict Str (Option Str) × Option Str) :=
  rows.foldlM sfPoolStep ([(c!"0000000", none)], contest)

/-- `rec['votes'][i]`, sftxt.py:223-228: `KeyError` for the ballot without votes, `IndexError` past the end -/
def sfVoteAt (b : Option SfBallot) (i : Nat) : Except PyErr SfVote :=
  match b with
  | none => .error .keyError
  | some b =>
    match b.votes[i]? with
    | none => .error .indexError
    | some v => .ok v

/-- `if not cand in outrec: outrec[cand] = rank`, sftxt.py:225-228 -/
def addVote (d : Dict (Option Str) Int) (v : SfVote) : Dict (Option Str) Int :=
  if Dict.has d v.cand then d else Dict.set d v.cand v.rank

/-- the record printed for a ballot, sftxt.py:220-228 -/
def urlRecord (b : Option SfBallot) : Except PyErr (Dict (Option Str) Int) := do
  let v0 ← sfVoteAt b 0
  let v1 ← sfVoteAt b 1
  let v2 ← sfVoteAt b 2
  .ok (addVote (addVote (Dict.set [] v0.cand v0.rank) v1) v2)

/-- `urllib.parse.urlencode(outrec)`, sftxt.py:229: keys and values through `str` and `quote_plus` -/
def urlencode (d : Dict (Option Str) Int) : Str :=
  joinStr ['&'] (d.map (fun kv => quotePlus (nameStr kv.1) ++ '=' :: quotePlus (intStr kv.2)))

/-- `_sftxt_dump_url_encoded`, sftxt.py:218-229.  What was printed before an exception is not modelled. -/
def dumpUrlencoded (bs : List (Option SfBallot)) : Except PyErr Str := do
  let ls ← bs.mapM (fun b => do
    let r ← urlRecord b
    .ok (urlencode r ++ ['\n']))
  .ok ls.flatten

/-- the candidate list of `_sftxt_dump_csv1996fmt` and the numbers of the names, sftxt.py:236-242 -/
def csv96Cands : List (Str × Option Str) → Nat → Dict (Option Str) Nat → Str × Dict (Option Str) Nat
  | [], _, rev => ([], rev)
  | (_, name) :: t, n, rev =>
    let r := csv96Cands t (n + 1) (Dict.set rev name n)
    match name with
    | some (c :: s) => (natStr n ++ c!", " ++ (c :: s) ++ ['\n'] ++ r.1, r.2)
    | _ => r

/-- `if candname and not candname in outrec`: the second and third preference, sftxt.py:252-264 -/
def csv96Vote (rev : Dict (Option Str) Nat) (st : Dict (Option Str) Int × Str) (v : SfVote) :
    Except PyErr (Dict (Option Str) Int × Str) :=
  if v.cand ≠ none ∧ v.cand ≠ some [] ∧ Dict.has st.1 v.cand = false then
    match Dict.getE rev v.cand with
    | .error e => .error e
    | .ok n => .ok (Dict.set st.1 v.cand v.rank, st.2 ++ '>' :: natStr n)
  else .ok st

/-- the line of a ballot, sftxt.py:243-266 -/
def csv96Ballot (rev : Dict (Option Str) Nat) (b : Option SfBallot) : Except PyErr Str := do
  let v0 ← sfVoteAt b 0
  let n ← Dict.getE rev v0.cand
  let v1 ← sfVoteAt b 1
  let st ← csv96Vote rev (Dict.set [] v0.cand v0.rank, natStr n) v1
  let v2 ← sfVoteAt b 2
  let st ← csv96Vote rev st v2
  .ok (st.2 ++ ['\n'])

/-- `_sftxt_dump_csv1996fmt`, sftxt.py:231-265.  What was printed before an exception is not modelled. -/
def dumpCsv96 (pool : Dict Str (Option Str)) (bs : List (Option SfBallot)) : Except PyErr Str := do
  let r := csv96Cands pool 0 []
  let ls ← bs.mapM (csv96Ballot r.2)
  .ok (r.1 ++ ls.flatten)

/-- a vote as JSON, sftxt.py:202-212 -/
def SfVote.toJson (v : SfVote) : Json :=
  .obj ([(c!"rank", .int v.rank), (c!"candidate", optJson v.cand)] ++ optMember c!"exception" v.exc)

/-- a ballot as JSON, sftxt.py:164-199: the empty ballot has null fields and no votes -/
def sfBallotJson : Option SfBallot → Json
  | some b => .obj [(c!"Contest_Id", .str b.contest), (c!"Pref_Voter_Id", .str b.voter), (c!"Serial_Number", .str b.serial),
      (c!"Tally_Type_Id", .str b.tally), (c!"Precinct_Id", .str b.precinct), (c!"votes", .arr (b.votes.map SfVote.toJson))]
  | none => .obj [(c!"Contest_Id", .null), (c!"Pref_Voter_Id", .null), (c!"Serial_Number", .null), (c!"Tally_Type_Id", .null),
      (c!"Precinct_Id", .null)]

/-- an image line as JSON: field names to columns, sftxt.py:110-114 (the fields of the built-in spec all have names) -/
def sfRowJson (row : Dict (Option Str) Str) : Json := .obj (row.map (fun kv => (kv.1.getD c!"null", .str kv.2)))

/-- the arguments of `main`, sftxt.py:337-357 -/
structure SfArgs where
  imagelines : Bool := false
  /-- whether `-o` names a file -/
  outfile : Bool := false
  contest : Option Str := none
  fmt : Str := c!"json"
  consolidate : Bool := false

/-- what `main` leaves behind: the text printed and, with `-o`, the contents of that file -/
structure SfOut where
  stdout : Str
  file : Option Str
deriving DecidableEq, Repr

/-- text printed to `outfh` -/
def SfArgs.emit (a : SfArgs) (s : Str) : SfOut := if a.outfile then ⟨[], some s⟩ else ⟨s, none⟩

/-- text printed to standard output whatever `outfh` is; a file opened for `-o` is left empty, sftxt.py:373-375 -/
def SfArgs.say (a : SfArgs) (s : Str) : SfOut := ⟨s, if a.outfile then some [] else none⟩

/-- `main` of sftxt.py, 337-412, after argparse, on the contents of the two files.  What was written before an
exception is not modelled. -/
def sfMain (a : SfArgs) (master ballots : Str) : Except PyErr SfOut := do
  let rows ← readFileRows masterSpec master
  let pc ← sfPoolFor a.contest rows
  let fields ← readFieldspec imageSpec
  if a.fmt = c!"json" then
    if a.imagelines then do
      let recs ← (nlLines ballots).mapM (sfRecord fields)
      .ok (a.emit (Json.arr (recs.map sfRowJson)).dumpsIndent)
    else do
      let bs ← sfBallots fields pc.1 pc.2 (nlLines ballots) none
      .ok (a.emit (Json.arr (bs.map sfBallotJson)).dumpsIndent)
  else if a.fmt = c!"abif" then do
    let m ← sfConvert false master ballots
    let s ← convertToAbif (if a.consolidate then consolidate m else m)
    .ok (a.say (s ++ ['\n']))
  else if a.fmt = c!"jabmod" then do
    let m ← sfConvert false master ballots
    .ok (a.say (dumpModel (if a.consolidate then consolidate m else m) ++ ['\n']))
  else if a.fmt = c!"urlencoded" then
    if a.imagelines then do
      let recs ← (nlLines ballots).mapM (sfRecord fields)
      if recs.isEmpty then .ok (a.emit []) else .error .keyError
    else do
      let bs ← sfBallots fields pc.1 pc.2 (nlLines ballots) none
      let s ← dumpUrlencoded bs
      .ok (a.emit s)
  else if a.fmt = c!"csv96" then
    if a.imagelines then do
      let recs ← (nlLines ballots).mapM (sfRecord fields)
      if recs.isEmpty then .ok (a.emit (csv96Cands pc.1 0 []).1) else .error .keyError
    else do
      let bs ← sfBallots fields pc.1 pc.2 (nlLines ballots) none
      let s ← dumpCsv96 pc.1 bs
      .ok (a.emit s)
  else .error .valueError

end Verif
