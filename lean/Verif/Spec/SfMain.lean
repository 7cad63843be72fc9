/-
Specification vocabulary for the program of sftxt.py.
-/
import Verif.Spec.Sftxt

namespace Verif.Spec
variable [Uni]

/-- the contest reported on: the one asked for, otherwise the first in the lookup file -/
def contestFor (asked : Option Str) (rs : List MasterRec) : Option Str := asked.or (chosenContest rs)

/-- the lines of the contest -/
def contestLines (contest : Str) (ls : List ImgLine) : List ImgLine := ls.filter (fun l => decide (l.contest = contest))

/-- the rank on the first of the ballot's first three lines that names `name` (`none`: that names nobody) -/
def firstRank (rs : List MasterRec) (g : List ImgLine) (name : Option Str) : Option Int :=
  ((g.take 3).find? (fun l => decide (candName rs l.cand = name))).map (fun l => (l.rankNum : Int))

/-- the candidate records of the lookup file, in order -/
def candidateRecs (rs : List MasterRec) : List MasterRec := rs.filter (fun r => decide (strip r.rtype = c!"Candidate"))

/-- Which lookup files: different candidates have different ids, none all zeros, and different, non-empty names. -/
def PlainPool (rs : List MasterRec) : Prop :=
  ((candidateRecs rs).map MasterRec.id).Nodup ∧ c!"0000000" ∉ (candidateRecs rs).map MasterRec.id ∧
  ((candidateRecs rs).map (fun r => strip r.desc)).Nodup ∧ [] ∉ (candidateRecs rs).map (fun r => strip r.desc)

/-- the number of a name: its place in the lookup file, counting from 1; 0 for nobody -/
def nameNumber (rs : List MasterRec) : Option Str → Nat
  | none => 0
  | some n => ((candidateRecs rs).map (fun r => strip r.desc)).idxOf n + 1

/-- what a ballot says in the 1996 format: the candidate of its first line (or nobody), then those of its second and
third line that name somebody not named before -/
def picks (n0 n1 n2 : Option Str) : List (Option Str) :=
  n0 :: ([n1, n2].filter (fun n => decide (n ≠ none ∧ n ≠ n0))).eraseDups

/-- numbers separated by `>` -/
def arrowLine (ns : List Nat) : Str := List.intercalate c!">" (ns.map natStr)

/-- a line as the JSON output shows it: rank, candidate's name (null for nobody) and its flag -/
def voteObject (rs : List MasterRec) (l : ImgLine) : Json :=
  .obj ([(c!"rank", Json.int l.rankNum),
         (c!"candidate", match candName rs l.cand with | some n => .str n | none => .null)] ++
    (if l.over = c!"1" then [(c!"exception", .str c!"overvote")]
     else if l.under = c!"1" then [(c!"exception", .str c!"undervote")] else []))

/-- a ballot as the JSON output shows it: the voter's columns and the lines in order -/
def ballotObject (rs : List MasterRec) : List ImgLine → Json
  | [] => .null
  | l :: t => .obj [(c!"Contest_Id", .str l.contest), (c!"Pref_Voter_Id", .str l.voter), (c!"Serial_Number", .str l.serial),
      (c!"Tally_Type_Id", .str l.tally), (c!"Precinct_Id", .str l.precinct), (c!"votes", .arr ((l :: t).map (voteObject rs)))]

end Verif.Spec
