/-
Specification vocabulary for the San Francisco fixed-width files.
-/
import Verif.Model.Token
import Verif.Model.Jabmod
import Verif.Spec.Abif

namespace Verif.Spec
variable [Uni]

/-! ### field specs and records -/

/-- A field of a spec: its name, the column after its last character, and the declared length. -/
structure SfField where
  name : Str
  last : Nat
  len : Nat

/-- the spec as CSV text -/
def fieldspecText (fs : List SfField) : Str :=
  c!"fieldname,lastchar,length\n" ++
    fs.flatMap (fun f => f.name ++ c!"," ++ natStr f.last ++ c!"," ++ natStr f.len ++ c!"\n")

/-- the fields with the column where each starts: a field starts where the one before it ends -/
def withStart : Nat → List SfField → List (Nat × SfField)
  | _, [] => []
  | pos, f :: fs => (pos, f) :: withStart f.last fs

/-- the number of columns of a spec -/
def columns (fs : List SfField) : Nat := (fs.getLast?.map SfField.last).getD 0

/-- the columns `a`, …, `b - 1` of a line -/
def slice (line : Str) (a b : Nat) : Str := (line.drop a).take (b - a)

/-- Which specs: names without separators, columns in order, declared lengths positive. -/
def SpecOk (fs : List SfField) : Prop :=
  (∀ f ∈ fs, (∀ c ∈ f.name, c ≠ ',' ∧ c ≠ '\n') ∧ 0 < f.len) ∧
  (fs.map SfField.last).Pairwise (· ≤ ·) ∧ (fs.map SfField.name).Nodup

/-! ### image files -/

/-- a line of the ballot image file -/
structure ImgLine where
  contest : Str
  voter : Str
  serial : Str
  tally : Str
  precinct : Str
  rank : Str
  cand : Str
  over : Str
  under : Str
  rest : Str

def ImgLine.text (l : ImgLine) : Str :=
  l.contest ++ (l.voter ++ (l.serial ++ (l.tally ++ (l.precinct ++ (l.rank ++ (l.cand ++ (l.over ++ (l.under ++ l.rest))))))))

/-- Well-formed: columns of the right width and a rank of ASCII digits. -/
def ImgLine.Ok (l : ImgLine) : Prop :=
  (l.contest.length = 7 ∧ l.voter.length = 9 ∧ l.serial.length = 7 ∧ l.tally.length = 3 ∧ l.precinct.length = 7 ∧
    l.rank.length = 3 ∧ l.cand.length = 7 ∧ l.over.length = 1 ∧ l.under.length = 1) ∧
  (∀ c ∈ l.rank, isAsciiDigit c = true) ∧ ∀ c ∈ l.text, isLineBreak c = false

/-- the rank as a number -/
def ImgLine.rankNum (l : ImgLine) : Nat := l.rank.foldl (fun a c => 10 * a + (c.toNat - 48)) 0

def imageText (ls : List ImgLine) : Str := ls.flatMap (fun l => l.text ++ ['\n'])

/-- a record of the master lookup file -/
structure MasterRec where
  rtype : Str
  id : Str
  desc : Str
  order : Str
  contest : Str
  writeIn : Str
  provisional : Str
  rest : Str

def MasterRec.text (r : MasterRec) : Str :=
  r.rtype ++ (r.id ++ (r.desc ++ (r.order ++ (r.contest ++ (r.writeIn ++ (r.provisional ++ r.rest))))))

def MasterRec.Ok (r : MasterRec) : Prop :=
  (r.rtype.length = 10 ∧ r.id.length = 7 ∧ r.desc.length = 50 ∧ r.order.length = 7 ∧ r.contest.length = 7 ∧
    r.writeIn.length = 1 ∧ r.provisional.length = 1) ∧ ∀ c ∈ r.text, isLineBreak c = false

def masterText (rs : List MasterRec) : Str := rs.flatMap (fun r => r.text ++ ['\n'])

/-- the contest: the id of the first contest record -/
def chosenContest (rs : List MasterRec) : Option Str :=
  (rs.find? (fun r => decide (strip r.rtype = c!"Contest"))).map MasterRec.id

/-- the records of the candidate with this id -/
def candRecs (rs : List MasterRec) (id : Str) : List MasterRec :=
  rs.filter (fun r => decide (strip r.rtype = c!"Candidate") && decide (r.id = id))

/-- the candidate ids that may stand on an image line: those of candidate records, and all zeros for "no candidate" -/
def KnownCand (rs : List MasterRec) (id : Str) : Prop := id = c!"0000000" ∨ candRecs rs id ≠ []

/-- The line can be counted: its candidate is known and it is not flagged both as overvote and as undervote. -/
def UsableLine (rs : List MasterRec) (l : ImgLine) : Prop := KnownCand rs l.cand ∧ ¬ (l.over = c!"1" ∧ l.under = c!"1")

/-- The name of a candidate: from the last record with the id. -/
def candName (rs : List MasterRec) (id : Str) : Option Str := (candRecs rs id).getLast?.map (fun r => strip r.desc)

/-- The token a line's candidate is counted under; none when the line names nobody. -/
def lineToken (rs : List MasterRec) (l : ImgLine) : Option Str :=
  match candName rs l.cand with
  | some name => if name = [] then none else some (abifToken 20 name)
  | none => none

/-- The maximal runs of lines with the same voter id. -/
def IsRuns (ls : List ImgLine) (groups : List (List ImgLine)) : Prop :=
  groups.flatten = ls ∧ (∀ g ∈ groups, g ≠ [] ∧ ∃ v, ∀ l ∈ g, l.voter = v) ∧
  ∀ (i : Nat) (g h : List ImgLine), groups[i]? = some g → groups[i + 1]? = some h → ∀ a ∈ g, ∀ b ∈ h, a.voter ≠ b.voter

/-- What a run of lines says about a token: the rank on the last line that names it. -/
def runRank (rs : List MasterRec) (g : List ImgLine) (tok : Str) : Option Int :=
  ((g.filter (fun l => decide (lineToken rs l = some tok))).getLast?).map (fun l => (l.rankNum : Int))

/-- the preference map holds exactly the ranks of the run -/
def HoldsRun (rs : List MasterRec) (g : List ImgLine) (p : Dict Str Pref) : Prop :=
  Dict.WF p ∧ ∀ (tok : Str), Dict.get? p tok = (runRank rs g tok).map (fun r => ({ rank := some r } : Pref))

/-- The ids of the candidate table, each once, in order of first appearance: all zeros, then those of the candidate records. -/
def tableIds (rs : List MasterRec) : List Str :=
  firsts (c!"0000000" :: (rs.filter (fun r => decide (strip r.rtype = c!"Candidate"))).map MasterRec.id)

/-- The token of the `n`-th id (from zero): from its name, or `cand<n>` when it has no name. -/
def tableToken (rs : List MasterRec) (id : Str) (n : Nat) : Str :=
  match candName rs id with
  | some name => if name = [] then c!"cand" ++ natStr n else abifToken 20 name
  | none => c!"cand" ++ natStr n

end Verif.Spec
