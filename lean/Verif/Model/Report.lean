/-
The text reports: scorestar.py, pairwise.py, util.py.
-/
import Verif.Model.Irv
import Verif.Model.Tally
import Verif.Model.Output

namespace Verif

/-- `f"{name}"` of a candidate name -/
def nameFmt : Option Str → Str
  | none => c!"None"
  | some n => n

/-- `f"{v}"` of a metadata value.  Simplification: lists and dicts are shown as JSON instead of their `repr`. -/
def jsonFmt : Json → Str
  | .null => c!"None"
  | .bool true => c!"True"
  | .bool false => c!"False"
  | .int i => intStr i
  | .str s => s
  | .arr l => (Json.arr l).dumps
  | .obj l => (Json.obj l).dumps

/-- `f"{x}"` of the float `h / 2` for a half-integer that is not negative and below 10^16, where it is printed with
exactly one decimal -/
def halfStr (h : Int) : Str := intStr (h / 2) ++ (if h % 2 = 0 then c!".0" else c!".5")

section
variable [Uni]

/-- the line of one candidate, scorestar.py:99-102 (`unit` is "points") and 117-120 ("stars") -/
def scoreLine (unit : Str) (scores : Dict Str ScoreEntry) (c : Str) : Except PyErr Str := do
  let e ← Dict.getE scores c
  .ok (c!"- " ++ intStr e.score ++ c!" " ++ unit ++ c!" (from " ++ intStr e.votercount ++ c!" voters) -- " ++
    nameFmt e.candname ++ c!"\n")

/-- `score_report`, scorestar.py:94-107 -/
def scoreReport (m : Jabmod) : Except PyErr Str := do
  let tv ← m.metadata.getE c!"ballotcount"
  let sr ← enhancedScore m
  let lines ← sr.ranklist.mapM (scoreLine c!"points" sr.scores)
  match sr.ranklist with
  | [] => .error .indexError
  | w :: _ => do
    let e ← sr.scores.getE w
    .ok (lines.flatten ++ (c!"Voter count: " ++ jsonFmt tv ++ c!"\n") ++ (c!"Score Winner: " ++ nameFmt e.candname ++ c!"\n"))

/-- `sr['winner']` as text, scorestar.py:85-90 -/
def StarWinner.text : StarWinner → Str
  | .won n => nameFmt n
  | .tie a b => c!"tie " ++ nameFmt a ++ c!" and " ++ nameFmt b

/-- `STAR_report`, scorestar.py:110-126 -/
def starReport (m : Jabmod) : Except PyErr Str := do
  let sr ← starResult m
  let tv := jsonFmt sr.base.totalvoters
  let lines ← sr.base.ranklist.mapM (scoreLine c!"stars" sr.base.scores)
  .ok (c!"Total voters: " ++ tv ++ c!"\n" ++ c!"Scores:\n" ++ lines.flatten ++ c!"Finalists: \n" ++
    (c!"- " ++ nameFmt sr.fin1n ++ c!" preferred by " ++ intStr sr.fin1votes ++ c!" of " ++ tv ++ c!" voters\n") ++
    (c!"- " ++ nameFmt sr.fin2n ++ c!" preferred by " ++ intStr sr.fin2votes ++ c!" of " ++ tv ++ c!" voters\n") ++
    (c!"- " ++ intStr sr.finalAbstentions ++ c!" abstentions\n") ++
    (c!"STAR Winner: " ++ sr.winner.text ++ c!"\n"))

end

/-- `Copeland_report`, pairwise.py:134-140 -/
def copelandReport (canddict : Dict Str (Option Str)) (cc : Copecount) : Except PyErr Str :=
  match copelandScores2 cc.winlosstie with
  | [] => .error .indexError
  | (c, s) :: _ => do
    let n ← canddict.getE c
    .ok (c!"Copeland Winner: " ++ nameFmt n ++ c!" (score: " ++ halfStr s ++ c!")\n")

/-- `candlist_text_from_abif`, util.py:54-60.  `sorted(canddict.items())` compares names only for equal tokens, which
a dict does not have. -/
def candlistText (m : Jabmod) : Str :=
  c!"Candidates:\n" ++ (pySort (fun (a b : Str × Option Str) => strLe a.1 b.1) m.candidates).flatMap
    (fun kv => c!"  " ++ kv.1 ++ c!": " ++ nameFmt kv.2 ++ c!"\n")

end Verif
