/-
The JSON documents printed by abiftool.py:224-240, 272-276: the results of the counting methods as JSON.
In Python the results are dicts and lists of `str`, `int`, `bool` and `None`, printed by `json.dumps(…, indent=4)`.
-/
import Verif.Model.JsonIo
import Verif.Model.Report

namespace Verif

/-- The order in which `list(s)` gives the members of a set (core.py:630-631): any order, possibly different at each call;
the calls are numbered. -/
structure SetListing where
  order : Nat → List Str → List Str
  perm : ∀ n l, (order n l).Perm l

/-- a `str` or `None` -/
def optStrJson : Option Str → Json
  | some s => .str s
  | none => .null

/-- an `int` or `None` -/
def optIntJson : Option Int → Json
  | some i => .int i
  | none => .null

/-- a list of strings -/
def strsJson (l : List Str) : Json := .arr (l.map .str)

/-- a dict of names -/
def namesJson (d : Dict Str (Option Str)) : Json := .obj (d.map fun kv => (kv.1, optStrJson kv.2))

/-- the matrix of pairwise counts, abiftool.py:232-233 -/
def pairsDoc (d : PairDict) : Json :=
  .obj (d.map fun row => (row.1, .obj (row.2.map fun cell => (cell.1, optIntJson cell.2))))

/-- one record of the win-loss-tie table, pairwise.py:79-81 -/
def WLT.toJson (w : WLT) : Json := .obj [(c!"wins", .int w.wins), (c!"losses", .int w.losses), (c!"ties", .int w.ties)]

/-- the win-loss-tie table, abiftool.py:272-276 -/
def wltDoc (d : Dict Str WLT) : Json := .obj (d.map fun kv => (kv.1, kv.2.toJson))

/-- a key that is set only if the value is true -/
def trueMember (k : Str) (b : Bool) : List (Str × Json) := if b then [(k, .bool true)] else []

/-- The metadata of a round after `clean_dict` (core.py:623-637), keys in the order in which irvtally.py:105-225 sets them.
`all_eliminated` is a set, and in the last round (which has a winner) `eliminated` is one too; `n` numbers the `list` calls. -/
def RoundMeta.toJson (L : SetListing) (n : Nat) (r : RoundMeta) : Json :=
  .obj ([(c!"roundnum", .int r.roundnum), (c!"startingqty", .int r.startingqty), (c!"exhaustedqty", .int r.exhaustedqty),
         (c!"overvoteqty", .int r.overvoteqty), (c!"ballotcount", .int r.ballotcount), (c!"countedqty", .int r.countedqty),
         (c!"bottom_votes_percand", .int r.bottomVotesPercand), (c!"leading_votes_percand", .int r.leadingVotesPercand),
         (c!"penultimate_votes_percand", .int r.penultimateVotesPercand), (c!"starting_cands", strsJson r.startingCands),
         (c!"top_voteqty", .int r.topVoteqty), (c!"bottom_voteqty", .int r.bottomVoteqty)] ++
        (match r.bottomtie with
         | some l => [(c!"bottomtie", strsJson l), (c!"tiecandlist", strsJson l)]
         | none => []) ++
        trueMember c!"batch_elim" r.batchElim ++ trueMember c!"random_elim" r.randomElim ++
        [(c!"eliminated", strsJson (if r.winner.isSome then L.order (2 * n) r.eliminated else r.eliminated)),
         (c!"all_eliminated", strsJson (L.order (2 * n + 1) r.allEliminated))] ++
        (match r.winner with
         | some w => [(c!"winner", strsJson w)]
         | none => []))

/-- the metadata of all rounds -/
def roundmetaJson (L : SetListing) : Nat → List RoundMeta → List Json
  | _, [] => []
  | n, r :: rs => r.toJson L n :: roundmetaJson L (n + 1) rs

/-- the IRV result, irvtally.py:235-253 and abiftool.py:228-230 -/
def irvDoc (L : SetListing) (canddict : Dict Str (Option Str)) (d : IrvDict) : Json :=
  .obj [(c!"canddict", namesJson canddict), (c!"winner", strsJson d.run.winner),
        (c!"rounds", .arr (d.run.rounds.map fun cs => .obj (cs.map fun cv => (cv.1, .int cv.2)))),
        (c!"roundmeta", .arr (roundmetaJson L 0 d.run.roundmeta)),
        (c!"winnerstr", optStrJson d.winnerstr), (c!"has_tie", .bool d.hasTie)]

/-- one entry of `scores`, scorestar.py:30-33, 63 -/
def scoreEntryJson (ranks : List (Str × Int)) (kv : Str × ScoreEntry) : Str × Json :=
  (kv.1, .obj ([(c!"candname", optStrJson kv.2.candname), (c!"score", .int kv.2.score), (c!"votercount", .int kv.2.votercount)] ++
    (match Dict.get? ranks kv.1 with
     | some r => [(c!"rank", .int r)]
     | none => [])))

/-- the `winner` entry, scorestar.py:85-90 -/
def StarWinner.toJson : StarWinner → Json
  | .won n => optStrJson n
  | .tie n1 n2 => .str (c!"tie " ++ nameFmt n1 ++ c!" and " ++ nameFmt n2)

/-- the STAR result, scorestar.py:45-91 and abiftool.py:234-236 -/
def starDoc (r : StarResult) : Json :=
  .obj [(c!"scores", .obj (r.base.scores.map (scoreEntryJson r.base.ranks))), (c!"ranklist", strsJson r.base.ranklist),
        (c!"total_all_scores", .int r.base.totalAllScores), (c!"totalvoters", r.base.totalvoters),
        (c!"round1winners", strsJson (r.base.ranklist.take 2)), (c!"fin1", .str r.fin1), (c!"fin2", .str r.fin2),
        (c!"fin1n", optStrJson r.fin1n), (c!"fin2n", optStrJson r.fin2n), (c!"fin1votes", .int r.fin1votes),
        (c!"fin2votes", .int r.fin2votes), (c!"final_abstentions", .int r.finalAbstentions), (c!"winner", r.winner.toJson)]

end Verif
