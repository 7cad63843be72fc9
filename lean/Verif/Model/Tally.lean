/-
abiflib/pairwise.py and abiflib/scorestar.py.
-/
import Verif.Model.Parse
import Verif.Py.Float

namespace Verif

/-- `sys.maxsize` on a 64-bit interpreter, pairwise.py:49 -/
def maxRank : Int := 9223372036854775807

/-- Rank used for a candidate on a voteline, pairwise.py:52-59: `maxrank` when unlisted, `none` when
listed without a rank. -/
def lineRank (prefs : Dict Str Pref) (tok : Str) : Option Int :=
  match prefs.get? tok with
  | some p => p.rank
  | none => some maxRank

/-- A matrix of pairwise counts; `none` is Python's `None`. -/
abbrev PairDict := Dict Str (Dict Str (Option Int))

/-- initial matrix, pairwise.py:35-43 -/
def pairInit (toks : List Str) : PairDict :=
  toks.map fun a => (a, toks.map fun b => (b, if a = b then none else some 0))

/-- What one voteline does to one cell, pairwise.py:63-69. -/
def pairCell (vl : Voteline) (a b : Str) (old : Option Int) : Option Int :=
  if a = b then none
  else
    match lineRank vl.prefs a, lineRank vl.prefs b with
    | some ra, some rb => if ra < rb then old.map (· + vl.qty) else old
    | _, _ => some 0

/-- one voteline applied to every cell, pairwise.py:46-69 (each `(atok, btok)` cell is visited once and
only reads and writes itself, so the double loop is a map over the cells) -/
def pairLine (vl : Voteline) (d : PairDict) : PairDict :=
  d.map fun row => (row.1, row.2.map fun cell => (cell.1, pairCell vl row.1 cell.1 cell.2))

/-- `pairwise_count_dict`, pairwise.py:28-70. -/
def pairwiseCount (m : Jabmod) : PairDict :=
  m.votelines.foldl (fun d vl => pairLine vl d) (pairInit m.candidates.keys)

/-- wins, losses, ties of one candidate -/
structure WLT where
  wins : Int := 0
  losses : Int := 0
  ties : Int := 0
deriving DecidableEq, Repr

/-- `pairdict[a][b]` -/
def pairGet (d : PairDict) (a b : Str) : Except PyErr (Option Int) := do
  let row ← d.getE a
  row.getE b

/-- body of the double loop of `winlosstie_dict_from_pairdict`, pairwise.py:82-98; comparing `None` is a
`TypeError` -/
def wltStep (d : PairDict) (acc : Dict Str WLT) (a b : Str) : Except PyErr (Dict Str WLT) := do
  let a2b ← pairGet d a b
  let b2a ← pairGet d b a
  if a = b then .ok acc
  else
    match a2b, b2a with
    | some x, some y =>
      if x > y then
        .ok ((acc.modify a (fun w => { w with wins := w.wins + 1 })).modify b
              (fun w => { w with losses := w.losses + 1 }))
      else if x = y then
        .ok ((acc.modify a (fun w => { w with ties := w.ties + 1 })).modify b
              (fun w => { w with ties := w.ties + 1 }))
      else .ok acc
    | _, _ => .error .typeError

/-- inner loop over `btok` -/
def wltInner (d : PairDict) (a : Str) : List Str → Dict Str WLT → Except PyErr (Dict Str WLT)
  | [], acc => .ok acc
  | b :: bs, acc => do let acc' ← wltStep d acc a b; wltInner d a bs acc'

/-- outer loop over `atok` -/
def wltOuter (d : PairDict) (toks : List Str) : List Str → Dict Str WLT → Except PyErr (Dict Str WLT)
  | [], acc => .ok acc
  | a :: as, acc => do let acc' ← wltInner d a toks acc; wltOuter d toks as acc'

/-- `winlosstie_dict_from_pairdict`, pairwise.py:73-103. -/
def winLossTie (toks : List Str) (d : PairDict) : Except PyErr (Dict Str WLT) := do
  let acc ← wltOuter d toks toks (toks.map fun t => (t, {}))
  .ok (sortByKeyDesc (fun kv => kv.2.wins) acc)

/-- `full_copecount_from_abifmodel`, pairwise.py:106-113. -/
structure Copecount where
  winningvotes : PairDict
  winlosstie : Dict Str WLT

def fullCopecount (m : Jabmod) : Except PyErr Copecount := do
  let wv := pairwiseCount m
  let wlt ← winLossTie m.candidates.keys wv
  .ok { winningvotes := wv, winlosstie := wlt }

/-- `calc_Copeland_scores`, pairwise.py:116-124.  The float `wins + ties * 0.5` is represented exactly by
its double `2 * wins + ties`. -/
def copelandScores2 (wlt : Dict Str WLT) : List (Str × Int) :=
  sortByKeyDesc Prod.snd (wlt.map fun kv => (kv.1, 2 * kv.2.wins + kv.2.ties))

/-- `max` of a nonempty list of ints; `none` (Python `ValueError`) on the empty list -/
def listMax : List Int → Option Int
  | [] => none
  | x :: xs => some (xs.foldl max x)

/-- `min` of a nonempty list of ints; `none` (Python `ValueError`) on the empty list -/
def listMin : List Int → Option Int
  | [] => none
  | x :: xs => some (xs.foldl min x)

/-- `get_Copeland_winners`, pairwise.py:127-131. -/
def copelandWinners (wlt : Dict Str WLT) : Except PyErr (List Str) :=
  let scores := copelandScores2 wlt
  match listMax (scores.map Prod.snd) with
  | none => .error .valueError
  | some top => .ok ((scores.filter (fun s => s.2 = top)).map Prod.fst)

/-- The candidate named by `Copeland_report`, pairwise.py:134-140: the head of the score list. -/
def copelandReportWinner (wlt : Dict Str WLT) : Except PyErr Str :=
  match copelandScores2 wlt with
  | [] => .error .indexError
  | (c, _) :: _ => .ok c

/-! ### scorestar.py -/

/-- per-candidate entry of `basic_score_result_from_abifmodel` -/
structure ScoreEntry where
  candname : Option Str
  score : Int
  votercount : Int
deriving DecidableEq, Repr

section
variable [Uni]

/-- inner loop over a voteline's prefs, scorestar.py:37-41 -/
def scorePrefs (qty : Int) : List (Str × Pref) → Dict Str ScoreEntry → Except PyErr (Dict Str ScoreEntry)
  | [], d => .ok d
  | (cand, p) :: rest, d => do
    let rating ← ratingInt p.rating
    let e ← d.getE cand
    let e := { e with score := e.score + rating * qty,
                      votercount := if rating > 0 then e.votercount + qty else e.votercount }
    scorePrefs qty rest (d.set cand e)

/-- loop over the votelines, scorestar.py:35-41 -/
def scoreLines : List Voteline → Dict Str ScoreEntry → Except PyErr (Dict Str ScoreEntry)
  | [], d => .ok d
  | vl :: rest, d => do let d' ← scorePrefs vl.qty vl.prefs d; scoreLines rest d'

/-- `basic_score_result_from_abifmodel`, scorestar.py:28-42. -/
def basicScore (m : Jabmod) : Except PyErr (Dict Str ScoreEntry) :=
  scoreLines m.votelines (m.candidates.map fun kv => (kv.1, { candname := kv.2, score := 0, votercount := 0 }))

/-- The dense rank loop, scorestar.py:54-63; `prev = none` is `math.inf`. -/
def scoreRanks : Option Int → Int → List (Str × ScoreEntry) → List (Str × Int)
  | _, _, [] => []
  | prev, rank, (c, e) :: rest =>
    let rank' := match prev with
      | none => rank + 1
      | some ps => if ps > e.score then rank + 1 else rank
    (c, rank') :: scoreRanks (some e.score) rank' rest

/-- result of `enhanced_score_result_from_abifmodel` -/
structure ScoreResult where
  scores : Dict Str ScoreEntry
  /-- the `rank` keys added to the score entries, in `ranklist` order -/
  ranks : List (Str × Int)
  ranklist : List Str
  totalAllScores : Int
  totalvoters : Json

/-- `enhanced_score_result_from_abifmodel`, scorestar.py:45-68. -/
def enhancedScore (m : Jabmod) : Except PyErr ScoreResult := do
  let scores ← basicScore m
  let sorted := sortByKeyDesc (fun (kv : Str × ScoreEntry) => kv.2.score) scores
  let tv ← m.metadata.getE c!"ballotcount"
  .ok { scores := scores, ranks := scoreRanks none 0 sorted, ranklist := sorted.map Prod.fst,
        totalAllScores := (scores.map fun kv => kv.2.score).sum, totalvoters := tv }

/-- outcome of the STAR runoff, scorestar.py:85-90; a tie is announced with both names -/
inductive StarWinner
  | won (name : Option Str)
  | tie (n1 n2 : Option Str)
deriving DecidableEq, Repr

structure StarResult where
  base : ScoreResult
  fin1 : Str
  fin2 : Str
  fin1n : Option Str
  fin2n : Option Str
  fin1votes : Int
  fin2votes : Int
  finalAbstentions : Int
  winner : StarWinner

/-- `STAR_result_from_abifmodel`, scorestar.py:71-91. -/
def starResult (m : Jabmod) : Except PyErr StarResult := do
  let r ← enhancedScore m
  let cc ← fullCopecount m
  match r.ranklist with
  | fin1 :: fin2 :: _ =>
    let e1 ← r.scores.getE fin1
    let e2 ← r.scores.getE fin2
    let v1 ← pairGet cc.winningvotes fin1 fin2
    let v2 ← pairGet cc.winningvotes fin2 fin1
    match r.totalvoters, v1, v2 with
    | .int bc, some f1v, some f2v =>
      .ok { base := r, fin1 := fin1, fin2 := fin2, fin1n := e1.candname, fin2n := e2.candname,
            fin1votes := f1v, fin2votes := f2v, finalAbstentions := bc - f1v - f2v,
            winner := if f1v > f2v then .won e1.candname
                      else if f2v > f1v then .won e2.candname
                      else .tie e1.candname e2.candname }
    | _, _, _ => .error .typeError
  | _ => .error .indexError

/-- an entry of `canddict` in the result of `scaled_scores` -/
structure ScaledEntry where
  candname : Option Str
  scaledScore : Rat
  score : Int

/-- result of `scaled_scores`; `max_rating` is `None` when the metadata has none -/
structure ScaledResult where
  maxRating : Json
  totalAllScores : Int
  scaleFactor : Rat
  canddict : Dict Str ScaledEntry
  scaledTotal : Rat

/-- `scaled_scores`, scorestar.py:129-150.  The scale factor, the scaled scores and their total are floats: rounded at
every step (Py/Float); the division by a zero total is the Python `ZeroDivisionError`, a number too large for a float an
`OverflowError` (`other`). -/
def scaledScores (m : Jabmod) (target : Int) : Except PyErr ScaledResult := do
  let r ← starResult m
  let scale ← trueDiv target r.base.totalAllScores
  let canddict ← m.candidates.mapM fun kv => do
    let e ← r.base.scores.getE kv.1
    let s ← mulFloat e.score scale
    .ok (kv.1, ({ candname := kv.2, scaledScore := s, score := e.score } : ScaledEntry))
  let total ← (canddict.map fun kv => kv.2.scaledScore).foldlM addFloat 0
  let maxRating := (Dict.get? m.metadata c!"max_rating").getD .null
  .ok { maxRating := maxRating, totalAllScores := r.base.totalAllScores, scaleFactor := scale, canddict := canddict,
        scaledTotal := total }

/-- `abifmodel_has_ratings`, scorestar.py:153-161. -/
def hasRatings (m : Jabmod) : Except PyErr Bool :=
  match m.votelines with
  | [] => .error .indexError
  | vl :: _ =>
    match vl.prefs with
    | [] => .error .indexError
    | (_, p) :: _ => .ok (ratingTruthy p.rating)

end

end Verif
