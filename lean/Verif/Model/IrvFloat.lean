/-
abiflib/irvtally.py: the instant-runoff count with Python's floats in the majority test.

`Model/Irv` decides `max_votes > total_votes / 2` by exact arithmetic.  Here the quotient is the double Python computes
(`OverflowError` when there is none), everything else is shared with `Model/Irv`.  `Props/IrvFloat` proves that the two
counts are the same as long as the ballots number at most `2 ^ 53`, and that they differ beyond.
-/
import Verif.Model.Irv
import Verif.Py.Float

namespace Verif

/-- the test `if min_votes == max_votes … elif max_votes > total_votes / 2`, irvtally.py:212-219: whether this round is the
last one.  Python compares an int and a float by value. -/
def irvStops (minVotes maxVotes total : Int) : Except PyErr Bool := do
  if minVotes = maxVotes then .ok true
  else
    let half ← trueDiv total 2
    .ok (decide ((maxVotes : Rat) > half))

/-- The part of `_irv_count_internal` after the counting loop and before the recursive call, irvtally.py:128-231; see
`roundFinish`. -/
def roundFinishF (S : Sched) (prev : Option RoundMeta) (roundnum : Nat) (cands : List Str) (vls : List Voteline)
    (ov : Int) (pruned : List Voteline) (a : CountAcc) : Except PyErr RoundOut :=
  let votes := a.counts.map Prod.snd
  let total := votes.sum
  match listMin votes, listMax votes with
  | some minVotes, some maxVotes => do
    let el := chooseElim S roundnum a.counts minVotes (penultVotes votes minVotes maxVotes)
    let nextcands := S.setOrder roundnum (cands.filter (fun c => c ∉ el.eliminated))
    let winner := (a.counts.filter (fun cv => cv.2 = maxVotes)).map Prod.fst
    let info : RoundMeta := {
      roundnum := roundnum
      startingqty := (vls.map Voteline.qty).sum
      exhaustedqty := a.exhausted
      overvoteqty := ov
      ballotcount := a.ballotcount
      countedqty := total - a.exhausted
      bottomVotesPercand := minVotes
      leadingVotesPercand := maxVotes
      penultimateVotesPercand := penultVotes votes minVotes maxVotes
      startingCands := cands
      topVoteqty := minVotes
      bottomVoteqty := maxVotes
      bottomtie := el.bottomtie
      batchElim := el.batch
      randomElim := el.random
      eliminated := el.eliminated
      allEliminated := allElimOf prev el }
    let stop ← irvStops minVotes maxVotes total
    if stop then
      .ok { counts := a.counts
            info := { info with winner := some winner, eliminated := cands.filter (fun c => c ∉ winner) }
            next := none }
    else
      .ok { counts := a.counts, info := info, next := some (nextcands, eliminateCands el.eliminated pruned) }
  | _, _ => .error .valueError

/-- One call of `_irv_count_internal` without its recursive call, irvtally.py:99-231. -/
def irvRoundF (S : Sched) (prev : Option RoundMeta) (roundnum : Nat) (cands : List Str) (vls : List Voteline) :
    Except PyErr RoundOut := do
  let (ov, pruned) ← discardOvervotes vls
  let a ← countLoop pruned { counts := cands.map fun c => (c, 0) }
  roundFinishF S prev roundnum cands vls ov pruned a

/-- `_irv_count_internal`, irvtally.py:88-232; see `irvCount`. -/
def irvCountF (S : Sched) : Nat → Option RoundMeta → Nat → List Str → List Voteline → Except PyErr IrvRun
  | 0, _, _, _, _ => .error .fuel
  | n + 1, prev, roundnum, cands, vls => do
    let r ← irvRoundF S prev roundnum cands vls
    match r.next with
    | none => .ok { winner := r.info.winner.getD [], rounds := [r.counts], roundmeta := [r.info] }
    | some (cands', vls') => do
      let t ← irvCountF S n (some r.info) (roundnum + 1) cands' vls'
      .ok { winner := t.winner, rounds := r.counts :: t.rounds, roundmeta := r.info :: t.roundmeta }

/-- `IRV_dict_from_jabmod`, irvtally.py:235-253. -/
def irvDictF (S : Sched) (m : Jabmod) : Except PyErr IrvDict := do
  let run ← irvCountF S (m.candidates.length + 1) none 1 m.candidates.keys m.votelines
  let winnerstr ← winnerStr m.candidates run.winner
  .ok { run := run, winnerstr := winnerstr, hasTie := run.roundmeta.any (fun rm => rm.bottomtie.isSome) }

/-- `copelandscores[c] = wins + ties * 0.5` with Python's floats, pairwise.py:121-123: the int `ties` times the float 0.5,
and the int `wins` (made a float) plus that -/
def copelandFloat (wins ties : Int) : Except PyErr Rat := do
  let t ← mulFloat ties (1 / 2)
  let w ← toDouble (wins : Rat)
  addFloat w t

end Verif
