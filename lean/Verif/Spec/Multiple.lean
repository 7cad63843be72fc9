/-
Specification vocabulary for elections in which every ballot is counted several times.
-/
import Verif.Model.Irv
import Verif.Spec.Abif

namespace Verif.Spec

/-- a number multiplied; everything else in the metadata stays -/
def timesJson (k : Int) : Json → Json
  | .int n => .int (k * n)
  | j => j

/-- the metadata with `k` times as many ballots -/
def timesMetadata (k : Int) (md : Dict Str Json) : Dict Str Json :=
  md.map (fun kv => (kv.1, if kv.1 = c!"ballotcount" then timesJson k kv.2 else kv.2))

/-- the voteline with `k` times as many ballots -/
def timesLine (k : Int) (vl : Voteline) : Voteline := { vl with qty := k * vl.qty }

/-- The election in which every ballot is there `k` times. -/
def timesModel (k : Int) (m : Jabmod) : Jabmod :=
  { metadata := timesMetadata k m.metadata, candidates := m.candidates, votelines := m.votelines.map (timesLine k) }

/-- a table of numbers with every number multiplied -/
def timesTable (k : Int) (d : Dict Str Int) : Dict Str Int := d.map (fun kv => (kv.1, k * kv.2))

/-- a table of pairwise numbers with every number multiplied -/
def timesPairs (k : Int) (d : PairDict) : PairDict :=
  d.map (fun row => (row.1, row.2.map (fun cell => (cell.1, cell.2.map (k * ·)))))

/-- a round of a count with every number of ballots multiplied; the candidates in it stay -/
def timesRound (k : Int) (rm : RoundMeta) : RoundMeta :=
  { rm with
    startingqty := k * rm.startingqty
    exhaustedqty := k * rm.exhaustedqty
    overvoteqty := k * rm.overvoteqty
    ballotcount := k * rm.ballotcount
    countedqty := k * rm.countedqty
    bottomVotesPercand := k * rm.bottomVotesPercand
    leadingVotesPercand := k * rm.leadingVotesPercand
    penultimateVotesPercand := k * rm.penultimateVotesPercand
    topVoteqty := k * rm.topVoteqty
    bottomVoteqty := k * rm.bottomVoteqty }

/-- a count with every number of ballots multiplied; the winners and everything else said about candidates stay -/
def timesRun (k : Int) (d : IrvDict) : IrvDict :=
  { d with run := { winner := d.run.winner, rounds := d.run.rounds.map (timesTable k), roundmeta := d.run.roundmeta.map (timesRound k) } }

/-- scores with every number multiplied; ranks and order stay -/
def timesScores (k : Int) (r : ScoreResult) : ScoreResult :=
  { r with
    scores := r.scores.map (fun kv => (kv.1, { kv.2 with score := k * kv.2.score, votercount := k * kv.2.votercount }))
    totalAllScores := k * r.totalAllScores
    totalvoters := timesJson k r.totalvoters }

/-- a STAR result with every number multiplied; finalists and winner stay -/
def timesStar (k : Int) (r : StarResult) : StarResult :=
  { r with
    base := timesScores k r.base
    fin1votes := k * r.fin1votes
    fin2votes := k * r.fin2votes
    finalAbstentions := k * r.finalAbstentions }

/-- The same line (not a voteline), or two votelines that differ in the quantity only, the second `k` times the first. -/
def TimesLine [Uni] (k : Nat) (l l' : Str) : Prop :=
  (l = l' ∧ lineVote l = none) ∨
    ∃ q q' p c, lineVote l = some (q, p, c) ∧ lineVote l' = some (q', p, c) ∧ digitsVal q' = k * digitsVal q

end Verif.Spec
