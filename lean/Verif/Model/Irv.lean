/-
abiflib/irvtally.py: the instant-runoff count.
-/
import Verif.Model.Tally

namespace Verif

/-- What Python leaves open: the order in which `list(set(...))` enumerates a set (hash order, any
permutation, in any round), and the outcome of `random.choice` (any member of the list, in any round). -/
structure Sched where
  setOrder : Nat → List Str → List Str
  choice : Nat → List Str → Str
  setOrder_perm : ∀ n l, (setOrder n l).Perm l
  choice_mem : ∀ n l, l ≠ [] → choice n l ∈ l

/-- `_eliminate_cands_from_votelines`, irvtally.py:11-18. -/
def eliminateCands (cands : List Str) (vls : List Voteline) : List Voteline :=
  cands.foldl (fun vls c => vls.map fun vl => { vl with prefs := vl.prefs.erase c }) vls

/-- `sorted(prefs.keys(), key=lambda key: prefs[key]['rank'])` with the ranks kept alongside
(irvtally.py:26, 55); `KeyError` when an entry has no rank. -/
def rankList (prefs : Dict Str Pref) : Except PyErr (List (Str × Int)) := do
  let ks ← prefs.mapM (fun kp => match kp.2.rank with
    | some r => Except.ok (kp.1, r)
    | none => Except.error PyErr.keyError)
  .ok (sortByKey Prod.snd ks)

/-- `yrank = 9999999999  # close enough to infinity`, irvtally.py:32, 62 -/
def irvInfinity : Int := 9999999999

/-- The loop `while yrank > xrank: y += -1; yrank = prefs[rlist[y]]['rank']`, irvtally.py:36-39, 66-69.
`y = 0` with `yrank > xrank` does not happen: `rlist[0]` has rank `xrank`. -/
def scanDown (ranks : List Int) (xrank : Int) : Nat → Int → Nat
  | 0, _ => 0
  | y + 1, yrank => if yrank > xrank then scanDown ranks xrank y (ranks.getD y 0) else y + 1

/-- index `y` reached by the scan, irvtally.py:28-39, 58-69 -/
def topIndex (rlist : List (Str × Int)) : Nat :=
  match rlist with
  | [] => 0
  | (_, xrank) :: _ => scanDown (rlist.map Prod.snd) xrank rlist.length irvInfinity

/-- whether `_discard_toprank_overvotes` deletes the line when it looks at it, irvtally.py:25-46 -/
def isOvervote (prefs : Dict Str Pref) : Except PyErr Bool := do
  let rlist ← rankList prefs
  .ok (!rlist.isEmpty && topIndex rlist != 0)

/-- `_discard_toprank_overvotes`, irvtally.py:21-50.  The Python loop deletes from the list it is
iterating over, so the line following a deleted one is never looked at and stays. -/
def discardOvervotes : List Voteline → Except PyErr (Int × List Voteline)
  | [] => .ok (0, [])
  | vl :: rest => do
    let ov ← isOvervote vl.prefs
    if ov then
      match rest with
      | [] => .ok (vl.qty, [])
      | skipped :: rest' => do
        let (q, kept) ← discardOvervotes rest'
        .ok (vl.qty + q, skipped :: kept)
    else do
      let (q, kept) ← discardOvervotes rest
      .ok (q, vl :: kept)

/-- `_get_valid_topcand_qty`, irvtally.py:53-85 (its candidate; the quantity is the line's own).  `none` is
the empty dict Python returns when no candidate is alone at its rank.  The recursion is on ever shorter
dicts; `prefs.length + 1` steps always suffice. -/
def validTop : Nat → Dict Str Pref → Except PyErr (Option Str)
  | 0, _ => .error .fuel
  | n + 1, prefs => do
    let rlist ← rankList prefs
    match rlist with
    | [] => .ok none
    | (x, _) :: _ =>
      let y := topIndex rlist
      if y = 0 then .ok (some x)
      else
        let nextprefs := (rlist.drop (y + 1)).filterMap (fun k => (prefs.get? k.1).map (fun p => (k.1, p)))
        validTop n nextprefs

/-- metadata of one round, irvtally.py:107-223.  `tiecandlist` always equals `bottomtie`.  Sets are
duplicate-free lists. -/
structure RoundMeta where
  roundnum : Nat
  startingqty : Int
  exhaustedqty : Int
  overvoteqty : Int
  ballotcount : Int
  countedqty : Int
  bottomVotesPercand : Int
  leadingVotesPercand : Int
  penultimateVotesPercand : Int
  startingCands : List Str
  topVoteqty : Int
  bottomVoteqty : Int
  bottomtie : Option (List Str) := none
  batchElim : Bool := false
  randomElim : Bool := false
  eliminated : List Str := []
  allEliminated : List Str := []
  winner : Option (List Str) := none
deriving DecidableEq, Repr

/-- accumulators of the counting loop, irvtally.py:104, 113-127 -/
structure CountAcc where
  counts : Dict Str Int
  ballotcount : Int := 0
  exhausted : Int := 0
deriving DecidableEq, Repr

/-- `if rcand:` on the returned candidate: the empty dict and the empty string are both false -/
def credited : Option Str → Option Str
  | some [] => none
  | r => r

/-- counting loop, irvtally.py:120-127 -/
def countLoop : List Voteline → CountAcc → Except PyErr CountAcc
  | [], a => .ok a
  | vl :: rest, a => do
    let r ← validTop (vl.prefs.length + 1) vl.prefs
    let a := { a with ballotcount := a.ballotcount + vl.qty }
    match credited r with
    | some c => do
      let n ← a.counts.getE c
      countLoop rest { a with counts := a.counts.set c (n + vl.qty) }
    | none => countLoop rest { a with exhausted := a.exhausted + vl.qty }

/-- set union keeping first occurrences -/
def setUnion (a b : List Str) : List Str := b.foldl (fun s x => if x ∈ s then s else s ++ [x]) a

/-- what a round produces -/
structure RoundOut where
  counts : Dict Str Int
  info : RoundMeta
  /-- candidates and votelines of the next round; `none` in the last round -/
  next : Option (List Str × List Voteline)

/-- the elimination chosen in a round, irvtally.py:147-199 -/
structure Elim where
  bottomtie : Option (List Str) := none
  batch : Bool := false
  random : Bool := false
  eliminated : List Str
  /-- `thisroundloserlist`, `none` for `[None]` -/
  losers : Option (List Str)

/-- irvtally.py:147-199; `penult` is `penultvotesper`. -/
def chooseElim (S : Sched) (roundnum : Nat) (counts : Dict Str Int) (minVotes penult : Int) : Elim :=
  let bottom := (counts.filter (fun cv => cv.2 ≤ minVotes)).map Prod.fst
  let bottomTotal := ((counts.filter (fun cv => cv.2 ≤ minVotes)).map Prod.snd).sum
  if bottom.length > 1 then
    if bottomTotal ≤ penult then
      { bottomtie := some bottom, batch := true, eliminated := bottom, losers := none }
    else
      let unlucky := S.choice roundnum bottom
      { bottomtie := some bottom, random := true, eliminated := [unlucky], losers := some [unlucky] }
  else { eliminated := bottom, losers := some bottom }

/-- `all_eliminated`, irvtally.py:201-209; `prev` is the previous round's metadata, if any -/
def allElimOf (prev : Option RoundMeta) (el : Elim) : List Str :=
  let s := match prev with
    | some p => setUnion (setUnion [] p.allEliminated) el.eliminated
    | none => []
  match el.losers with
  | some l => setUnion s l
  | none => s

/-- `penultvotesper`, irvtally.py:135-139 -/
def penultVotes (votes : List Int) (minVotes maxVotes : Int) : Int :=
  if minVotes = maxVotes then maxVotes
  else (listMin (votes.filter (fun v => v > minVotes))).getD maxVotes

/-- The part of `_irv_count_internal` after the counting loop and before the recursive call,
irvtally.py:128-231, given the quantity `ov` of discarded overvotes, the lines `pruned` that are left and
the counters `a`.  The float test `max_votes > total_votes / 2` is the exact `2 * max_votes > total_votes`
here. -/
def roundFinish (S : Sched) (prev : Option RoundMeta) (roundnum : Nat) (cands : List Str) (vls : List Voteline)
    (ov : Int) (pruned : List Voteline) (a : CountAcc) : Except PyErr RoundOut :=
  let votes := a.counts.map Prod.snd
  let total := votes.sum
  match listMin votes, listMax votes with
  | some minVotes, some maxVotes =>
    let el := chooseElim S roundnum a.counts minVotes (penultVotes votes minVotes maxVotes)
    let nextcands := S.setOrder roundnum (cands.filter (fun c => c ∉ el.eliminated))
    let winner := (a.counts.filter (fun cv => cv.2 = maxVotes)).map Prod.fst
    let info : RoundMeta := {
      roundnum := roundnum
      startingqty := (vls.map Voteline.qty).sum
      exhaustedqty := a.exhausted
      overvoteqty := ov
      ballotcount := a.ballotcount
      countedqty := total - a.exhausted
      bottomVotesPercand := minVotes
      leadingVotesPercand := maxVotes
      penultimateVotesPercand := penultVotes votes minVotes maxVotes
      startingCands := cands
      topVoteqty := minVotes
      bottomVoteqty := maxVotes
      bottomtie := el.bottomtie
      batchElim := el.batch
      randomElim := el.random
      eliminated := el.eliminated
      allEliminated := allElimOf prev el }
    if minVotes = maxVotes ∨ 2 * maxVotes > total then
      .ok { counts := a.counts
            info := { info with winner := some winner, eliminated := cands.filter (fun c => c ∉ winner) }
            next := none }
    else
      .ok { counts := a.counts, info := info, next := some (nextcands, eliminateCands el.eliminated pruned) }
  | _, _ => .error .valueError

/-- One call of `_irv_count_internal` without its recursive call, irvtally.py:99-231. -/
def irvRound (S : Sched) (prev : Option RoundMeta) (roundnum : Nat) (cands : List Str) (vls : List Voteline) :
    Except PyErr RoundOut := do
  let (ov, pruned) ← discardOvervotes vls
  let a ← countLoop pruned { counts := cands.map fun c => (c, 0) }
  roundFinish S prev roundnum cands vls ov pruned a

/-- result of `_irv_count_internal`: the rounds from this one on (Python appends them to the lists passed
down the recursion) -/
structure IrvRun where
  winner : List Str
  rounds : List (Dict Str Int)
  roundmeta : List RoundMeta
deriving DecidableEq, Repr

/-- `_irv_count_internal`, irvtally.py:88-232.  The recursion depth is bounded by the number of candidates
(proved: `C28_*`); Python's own recursion limit is in Model/IrvDeep. -/
def irvCount (S : Sched) : Nat → Option RoundMeta → Nat → List Str → List Voteline → Except PyErr IrvRun
  | 0, _, _, _, _ => .error .fuel
  | n + 1, prev, roundnum, cands, vls => do
    let r ← irvRound S prev roundnum cands vls
    match r.next with
    | none => .ok { winner := r.info.winner.getD [], rounds := [r.counts], roundmeta := [r.info] }
    | some (cands', vls') => do
      let t ← irvCount S n (some r.info) (roundnum + 1) cands' vls'
      .ok { winner := t.winner, rounds := r.counts :: t.rounds, roundmeta := r.info :: t.roundmeta }

/-- `IRV_dict_from_jabmod`, irvtally.py:235-253 -/
structure IrvDict where
  run : IrvRun
  /-- `none` is Python `None` (a candidate whose name is `None`) -/
  winnerstr : Option Str
  hasTie : Bool
deriving DecidableEq, Repr

/-- `canddict[w]` where a string is needed (`str.join`): `KeyError` if absent, `TypeError` on `None` -/
def nameOf (canddict : Dict Str (Option Str)) (w : Str) : Except PyErr Str :=
  match Dict.get? canddict w with
  | some (some n) => .ok n
  | some none => .error .typeError
  | none => .error .keyError

/-- `" and ".join(canddict[w] for w in sorted(winner))`, irvtally.py:245 -/
def joinNames (canddict : Dict Str (Option Str)) (ws : List Str) : Except PyErr Str := do
  let names ← (pySort strLe ws).mapM (nameOf canddict)
  .ok (joinStr c!" and " names)

/-- `winnerstr`, irvtally.py:243-248 -/
def winnerStr (canddict : Dict Str (Option Str)) : List Str → Except PyErr (Option Str)
  | [] => .error .indexError
  | [w] => canddict.getE w
  | ws => (joinNames canddict ws).map some

/-- `IRV_dict_from_jabmod`, irvtally.py:235-253. -/
def irvDict (S : Sched) (m : Jabmod) : Except PyErr IrvDict := do
  let run ← irvCount S (m.candidates.length + 1) none 1 m.candidates.keys m.votelines
  let winnerstr ← winnerStr m.candidates run.winner
  .ok { run := run, winnerstr := winnerstr, hasTie := run.roundmeta.any (fun rm => rm.bottomtie.isSome) }

/-- the text of one round, irvtally.py:261-276; `i` counts from 0 -/
def roundBlock (i : Nat) (cnt : Dict Str Int) (rm : RoundMeta) : Str :=
  c!"\nRound " ++ natStr (i + 1) ++ c!":\n" ++
  c!"  Starting cands: " ++ joinStr c!", " (pySort strLe rm.startingCands) ++ c!"\n" ++
  c!"  Total starting votes: " ++ intStr rm.startingqty ++ c!"\n" ++
  c!"  Exhausted votes: " ++ intStr rm.exhaustedqty ++ c!"\n" ++
  c!"  Overvotes: " ++ intStr rm.overvoteqty ++ c!"\n" ++
  c!"  Total counted votes: " ++ intStr rm.countedqty ++ c!"\n" ++
  (c!"  Votes by candidate:\n" ++
  (cnt.flatMap fun cv => c!"    " ++ cv.1 ++ c!": " ++ intStr cv.2 ++ c!"\n")) ++
  (c!"  Eliminated this round: " ++ joinStr c!", " (pySort strLe rm.eliminated) ++ c!"\n")

/-- `get_IRV_report`, irvtally.py:255-281. -/
def irvReport (d : IrvDict) : Except PyErr Str :=
  let body := ((d.run.rounds.zip d.run.roundmeta).zipIdx.map fun x => roundBlock x.2 x.1.1 x.1.2).flatten
  match d.run.winner with
  | [] => .error .indexError
  | [w] => .ok (body ++ (c!"The IRV winner is " ++ w ++ c!"\n"))
  | ws => .ok (body ++ (c!"The IRV winners are " ++ joinStr c!" and " (pySort strLe ws) ++ c!"\n"))

end Verif
