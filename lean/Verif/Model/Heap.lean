/-
Python's memory: dicts and lists are objects with an identity, variables hold references, `deepcopy` makes new objects,
and an assignment to an item is seen through every reference.  The other modules treat a jabmod as a value; here the
functions that copy or change (parts of) one are transcribed once more with references, so that it can be asked whether a
tally changes the model it is given (`Props/Heap`).

An object is one of the kinds a jabmod is made of (simplification: reading an object of another kind is a `TypeError`).
Numbers, strings and `None` are values.  What a function returns besides jabmod objects (counts, round records, text) is a
value as in the other modules; these are made anew by each call.
-/
import Verif.Model.Irv
import Verif.Model.Export

namespace Verif

/-- reference to an object -/
abbrev Addr := Nat

/-- a voteline dict: the preferences are another object -/
structure LineObj where
  qty : Int
  prefs : Addr
  comment : Option Str := none
  prefstr : Option Str := none
  voterid : Option Str := none
  nameq : Option Str := none

/-- the outermost dict of a jabmod -/
structure ModObj where
  metadata : Addr
  candidates : Addr
  votelines : Addr

/-- the objects a jabmod is made of -/
inductive Obj
  /-- what is said about one candidate on a ballot: `{'rank': .., 'rating': .., 'nextdelim': ..}` -/
  | entry (p : Pref)
  /-- a voteline's `prefs` -/
  | prefs (d : Dict Str Addr)
  | line (l : LineObj)
  /-- the list of votelines -/
  | lines (l : List Addr)
  | cands (d : Dict Str (Option Str))
  | metadata (d : Dict Str Json)
  | jabmod (j : ModObj)

/-- all objects there are; the address of an object is its position -/
abbrev Heap := List Obj

/-- a computation: it may change the objects, also when it ends with an exception -/
def HM (α : Type) := Heap → Except PyErr α × Heap

namespace HM

/-- nothing but a result -/
def ret {α : Type} (x : α) : HM α := fun h => (.ok x, h)

/-- one after the other; an exception ends the computation -/
def andThen {α β : Type} (x : HM α) (f : α → HM β) : HM β := fun h =>
  match x h with
  | (.ok v, h') => f v h'
  | (.error e, h') => (.error e, h')

instance : Monad HM where
  pure := ret
  bind := andThen

/-- a computation on values -/
def value {α : Type} (r : Except PyErr α) : HM α := fun h => (r, h)

/-- a new object -/
def alloc (o : Obj) : HM Addr := fun h => (.ok h.length, h ++ [o])

/-- change an object -/
def write (a : Addr) (o : Obj) : HM Unit := fun h => (.ok (), h.set a o)

/-- look at an object -/
def look {α : Type} (f : Obj → Option α) (a : Addr) : HM α := fun h =>
  match (h[a]?).bind f with
  | some x => (.ok x, h)
  | none => (.error .typeError, h)

/-- a loop that collects results -/
def collect {α β : Type} (f : α → HM β) : List α → HM (List β)
  | [] => ret []
  | x :: rest => do
    let y ← f x
    let ys ← collect f rest
    ret (y :: ys)

/-- a loop -/
def each {α : Type} (f : α → HM Unit) : List α → HM Unit
  | [] => ret ()
  | x :: rest => do
    f x
    each f rest

end HM

/-! the parts of an object -/

def Obj.asEntry : Obj → Option Pref | .entry p => some p | _ => none
def Obj.asPrefs : Obj → Option (Dict Str Addr) | .prefs d => some d | _ => none
def Obj.asLine : Obj → Option LineObj | .line l => some l | _ => none
def Obj.asLines : Obj → Option (List Addr) | .lines l => some l | _ => none
def Obj.asCands : Obj → Option (Dict Str (Option Str)) | .cands d => some d | _ => none
def Obj.asMetadata : Obj → Option (Dict Str Json) | .metadata d => some d | _ => none
def Obj.asJabmod : Obj → Option ModObj | .jabmod j => some j | _ => none

/-! ### deepcopy -/

/-- the memo of `copy.deepcopy`: which object has been copied to which -/
abbrev Memo := Dict Addr Addr

/-- `deepcopy` of an entry -/
def copyEntry (memo : Memo) (a : Addr) : HM (Addr × Memo) :=
  match Dict.get? memo a with
  | some b => HM.ret (b, memo)
  | none => do
    let p ← HM.look Obj.asEntry a
    let b ← HM.alloc (.entry p)
    HM.ret (b, memo.set a b)

/-- `deepcopy` of the values of a dict of entries, in order -/
def copyItems : Memo → Dict Str Addr → HM (Dict Str Addr × Memo)
  | memo, [] => HM.ret ([], memo)
  | memo, (k, a) :: rest => do
    let (b, memo) ← copyEntry memo a
    let (bs, memo) ← copyItems memo rest
    HM.ret ((k, b) :: bs, memo)

/-- `deepcopy` of a `prefs` dict.  (Python makes the new dict first and fills it item by item; nothing sees it in
between.) -/
def copyPrefs (memo : Memo) (a : Addr) : HM (Addr × Memo) :=
  match Dict.get? memo a with
  | some b => HM.ret (b, memo)
  | none => do
    let d ← HM.look Obj.asPrefs a
    let (d', memo) ← copyItems memo d
    let b ← HM.alloc (.prefs d')
    HM.ret (b, memo.set a b)

/-- `deepcopy` of a voteline -/
def copyLine (memo : Memo) (a : Addr) : HM (Addr × Memo) :=
  match Dict.get? memo a with
  | some b => HM.ret (b, memo)
  | none => do
    let l ← HM.look Obj.asLine a
    let (p, memo) ← copyPrefs memo l.prefs
    let b ← HM.alloc (.line { l with prefs := p })
    HM.ret (b, memo.set a b)

/-- `deepcopy` of the members of a list of votelines -/
def copyLineList : Memo → List Addr → HM (List Addr × Memo)
  | memo, [] => HM.ret ([], memo)
  | memo, a :: rest => do
    let (b, memo) ← copyLine memo a
    let (bs, memo) ← copyLineList memo rest
    HM.ret (b :: bs, memo)

/-- `deepcopy` of a list of votelines -/
def deepcopyLines (a : Addr) : HM Addr := do
  let l ← HM.look Obj.asLines a
  let (l', _) ← copyLineList [] l
  HM.alloc (.lines l')

/-- `deepcopy` of a jabmod.  (The four kinds of parts are different objects, so one memo for the votelines is enough.) -/
def deepcopyModel (a : Addr) : HM Addr := do
  let j ← HM.look Obj.asJabmod a
  let md ← HM.look Obj.asMetadata j.metadata
  let md' ← HM.alloc (.metadata md)
  let cs ← HM.look Obj.asCands j.candidates
  let cs' ← HM.alloc (.cands cs)
  let vls' ← deepcopyLines j.votelines
  HM.alloc (.jabmod { metadata := md', candidates := cs', votelines := vls' })

/-! ### irvtally.py -/

/-- the deletion loop for one candidate, irvtally.py:15-17 -/
def dropCand (c : Str) (x : Addr) : HM Unit := do
  let l ← HM.look Obj.asLine x
  let d ← HM.look Obj.asPrefs l.prefs
  if d.has c then HM.write l.prefs (.prefs (d.erase c)) else HM.ret ()

/-- `_eliminate_cands_from_votelines`, irvtally.py:11-18 -/
def eliminateH (cands : List Str) (a : Addr) : HM Addr := do
  let b ← deepcopyLines a
  HM.each (fun c => do
    let l ← HM.look Obj.asLines b
    HM.each (dropCand c) l) cands
  HM.ret b

/-- `prefs[key]['rank']`, irvtally.py:26, 55 -/
def entryRankH (kv : Str × Addr) : HM (Str × Int) := do
  let p ← HM.look Obj.asEntry kv.2
  match p.rank with
  | some r => HM.ret (kv.1, r)
  | none => HM.value (.error .keyError)

/-- `sorted(prefs.keys(), key=lambda key: prefs[key]['rank'])` with the ranks alongside, irvtally.py:26, 55 -/
def rankListH (a : Addr) : HM (List (Str × Int)) := do
  let d ← HM.look Obj.asPrefs a
  let ks ← HM.collect entryRankH d
  HM.ret (sortByKey Prod.snd ks)

/-- the loop of `_discard_toprank_overvotes`, irvtally.py:24-48: `for i, vln in enumerate(retval)` over a list it deletes
from.  The first argument bounds the number of rounds; the length of the list suffices. -/
def discardLoopH : Nat → Nat → Addr → Int → HM Int
  | 0, _, _, ov => HM.ret ov
  | n + 1, i, b, ov => do
    let l ← HM.look Obj.asLines b
    match l[i]? with
    | none => HM.ret ov
    | some x => do
      let vl ← HM.look Obj.asLine x
      let rlist ← rankListH vl.prefs
      if !rlist.isEmpty && topIndex rlist != 0 then do
        HM.write b (.lines (l.eraseIdx i))
        discardLoopH n (i + 1) b (ov + vl.qty)
      else discardLoopH n (i + 1) b ov

/-- `_discard_toprank_overvotes`, irvtally.py:21-50 -/
def discardH (a : Addr) : HM (Int × Addr) := do
  let b ← deepcopyLines a
  let l ← HM.look Obj.asLines b
  let ov ← discardLoopH l.length 0 b 0
  HM.ret (ov, b)

/-- `_get_valid_topcand_qty` (its candidate), irvtally.py:53-85: the shorter dict and the voteline around it are new
objects that share the entries -/
def validTopH : Nat → Addr → HM (Option Str)
  | 0, _ => HM.value (.error .fuel)
  | n + 1, x => do
    let vl ← HM.look Obj.asLine x
    let rlist ← rankListH vl.prefs
    match rlist with
    | [] => HM.ret none
    | (c, _) :: _ =>
      if topIndex rlist = 0 then HM.ret (some c)
      else do
        let d ← HM.look Obj.asPrefs vl.prefs
        let p ← HM.alloc (.prefs ((rlist.drop (topIndex rlist + 1)).filterMap (fun k => (d.get? k.1).map (fun e => (k.1, e)))))
        let x' ← HM.alloc (.line { qty := vl.qty, prefs := p })
        validTopH n x'

/-- counting loop, irvtally.py:120-127 -/
def countLoopH : List Addr → CountAcc → HM CountAcc
  | [], a => HM.ret a
  | x :: rest, a => do
    let vl ← HM.look Obj.asLine x
    let d ← HM.look Obj.asPrefs vl.prefs
    let r ← validTopH (d.length + 1) x
    let a := { a with ballotcount := a.ballotcount + vl.qty }
    match credited r with
    | some c => do
      let n ← HM.value (a.counts.getE c)
      countLoopH rest { a with counts := a.counts.set c (n + vl.qty) }
    | none => countLoopH rest { a with exhausted := a.exhausted + vl.qty }

/-- what a round produces; the votelines of the next round are an object -/
structure RoundOutH where
  counts : Dict Str Int
  info : RoundMeta
  next : Option (List Str × Addr)

/-- the votelines without the eliminated candidates: a copy of a copy when several candidates are last, irvtally.py:180-192,
a copy otherwise, :197 -/
def nextLinesH (el : Elim) (pruned : Addr) : HM Addr :=
  if el.bottomtie.isSome then do
    let copied ← deepcopyLines pruned
    eliminateH el.eliminated copied
  else eliminateH el.eliminated pruned

/-- irvtally.py:128-231, see `roundFinish`.  The elimination makes its copies in every round, also in the last one. -/
def roundFinishH (S : Sched) (prev : Option RoundMeta) (roundnum : Nat) (cands : List Str) (startingqty : Int)
    (ov : Int) (pruned : Addr) (a : CountAcc) : HM RoundOutH :=
  let votes := a.counts.map Prod.snd
  let total := votes.sum
  match listMin votes, listMax votes with
  | some minVotes, some maxVotes => do
    let el := chooseElim S roundnum a.counts minVotes (penultVotes votes minVotes maxVotes)
    let nextcands := S.setOrder roundnum (cands.filter (fun c => c ∉ el.eliminated))
    let nextlines ← nextLinesH el pruned
    let winner := (a.counts.filter (fun cv => cv.2 = maxVotes)).map Prod.fst
    let info : RoundMeta := {
      roundnum := roundnum
      startingqty := startingqty
      exhaustedqty := a.exhausted
      overvoteqty := ov
      ballotcount := a.ballotcount
      countedqty := total - a.exhausted
      bottomVotesPercand := minVotes
      leadingVotesPercand := maxVotes
      penultimateVotesPercand := penultVotes votes minVotes maxVotes
      startingCands := cands
      topVoteqty := minVotes
      bottomVoteqty := maxVotes
      bottomtie := el.bottomtie
      batchElim := el.batch
      randomElim := el.random
      eliminated := el.eliminated
      allEliminated := allElimOf prev el }
    if minVotes = maxVotes ∨ 2 * maxVotes > total then
      HM.ret { counts := a.counts
               info := { info with winner := some winner, eliminated := cands.filter (fun c => c ∉ winner) }
               next := none }
    else
      HM.ret { counts := a.counts, info := info, next := some (nextcands, nextlines) }
  | _, _ => HM.value (.error .valueError)

/-- One call of `_irv_count_internal` without its recursive call, irvtally.py:99-231. -/
def irvRoundH (S : Sched) (prev : Option RoundMeta) (roundnum : Nat) (cands : List Str) (vls : Addr) : HM RoundOutH := do
  let l ← HM.look Obj.asLines vls
  let qtys ← HM.collect (fun x => do
    let vl ← HM.look Obj.asLine x
    HM.ret vl.qty) l
  let (ov, pruned) ← discardH vls
  let pl ← HM.look Obj.asLines pruned
  let a ← countLoopH pl { counts := cands.map fun c => (c, 0) }
  roundFinishH S prev roundnum cands qtys.sum ov pruned a

/-- `_irv_count_internal`, irvtally.py:88-232; see `irvCount` -/
def irvCountH (S : Sched) : Nat → Option RoundMeta → Nat → List Str → Addr → HM IrvRun
  | 0, _, _, _, _ => HM.value (.error .fuel)
  | n + 1, prev, roundnum, cands, vls => do
    let r ← irvRoundH S prev roundnum cands vls
    match r.next with
    | none => HM.ret { winner := r.info.winner.getD [], rounds := [r.counts], roundmeta := [r.info] }
    | some (cands', vls') => do
      let t ← irvCountH S n (some r.info) (roundnum + 1) cands' vls'
      HM.ret { winner := t.winner, rounds := r.counts :: t.rounds, roundmeta := r.info :: t.roundmeta }

/-- `IRV_dict_from_jabmod`, irvtally.py:235-253 -/
def irvDictH (S : Sched) (a : Addr) : HM IrvDict := do
  let j ← HM.look Obj.asJabmod a
  let cs ← HM.look Obj.asCands j.candidates
  let vls ← deepcopyLines j.votelines
  let run ← irvCountH S (cs.length + 1) none 1 cs.keys vls
  let winnerstr ← HM.value (winnerStr cs run.winner)
  HM.ret { run := run, winnerstr := winnerstr, hasTie := run.roundmeta.any (fun rm => rm.bottomtie.isSome) }

/-! ### pairwise.py -/

/-- the rank `arank` (`brank`) of a candidate on a voteline, pairwise.py:53-60; `none` is Python's `None` -/
def lineRankH (d : Dict Str Addr) (tok : Str) : HM (Option Int) :=
  match Dict.get? d tok with
  | some e => do
    let p ← HM.look Obj.asEntry e
    HM.ret p.rank
  | none => HM.ret (some maxRank)

/-- what one voteline does to one cell, pairwise.py:52-69 -/
def pairCellH (qty : Int) (d : Dict Str Addr) (a b : Str) (old : Option Int) : HM (Option Int) := do
  let ra ← lineRankH d a
  let rb ← lineRankH d b
  if a = b then HM.ret none
  else
    match ra, rb with
    | some ra, some rb => HM.ret (if ra < rb then old.map (· + qty) else old)
    | _, _ => HM.ret (some 0)

/-- one voteline, pairwise.py:46-69 -/
def pairLineH (x : Addr) (m : PairDict) : HM PairDict := do
  let vl ← HM.look Obj.asLine x
  let d ← HM.look Obj.asPrefs vl.prefs
  HM.collect (fun row => do
    let cells ← HM.collect (fun cell => do
      let v ← pairCellH vl.qty d row.1 cell.1 cell.2
      HM.ret (cell.1, v)) row.2
    HM.ret (row.1, cells)) m

/-- the loop over the votelines, pairwise.py:46 -/
def pairLinesH : List Addr → PairDict → HM PairDict
  | [], m => HM.ret m
  | x :: rest, m => do
    let m ← pairLineH x m
    pairLinesH rest m

/-- `pairwise_count_dict`, pairwise.py:28-70 -/
def pairwiseCountH (a : Addr) : HM PairDict := do
  let j ← HM.look Obj.asJabmod a
  let cs ← HM.look Obj.asCands j.candidates
  let l ← HM.look Obj.asLines j.votelines
  pairLinesH l (pairInit cs.keys)

/-! ### scorestar.py -/

section
variable [Uni]

/-- inner loop over a voteline's prefs, scorestar.py:37-41 -/
def scorePrefsH (qty : Int) : Dict Str Addr → Dict Str ScoreEntry → HM (Dict Str ScoreEntry)
  | [], r => HM.ret r
  | (cand, x) :: rest, r => do
    let p ← HM.look Obj.asEntry x
    let rating ← HM.value (ratingInt p.rating)
    let e ← HM.value (r.getE cand)
    let e := { e with score := e.score + rating * qty,
                      votercount := if rating > 0 then e.votercount + qty else e.votercount }
    scorePrefsH qty rest (r.set cand e)

/-- loop over the votelines, scorestar.py:35-41 -/
def scoreLinesH : List Addr → Dict Str ScoreEntry → HM (Dict Str ScoreEntry)
  | [], r => HM.ret r
  | x :: rest, r => do
    let vl ← HM.look Obj.asLine x
    let d ← HM.look Obj.asPrefs vl.prefs
    let r ← scorePrefsH vl.qty d r
    scoreLinesH rest r

/-- `basic_score_result_from_abifmodel`, scorestar.py:28-42 -/
def basicScoreH (a : Addr) : HM (Dict Str ScoreEntry) := do
  let j ← HM.look Obj.asJabmod a
  let cs ← HM.look Obj.asCands j.candidates
  let l ← HM.look Obj.asLines j.votelines
  scoreLinesH l (cs.map fun kv => (kv.1, { candname := kv.2, score := 0, votercount := 0 }))

end

/-! ### core.py -/

/-- a whole `prefs` dict, as `json.dumps(voteline["prefs"], sort_keys=True)` looks at it, core.py:672 -/
def wholePrefs (a : Addr) : HM (Dict Str Pref) := do
  let d ← HM.look Obj.asPrefs a
  HM.collect (fun kv => do
    let p ← HM.look Obj.asEntry kv.2
    HM.ret (kv.1, p)) d

/-- the voteline for some preferences, a new one if there is none yet, core.py:673-674: it shares the old preferences -/
def consolidatedH (key : Str) (prefs : Addr) (d : Dict Str Addr) : HM (Dict Str Addr) :=
  if d.has key then HM.ret d
  else do
    let b ← HM.alloc (.line { qty := 0, prefs := prefs })
    HM.ret (d.set key b)

/-- the loop of `consolidate_jabmod_voteline_objects`, core.py:671-675 -/
def consolidateLoopH : List Addr → Dict Str Addr → HM (Dict Str Addr)
  | [], d => HM.ret d
  | x :: rest, d => do
    let vl ← HM.look Obj.asLine x
    let prefs ← wholePrefs vl.prefs
    let d ← consolidatedH (prefsKey prefs) vl.prefs d
    let b ← HM.value (d.getE (prefsKey prefs))
    let l ← HM.look Obj.asLine b
    HM.write b (.line { l with qty := l.qty + vl.qty })
    consolidateLoopH rest d

/-- `consolidate_jabmod_voteline_objects`, core.py:667-679: the jabmod it is given is changed and returned -/
def consolidateH (a : Addr) : HM Addr := do
  let j ← HM.look Obj.asJabmod a
  let l ← HM.look Obj.asLines j.votelines
  let d ← consolidateLoopH l []
  let v ← HM.alloc (.lines d.values)
  HM.write a (.jabmod { j with votelines := v })
  HM.ret a

/-- one entry of the rating loop, core.py:265-270; `md` is the metadata of `outmod` -/
def addRatingEntryH (hasRating : Bool) (numcands : Int) (md : Addr) (x : Addr) : HM Unit := do
  let p ← HM.look Obj.asEntry x
  if ratingTruthy p.rating then HM.ret ()
  else if hasRating then HM.write x (.entry { p with rating := some (.int 0) })
  else match p.rank with
    | none => HM.value (.error .keyError)
    | some r => do
      HM.write x (.entry { p with rating := some (.int (numcands - r)) })
      let m ← HM.look Obj.asMetadata md
      HM.write md (.metadata (m.set c!"is_ranking_to_rating" (.bool true)))

/-- the rating loop over one voteline, core.py:259-270 -/
def addRatingLineH (hasRating : Bool) (numcands : Int) (md : Addr) (x : Addr) : HM Unit := do
  let vl ← HM.look Obj.asLine x
  let d ← HM.look Obj.asPrefs vl.prefs
  HM.each (addRatingEntryH hasRating numcands md) d.values

/-- `_add_ratings_to_jabmod_votelines` (called with `add_ratings=True`), core.py:243-271: a copy is changed and returned -/
def addRatingsH (a : Addr) : HM Addr := do
  let j ← HM.look Obj.asJabmod a
  let l ← HM.look Obj.asLines j.votelines
  let seen ← HM.collect (fun x => do
    let vl ← HM.look Obj.asLine x
    let prefs ← wholePrefs vl.prefs
    HM.ret (prefs.any (fun kp => kp.2.rating.isSome))) l
  let cs ← HM.look Obj.asCands j.candidates
  let b ← deepcopyModel a
  let j' ← HM.look Obj.asJabmod b
  let l' ← HM.look Obj.asLines j'.votelines
  HM.each (addRatingLineH (seen.any id) cs.length j'.metadata) l'
  HM.ret b

end Verif
