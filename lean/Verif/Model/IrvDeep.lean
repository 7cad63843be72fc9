/-
The instant-runoff count on an interpreter with a limited stack.  `_irv_count_internal` calls itself once per round
(irvtally.py:223-230), and CPython ends a program whose calls are nested too deeply with a `RecursionError`
(`sys.getrecursionlimit()`, 1000 by default).
-/
import Verif.Model.Irv

namespace Verif

/-- `_irv_count_internal`, irvtally.py:88-232, when so many more calls of it can be nested.  The `RecursionError` is the error
`other`.  Simplified: the stack that a round needs for `deepcopy`, `sorted` and so on is part of what makes up the limit, so an
error in them is an error of the call. -/
def irvCountDeep (S : Sched) : Nat → Option RoundMeta → Nat → List Str → List Voteline → Except PyErr IrvRun
  | 0, _, _, _, _ => .error .other
  | depth + 1, prev, roundnum, cands, vls => do
    let r ← irvRound S prev roundnum cands vls
    match r.next with
    | none => .ok { winner := r.info.winner.getD [], rounds := [r.counts], roundmeta := [r.info] }
    | some (cands', vls') => do
      let t ← irvCountDeep S depth (some r.info) (roundnum + 1) cands' vls'
      .ok { winner := t.winner, rounds := r.counts :: t.rounds, roundmeta := r.info :: t.roundmeta }

/-- `IRV_dict_from_jabmod`, irvtally.py:235-253, when `depth` calls of the count can be nested -/
def irvDictDeep (S : Sched) (depth : Nat) (m : Jabmod) : Except PyErr IrvDict := do
  let run ← irvCountDeep S depth none 1 m.candidates.keys m.votelines
  let winnerstr ← winnerStr m.candidates run.winner
  .ok { run := run, winnerstr := winnerstr, hasTie := run.roundmeta.any (fun rm => rm.bottomtie.isSome) }

end Verif
