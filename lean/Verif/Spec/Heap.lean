/-
What an object in memory stands for, and a program that holds some jabmods and calls the functions on them.
-/
import Verif.Model.Heap
import Verif.Model.Tally

namespace Verif.Spec

/-- what is said about a candidate -/
def entryAt (h : Heap) (a : Addr) : Option Pref := (h[a]?).bind Obj.asEntry

/-- a dict of entries -/
def itemsAt (h : Heap) (d : Dict Str Addr) : Option (Dict Str Pref) :=
  d.mapM fun kv => (entryAt h kv.2).map fun p => (kv.1, p)

/-- a ballot's preferences -/
def prefsAt (h : Heap) (a : Addr) : Option (Dict Str Pref) := ((h[a]?).bind Obj.asPrefs).bind (itemsAt h)

/-- a voteline -/
def lineAt (h : Heap) (a : Addr) : Option Voteline :=
  ((h[a]?).bind Obj.asLine).bind fun l => (prefsAt h l.prefs).map fun d =>
    { qty := l.qty, prefs := d, comment := l.comment, prefstr := l.prefstr, voterid := l.voterid, nameq := l.nameq }

/-- the votelines at some addresses -/
def linesOfAddrs (h : Heap) (l : List Addr) : Option (List Voteline) := l.mapM (lineAt h)

/-- a list of votelines -/
def linesAt (h : Heap) (a : Addr) : Option (List Voteline) := ((h[a]?).bind Obj.asLines).bind (linesOfAddrs h)

/-- a jabmod: the value that the object at address `a` and those it refers to make up -/
def modelAt (h : Heap) (a : Addr) : Option Jabmod :=
  ((h[a]?).bind Obj.asJabmod).bind fun j =>
    ((h[j.metadata]?).bind Obj.asMetadata).bind fun md =>
      ((h[j.candidates]?).bind Obj.asCands).bind fun cs =>
        (linesAt h j.votelines).map fun vls => { metadata := md, candidates := cs, votelines := vls }

/-- every object there was is still there and has not changed -/
def Untouched (h h' : Heap) : Prop := ∀ (a : Addr) (o : Obj), h[a]? = some o → h'[a]? = some o

/-! ### a session

A program holds some jabmods in variables `0, 1, 2, …` and calls functions on them in any order.  An exception ends the call,
not the program. -/

/-- a call on the jabmod in variable `i`; each count has its own random choices -/
inductive Call
  /-- `IRV_dict_from_jabmod` -/
  | irv (S : Sched) (i : Nat)
  /-- `pairwise_count_dict` -/
  | pairwise (i : Nat)
  /-- `basic_score_result_from_abifmodel` -/
  | score (i : Nat)
  /-- `_add_ratings_to_jabmod_votelines`; the result is kept in a new variable -/
  | ratings (i : Nat)
  /-- `consolidate_jabmod_voteline_objects` -/
  | consolidate (i : Nat)

/-- what a call answers -/
inductive Answer
  | irv (r : Except PyErr IrvDict)
  | pairwise (r : Except PyErr PairDict)
  | score (r : Except PyErr (Dict Str ScoreEntry))
  | jabmod (r : Except PyErr Unit)
  /-- there is no such variable -/
  | noVariable

section
variable [Uni]

/-- the call if jabmods were values: only `consolidate` changes a variable, and only its own -/
def onValues : Call → List Jabmod → Answer × List Jabmod
  | .irv S i, ms => match ms[i]? with
    | none => (.noVariable, ms)
    | some m => (.irv (irvDict S m), ms)
  | .pairwise i, ms => match ms[i]? with
    | none => (.noVariable, ms)
    | some m => (.pairwise (.ok (pairwiseCount m)), ms)
  | .score i, ms => match ms[i]? with
    | none => (.noVariable, ms)
    | some m => (.score (basicScore m), ms)
  | .ratings i, ms => match ms[i]? with
    | none => (.noVariable, ms)
    | some m => match addRatings m with
      | .ok m' => (.jabmod (.ok ()), ms ++ [m'])
      | .error e => (.jabmod (.error e), ms)
  | .consolidate i, ms => match ms[i]? with
    | none => (.noVariable, ms)
    | some m => (.jabmod (.ok ()), ms.set i (Verif.consolidate m))

/-- the call as it happens: variables hold references to objects in memory -/
def onObjects : Call → List Addr × Heap → Answer × (List Addr × Heap)
  | .irv S i, (vars, h) => match vars[i]? with
    | none => (.noVariable, vars, h)
    | some a => (.irv (irvDictH S a h).1, vars, (irvDictH S a h).2)
  | .pairwise i, (vars, h) => match vars[i]? with
    | none => (.noVariable, vars, h)
    | some a => (.pairwise (pairwiseCountH a h).1, vars, (pairwiseCountH a h).2)
  | .score i, (vars, h) => match vars[i]? with
    | none => (.noVariable, vars, h)
    | some a => (.score (basicScoreH a h).1, vars, (basicScoreH a h).2)
  | .ratings i, (vars, h) => match vars[i]? with
    | none => (.noVariable, vars, h)
    | some a => match addRatingsH a h with
      | (.ok b, h') => (.jabmod (.ok ()), vars ++ [b], h')
      | (.error e, h') => (.jabmod (.error e), vars, h')
  | .consolidate i, (vars, h) => match vars[i]? with
    | none => (.noVariable, vars, h)
    | some a => match consolidateH a h with
      | (.ok b, h') => (.jabmod (.ok ()), vars.set i b, h')
      | (.error e, h') => (.jabmod (.error e), vars, h')

/-- calls one after the other: the answers and the variables at the end -/
def session {σ : Type} (step : Call → σ → Answer × σ) : List Call → σ → List Answer × σ
  | [], s => ([], s)
  | c :: rest, s => ((step c s).1 :: (session step rest (step c s).2).1, (session step rest (step c s).2).2)

end

end Verif.Spec
