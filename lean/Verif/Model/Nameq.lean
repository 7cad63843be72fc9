/-
abiflib/nameq.py: Brian Olson's `.nameq` format.
-/
import Verif.Model.Parse
import Verif.Py.Url

namespace Verif
variable [Uni]

/-- `vl["prefs"][key]["rank"] = int(value[0])`, nameq.py:43 -/
def nameqEntry (kv : Str × List Str) : Except PyErr (Str × Pref) :=
  match kv.2 with
  | v :: _ =>
    match pyIntOfStr v with
    | .ok r => .ok (kv.1, { rank := some r })
    | .error e => .error e
  | [] => .error .indexError

/-- one line of a nameq file, nameq.py:33-45 -/
def nameqLine (line : Str) : Except PyErr Voteline :=
  match (parseQs (strip line)).mapM nameqEntry with
  | .ok prefs => .ok { qty := 1, prefs := prefs, nameq := some (strip line) }
  | .error e => .error e

/-- `abifmodel["candidates"][key] = key` for all keys of all lines in order, nameq.py:44 -/
def nameqCands : List Voteline → Dict Str (Option Str) → Dict Str (Option Str)
  | [], d => d
  | vl :: t, d => nameqCands t ((Dict.keys vl.prefs).foldl (fun d k => Dict.set d k (some k)) d)

/-- `convert_nameq_to_jabmod`, nameq.py:22-50 -/
def nameqToJabmod (text : Str) : Except PyErr Jabmod :=
  match (splitlines text).mapM nameqLine with
  | .error e => .error e
  | .ok vls => .ok {
      metadata := [(c!"version", .str c!"0.1"), (c!"ballotcount", .int (splitlines text).length)]
      candidates := nameqCands vls []
      votelines := vls }

/-- `f"{pk}={pv['rank']}"`, nameq.py:60-61: `KeyError` when there is no rank -/
def nameqItem (kp : Str × Pref) : Except PyErr Str :=
  match kp.2.rank with
  | some r => .ok (quotePlus kp.1 ++ ('=' :: intStr r))
  | none => .error .keyError

/-- the line of one ballot, nameq.py:58-63 -/
def nameqBallot (vl : Voteline) : Except PyErr Str :=
  match vl.prefs.mapM nameqItem with
  | .ok items => .ok (joinStr ['&'] items ++ ['\n'])
  | .error e => .error e

/-- the lines of a voteline: `for i in range(vl['qty'])`, nameq.py:57 (nothing is computed when the
quantity is zero or negative) -/
def nameqVoteline (vl : Voteline) : Except PyErr Str :=
  if vl.qty.toNat = 0 then .ok []
  else
    match nameqBallot vl with
    | .ok l => .ok (List.replicate vl.qty.toNat l).flatten
    | .error e => .error e

/-- `convert_jabmod_to_nameq`, nameq.py:53-64 -/
def jabmodToNameq (m : Jabmod) : Except PyErr Str :=
  match m.votelines.mapM nameqVoteline with
  | .ok ls => .ok ls.flatten
  | .error e => .error e

end Verif
