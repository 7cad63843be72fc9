/-
CPython refuses to write an `int` of more than 4300 digits with a ValueError (`str`, f-strings and `json.dumps`); see Model/IntLimit for reading.
This file has the two outputs that contain the numbers of ballots, jabmod and .abif, with that limit `lim`.
-/
import Verif.Model.IntLimit
import Verif.Model.Export
import Verif.Model.JsonIo

namespace Verif

/-- whether `str(i)` is possible: the digits count, not the sign -/
def fitsInt (lim : Nat) (i : Int) : Bool := decide ((natStr i.natAbs).length ≤ lim)

mutual
/-- whether every number in a JSON value can be written -/
def Json.fits (lim : Nat) : Json → Bool
  | .null => true
  | .bool _ => true
  | .int i => fitsInt lim i
  | .str _ => true
  | .arr l => Json.fitsArr lim l
  | .obj l => Json.fitsObj lim l
def Json.fitsArr (lim : Nat) : List Json → Bool
  | [] => true
  | x :: t => x.fits lim && Json.fitsArr lim t
def Json.fitsObj (lim : Nat) : List (Str × Json) → Bool
  | [] => true
  | kv :: t => kv.2.fits lim && Json.fitsObj lim t
end

/-- `json.dumps(v)`: `int.__repr__` is called for every number, and there is no text if one of them fails (Lib/json/encoder.py) -/
def Json.dumpsLim (lim : Nat) (j : Json) : Except PyErr Str := if j.fits lim then .ok j.dumps else .error .valueError

/-- `json.dumps(abifmodel, indent=4)`, abiftool.py:240 -/
def dumpModelLim (lim : Nat) (m : Jabmod) : Except PyErr Str := if m.toJson.fits lim then .ok (dumpModel m) else .error .valueError

/-- whether the rating of an entry can be written; a string is written as it is -/
def fitsRating (lim : Nat) : Option RVal → Bool
  | some (.int i) => fitsInt lim i
  | _ => true

/-- the metadata lines, core.py:448-450 -/
def metadataStrLim (lim : Nat) : Dict Str Json → Except PyErr Str
  | [] => .ok []
  | kv :: rest => do
    let j ← kv.2.dumpsLim lim
    let r ← metadataStrLim lim rest
    .ok ('{' :: (kv.1 ++ ':' :: ' ' :: (j ++ ['}', '\n'])) ++ r)

section
variable [Uni]

/-- `_get_votelinestr_from_jabvoteline`, core.py:571-597: the ratings are written in the preference list (core.py:516-517, 562-563), then the quantity
(core.py:595).  Simplification: if the preference list cannot be made for another reason, that error is reported even if a rating too long to be
written came before it. -/
def votelineStrLim (lim : Nat) (vl : Voteline) : Except PyErr Str := do
  let s ← votelineStr vl
  if vl.prefs.all (fun kp => fitsRating lim kp.2.rating) && fitsInt lim vl.qty then .ok s else .error .valueError

/-- core.py:459-466 -/
def votelinesStrLim (lim : Nat) : List Voteline → Except PyErr Str
  | [] => .ok []
  | vl :: rest => do let a ← votelineStrLim lim vl; let b ← votelinesStrLim lim rest; .ok (a ++ b)

/-- `convert_jabmod_to_abif`, core.py:438-468: first the metadata, then the votelines -/
def convertToAbifLim (lim : Nat) (m : Jabmod) : Except PyErr Str := do
  let md ← metadataStrLim lim m.metadata
  let vs ← votelinesStrLim lim m.votelines
  .ok (c!"#------- metadata -------\n" ++ md ++
       c!"#------ candlines ------\n" ++ candlinesStr m.candidates ++
       c!"#------- votelines ------\n" ++ vs)

end

end Verif
