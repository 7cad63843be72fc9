/-
`ranklist_from_jabmod_voteline`, abiflib/core.py:482-502.
-/
import Verif.Model.Parse
import Verif.Model.Export

namespace Verif

/-- the `(candidate, rank)` pairs read by the sort key, `KeyError` when a rank is absent; core.py:491-493 -/
def rankKeys (prefs : Dict Str Pref) : Except PyErr (List (Str × Int)) :=
  prefs.mapM (fun kp => match kp.2.rank with
    | some r => Except.ok (kp.1, r)
    | none => Except.error PyErr.keyError)

/-- the `(candidate, rating)` pairs read by the sort key, `KeyError` when a rating is absent; core.py:495-497 -/
def ratingKeys (prefs : Dict Str Pref) : Except PyErr (List (Str × RVal)) :=
  prefs.mapM (fun kp => match kp.2.rating with
    | some r => Except.ok (kp.1, r)
    | none => Except.error PyErr.keyError)

/-- the value of an `int` rating -/
def intKey : RVal → Option Int
  | .int i => some i
  | _ => none

/-- the value of a `str` rating -/
def strKey : RVal → Option Str
  | .str s => some s
  | _ => none

/-- `toklist.sort(key=..., reverse=True)` on mixed values, core.py:496-497.  A list of at most one element is
never compared.  Two `int`s compare as numbers, two `str`s as strings; any other pair (`int` with `str`,
`None` with anything) raises `TypeError`, and every comparison sort of a list holding such a pair meets one. -/
def sortRatings (ks : List (Str × RVal)) : Except PyErr (List Str) :=
  if ks.length ≤ 1 then .ok (ks.map Prod.fst)
  else if ks.all (fun kr => (intKey kr.2).isSome) then
    .ok ((sortByKeyDesc (fun kr : Str × RVal => (intKey kr.2).getD 0) ks).map Prod.fst)
  else if ks.all (fun kr => (strKey kr.2).isSome) then
    .ok ((pySort (fun a b : Str × RVal => strLe ((strKey b.2).getD []) ((strKey a.2).getD [])) ks).map Prod.fst)
  else .error .typeError

/-- `ranklist_from_jabmod_voteline`, core.py:482-502: the first candidate's rank and rating decide what is
sorted by. -/
def ranklist (vl : Voteline) : Except PyErr (List Str) :=
  match vl.prefs with
  | [] => .error .indexError
  | (_, p) :: _ =>
    if rankTruthy p.rank then do
      let ks ← rankKeys vl.prefs
      .ok ((sortByKey Prod.snd ks).map Prod.fst)
    else if ratingTruthy p.rating then do
      let ks ← ratingKeys vl.prefs
      sortRatings ks
    else .ok vl.prefs.keys

end Verif
