/-
Specification vocabulary for consolidating votelines.
-/
import Verif.Model.Jabmod

namespace Verif.Spec

/-- Two preference maps are equal as maps (Python `==` on dicts: the order of the keys does not matter). -/
def SameMap (p q : Dict Str Pref) : Prop := ∀ (k : Str), Dict.get? p k = Dict.get? q k

/-- The number of ballots whose preferences have property `P`. -/
def ballotsWith (P : Dict Str Pref → Bool) (vls : List Voteline) : Int :=
  ((vls.filter (fun vl => P vl.prefs)).map Voteline.qty).sum

/-- The elements of a list that are not equal (as maps) to one in `seen` or to an earlier element. -/
noncomputable def firstAppearances (seen : List (Dict Str Pref)) : List (Dict Str Pref) → List (Dict Str Pref)
  | [] => []
  | p :: l =>
    open Classical in
    if ∃ (q : Dict Str Pref), q ∈ seen ∧ SameMap q p then firstAppearances seen l
    else p :: firstAppearances (seen ++ [p]) l

end Verif.Spec
