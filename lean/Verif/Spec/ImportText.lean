/-
Specification: what a ballot in a converted file says.
-/
import Verif.Spec.Export
import Verif.Spec.Tiers

namespace Verif.Spec
variable [Uni]

/-- The ballot has exactly the candidates of the tiers, ranks one above another exactly if its tier comes first, and
rates nobody. -/
structure HoldsTiers (tiers : List (List Str)) (prefs : Dict Str Pref) : Prop where
  cands : (Dict.keys prefs).Perm tiers.flatten
  order : ∀ (i j : Nat) (t u : List Str) (a b : Str), tiers[i]? = some t → tiers[j]? = some u → a ∈ t → b ∈ u →
    ∃ ra rb, (Dict.get? prefs a).bind Pref.rank = some ra ∧ (Dict.get? prefs b).bind Pref.rank = some rb ∧ (ra < rb ↔ i < j)
  unrated : ∀ (a : Str) (p : Pref), Dict.get? prefs a = some p → ratingNumber p.rating = 0

end Verif.Spec
