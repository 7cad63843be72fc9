/-
Specification vocabulary for elections counted together.
-/
import Verif.Model.Jabmod
import Verif.Spec.Tally

namespace Verif.Spec

/-- `m` has the ballots of `m1` and of `m2`, and all three have the same candidates (in any order). -/
structure Together (m m1 m2 : Jabmod) : Prop where
  ballots : m.votelines.Perm (m1.votelines ++ m2.votelines)
  first : ∀ c, c ∈ Dict.keys m1.candidates ↔ c ∈ Dict.keys m.candidates
  second : ∀ c, c ∈ Dict.keys m2.candidates ↔ c ∈ Dict.keys m.candidates

end Verif.Spec
