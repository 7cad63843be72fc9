/-
The single ballots of a model.
-/
import Verif.Model.Jabmod

namespace Verif.Spec

/-- the single ballots of a model, in order: each voteline repeated as often as its quantity says
(not at all when it is zero or negative) -/
def singleBallots (vls : List Voteline) : List Voteline :=
  vls.flatMap (fun vl => List.replicate vl.qty.toNat vl)

/-- the candidates of a ballot with their ranks and nothing else -/
def ranksOf (vl : Voteline) : List (Str × Option Int) := vl.prefs.map (fun kp => (kp.1, kp.2.rank))

end Verif.Spec
