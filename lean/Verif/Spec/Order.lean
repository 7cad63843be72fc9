/-
What a ballot says as an order of candidates, apart from how it is written down (rank numbers, gaps between them, ratings, the
sequence of its entries), and elections that hold the same opinions.
-/
import Verif.Spec.Tally

namespace Verif.Spec

/-- The two lines order the candidates of `C` alike; a candidate that is not listed counts as below every listed one. -/
def AgreeOn (C : List Str) (v w : Voteline) : Prop := ∀ a ∈ C, ∀ b ∈ C, prefers v a b = prefers w a b

/-- The two lines list the same candidates and order them alike. -/
def SameOrder (v w : Voteline) : Prop :=
  (∀ c, c ∈ Dict.keys v.prefs ↔ c ∈ Dict.keys w.prefs) ∧ AgreeOn (Dict.keys v.prefs) v w

open Classical in
/-- The number of voters whose line stands in relation `R` to `v`. -/
noncomputable def holders (R : Voteline → Voteline → Prop) (vls : List Voteline) (v : Voteline) : Int :=
  qtySum (fun w => decide (R w v)) vls

/-- As many voters hold any given opinion on the candidates of `C` in one list of votelines as in the other. -/
def SameOpinions (C : List Str) (vls vls' : List Voteline) : Prop := ∀ v, holders (AgreeOn C) vls v = holders (AgreeOn C) vls' v

/-- As many voters cast any given ballot (as an order of the candidates it lists) in one list of votelines as in the other. -/
def SameBallots (vls vls' : List Voteline) : Prop := ∀ v, holders SameOrder vls v = holders SameOrder vls' v

end Verif.Spec
