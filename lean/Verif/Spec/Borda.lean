/-
Borda counts of an election on paper: on a ballot every candidate gets a point for each place below the first that is left under it.
Vocabulary: `Verif.Spec.Paper`.
-/
import Verif.Spec.Paper

namespace Verif.Spec
variable [Uni]

/-- how many tiers stand above the one with `x` -/
def tiersAbove : List (List Item) → Str → Nat
  | [], _ => 0
  | t :: ts, x => if onTier t x then 0 else tiersAbove ts x + 1

/-- the points of `x` when there are `n` candidates: `n - 1` on the first tier, one less on each following tier, none if `x` is not on the ballot -/
def Ballot.borda (n : Nat) (b : Ballot) (x : Str) : Int :=
  match b with
  | .ranked tiers => if x ∈ tiers.flatten.map Item.tok then (n : Int) - 1 - tiersAbove tiers x else 0
  | .scored _ => 0

/-- only ranked ballots, and no points on them -/
def PaperRanked (p : List PaperLine) : Prop :=
  ∀ v ∈ paperVotes p, ∃ tiers, v.2 = .ranked tiers ∧ ∀ it ∈ tiers.flatten, it.rating = none

/-- the Borda count of a candidate -/
def paperBorda (p : List PaperLine) (x : Str) : Int := ((paperVotes p).map (fun v => (v.1 : Int) * v.2.borda (paperCands p).length x)).sum

/-- how many ballots give `x` a point -/
def paperBordaVoters (p : List PaperLine) (x : Str) : Nat := paperSum p (fun b => decide (0 < b.borda (paperCands p).length x))

/-- every ballot names every candidate -/
def PaperComplete (p : List PaperLine) : Prop := ∀ v ∈ paperVotes p, ∀ x ∈ paperCands p, x ∈ v.2.items.map Item.tok

end Verif.Spec
