/-
Specification vocabulary for two counts of an election that differ in some ballots.
-/
import Verif.Spec.Paper

namespace Verif.Spec
variable [Uni]

/-- the ballots of a paper, one by one -/
def castBallots (p : List PaperLine) : List Ballot := (paperVotes p).flatMap (fun v => List.replicate v.1 v.2)

/-- The two papers have the same candidates, and the same ballots (in any order, on any lines) but for at most `k` of each: `old` are the
ballots that only the first has, `new` those that only the second has. -/
def DifferBy (k : Nat) (p q : List PaperLine) : Prop :=
  (∀ x, x ∈ paperCands p ↔ x ∈ paperCands q) ∧
  ∃ common old new, (castBallots p).Perm (common ++ old) ∧ (castBallots q).Perm (common ++ new) ∧ old.length ≤ k ∧ new.length ≤ k

/-- no ballot gives anybody less than no points or more than `R` -/
def PointsWithin (R : Nat) (p : List PaperLine) : Prop := ∀ b ∈ castBallots p, ∀ x, 0 ≤ b.points x ∧ b.points x ≤ R

/-- The instant runoff of the paper comes to `w` from the candidates `C` with more than `2 * k` ballots to spare in every round: somebody has that
many fewer votes than anybody else and is eliminated, until `w` has more than half of the votes by that many. -/
inductive Decisive (p : List PaperLine) (k : Nat) : List Str → Str → Prop
  | majority (C : List Str) (w : Str) (hw : w ∈ C) (h : (C.map (paperTop p C)).sum + 2 * k < 2 * paperTop p C w) : Decisive p k C w
  | drop (C : List Str) (e w : Str) (he : e ∈ C) (h : ∀ c ∈ C, c ≠ e → paperTop p C e + 2 * k < paperTop p C c)
      (rest : Decisive p k (C.erase e) w) : Decisive p k C w

end Verif.Spec
