/-
Approval ballots on paper: a ballot only lists the candidates its voters approve of, all on a par.
Vocabulary: `Verif.Spec.Paper`.
-/
import Verif.Spec.Paper

namespace Verif.Spec
variable [Uni]

/-- The candidates on the ballot are on a par: they stand on one tier, or there is a list of candidates with points; and all have the
same number of points `k` (0 if no points are written). -/
def Ballot.Approval (k : Int) (b : Ballot) : Prop :=
  (∃ its, b = .ranked [its] ∨ b = .scored its) ∧ ∀ it ∈ b.items, it.number = k

/-- all ballots are approval ballots with the same number of points for the approved candidates -/
def PaperApproval (k : Int) (p : List PaperLine) : Prop := ∀ v ∈ paperVotes p, v.2.Approval k

/-- how many ballots list the candidate -/
def paperApprovals (p : List PaperLine) (x : Str) : Nat := paperSum p (fun b => decide (x ∈ b.items.map Item.tok))

end Verif.Spec
