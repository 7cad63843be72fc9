/-
C126: candidates who withdraw.
-/
import Verif.Spec.Irv
import Verif.Spec.Tally
import Verif.Spec.Paper
import Mathlib.Data.List.Forall2

namespace Verif.Spec

/-- The ballot lists one of the candidates `K`. -/
def listsOneOf (K : List Str) (v : Voteline) : Bool := K.any (fun c => decide (c ∈ Dict.keys v.prefs))

/-- The two ballots say the same about the candidates `K`: the same number of voters, the same of them listed, the same preferences among them. -/
def SameAmong (K : List Str) (v v' : Voteline) : Prop :=
  v'.qty = v.qty ∧ (∀ x ∈ K, x ∈ Dict.keys v'.prefs ↔ x ∈ Dict.keys v.prefs) ∧ ∀ x ∈ K, ∀ y ∈ K, prefers v' x y = prefers v x y

/-- `m'` is the election `m` after all candidates except `K` have withdrawn.  Ballots that list nobody of `K` may have been dropped, and ballots may
come in another order. -/
structure Withdrawal (K : List Str) (m m' : Jabmod) : Prop where
  cands : ∀ c : Str, c ∈ Dict.keys m'.candidates ↔ c ∈ Dict.keys m.candidates ∧ c ∈ K
  ballots : ∃ l, l.Perm (m'.votelines.filter (listsOneOf K)) ∧ List.Forall₂ (SameAmong K) (m.votelines.filter (listsOneOf K)) l

/-- the ballot after all candidates except `K` have been crossed off: tiers without candidates disappear; a single candidate left of a list of scores is
written as a ranking of one -/
def crossOff (K : List Str) : Ballot → Ballot
  | .ranked tiers => .ranked ((tiers.map (fun t => t.filter (fun it => decide (it.tok ∈ K)))).filter (fun t => decide (t ≠ [])))
  | .scored items =>
    if 2 ≤ (items.filter (fun it => decide (it.tok ∈ K))).length then .scored (items.filter (fun it => decide (it.tok ∈ K)))
    else .ranked ((items.filter (fun it => decide (it.tok ∈ K))).map (fun it => [it]))

/-- the candidates of `K` on the ballot -/
def namesOneOf (K : List Str) (b : Ballot) : Bool := b.items.any (fun it => decide (it.tok ∈ K))

/-- the paper after all candidates except `K` have been crossed off; ballots that name nobody else are thrown away -/
def crossedPaper (K : List Str) (p : List PaperLine) : List PaperLine :=
  p.filterMap (fun l => match l with
    | .ballots n b com => if namesOneOf K b then some (.ballots n (crossOff K b) com) else none
    | .cand tok name => if tok ∈ K then some (.cand tok name) else none
    | .note t => some (.note t))

end Verif.Spec
