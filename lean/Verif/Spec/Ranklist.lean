/-
Specification vocabulary for ranked lists: what it means that a list orders a ballot's candidates.
-/
import Verif.Spec.Tally

namespace Verif.Spec

/-- `l` lists every candidate of the ballot once. -/
def ListsAll (vl : Voteline) (l : List Str) : Prop := l.Perm vl.prefs.keys

/-- Nobody comes before a candidate ranked better. -/
def BestFirst (vl : Voteline) (l : List Str) : Prop := l.Pairwise (fun a b => prefers vl b a = false)

/-- Candidates sharing a rank keep the order they have on the ballot. -/
def TiesInOrder (vl : Voteline) (l : List Str) : Prop :=
  ∀ r : Int, l.filter (fun c => decide (rankOf vl c = some r)) =
    vl.prefs.keys.filter (fun c => decide (rankOf vl c = some r))

/-- The rating value the ballot gives a candidate. -/
def rateOf (vl : Voteline) (c : Str) : Option RVal := (vl.prefs.get? c).bind Pref.rating

/-- Nobody comes before a candidate with a higher integer rating. -/
def HighestFirst (vl : Voteline) (l : List Str) : Prop :=
  l.Pairwise (fun a b => ∀ i j : Int, rateOf vl a = some (.int i) → rateOf vl b = some (.int j) → j ≤ i)

/-- Candidates sharing an integer rating keep the order they have on the ballot. -/
def RatingTiesInOrder (vl : Voteline) (l : List Str) : Prop :=
  ∀ i : Int, l.filter (fun c => decide (rateOf vl c = some (.int i))) =
    vl.prefs.keys.filter (fun c => decide (rateOf vl c = some (.int i)))

/-- Nobody comes before a candidate whose rating text sorts after its own (text order, not number order). -/
def TextHighestFirst (vl : Voteline) (l : List Str) : Prop :=
  l.Pairwise (fun a b => ∀ s t : Str, rateOf vl a = some (.str s) → rateOf vl b = some (.str t) → strLe t s = true)

/-- Candidates sharing a rating text keep the order they have on the ballot. -/
def TextTiesInOrder (vl : Voteline) (l : List Str) : Prop :=
  ∀ s : Str, l.filter (fun c => decide (rateOf vl c = some (.str s))) =
    vl.prefs.keys.filter (fun c => decide (rateOf vl c = some (.str s)))

/-- A rank that counts as one: present and not 0. -/
def HasRank (vl : Voteline) (c : Str) : Prop := ∃ r : Int, rankOf vl c = some r ∧ r ≠ 0

/-- A rating that counts as one: present, not `None`, not 0, not the empty text. -/
def HasRating (vl : Voteline) (c : Str) : Prop :=
  ∃ v : RVal, rateOf vl c = some v ∧ v ≠ .null ∧ v ≠ .int 0 ∧ v ≠ .str []

end Verif.Spec
