/-
Specification vocabulary for score tallies.
-/
import Verif.Model.Tally
import Verif.Spec.Tally
import Verif.Spec.Abif

namespace Verif.Spec
variable [Uni]

/-- The rating a voteline gives a candidate, as a number: 0 when the candidate or the rating is missing. -/
def ratingOf (vl : Voteline) (c : Str) : Int :=
  match vl.prefs.get? c with
  | some p => (match ratingInt p.rating with | .ok i => i | .error _ => 0)
  | none => 0

/-- What the score tallies need: ballots are dicts, name only candidates of the table, and carry ratings
that are integers (or digit strings, or absent). -/
structure Scorable (m : Jabmod) : Prop where
  cands : m.candidates.keys.Nodup
  dicts : ∀ vl ∈ m.votelines, vl.prefs.keys.Nodup
  known : ∀ vl ∈ m.votelines, ∀ c ∈ vl.prefs.keys, c ∈ m.candidates.keys
  ratings : ∀ vl ∈ m.votelines, ∀ c p, vl.prefs.get? c = some p → ∃ i, ratingInt p.rating = .ok i

/-- A candidate's score: quantity times rating, summed over the votelines. -/
def scoreOf (m : Jabmod) (c : Str) : Int := (m.votelines.map (fun vl => vl.qty * ratingOf vl c)).sum

/-- The number of voters rating a candidate above zero. -/
def ratersOf (m : Jabmod) (c : Str) : Int := qtySum (fun vl => decide (0 < ratingOf vl c)) m.votelines

/-- One plus the number of distinct numbers in the list that are larger. -/
def denseRank (l : List Int) (s : Int) : Int := 1 + ((firsts (l.filter (fun y => decide (s < y)))).length : Int)

end Verif.Spec
