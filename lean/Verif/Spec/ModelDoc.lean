/-
What a jabmod document (the JSON form of an election, `abiftool -f jabmod`) says, member by member.
-/
import Verif.Model.Jabmod
import Verif.Spec.FetchSpec

namespace Verif.Spec

/-- what an optional member holds, if there is one -/
def Holds {α : Type} (R : Json → α → Prop) : Option Json → Option α → Prop
  | none, none => True
  | some j, some a => R j a
  | _, _ => False

/-- a whole number -/
def IsWhole (j : Json) (i : Int) : Prop := j = .int i

/-- a text -/
def IsText (j : Json) (s : Str) : Prop := j = .str s

/-- a rating: a whole number, a text or `null` -/
inductive IsRating : Json → RVal → Prop
  | whole (i : Int) : IsRating (.int i) (.int i)
  | text (s : Str) : IsRating (.str s) (.str s)
  | nothing : IsRating .null .null

/-- a candidate's name: a text, or `null` for none -/
inductive IsName : Json → Option Str → Prop
  | text (s : Str) : IsName (.str s) (some s)
  | nothing : IsName .null none

/-- what a ballot says about one candidate -/
structure DescribesPref (d : Json) (p : Pref) : Prop where
  object : ∃ l, d = .obj l
  rating : Holds IsRating (member c!"rating" d) p.rating
  rank : Holds IsWhole (member c!"rank" d) p.rank
  nextdelim : Holds IsText (member c!"nextdelim" d) p.nextdelim

/-- the members of an object, one by one: the same keys, in the same order -/
def Members {α : Type} (R : Json → α → Prop) (d : Json) (l : List (Str × α)) : Prop :=
  ∃ ms, d = .obj ms ∧ Each (fun (x : Str × Json) (y : Str × α) => x.1 = y.1 ∧ R x.2 y.2) ms l

/-- one bundle of equal ballots.  The order of members and further members do not matter; a `comment` may be `null`. -/
structure DescribesLine (d : Json) (vl : Voteline) : Prop where
  object : ∃ l, d = .obj l
  qty : member c!"qty" d = some (.int vl.qty)
  prefs : ∃ ps, member c!"prefs" d = some ps ∧ Members DescribesPref ps vl.prefs
  comment : MaySayText d c!"comment" vl.comment
  prefstr : SaysText d c!"prefstr" vl.prefstr
  voterid : SaysText d c!"voterid" vl.voterid
  nameq : SaysText d c!"nameq" vl.nameq

/-- the election.  The order of members and further members do not matter. -/
structure DescribesModel (d : Json) (m : Jabmod) : Prop where
  metadata : member c!"metadata" d = some (.obj m.metadata)
  candidates : ∃ cs, member c!"candidates" d = some cs ∧ Members IsName cs m.candidates
  votelines : ∃ vs, member c!"votelines" d = some (.arr vs) ∧ Each DescribesLine vs m.votelines

end Verif.Spec
