/-
Specification vocabulary for writing .abif text: what can be printed and what must come back.
-/
import Verif.Spec.Prefstr
import Verif.Spec.AbifFile

namespace Verif.Spec

/-- A candidate token that .abif text can carry: not empty, without `]`, `#` and line breaks, and whose
parts between `[ > = ,` are not empty, have no surrounding blanks and do not start with a double quote. -/
def Printable (t : Str) : Prop :=
  t ≠ [] ∧ ']' ∉ t ∧ '#' ∉ t ∧ (∀ c ∈ t, isLineBreak c = false) ∧ ∀ part ∈ splitKeep isSepChar t, CleanToken part

section
variable [Uni]

/-- A rating that .abif text can carry: none, or a number that is not negative (an `int` or its digits). -/
def PlainRating : Option RVal → Prop
  | none => True
  | some .null => True
  | some (.int i) => 0 ≤ i
  | some (.str s) => s ≠ [] ∧ ∀ c ∈ s, isDigit c = true

/-- The rating as a number; none is 0. -/
def ratingNumber : Option RVal → Int
  | none => 0
  | some .null => 0
  | some (.int i) => i
  | some (.str s) => digitsVal s

end

/-- the entry has a rating -/
def Rated (p : Pref) : Prop := p.rating ≠ none ∧ p.rating ≠ some .null

/-- Two preference maps say the same: same candidates, same weak order, same rating numbers. -/
structure SameBallot [Uni] (p q : Dict Str Pref) : Prop where
  cands : (Dict.keys p).Perm (Dict.keys q)
  order : ∀ (a b : Str) (ra rb sa sb : Int),
    (Dict.get? p a).bind Pref.rank = some ra → (Dict.get? p b).bind Pref.rank = some rb →
    (Dict.get? q a).bind Pref.rank = some sa → (Dict.get? q b).bind Pref.rank = some sb →
    (ra < rb ↔ sa < sb)
  ranked : ∀ (a : Str), ((Dict.get? p a).bind Pref.rank).isSome = ((Dict.get? q a).bind Pref.rank).isSome
  ratings : ∀ (a : Str) (e f : Pref), Dict.get? p a = some e → Dict.get? q a = some f →
    ratingNumber e.rating = ratingNumber f.rating

/-- A ballot that .abif text can carry: a quantity that is not negative, each candidate once, printable
tokens, every candidate ranked, printable ratings. -/
structure Exportable [Uni] (vl : Voteline) : Prop where
  qty : 0 ≤ vl.qty
  wf : Dict.WF vl.prefs
  tokens : ∀ (k : Str), k ∈ Dict.keys vl.prefs → Printable k
  ranked : ∀ (e : Str × Pref), e ∈ vl.prefs → ∃ (r : Int), e.2.rank = some r
  ratings : ∀ (e : Str × Pref), e ∈ vl.prefs → PlainRating e.2.rating

/-- When every candidate on the ballot is rated, the ranks are the ranks by rating. -/
def RanksFollowRatings [Uni] (prefs : Dict Str Pref) : Prop :=
  (∀ (e : Str × Pref), e ∈ prefs → Rated e.2) →
  ∀ (a b : Str × Pref), a ∈ prefs → b ∈ prefs → ∀ (ra rb : Int), a.2.rank = some ra → b.2.rank = some rb →
    (ra < rb ↔ ratingNumber b.2.rating < ratingNumber a.2.rating)

/-- The order in which a ballot is printed: by rating when every candidate on it is rated, by rank otherwise. -/
def PrintedBefore [Uni] (prefs : Dict Str Pref) (f g : Pref) : Prop :=
  ((∀ (e : Str × Pref), e ∈ prefs → Rated e.2) ∧ ratingNumber g.rating < ratingNumber f.rating) ∨
  ((¬ ∀ (e : Str × Pref), e ∈ prefs → Rated e.2) ∧ ∃ (r s : Int), f.rank = some r ∧ g.rank = some s ∧ r < s)

/-- `p` is the ballot `q` ranked in the order in which it is printed: same candidates, same rating numbers,
and `a` is ranked above `b` in `p` exactly when `a` is printed before `b`. -/
structure Reranked [Uni] (p q : Dict Str Pref) : Prop where
  cands : (Dict.keys p).Perm (Dict.keys q)
  order : ∀ (a b : Str) (f g : Pref) (ra rb : Int), Dict.get? q a = some f → Dict.get? q b = some g →
    (Dict.get? p a).bind Pref.rank = some ra → (Dict.get? p b).bind Pref.rank = some rb →
    (ra < rb ↔ PrintedBefore q f g)
  ranked : ∀ (a : Str), ((Dict.get? p a).bind Pref.rank).isSome = ((Dict.get? q a).bind Pref.rank).isSome
  ratings : ∀ (a : Str) (e f : Pref), Dict.get? p a = some e → Dict.get? q a = some f →
    ratingNumber e.rating = ratingNumber f.rating

end Verif.Spec
